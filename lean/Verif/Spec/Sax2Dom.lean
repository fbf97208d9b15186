import Verif.Model.Sax2Dom
import Verif.Spec.Clone
set_option autoImplicit false
/-!
# Specification: the events of a document and the tree it should give

A document is given by its content; `docEvents` are the events a SAX reader reports for it, `docTree` is the tree
the DOM should show.
-/
namespace Verif.Sax2Dom
open Verif.Dom (Str Kind)
open Verif.DomNames (NsName plain)
open Verif.Clone (Tree Chars)
open Verif.SaxFilter (Ev)

/-! ## Documents -/

/-- Character data as a reader cuts it up: each piece is reported as characters or as ignorable white space. -/
abbrev Pieces := List (Bool × Str)

def Pieces.string (ps : Pieces) : Str := ps.flatMap (·.2)

/-- An attribute; `short` says that the reader does not report the qualified name. -/
structure Att where
  uri : Str
  prefix' : Str
  localName : Str
  type : Str
  value : Str
  short : Bool

/-- A piece of content. -/
inductive Item where
  | text (ps : Pieces)
  | cdata (ps : Pieces)
  | comment (data : Str)
  | pi (target data : Str)
  /-- a reference to an entity of which the reader reports the text -/
  | ref (name : Str) (ps : Pieces)
  /-- `maps` are the prefixes the element declares -/
  | element (maps : List (Str × Str)) (uri prefix' localName : Str) (atts : List Att) (kids : List Item)

/-- A declaration in the document type: an internal entity, an external entity, or one of another sort. -/
inductive Decl where
  | internal (name value : Str)
  | external (name pub sys : Str)
  | other (c : Nat) (args : List Str)

/-- A document type with the declarations inside and those of the external subset. -/
structure Dtd where
  name : Str
  pub : Str
  sys : Str
  decls : List Decl
  subset : Option (List Decl)

structure Doc where
  before : List Item
  dtd : Option Dtd
  content : List Item

/-! ## The events -/

def qname (p l : Str) : Str := if p = [] then l else p ++ ':' :: l

def pieceEvents (ps : Pieces) : List Ev := ps.map fun p => if p.1 then .characters p.2 else .ignorableWhitespace p.2

def attEvent (a : Att) : Sax.Attr :=
  ⟨a.uri, a.localName, if a.short then [] else qname a.prefix' a.localName, a.type, a.value⟩

mutual

def itemEvents : Item → List Ev
  | .text ps => pieceEvents ps
  | .cdata ps => .startCDATA :: pieceEvents ps ++ [.endCDATA]
  | .comment t => [.comment t]
  | .pi t d => [.processingInstruction t d]
  | .ref n ps => .startEntity n :: pieceEvents ps ++ [.endEntity n]
  | .element maps u p l atts kids =>
    maps.map (fun m => .startPrefixMapping m.1 m.2) ++ .startElement u l (qname p l) (atts.map attEvent) ::
      itemsEvents kids ++ .endElement u l (qname p l) :: maps.map (fun m => .endPrefixMapping m.1)

def itemsEvents : List Item → List Ev
  | [] => []
  | i :: is => itemEvents i ++ itemsEvents is

end

def declEvent : Decl → Ev
  | .internal n v => .dtd cInternal [n, v]
  | .external n p s => .dtd cExternal [n, p, s]
  | .other c args => .dtd c args

def dtdEvents : Option Dtd → List Ev
  | none => []
  | some t =>
    .dtd cStartDTD [t.name, t.pub, t.sys] :: t.decls.map declEvent ++
      (match t.subset with
        | none => []
        | some ds => .startEntity dtdEntity :: ds.map declEvent ++ [.endEntity dtdEntity]) ++ [.dtd cEndDTD []]

def docEvents (d : Doc) : List Ev :=
  .startDocument :: itemsEvents d.before ++ dtdEvents d.dtd ++ itemsEvents d.content ++ [.endDocument]

/-! ## The tree -/

def leaf (k : Kind) (data : Str) : Tree := .node k (plain []) data [] [] []

/-- Character data makes a text, if there is any. -/
def textTree (s : Str) : List Tree := if s = [] then [] else [leaf .text s]

/-- The namespace of an attribute: that of declarations of namespaces need not be reported. -/
def Att.namespace (a : Att) : Str :=
  if a.prefix' = DomNames.xmlns ∨ a.prefix' = [] ∧ a.localName = DomNames.xmlns then DomNames.xmlnsURI else a.uri

def nameOf (u p l : Str) : NsName := ⟨qname p l, !u.isEmpty, u, p, l⟩

def attTree (a : Att) : Tree :=
  .node .attr (nameOf a.namespace a.prefix' a.localName) [] [] [] [leaf .text a.value]

mutual

/-- The nodes for content, after the character data `s`: all character data between two other things makes one
text.  `V` gives the values of the entities. -/
def itemsTrees (V : Str → Str) : Str → List Item → List Tree
  | s, [] => textTree s
  | s, .text ps :: is => itemsTrees V (s ++ ps.string) is
  | s, i :: is => textTree s ++ itemTree V i :: itemsTrees V [] is

def itemTree (V : Str → Str) : Item → Tree
  | .text ps => leaf .text ps.string
  | .cdata ps => leaf .cdata ps.string
  | .comment t => leaf .comment t
  | .pi t d => .node .pi (plain t) d [] [] []
  | .ref n _ => leaf .text (V n)
  | .element _ u p l atts kids => .node .element (nameOf u p l) [] [] (atts.map attTree) (itemsTrees V [] kids)

end

def Dtd.all (t : Dtd) : List Decl := t.decls ++ t.subset.getD []

/-- The internal entities. -/
def internals (ds : List Decl) : List (Str × Str) :=
  ds.filterMap fun
    | .internal n v => some (n, v)
    | _ => none

def entities : Option Dtd → List (Str × Str)
  | none => []
  | some t => internals t.all

def valueIn (l : List (Str × Str)) (n : Str) : Str :=
  match l.find? fun e => e.1 == n with
  | none => []
  | some e => e.2

def Doc.value (d : Doc) : Str → Str := valueIn (entities d.dtd)

def dtdTree : Option Dtd → List Tree
  | none => []
  | some t => [.node .doctype (plain t.name) [] [t.pub, t.sys] [] []]

def docTree (d : Doc) : Tree :=
  .node .document (plain []) [] [] []
    (itemsTrees d.value [] d.before ++ dtdTree d.dtd ++ itemsTrees d.value [] d.content)

/-! ## Which documents -/

/-- A name without colons of characters names may have, with a prefix that has a namespace. -/
def NameOk (C : Chars) (u p l : Str) : Prop :=
  l ≠ [] ∧ p.all C.name = true ∧ l.all C.name = true ∧ ':' ∉ p ∧ ':' ∉ l ∧
    (p ≠ [] → C.name ':' = true) ∧ (p = DomNames.xml → u = DomNames.xmlURI)

def AttOk (C : Chars) (a : Att) : Prop :=
  NameOk C a.uri a.prefix' a.localName ∧ (a.prefix' ≠ [] → a.namespace ≠ []) ∧
    (a.namespace ≠ a.uri → a.uri = []) ∧ (a.short = true → a.prefix' = [])

mutual

/-- What XML and namespaces ask of content; CDATA sections are not empty, and the entities that references are
to are among those of `es`. -/
def ItemOk (C : Chars) (es : List (Str × Str)) : Item → Prop
  | .text _ => True
  | .cdata ps => ps.string ≠ []
  | .comment _ => True
  | .pi t d => t ≠ [] ∧ t.all C.name = true ∧ d.all C.char = true
  | .ref n _ => n ≠ dtdEntity ∧ ∃ v, (n, v) ∈ es
  | .element _ u p l atts kids =>
    NameOk C u p l ∧ (p ≠ [] → u ≠ []) ∧ (∀ a ∈ atts, AttOk C a) ∧
      atts.Pairwise (fun a b => (a.namespace, a.localName) ≠ (b.namespace, b.localName)) ∧ ItemsOk C es kids

def ItemsOk (C : Chars) (es : List (Str × Str)) : List Item → Prop
  | [] => True
  | i :: is => ItemOk C es i ∧ ItemsOk C es is

end

/-- What may be outside the document element. -/
def Item.top : Item → Bool
  | .comment _ | .pi .. | .element .. => true
  | _ => false

def Item.isElement : Item → Bool
  | .element .. => true
  | _ => false

/-- The entities a declaration declares. -/
def declared (ds : List Decl) : List Str :=
  ds.filterMap fun
    | .internal n _ => some n
    | .external n _ _ => some n
    | .other .. => none

def DeclOk : Decl → Prop
  | .internal _ v => '<' ∉ v
  | .external .. => True
  | .other c _ => c ≠ cStartDTD ∧ c ≠ cEndDTD ∧ c ≠ cInternal ∧ c ≠ cExternal

def DtdOk (t : Dtd) : Prop := (∀ d ∈ t.all, DeclOk d) ∧ (declared t.all).Nodup

/-- A document with at most one document element and nothing but comments and processing instructions beside it. -/
def DocOk (C : Chars) (d : Doc) : Prop :=
  ItemsOk C [] d.before ∧ ItemsOk C (entities d.dtd) d.content ∧ (∀ t, d.dtd = some t → DtdOk t) ∧
    (∀ i ∈ d.before ++ d.content, i.top = true) ∧ ((d.before ++ d.content).filter Item.isElement).length ≤ 1

end Verif.Sax2Dom
