import Verif.Model.Expat
import Verif.Spec.XmlChars
set_option autoImplicit false
/-!
# Specification: the events of a document with namespaces

A document is given by its elements with their attributes as they are written; `itemCallbacks` are the callbacks a
reader without namespaces makes for it, `itemEvents` the events that SAX asks for.
-/
namespace Verif.Expat
open Verif.Sax (Str)
open Verif.SaxFilter (Ev)

inductive Item where
  | text (s : Str)
  | cdata (ps : List Str)
  | comment (s : Str)
  | pi (target data : Str)
  | skipped (name : Str)
  | element (qName : Str) (atts : List (Str × Str)) (kids : List Item)

mutual

def itemCallbacks : Item → List Callback
  | .text s => [.characters s]
  | .cdata ps => .startCdata :: ps.map .characters ++ [.endCdata]
  | .comment s => [.comment s]
  | .pi t d => [.processingInstruction t d]
  | .skipped n => [.skippedEntity n]
  | .element q as ks => .start q as :: itemsCallbacks ks ++ [.stop q]

def itemsCallbacks : List Item → List Callback
  | [] => []
  | i :: is => itemCallbacks i ++ itemsCallbacks is

end

/-! ## namespaces -/

/-- The prefix an attribute declares, if it is a declaration: `xmlns` declares the empty one. -/
def declares (q : Str) : Option Str :=
  if q = "xmlns".toList then some []
  else if "xmlns:".toList.isPrefixOf q then some (q.drop 6)
  else none

/-- The declarations of an element: prefixes and namespaces. -/
def declared (as : List (Str × Str)) : List (Str × Str) := as.filterMap fun a => (declares a.1).map fun p => (p, a.2)

/-- The namespaces in scope, the innermost first. -/
abbrev Scope := List (Str × Str)

def namespaceOf (sc : Scope) (p : Str) : Option Str := (sc.find? fun e => e.1 == p).map (·.2)

def initial : Scope := [("xml".toList, "http://www.w3.org/XML/1998/namespace".toList)]

/-- The prefix and the local part of a name with a colon. -/
def parts (q : Str) : Option (Str × Str) :=
  if ':' ∈ q then some (q.takeWhile (· ≠ ':'), (q.dropWhile (· ≠ ':')).drop 1) else none

/-- The namespace and the local name of an element or attribute: the default namespace is not for attributes. -/
def expand (sc : Scope) (isAttribute : Bool) (q : Str) : Str × Str :=
  match parts q with
  | none => (if isAttribute then [] else (namespaceOf sc []).getD [], q)
  | some (p, l) => ((namespaceOf sc p).getD [], l)

/-! ## the events -/

/-- The attributes: the declarations, without namespace and local name and only if the feature namespace-prefixes is
set, and then the others. -/
def attributesOf (prefixes : Bool) (sc : Scope) (as : List (Str × Str)) : List Sax.Attr :=
  (if prefixes then (as.filter fun a => (declares a.1).isSome).map fun a => ⟨[], [], a.1, "CDATA".toList, a.2⟩ else []) ++
    (as.filter fun a => (declares a.1).isNone).map fun a =>
      ⟨(expand sc true a.1).1, (expand sc true a.1).2, a.1, "CDATA".toList, a.2⟩

mutual

/-- The events of an item.  `ends` gives, from the prefixes an element declares and those for which the element around
it reported the end, the prefixes for which it reports it. -/
def itemEvents (ends : List Str → List Str → List Str) (prefixes : Bool) (sc : Scope) (outer : List Str) : Item → List Ev
  | .text s => [.characters s]
  | .cdata ps => .startCDATA :: ps.map .characters ++ [.endCDATA]
  | .comment s => [.comment s]
  | .pi t d => [.processingInstruction t d]
  | .skipped n => [.skippedEntity n]
  | .element q as ks =>
    let sc' := declared as ++ sc
    let e := expand sc' false q
    let ps := ends ((declared as).map (·.1)) outer
    (declared as).map (fun d => .startPrefixMapping d.1 d.2) ++
      .startElement e.1 e.2 q (attributesOf prefixes sc' as) ::
      itemsEvents ends prefixes sc' ps ks ++
      .endElement e.1 e.2 q :: ps.map .endPrefixMapping

def itemsEvents (ends : List Str → List Str → List Str) (prefixes : Bool) (sc : Scope) (outer : List Str) : List Item → List Ev
  | [] => []
  | i :: is => itemEvents ends prefixes sc outer i ++ itemsEvents ends prefixes sc outer is

end

/-- As SAX asks: an element reports the end of the mappings it declares, in any order. -/
def own (order : List Str → List Str) (declared _ : List Str) : List Str := order declared

/-- As the code does it: an element without declarations reports again what the element around it will report. -/
def ownOrOuter (order : List Str → List Str) (declared outer : List Str) : List Str :=
  if declared = [] then outer else order declared

def docEvents (ends : List Str → List Str → List Str) (prefixes : Bool) (is : List Item) : List Ev :=
  .startDocument :: itemsEvents ends prefixes initial ["xml".toList] is ++ [.endDocument]

/-! ## which documents -/

/-- A name with at most one colon, and not at an end. -/
def Name (q : Str) : Prop := Verif.Spec.Xml.QName (q.map Char.toNat)

/-- A prefix that is used is declared, with a namespace. -/
def PrefixOk (sc : Scope) (q : Str) : Prop := ∀ p l, parts q = some (p, l) → (namespaceOf sc p).getD [] ≠ []

mutual

/-- What namespaces ask of a document.  Also, no attribute's name just begins with `xmlns`, and the prefix `xml` is
not declared. -/
def ItemOk (sc : Scope) : Item → Prop
  | .element q as ks =>
    Name q ∧ (∀ a ∈ as, Name a.1) ∧
      (∀ a ∈ as, "xmlns".toList.isPrefixOf a.1 = true → (declares a.1).isSome) ∧
      (∀ d ∈ declared as, d.1 ≠ "xml".toList ∧ d.1 ≠ "xmlns".toList) ∧
      PrefixOk (declared as ++ sc) q ∧ (∀ a ∈ as, declares a.1 = none → PrefixOk (declared as ++ sc) a.1) ∧
      ItemsOk (declared as ++ sc) ks
  | _ => True

def ItemsOk (sc : Scope) : List Item → Prop
  | [] => True
  | i :: is => ItemOk sc i ∧ ItemsOk sc is

end

/-- Is this no end of a mapping? -/
def notEnd : Ev → Bool
  | .endPrefixMapping _ => false
  | _ => true

mutual

/-- The events of an item when namespaces are not wanted: names and attributes as they are written. -/
def itemRaw : Item → List Ev
  | .text s => [.characters s]
  | .cdata ps => .startCDATA :: ps.map .characters ++ [.endCDATA]
  | .comment s => [.comment s]
  | .pi t d => [.processingInstruction t d]
  | .skipped n => [.skippedEntity n]
  | .element q as ks =>
    .startElement [] [] q (as.map fun a => ⟨[], [], a.1, "CDATA".toList, a.2⟩) :: itemsRaw ks ++ [.endElement [] [] q]

def itemsRaw : List Item → List Ev
  | [] => []
  | i :: is => itemRaw i ++ itemsRaw is

end

mutual

/-- Every element has a declaration. -/
def ItemDeclares : Item → Prop
  | .element _ as ks => declared as ≠ [] ∧ ItemsDeclare ks
  | _ => True

def ItemsDeclare : List Item → Prop
  | [] => True
  | i :: is => ItemDeclares i ∧ ItemsDeclare is

end

end Verif.Expat
