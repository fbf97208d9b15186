import Verif.Model.XsltOutput
import Verif.Model.DomNames
import Verif.Model.XTree
set_option autoImplicit false
/-!
# A transformation into a DOM: `DOMSink`, include/XSLT/impl/xslt_sink.hpp lines 350-498

The sink builds a document fragment by calls on the DOM.  What it is told comes from `Output`, property C55.

Simplification: the tree under construction is held as a path of open elements with the children they have
so far, in place of the nodes reached by pointers: `current_` is the innermost open element, or the fragment
when none is open.  The document the nodes belong to, `document_`, is not held: nothing is in it.
-/
namespace Verif.XsltDomSink
open Verif.Xslt (Str QN OAttr Event)
open Verif.XTree (Tree Data Kind)

/-- What a call comes to: it returns, it throws a DOMException, or it has no defined behaviour. -/
inductive Outcome (α : Type) where
  | done (a : α)
  | throws
  | undefined
deriving DecidableEq, Repr

/-- What the characters of a string are to the DOM: `XML::is_name_char(*i)` and `XML::is_char(*i)`,
NodeImpl.hpp lines 208-229. -/
structure Chars where
  name : Char → Bool
  char : Char → Bool

/-- Wide strings. -/
def wide : Chars := ⟨DomNames.wideNameChar, fun c => XmlChars.isChar c.toNat⟩

/-- Strings of bytes: a `char` is signed, and extended to a `wchar_t`. -/
def bytes : Chars :=
  ⟨DomNames.byteNameChar, fun c => XmlChars.isChar (if c.toNat < 128 then (c.toNat : Int) else (c.toNat : Int) - 256)⟩

/-- An open element with its attributes and the children it has. -/
structure Frame where
  data : Data
  attrs : List Tree
  kids : List Tree

/-- `documentFrag_` with its children, and the way to `current_`, lines 490-492: innermost element first,
`none` when `current_` is null; `indent_` and `out_again_`, lines 494-495. -/
structure Sink where
  frag : Option (List Tree) := none
  path : Option (List Frame) := none
  indent : Int := -1
  outAgain : Bool := false

/-- `do_start_document`, lines 372-378; `indent` says whether the setting is `yes`. -/
def startDocument (indent : Bool) (k : Sink) : Sink := if indent then { k with indent := 0 } else k

/-- `current()`, lines 446-454: a null `current_` becomes a new fragment. -/
def current (k : Sink) : Sink :=
  match k.path with
  | some _ => k
  | none => { k with frag := some [], path := some [] }

/-- The children of `current_`. -/
def kids (k : Sink) : List Tree :=
  match k.path with
  | some (f :: _) => f.kids
  | _ => k.frag.getD []

/-- `current_` with other children. -/
def setKids (k : Sink) (ts : List Tree) : Sink :=
  match k.path with
  | some (f :: fs) => { k with path := some ({ f with kids := ts } :: fs) }
  | _ => { k with frag := some ts }

/-- `current().appendChild(n)`. -/
def append (k : Sink) (t : Tree) : Sink := setKids (current k) (kids (current k) ++ [t])

/-- `createTextNode`, DocumentImpl.hpp lines 164-169. -/
def textNode (s : Str) : Tree := .node { kind := .text, name := "#text".toList, value := s } [] []

/-- `createCDATASection`, DocumentImpl.hpp lines 178-183. -/
def cdataNode (s : Str) : Tree := .node { kind := .cdata, name := "#cdata-section".toList, value := s } [] []

/-- `createComment`, DocumentImpl.hpp lines 171-176. -/
def commentNode (s : Str) : Tree := .node { kind := .comment, name := "#comment".toList, value := s } [] []

/-- `do_characters`, lines 384-391. -/
def characters (s : Str) (k : Sink) : Sink :=
  let k := current k
  match (kids k).getLast? with
  | some (.node d as ts) =>
    if d.kind = .text then setKids k ((kids k).dropLast ++ [.node { d with value := d.value ++ s } as ts])
    else setKids k (kids k ++ [textNode s])
  | none => setKids k (kids k ++ [textNode s])

/-- `do_end_CDATA`, lines 397-402.  With no last child `getNodeType` is called on a null node. -/
def endCDATA (k : Sink) : Outcome Sink :=
  let k := current k
  match (kids k).getLast? with
  | none => .undefined
  | some (.node d _ _) =>
    if d.kind = .text then .done (setKids k ((kids k).dropLast ++ [cdataNode d.value])) else .done k

/-- `do_comment`, lines 404-407. -/
def comment (s : Str) (k : Sink) : Sink := append k (commentNode s)

/-- `do_processing_instruction`, lines 409-413, with `createProcessingInstruction`, DocumentImpl.hpp lines
185-190. -/
def processingInstruction (C : Chars) (t s : Str) (k : Sink) : Outcome Sink :=
  if !DomNames.checkName C.name t then .throws
  else if !s.all C.char then .throws
  else .done (append k (.node { kind := .pi, name := t, value := s } [] []))

/-- `indent()`, lines 456-473. -/
def indent (k : Sink) : Sink :=
  if k.indent = -1 then k
  else
    let k := if k.indent ≠ 0 then characters ('\r' :: List.replicate k.indent.toNat ' ') k else k
    { k with indent := k.indent + 2, outAgain := false }

/-- `outdent()`, lines 475-485. -/
def outdent (k : Sink) : Sink :=
  if k.indent = -1 then k
  else
    let k := if k.outAgain then characters ['\n'] k else k
    { k with indent := k.indent - 2, outAgain := true }

/-- A qualified name as text. -/
def qText (q : QN) : Str := if q.1 = [] then q.2 else q.1 ++ ':' :: q.2

/-- What a node says about a name the DOM accepted. -/
def named (kind : Kind) (n : DomNames.NsName) (v : Str) : Data :=
  { kind := kind, name := n.name, pfx := n.prefix', loc := n.localName, uri := n.uri, value := v }

/-- `setNamedItemNS` of the attributes of an element, NamedNodeMapImpl.hpp lines 137-142 and 221-224: in the
place of the one with the same namespace and local name, or else at the end. -/
def putNode (a : Tree) : List Tree → List Tree
  | [] => [a]
  | b :: bs => if b.data.uri = a.data.uri ∧ b.data.loc = a.data.loc then a :: bs else b :: putNode a bs

/-- `setAttributeNS`, ElementImpl.hpp lines 92-96 and AttrMap.hpp lines 107-116. -/
def setAttribute (C : Chars) (a : OAttr) (as : List Tree) : Outcome (List Tree) :=
  if !DomNames.checkName C.name (qText a.qName) then .throws
  else match DomNames.attrNS a.uri (qText a.qName) with
    | .error _ => .throws
    | .ok n => .done (putNode (.node (named .attribute n a.value) [] [textNode a.value]) as)

/-- The loop over the attributes, lines 428-429. -/
def setAttributes (C : Chars) : List OAttr → List Tree → Outcome (List Tree)
  | [], as => .done as
  | a :: more, as =>
    match setAttribute C a as with
    | .done as' => setAttributes C more as'
    | .throws => .throws
    | .undefined => .undefined

/-- `do_start_element`, lines 419-432. -/
def startElement (C : Chars) (q : QN) (u : Str) (atts : List OAttr) (k : Sink) : Outcome Sink :=
  let k := indent k
  match DomNames.createElementNS C.name u (qText q) with
  | .error _ => .throws
  | .ok n =>
    let k := current k
    match setAttributes C atts [] with
    | .done as => .done { k with path := some (⟨named .element n [], as, []⟩ :: k.path.getD []) }
    | .throws => .throws
    | .undefined => .undefined

/-- `do_end_element`, lines 434-439: `getParentNode` on a null `current_` has no defined behaviour. -/
def endElement (k : Sink) : Outcome Sink :=
  let k := outdent k
  match k.path with
  | none => .undefined
  | some [] => .done { k with path := none }
  | some (f :: fs) => .done (append { k with path := some fs } (.node f.data f.attrs f.kids))

/-- One call on the sink.  `do_start_CDATA`, lines 393-395, does nothing. -/
def step (C : Chars) (k : Sink) : Event → Outcome Sink
  | .startElement q u atts => startElement C q u atts k
  | .endElement _ _ => endElement k
  | .characters s => .done (characters s k)
  | .startCDATA => .done k
  | .endCDATA => endCDATA k
  | .comment s => .done (comment s k)
  | .pi t s => processingInstruction C t s k

/-- A sequence of calls. -/
def run (C : Chars) : Sink → List Event → Outcome Sink
  | k, [] => .done k
  | k, e :: es =>
    match step C k e with
    | .done k' => run C k' es
    | .throws => .throws
    | .undefined => .undefined

/-- `node()`, line 368: the fragment, or a null node. -/
def node (k : Sink) : Option Tree :=
  k.frag.map fun ts => .node { kind := .fragment, name := "#document-fragment".toList } [] ts

/-- A sequence of instructions run into a new sink: `start_document`, the instructions,
`end_document`, and then `node()`.  `want_namespace_declarations`, line 417, is false. -/
def transform (C : Chars) (cdata : List (Str × Str)) (indented : Bool) (is : Verif.Xslt.Instrs) :
    Outcome (Option Tree) :=
  match run C (startDocument indented {})
      (Verif.Xslt.execs { cdata := cdata, wantDecs := false } is).out with
  | .done k => .done (node k)
  | .throws => .throws
  | .undefined => .undefined

end Verif.XsltDomSink
