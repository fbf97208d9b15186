import Verif.Model.XPathString
set_option autoImplicit false
/-!
# The result of a transformation: include/XSLT/impl/xslt_output.hpp,
# include/XSLT/impl/xslt_namespace_stack.hpp

and the instructions that call it: xslt_text.hpp, xslt_element.hpp, xslt_inline_element.hpp,
xslt_attribute.hpp, xslt_copy.hpp, xslt_comment.hpp, xslt_processing_instruction.hpp.

Simplification throughout: a qualified name `p:l` is the pair of its prefix and its local name; the
warnings written to the warning sink are left out.
-/
namespace Verif.Xslt
open Verif.XPath (find)

abbrev Str := List Char

def strXmlns : Str := ['x', 'm', 'l', 'n', 's']
def strXml : Str := ['x', 'm', 'l']
def xmlnsUri : Str := "http://www.w3.org/2000/xmlns/".toList

/-! ## Escaping -/

/-- The loop of `escape`, xslt_output.hpp lines 271-279, at an occurrence of `t` at `naughty`; the search
goes on at the same place. The first argument bounds the number of rounds (`none`: bound reached). -/
def escapeLoop (t r : Str) : Nat → Str → Nat → Option Str
  | 0, _, _ => none
  | n + 1, str, naughty =>
    let newstr := str.take naughty ++ r ++ str.drop (naughty + t.length)
    match find (newstr.drop naughty) t with
    | none => some newstr
    | some k => escapeLoop t r n newstr (naughty + k)

/-- `escape`, xslt_output.hpp lines 269-281. -/
def escape (str t r : Str) : Option Str :=
  match find str t with
  | none => some str
  | some naughty => escapeLoop t r str.length str naughty

/-- The text of a comment, xslt_output.hpp lines 215-217. -/
def commentText (str : Str) : Option Str :=
  (escape str ['-', '-'] ['-', ' ', '-']).map fun comment =>
    if comment.getLast? = some '-' then comment ++ [' '] else comment

/-- The data of a processing instruction, xslt_output.hpp line 239. -/
def piData (str : Str) : Option Str := escape str ['?', '>'] ['?', ' ', '>']

/-! ## The namespace stack -/

/-- `std::map<string, string>`; the order of iteration is not modelled. -/
abbrev Scope := List (Str × Str)

/-- `m[k] = v`. -/
def mapSet (k v : Str) (m : Scope) : Scope := (k, v) :: m.filter (fun e => decide (e.1 ≠ k))

/-- `m.find(k)`. -/
def mapFind (k : Str) : Scope → Option Str
  | [] => none
  | e :: m => if e.1 = k then some e.2 else mapFind k m

/-- `NamespaceStack`, xslt_namespace_stack.hpp lines 87-90: `prefixStack_` and `uriStack_`, which are
pushed and popped together, top first, and the counter of made up prefixes. -/
structure NsStack where
  scopes : List (Scope × Scope)
  autoNs : Nat
deriving DecidableEq, Repr

/-- The constructor, lines 21-26. -/
def nsStackInit : NsStack := ⟨[([], [])], 1⟩

/-- `pushScope`, lines 28-32. -/
def nsPush (n : NsStack) : NsStack := { n with scopes := ([], []) :: n.scopes }

/-- `popScope`, lines 34-38. -/
def nsPop (n : NsStack) : NsStack := { n with scopes := n.scopes.tail }

/-- `findPrefix` with `searchStack`, lines 58-61 and 69-78; the empty string if there is none. -/
def findPrefix (u : Str) : List (Scope × Scope) → Str
  | [] => []
  | s :: rest =>
    match mapFind u s.2 with
    | some p => p
    | none => findPrefix u rest

/-- `autoNamespacePrefix`, lines 80-85: `auto-ns1`, `auto-ns2`, ... The counter does not wrap. -/
def autoPrefix (i : Nat) : Str := ['a', 'u', 't', 'o', '-', 'n', 's'] ++ Nat.toDigits 10 i

/-- Set a binding in the top scope, lines 49-50. -/
def nsBind (p u : Str) (n : NsStack) : NsStack :=
  match n.scopes with
  | [] => n
  | s :: rest => { n with scopes := (mapSet p u s.1, mapSet u p s.2) :: rest }

/-- `declareNamespace`, lines 40-51. -/
def declareNamespace (given u : Str) (attr : Bool) (n : NsStack) : NsStack :=
  if findPrefix u n.scopes ≠ [] then n
  else if (attr && given.isEmpty) || decide (given = strXmlns) then
    nsBind (autoPrefix n.autoNs) u { n with autoNs := n.autoNs + 1 }
  else nsBind given u n

/-! ## The output -/

/-- A qualified name: prefix and local name. -/
abbrev QN := Str × Str

/-- One attribute of the `AttributesImpl` `atts_`. -/
structure OAttr where
  uri : Str
  localName : Str
  qName : QN
  value : Str
deriving DecidableEq, Repr

/-- What reaches the sink: the calls of the virtual `do_...` functions. -/
inductive Event where
  | startElement (q : QN) (uri : Str) (atts : List OAttr)
  | endElement (q : QN) (uri : Str)
  | characters (s : Str)
  | startCDATA
  | endCDATA
  | comment (s : Str)
  | pi (target s : Str)
deriving DecidableEq, Repr

/-- `Output`, xslt_output.hpp lines 378-389, with the events delivered so far. `hung` is set if a loop
of `escape` did not end. -/
structure Out where
  buffering : Nat := 0
  pendingElement : Bool := false
  pendingText : Bool := false
  pendingAttribute : Option Nat := none
  textMode : Bool := false
  cdata : List (Str × Str) := []
  elements : List (QN × Str) := []
  target : Str := []
  atts : List OAttr := []
  buffer : Str := []
  ns : NsStack := nsStackInit
  out : List Event := []
  wantDecs : Bool := true
  hung : Bool := false
deriving DecidableEq, Repr

/-- Deliver an event. -/
def emit (e : Event) (s : Out) : Out := { s with out := s.out ++ [e] }

/-- `isCDATA`, lines 348-354: names are compared by namespace and local name. -/
def isCDATA (s : Out) : Bool :=
  match s.elements with
  | [] => false
  | e :: _ => decide ((e.2, e.1.2) ∈ s.cdata)

/-- The declarations of the top scope as attributes, `addNamespaceDeclarations`, lines 356-370. -/
def nsDeclarations (n : NsStack) : List OAttr :=
  match n.scopes with
  | [] => []
  | s :: _ =>
    (s.1.filter (fun e => decide (e.1 ≠ strXml))).map fun e =>
      ⟨xmlnsUri, e.1, if e.1 = [] then ([], strXmlns) else (strXmlns, e.1), e.2⟩

/-- `flush_element`, lines 329-346. -/
def flushElement (s : Out) : Out :=
  if s.pendingElement = false ∨ s.pendingAttribute ≠ none then s
  else if s.textMode then s
  else
    let atts := if s.wantDecs then s.atts ++ nsDeclarations s.ns else s.atts
    let ns := nsPop s.ns
    let atts := if s.wantDecs then atts ++ nsDeclarations ns else atts
    match s.elements with
    | [] => { s with atts := atts, ns := ns, pendingElement := false }
    | e :: _ =>
      emit (.startElement e.1 e.2 atts) { s with atts := atts, ns := ns, pendingElement := false }

/-- `flush_current`, lines 317-327. -/
def flushCurrent (s : Out) : Out :=
  flushElement
    (if s.pendingText then
      { (if isCDATA s then emit .endCDATA s else s) with pendingText := false }
    else s)

/-- `start_element`, lines 60-80. -/
def startElement (s : Out) (p l u : Str) : Bool × Out :=
  if s.buffering ≠ 0 then (false, s)
  else
    let s := flushCurrent s
    let ns := nsPush s.ns
    let ns := if u ≠ [] then declareNamespace p u false ns else ns
    (true, { s with
      elements := ((findPrefix u ns.scopes, l), u) :: s.elements
      atts := []
      pendingElement := true
      ns := nsPush ns })

/-- `end_element`, lines 88-103. -/
def endElement (s : Out) (l u : Str) : Out :=
  if s.buffering ≠ 0 then { s with buffering := s.buffering - 1 }
  else
    let s := flushCurrent s
    let s :=
      if s.textMode then s
      else { emit (.endElement (findPrefix u s.ns.scopes, l) u) s with elements := s.elements.tail }
    { s with ns := nsPop s.ns }

/-- `addOrReplaceAttribute` of `AttributesImpl` (include/SAX/helpers/AttributesImpl.hpp lines 382-396):
the value of an attribute with that namespace and local name is replaced. -/
def attPut (b : OAttr) : List OAttr → List OAttr
  | [] => [b]
  | a :: l => if a.uri = b.uri ∧ a.localName = b.localName then { a with value := b.value } :: l
              else a :: attPut b l

/-- `getIndex(qName)` of `AttributesImpl`; `none` is -1. -/
def attIndex (q : QN) : List OAttr → Option Nat
  | [] => none
  | a :: l => if a.qName = q then some 0 else (attIndex q l).map (· + 1)

/-- `setValue(index, value)` of `AttributesImpl`. -/
def attSetValue (v : Str) : Nat → List OAttr → List OAttr
  | _, [] => []
  | 0, a :: l => { a with value := v } :: l
  | i + 1, a :: l => a :: attSetValue v i l

/-- `start_attribute`, lines 119-142, with `push_buffering`, lines 283-293. -/
def startAttribute (s : Out) (p l u : Str) : Out :=
  if s.buffering ≠ 0 then { s with buffering := s.buffering + 1 }
  else
    let s := { s with buffering := 1, buffer := [] }
    if s.pendingElement = false then s
    else
      let ns := if u ≠ [] then declareNamespace p u true s.ns else s.ns
      let q := (findPrefix u ns.scopes, l)
      let atts := attPut ⟨u, l, q, []⟩ s.atts
      { s with ns := ns, atts := atts, pendingAttribute := attIndex q atts }

/-- `pop_buffering`, lines 311-315: the new state and whether buffering goes on. -/
def popBuffering (s : Out) : Bool × Out :=
  (decide (s.buffering - 1 ≠ 0), { s with buffering := s.buffering - 1 })

/-- `end_attribute`, lines 144-155. -/
def endAttribute (s : Out) : Out :=
  let (more, s) := popBuffering s
  if more then s
  else
    match s.pendingAttribute with
    | none => s
    | some i => { s with atts := attSetValue s.buffer i s.atts, pendingAttribute := none }

/-- `add_attribute`, lines 157-169, called by `xsl:copy` and `xsl:copy-of` of an attribute. -/
def addAttribute (s : Out) (u l : Str) (q : QN) (v : Str) : Out :=
  if s.pendingElement = false then s else { s with atts := s.atts ++ [⟨u, l, q, v⟩] }

/-- `characters`, lines 171-198. -/
def characters (s : Out) (ch : Str) : Out :=
  if s.buffering ≠ 0 then
    if s.buffering = 1 then { s with buffer := s.buffer ++ ch } else s
  else
    let s := flushElement s
    match s.pendingAttribute with
    | some i =>
      { s with atts := attSetValue (((s.atts[i]?).map OAttr.value).getD [] ++ ch) i s.atts }
    | none =>
      let s :=
        if s.pendingText then s
        else
          let s := { s with pendingText := true }
          if isCDATA s then emit .startCDATA s else s
      emit (.characters ch) s

/-- `start_comment`, lines 200-206. -/
def startComment (s : Out) : Out :=
  if s.buffering ≠ 0 then { s with buffering := s.buffering + 1 }
  else flushCurrent { s with buffering := 1, buffer := [] }

/-- `end_comment`, lines 208-220. -/
def endComment (s : Out) : Out :=
  let (more, s) := popBuffering s
  if more then s
  else if s.textMode then s
  else
    match commentText s.buffer with
    | some c => emit (.comment c) s
    | none => { s with hung := true }

/-- `start_processing_instruction`, lines 222-230. -/
def startPI (s : Out) (target : Str) : Out :=
  if s.buffering ≠ 0 then { s with buffering := s.buffering + 1 }
  else { flushCurrent { s with buffering := 1, buffer := [] } with target := target }

/-- `end_processing_instruction`, lines 232-242. -/
def endPI (s : Out) : Out :=
  let (more, s) := popBuffering s
  if more then s
  else if s.textMode then s
  else
    match piData s.buffer with
    | some d => emit (.pi s.target d) s
    | none => { s with hung := true }

/-! ## Instructions -/

mutual
/-- Instructions that produce output, after evaluation of their attribute value templates. -/
inductive Instr where
  /-- `xsl:text`, `xsl:value-of`, literal text: xslt_text.hpp, xslt_value_of.hpp -/
  | text (s : Str)
  /-- `xsl:element`, literal elements, copied elements: xslt_element.hpp lines 57-62,
  xslt_inline_element.hpp lines 73-81, xslt_copy.hpp lines 45-49 -/
  | element (p l u : Str) (body : Instrs)
  /-- `xsl:attribute` and literal attributes: xslt_attribute.hpp lines 57-60,
  xslt_inline_element.hpp lines 42-44 -/
  | attr (p l u : Str) (body : Instrs)
  /-- a copied attribute: xslt_copy.hpp lines 29-34 -/
  | copyAttribute (u l : Str) (q : QN) (v : Str)
  /-- `xsl:comment`, copied comments: xslt_comment.hpp lines 23-27, xslt_copy.hpp lines 36-38 -/
  | comment (body : Instrs)
  /-- `xsl:processing-instruction` and copies: xslt_processing_instruction.hpp, xslt_copy.hpp lines 52-54 -/
  | pi (target : Str) (body : Instrs)
/-- A sequence of instructions. -/
inductive Instrs where
  | nil
  | cons (i : Instr) (rest : Instrs)
end

mutual
/-- Execute one instruction. -/
def exec (s : Out) : Instr → Out
  | .text t => characters s t
  | .element p l u body =>
    if (startElement s p l u).1 then endElement (execs (startElement s p l u).2 body) l u
    else (startElement s p l u).2
  | .attr p l u body => endAttribute (execs (startAttribute s p l u) body)
  | .copyAttribute u l q v => addAttribute s u l q v
  | .comment body => endComment (execs (startComment s) body)
  | .pi t body => endPI (execs (startPI s t) body)
/-- Execute instructions in order. -/
def execs (s : Out) : Instrs → Out
  | .nil => s
  | .cons i rest => execs (exec s i) rest
end

/-- A transformation that runs the instructions on a fresh output. -/
def transform (cdata : List (Str × Str)) (is : Instrs) : List Event :=
  (execs { cdata := cdata } is).out

end Verif.Xslt
