import Verif.Model.SaxFilter
set_option autoImplicit false
/-!
# include/SAX/filter/Writer.hpp: writing SAX events as XML

Not modelled: the calls about the document type (`startDTD`, `endDTD`, and those of `DTDHandler` and
`DeclHandler`); overflow of the indentation depth, an `int`; the characters' encoding in the stream.
Handing the events on to the next handler is left out.
-/
namespace Verif.SaxWriter
open Verif.SaxFilter (Ev)
open Verif.Sax (Str Attr)

/-- `lastTag_`, line 167. -/
inductive LastTag where
  | startTag
  | endTag
  | docTag
  deriving DecidableEq, Repr

/-- The data members, lines 157-167 (without `inDTD_`, which stays false). -/
structure W where
  mappings : List Attr
  inStartTag : Bool
  inCDATA : Bool
  internalSubset : Bool
  indent : Nat
  depth : Int
  encoding : Str
  lastTag : LastTag
  deriving DecidableEq, Repr

/-- The constructors, lines 47-99; the default for `indent` is 2. -/
def W.init (indent : Nat) (encoding : Str) : W :=
  { mappings := [], inStartTag := false, inCDATA := false, internalSubset := true, indent := indent,
    depth := 0, encoding := encoding, lastTag := .startTag }

/-- `startElementClose`, lines 292-300. -/
def startElementClose (w : W) : W × Str :=
  if w.inStartTag then ({ w with inStartTag := false }, ['>']) else (w, [])

/-- `doIndent`, lines 393-398. -/
def doIndent (w : W) : Str := List.replicate w.depth.toNat ' '

/-- `!qName.empty() ? qName : localName`. -/
def nameOf (qName localName : Str) : Str := if qName.isEmpty then localName else qName

/-- `writeAttributes`, lines 277-290. -/
def writeAttributes : List Attr → Str
  | [] => []
  | a :: as =>
    ' ' :: nameOf a.qName a.localName ++ '=' :: '"' :: Text.attributeEscape a.value ++ '"' ::
      writeAttributes as

/-- `startElementOpen`, lines 256-275. -/
def startElementOpen (w : W) (localName qName : Str) (atts : List Attr) : W × Str :=
  let lf := if w.lastTag = .startTag ∧ w.indent > 0 then ['\n'] else []
  ({ w with mappings := [], inStartTag := true, depth := w.depth + w.indent, lastTag := .startTag },
   lf ++ doIndent w ++ '<' :: nameOf qName localName ++ writeAttributes w.mappings ++ writeAttributes atts)

/-- `endElement`, lines 311-339. -/
def endElement (w0 : W) (localName qName : Str) : W × Str :=
  let w := { w0 with depth := w0.depth - w0.indent }
  let lf := if w.indent ≠ 0 then ['\n'] else []
  if w.inStartTag then
    ({ w with inStartTag := false, lastTag := .endTag }, '/' :: '>' :: lf)
  else
    let pad := if w.lastTag = .endTag then doIndent w else []
    ({ w with lastTag := .endTag }, pad ++ '<' :: '/' :: nameOf qName localName ++ '>' :: lf)

/-- `isDtd`, lines 400-409. -/
def isDtd (name : Str) : Bool := decide (name = ['[', 'd', 't', 'd', ']'])

def xmlns : Str := ['x', 'm', 'l', 'n', 's']

/-- `startPrefixMapping`, lines 230-248: `addAttribute` appends. -/
def mappingAttr (p u : Str) : Attr :=
  if p.isEmpty then { uri := [], localName := xmlns, qName := xmlns, type := "CDATA".toList, value := u }
  else { uri := "http://www.w3.org/2000/xmlns/".toList, localName := p, qName := xmlns ++ ':' :: p,
         type := "CDATA".toList, value := u }

/-- The XML declaration, lines 174-211. -/
def declaration (encoding : Str) : Str :=
  ['<', '?', 'x', 'm', 'l', ' ', 'v', 'e', 'r', 's', 'i', 'o', 'n', '=', '"', '1', '.', '0', '"'] ++
  (if encoding.isEmpty then [] else
    [' ', 'e', 'n', 'c', 'o', 'd', 'i', 'n', 'g', '=', '"'] ++ encoding ++ ['"']) ++ ['?', '>', '\n']

/-- One event: the state afterwards and what is written. -/
def write (w : W) : Ev → W × Str
  -- lines 170-219
  | .startDocument =>
    let (w1, o) := startElementClose w
    ({ w1 with depth := 0, inCDATA := false, lastTag := .docTag }, o ++ declaration w.encoding)
  -- lines 221-227
  | .endDocument =>
    let (w1, o) := startElementClose w
    ({ w1 with lastTag := .endTag }, o)
  | .startPrefixMapping p u => ({ w with mappings := w.mappings ++ [mappingAttr p u] }, [])
  -- lines 250-254
  | .endPrefixMapping _ => (w, [])
  -- lines 302-309
  | .startElement _ l q atts =>
    let (w1, o) := startElementClose w
    let (w2, o2) := startElementOpen w1 l q atts
    (w2, o ++ o2)
  | .endElement _ l q => endElement w l q
  -- lines 341-351
  | .characters ch =>
    let (w1, o) := startElementClose w
    (w1, o ++ (if w1.inCDATA then ch else Text.textEscape ch))
  -- lines 353-360
  | .ignorableWhitespace ch =>
    let (w1, o) := startElementClose w
    (w1, o ++ ch)
  -- lines 362-380
  | .processingInstruction t d =>
    let (w1, o) := startElementClose w
    (w1, o ++ '<' :: '?' :: t ++ (if d.isEmpty then [] else ' ' :: d) ++ ['?', '>'])
  -- lines 382-390
  | .skippedEntity n =>
    let (w1, o) := startElementClose w
    (w1, o ++ (if isDtd n then [] else '&' :: n ++ [';']))
  -- lines 452-470
  | .startEntity n =>
    let (w1, o) := startElementClose w
    (if isDtd n then { w1 with internalSubset := false } else w1, o)
  | .endEntity n =>
    let (w1, o) := startElementClose w
    (if isDtd n then { w1 with internalSubset := true } else w1, o)
  -- lines 472-489
  | .startCDATA =>
    let (w1, o) := startElementClose w
    ({ w1 with inCDATA := true }, o ++ ['<', '!', '[', 'C', 'D', 'A', 'T', 'A', '['])
  -- lines 491-502
  | .endCDATA =>
    let (w1, o) := startElementClose w
    ({ w1 with inCDATA := false }, o ++ [']', ']', '>'])
  -- lines 504-519
  | .comment t =>
    let (w1, o) := startElementClose w
    (w1, o ++ '<' :: '!' :: '-' :: '-' :: t ++ ['-', '-', '>'])
  | .dtd .. => (w, [])

/-- A stream of events. -/
def writeAll : W → List Ev → Str
  | _, [] => []
  | w, e :: es => (write w e).2 ++ writeAll (write w e).1 es

end Verif.SaxWriter
