import Verif.Model.Sax
import Verif.Model.Text
set_option autoImplicit false
/-!
# include/SAX/filter: filters on streams of SAX events

A filter takes one event at a time and hands events on to the next handler.  Handing on an event is
`XMLFilterImpl`'s method of the same name (SAX/helpers/XMLFilterImpl.hpp lines 256 ff.).
-/
namespace Verif.SaxFilter
open Verif.Sax (Str Attr)

/-- The calls of `ContentHandler` and `LexicalHandler` (SAX/ContentHandler.hpp,
SAX/ext/LexicalHandler.hpp).  `dtd` stands for those about the document type: `startDTD`, `endDTD`, and
the calls of `DTDHandler` and `DeclHandler`, with all their arguments. -/
inductive Ev where
  | startDocument
  | endDocument
  | startPrefixMapping (prefix' uri : Str)
  | endPrefixMapping (prefix' : Str)
  | startElement (uri localName qName : Str) (atts : List Attr)
  | endElement (uri localName qName : Str)
  | characters (ch : Str)
  | ignorableWhitespace (ch : Str)
  | processingInstruction (target data : Str)
  | skippedEntity (name : Str)
  | startEntity (name : Str)
  | endEntity (name : Str)
  | startCDATA
  | endCDATA
  | comment (text : Str)
  | dtd (call : Nat) (args : List Str)
  deriving DecidableEq, Repr

/-- A filter: state and event give the new state and the events handed on. -/
def run {σ : Type} (f : σ → Ev → σ × List Ev) : σ → List Ev → σ × List Ev
  | s, [] => (s, [])
  | s, e :: es =>
    let (s1, o1) := f s e
    let (s2, o2) := run f s1 es
    (s2, o1 ++ o2)

/-! ## TextCoalescer.hpp -/

/-- `flush`, lines 99-106. -/
def flush (buffer : Str) : List Ev := if buffer.isEmpty then [] else [.characters buffer]

/-- `TextCoalescer`, lines 37-95; the calls it does not override go straight through. -/
def coalesce (buffer : Str) : Ev → Str × List Ev
  | .characters ch => (buffer ++ ch, [])
  | .ignorableWhitespace ch => (buffer ++ ch, [])
  | .startElement u l q a => ([], flush buffer ++ [.startElement u l q a])
  | .endElement u l q => ([], flush buffer ++ [.endElement u l q])
  | .processingInstruction t d => ([], flush buffer ++ [.processingInstruction t d])
  | .startCDATA => ([], flush buffer ++ [.startCDATA])
  | .endCDATA => ([], flush buffer ++ [.endCDATA])
  | .comment t => ([], flush buffer ++ [.comment t])
  | .startEntity n => ([], flush buffer ++ [.startEntity n])
  | .endEntity n => ([], flush buffer ++ [.endEntity n])
  | e => (buffer, [e])

/-! ## WhitespaceStripperFilter.hpp -/

/-- `WhitespaceStripper`, lines 30-37; the other calls go straight through. -/
def strip (_ : Unit) : Ev → Unit × List Ev
  | .characters ch => ((), [.characters ((Text.inPlace ch).getD [])])
  | .ignorableWhitespace _ => ((), [])
  | e => ((), [e])

/-! ## PYXWriter.hpp -/

/-- `escape`, lines 102-110. -/
def pyxEscape : Str → Str
  | [] => []
  | c :: cs => if c = '\n' then '\\' :: 'n' :: pyxEscape cs else c :: pyxEscape cs

/-- What `PYXWriter` writes for one event, lines 55-100 (it hands every event on unchanged). -/
def pyx : Ev → Str
  | .startElement _ l _ atts =>
    '(' :: l ++ ['\n'] ++ atts.flatMap fun a => 'A' :: a.localName ++ ' ' :: pyxEscape a.value ++ ['\n']
  | .endElement _ l _ => ')' :: l ++ ['\n']
  | .characters ch => '-' :: pyxEscape ch ++ ['\n']
  | .processingInstruction t d => '?' :: t ++ ' ' :: d ++ ['\n']
  | _ => []

/-! ## NamespaceTracker.hpp -/

/-- `buffer_[prefix] = uri`: an assignment in a `std::map`, kept in key order. -/
def mapSet (k v : Str) : List (Str × Str) → List (Str × Str)
  | [] => [(k, v)]
  | e :: m => if e.1 = k then (k, v) :: m else if k < e.1 then (k, v) :: e :: m else e :: mapSet k v m

/-- The data members, lines 94-95. -/
structure Tracker where
  namespaces : Sax.NsState
  buffer : List (Str × Str)
  deriving DecidableEq, Repr

/-- The constructor, lines 26-29. -/
def Tracker.init : Tracker := ⟨Sax.nsInit, []⟩

/-- The loop of `startElement`, lines 72-73. -/
def declareAll : List (Str × Str) → Sax.NsState → Option Sax.NsState
  | [], s => some s
  | (p, u) :: l, s => match Sax.declarePrefix p u s with
    | none => none
    | some (_, s') => declareAll l s'

/-- `startElement`, `endElement` and `startPrefixMapping`, lines 68-91; `none` is undefined behaviour (no
context to pop).  The events are handed on unchanged. -/
def track (t : Tracker) : Ev → Option Tracker
  | .startElement .. => (declareAll t.buffer (Sax.pushContext t.namespaces)).map fun ns => ⟨ns, []⟩
  | .endElement .. => (Sax.popContext t.namespaces).map fun ns => ⟨ns, t.buffer⟩
  | .startPrefixMapping p u => some { t with buffer := mapSet p u t.buffer }
  | _ => some t

/-- A stream of events. -/
def trackAll : List Ev → Tracker → Option Tracker
  | [], t => some t
  | e :: es, t => (track t e).bind (trackAll es)

/-- `getURI`, lines 48-51. -/
def Tracker.getURI (t : Tracker) (p : Str) : Str := Sax.getURI p t.namespaces

/-- The loop of `inScopeNamespaces`, lines 57-63. -/
def scopeLoop (ns : Sax.NsState) : List Str → List (Str × Str) → List (Str × Str)
  | [], m => m
  | p :: ps, m => if m.any (fun e => decide (e.1 = p)) then scopeLoop ns ps m
    else scopeLoop ns ps (mapSet p (Sax.getURI p ns) m)

/-- `inScopeNamespaces`, lines 53-66. -/
def Tracker.inScope (t : Tracker) : List (Str × Str) :=
  mapSet [] (Sax.getURI [] t.namespaces) (scopeLoop t.namespaces (Sax.getPrefixes t.namespaces) [])

end Verif.SaxFilter
