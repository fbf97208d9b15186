import Verif.Model.XsltOutput
import Verif.Model.Text
set_option autoImplicit false
/-!
# The result of a transformation as text: `StreamSink`, include/XSLT/impl/xslt_sink.hpp lines 82-348
-/
namespace Verif.XsltSink
open Verif.Xslt (Str QN OAttr Event Instrs Out execs)
open Verif.XPath (find)
open Verif.Text (textEscape attributeEscape)

/-- The settings of `xsl:output` the sink asks for (`setting`, lines 329-335); a string that is not set is empty.
`xsl:output` allows no values but `yes` and `no` for the flags. -/
structure Settings where
  /-- `method="text"`; the other methods are written alike. -/
  text : Bool := false
  version : Str := []
  omitDeclaration : Bool := false
  standalone : Str := []
  doctypePublic : Str := []
  doctypeSystem : Str := []
  indent : Bool := false
deriving DecidableEq, Repr

/-- The members, lines 337-344, with the text written so far. -/
structure Sink where
  set : Settings
  disabled : Bool
  inCdata : Bool
  empty : Bool
  seenRoot : Bool
  indent : Int
  outAgain : Bool
  out : Str
deriving DecidableEq, Repr

/-- The constructor, lines 88-97, then `start_document` (xslt_output.hpp lines 37-46) with `do_start_document`, lines
126-132. -/
def start (st : Settings) : Sink :=
  { set := st, disabled := st.text, inCdata := false, empty := false, seenRoot := false
    indent := if st.indent then 0 else -1, outAgain := false, out := [] }

/-- `stream_ << s`. -/
def put (t : Str) (s : Sink) : Sink := { s with out := s.out ++ t }

/-- A name as it is written. -/
def qn (q : QN) : Str := if q.1 = [] then q.2 else q.1 ++ ':' :: q.2

/-- The XML declaration, lines 299-310. -/
def declText (st : Settings) : Str :=
  "<?xml version=\"".toList ++ (if st.version.isEmpty then "1.0".toList else st.version) ++ ['"'] ++
    (if st.standalone.isEmpty then [] else " standalone=\"".toList ++ st.standalone ++ ['"']) ++ "?>\n".toList

/-- The document type declaration, lines 312-325. -/
def doctypeText (name : Str) (st : Settings) : Str :=
  if name.isEmpty || st.doctypeSystem.isEmpty then []
  else "<!DOCTYPE ".toList ++ name ++ ['\n'] ++
    (if st.doctypePublic.isEmpty then "  SYSTEM \"".toList ++ st.doctypeSystem ++ "\">\n".toList
     else "  PUBLIC \"".toList ++ st.doctypePublic ++ "\" \"".toList ++ st.doctypeSystem ++ "\">\n".toList)

/-- `do_decl`, lines 294-327. -/
def decl (name : Str) (s : Sink) : Sink :=
  if s.set.text || s.set.omitDeclaration then s
  else { put (declText s.set ++ doctypeText name s.set) s with seenRoot := true }

/-- `if(!seen_root_) do_decl(...)`. -/
def prolog (name : Str) (s : Sink) : Sink := if s.seenRoot then s else decl name s

/-- `close_element_if_empty`, lines 248-258. -/
def closeIfEmpty (s : Sink) : Sink :=
  prolog [] (if s.empty then { put ['>'] s with empty := false } else s)

/-- `indent`, lines 260-274. Simplification: an `indent_` below -1, with which the loop would not end, has no spaces; it
would need an element that ends before it starts. -/
def indent (s : Sink) : Sink :=
  if s.indent = -1 then s
  else
    let s := if s.indent ≠ 0 then put ['\n'] s else s
    let s := put (List.replicate s.indent.toNat ' ') s
    { s with indent := s.indent + 2, outAgain := false }

/-- `preoutdent`, lines 276-280. -/
def preoutdent (s : Sink) : Sink := if s.outAgain && !s.empty then put ['\n'] s else s

/-- `outdent`, lines 282-292. -/
def outdent (s : Sink) : Sink :=
  if s.indent = -1 then s
  else
    let s := if s.outAgain && s.empty then put ['\n'] s else s
    { s with indent := s.indent - 2, outAgain := true }

/-- One attribute, lines 148-154. -/
def attText (a : OAttr) : Str := ' ' :: qn a.qName ++ '=' :: '"' :: attributeEscape a.value ++ ['"']

/-- `do_start_element`, lines 138-157. -/
def startElement (q : QN) (atts : List OAttr) (s : Sink) : Sink :=
  let s := prolog (qn q) s
  let s := if s.empty then put ['>'] s else s
  let s := indent s
  let s := put ('<' :: qn q) s
  let s := put (atts.flatMap attText) s
  { s with empty := true }

/-- `do_end_element`, lines 159-175. -/
def endElement (q : QN) (s : Sink) : Sink :=
  let s := prolog [] s
  let s := preoutdent s
  let s := if s.empty then put ['/', '>'] s else put ('<' :: '/' :: qn q ++ ['>']) s
  let s := outdent s
  { s with empty := false }

/-- `do_start_CDATA`, lines 208-214. -/
def startCDATA (s : Sink) : Sink :=
  let s := closeIfEmpty s
  put "<![CDATA[".toList { s with inCdata := true }

/-- `do_end_CDATA`, lines 216-220. -/
def endCDATA (s : Sink) : Sink := put "]]>".toList { s with inCdata := false }

/-- The loop of `do_characters`, lines 192-202, from an occurrence of `]]>` on. `substr` is given a position and, where
it takes a length, another position. Every round goes two characters on. -/
def cdataLoop (ch : Str) : Nat → Nat → Nat → Sink → Sink
  | 0, _, _, s => s
  | n + 1, from', breakAt, s =>
    let breakAt := breakAt + 2
    let s := put ((ch.drop from').take breakAt) s
    let s := startCDATA (endCDATA s)
    match find (ch.drop breakAt) "]]>".toList with
    | some k => cdataLoop ch n breakAt (breakAt + k) s
    | none => put (ch.drop breakAt) s

/-- `do_characters` in a CDATA section, lines 186-202. -/
def cdataText (ch : Str) (s : Sink) : Sink :=
  match find ch "]]>".toList with
  | none => put ch s
  | some k => cdataLoop ch (ch.length + 1) 0 k s

/-- `do_characters`, lines 177-206. -/
def characters (ch : Str) (s : Sink) : Sink :=
  let s := closeIfEmpty s
  if !s.disabled && !s.inCdata then put (textEscape ch) s
  else if s.inCdata then cdataText ch s
  else put ch s

/-- `do_comment`, lines 222-229. -/
def comment (ch : Str) (s : Sink) : Sink :=
  put ("<!--".toList ++ ch ++ "-->".toList) (closeIfEmpty s)

/-- `do_processing_instruction`, lines 231-241. -/
def pi (target data : Str) (s : Sink) : Sink :=
  put ("<?".toList ++ target ++ ' ' :: data ++ "?>".toList) (closeIfEmpty s)

/-- What the sink does with a call of `Output`. -/
def event (s : Sink) : Event → Sink
  | .startElement q _ atts => startElement q atts s
  | .endElement q _ => endElement q s
  | .characters ch => characters ch s
  | .startCDATA => startCDATA s
  | .endCDATA => endCDATA s
  | .comment ch => comment ch s
  | .pi t d => pi t d s

/-- The text for some calls. -/
def write (st : Settings) (es : List Event) : Str := (es.foldl event (start st)).out

/-- A transformation that runs the instructions and writes its result to a stream. Simplification: without
`disable-output-escaping`. -/
def output (st : Settings) (cdata : List (Str × Str)) (is : Instrs) : Str :=
  write st (execs { cdata := cdata, textMode := st.text } is).out

end Verif.XsltSink
