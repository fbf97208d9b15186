import Verif.Model.SaxFilter
import Verif.Spec.Sax
set_option autoImplicit false
/-!
# Streams of SAX events

Of the model only the type of events `Ev` is used.
-/
namespace Verif.Spec.SaxFilter
open Verif.SaxFilter (Ev)
open Verif.Sax (Attr)

abbrev Str := List Char

/-- The character data of an event. -/
def textOf : Ev → Option Str
  | .characters s => some s
  | .ignorableWhitespace s => some s
  | _ => none

/-- All the character data of a stream. -/
def text (es : List Ev) : Str := (es.filterMap textOf).flatten

/-- The events that are not character data, in their order. -/
def others (es : List Ev) : List Ev := es.filter fun e => (textOf e).isNone

/-- The same stream with every maximal run of character data as one event, empty ones dropped. -/
def canon : List Ev → List Ev
  | [] => []
  | e :: es => match textOf e, canon es with
    | none, r => e :: r
    | some s, .characters t :: r => .characters (s ++ t) :: r
    | some s, r => if s = [] then r else .characters s :: r

/-- No character event is empty and no two are next to each other. -/
def Coalesced : List Ev → Prop
  | [] => True
  | [e] => textOf e ≠ some []
  | e :: e' :: es => textOf e ≠ some [] ∧ (textOf e = none ∨ textOf e' = none) ∧ Coalesced (e' :: es)

/-- The events at which a coalescing filter has to let go of the text it holds: those a parser reports
in the middle of content. -/
def delimits : Ev → Bool
  | .startElement .. | .endElement .. | .processingInstruction .. | .comment .. => true
  | .startCDATA | .endCDATA | .startEntity .. | .endEntity .. => true
  | _ => false

/-- Every run of text is closed by one of those: no namespace mapping, skipped entity or other event comes
between the text and the next of them, and no text is left at the end.  `pending` says text is open. -/
def Closed (pending : Bool) : List Ev → Prop
  | [] => pending = false
  | e :: es => match textOf e with
    | some s => Closed (pending || !s.isEmpty) es
    | none => if delimits e then Closed false es else pending = false ∧ Closed false es

/-! ## PYX -/

/-- The lines of PYX. -/
inductive Line where
  | startTag (name : Str)
  | attr (name value : Str)
  | endTag (name : Str)
  | text (s : Str)
  | pi (target data : Str)
  deriving DecidableEq, Repr

/-- The PYX lines of a stream of events. -/
def linesOf : Ev → List Line
  | .startElement _ l _ atts => .startTag l :: atts.map fun (a : Attr) => .attr a.localName a.value
  | .endElement _ l _ => [.endTag l]
  | .characters s => [.text s]
  | .processingInstruction t d => [.pi t d]
  | _ => []

/-- `\n` stands for a line feed. -/
def unescape : Str → Str
  | [] => []
  | '\\' :: 'n' :: s => '\n' :: unescape s
  | c :: s => c :: unescape s

/-- Cut at the first space. -/
def cutSpace : Str → Str × Str
  | [] => ([], [])
  | c :: s => if c = ' ' then ([], s) else let (a, b) := cutSpace s; (c :: a, b)

/-- What a line says. -/
def readLine : Str → Option Line
  | '(' :: n => some (.startTag n)
  | ')' :: n => some (.endTag n)
  | '-' :: s => some (.text (unescape s))
  | 'A' :: s => some (.attr (cutSpace s).1 (unescape (cutSpace s).2))
  | '?' :: s => some (.pi (cutSpace s).1 (cutSpace s).2)
  | _ => none

/-- Reading PYX: every line ends with a line feed. `line` is what has been read of the current one. -/
def readPyx (line : Str) : Str → Option (List Line)
  | [] => if line = [] then some [] else none
  | c :: s =>
    if c = '\n' then match readLine line, readPyx [] s with
      | some l, some ls => some (l :: ls)
      | _, _ => none
    else readPyx (line ++ [c]) s

/-! ## Namespaces in scope -/

/-- The last mapping of a prefix among those announced for the next element. -/
def announced (pending : List (Str × Str)) (p : Str) : Option Str :=
  ((pending.filter fun m => m.1 = p ∧ ¬ Sax.reserved p).getLast?).map (·.2)

/-- The scopes of the open elements: `startPrefixMapping` is about the element that starts next (SAX,
`ContentHandler`), and its end ends the scope.  The mappings announced and not yet used go along;
`none` if an element ends that has not started. -/
def scopes : List Ev → List (Str × Str) → Sax.Scopes → Option (List (Str × Str) × Sax.Scopes)
  | [], pending, sc => some (pending, sc)
  | .startPrefixMapping p u :: es, pending, sc => scopes es (pending ++ [(p, u)]) sc
  | .startElement .. :: es, pending, sc => scopes es [] (announced pending :: sc)
  | .endElement .. :: es, pending, _ :: f :: sc => scopes es pending (f :: sc)
  | .endElement .. :: _, _, _ => none
  | _ :: es, pending, sc => scopes es pending sc

end Verif.Spec.SaxFilter
