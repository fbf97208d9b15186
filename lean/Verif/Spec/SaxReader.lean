import Verif.Model.SaxReader
set_option autoImplicit false
/-!
# What a chain of filters does
-/
namespace Verif.Spec.SaxReader
open Verif.Sax (Str)
open Verif.SaxReader (Out Feature Told Call Channel Handler Reader World Program Set)

/-- The readers from `r` by parents: filters, and then parser `p`. -/
def Chain (w : World) (p : Nat) : Reader → List Nat → Prop
  | r, [] => r = .parser p
  | r, f :: fs => r = .filter f ∧ ∃ r', (w.filters f).parent = some r' ∧ Chain w p r' fs

/-- A filter by what it does: what it makes of a call after others, and the calls it has had. -/
abbrev Stage := (List Call → Call → List Call) × List Call

/-- What a filter makes of calls; questions for entities go through. -/
def through (makes : List Call → Call → List Call) : List Call → List Call → List Call
  | _, [] => []
  | seen, c :: cs =>
    (if c.channel = .entity then [c] else makes seen c) ++ through makes (seen ++ [c]) cs

/-- What filters make of calls, the first the nearest to the parser. -/
def pipe : List Stage → List Call → List Call
  | [], cs => cs
  | s :: ss, cs => pipe ss (through s.1 s.2 cs)

/-- A filter that changes nothing. -/
def plain : List Call → Call → List Call := fun _ c => [c]

/-- The stages of filters. -/
def stages (w : World) (fs : List Nat) : List Stage := fs.map fun f => ((w.filters f).makes, (w.filters f).seen)

/-- Handlers after calls of setters. -/
def resets (slots : Channel → Handler) : List Set → Channel → Handler
  | [] => slots
  | s :: ss => resets (fun c => if c = s.channel then s.handler else slots c) ss

/-- The interface of SAX that has a call: EntityResolver, DTDHandler, ErrorHandler, DeclHandler, LexicalHandler, and
ContentHandler for the rest. -/
def interface : Call → Channel
  | .resolveEntity .. => .entity
  | .notationDecl .. | .unparsedEntityDecl .. => .dtd
  | .warning .. | .error .. | .fatalError .. => .error
  | .elementDecl .. | .attributeDecl .. | .internalEntityDecl .. | .externalEntityDecl .. => .decl
  | .startDTD .. | .endDTD | .startEntity .. | .endEntity .. | .startCDATA | .endCDATA | .comment .. => .lexical
  | _ => .content

/-- The answer to a call, if it asks for one. -/
def asked (answer : Str → Str → Str × Str) : Call → List (Str × Str)
  | .resolveEntity p s => [answer p s]
  | _ => []

def fatal : Call → Bool
  | .fatalError _ => true
  | _ => false

/-- What is left after calls: the handlers, the calls of the program's handlers, the answers, and whether there was
no exception. -/
structure Watched where
  slots : Channel → Handler
  log : List (Nat × Call)
  answers : List (Str × Str)
  finished : Bool

/-- Calls are made of the handlers set, where handlers set handlers, until one throws.  If the program has set none,
nothing happens, but that a fatal error throws. -/
def watch (pr : Program) : (Channel → Handler) → List (Nat × Call) → List (Str × Str) → List Call → Watched
  | slots, log, answers, [] => ⟨slots, log, answers, true⟩
  | slots, log, answers, c :: cs =>
    match slots c.channel with
    | .user h =>
      let slots' := resets slots (pr.reacts log h c)
      let log' := log ++ [(h, c)]
      let answers' := answers ++ asked (pr.answer h) c
      if pr.throws log h c then ⟨slots', log', answers', false⟩ else watch pr slots' log' answers' cs
    | _ =>
      if fatal c then ⟨slots, log, answers, false⟩
      else watch pr slots log (answers ++ asked (fun _ _ => ([], [])) c) cs

/-- Not a filter. -/
def Direct : Handler → Prop
  | .filter _ => False
  | _ => True

/-- While it is called the program sets only handlers of filter `f`, and filters are not set as handlers. -/
def Polite (pr : Program) (f : Nat) : Prop :=
  ∀ log h c, ∀ s ∈ pr.reacts log h c, s.reader = .filter f ∧ Direct s.handler

/-- What a parser reports for a document: `body` is what there is in it. -/
def reported (body : List Call) : List Call := [.setDocumentLocator, .startDocument] ++ body ++ [.endDocument]

/-- A parse with parser `p` through a chain whose last filter is `last` ends as `r` says. -/
def Ends (o : Out) (p last : Nat) (r : Watched) : Prop :=
  if r.finished then
    ∃ w', o = .ok w' ∧ w'.log = r.log ∧ w'.answers = r.answers ∧ (w'.filters last).slots = r.slots ∧
      (w'.parsers p).parsing = false
  else ∃ w', o = .thrown w' ∧ w'.log = r.log ∧ w'.answers = r.answers

/-- The value set last, or `v` if none was. -/
def lastSet (about : Feature × Bool → Option Bool) (v : Bool) (sets : List (Feature × Bool)) : Bool :=
  match sets.filterMap about |>.getLast? with
  | some u => u
  | none => v

end Verif.Spec.SaxReader
