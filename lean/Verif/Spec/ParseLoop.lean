import Verif.Model.ParseLoop
set_option autoImplicit false
/-!
# What reading a document is to do

The parser is given the content, in order, piece by piece and whole, to its end or to the first error, and with the
last piece that it is the last.
-/
namespace Verif.Spec.ParseLoop
open Verif.ParseLoop (Byte Stream Feed Ev Handler)

variable {σ : Type}

/-- A stream that can be read to its end. -/
def Good (s : Stream) : Prop := s.breaks = false ∧ s.eof = false ∧ s.fail = false ∧ s.bad = false

/-- The parser, beginning as `p`, is given the content, with or without an error. -/
inductive Gives (feed : Feed σ) : σ → List Byte → List Ev → Bool → Prop where
  | last (p p' bs) : feed p bs true = (p', true) → Gives feed p bs [.give bs true] true
  | error (p p' bs rest final) : feed p bs final = (p', false) → (final = true → rest = []) →
      Gives feed p (bs ++ rest) [.give bs final] false
  | more (p p' bs rest evs ok) : bs ≠ [] → feed p bs false = (p', true) → Gives feed p' rest evs ok →
      Gives feed p (bs ++ rest) (.give bs false :: evs) ok

/-- What happens when a document is read with expat: a source that is not there is an error. -/
inductive Reads (init : σ) (feed : Feed σ) (reports : Bool) : Option Stream → List Ev → Prop where
  | ok (s evs) : Gives feed init s.rest evs true →
      Reads init feed reports (some s) ([.setDocumentLocator, .startDocument] ++ evs ++ [.endDocument])
  | error (s evs) : Gives feed init s.rest evs false →
      Reads init feed reports (some s)
        ([.setDocumentLocator, .startDocument] ++ evs ++ (if reports then [.fatalError] else []) ++ [.endDocument])
  | unresolved :
      Reads init feed reports none
        ([.setDocumentLocator, .startDocument] ++ (if reports then [.fatalError] else []) ++ [.endDocument])

/-- Each document in its turn. -/
inductive ReadsEach (init : σ) (feed : Feed σ) (reports : Bool) : List (Option Stream) → List (List Ev) → Prop where
  | nil : ReadsEach init feed reports [] []
  | cons (s ss evs l) : Reads init feed reports s evs → ReadsEach init feed reports ss l →
      ReadsEach init feed reports (s :: ss) (evs :: l)

/-- The pieces are the content, and the last is said to be the last. -/
inductive Whole : List Byte → List Ev → Prop where
  | last (bs) : Whole bs [.give bs true]
  | more (bs rest evs) : bs ≠ [] → Whole rest evs → Whole (bs ++ rest) (.give bs false :: evs)

end Verif.Spec.ParseLoop
