import Verif.Model.IStreamHandle
set_option autoImplicit false
/-!
# What handles of streams are for

A handle holds nothing, a stream it was lent, or a stream it was given.  Handles made from others hold the same.
-/
namespace Verif.Spec.IStreamHandle
open Verif.IStreamHandle (Op)

inductive Target where
  | nothing
  | lent (x : Nat)
  | own (x : Nat)
  deriving DecidableEq, Repr

structure Sp where
  /-- What each handle holds; `none` if it is not constructed, or destroyed. -/
  hold : Nat → Option Target
  /-- The streams given to handles. -/
  given : List Nat

def init : Sp := ⟨fun _ => none, []⟩

def put (f : Nat → Option Target) (i : Nat) (v : Option Target) : Nat → Option Target := fun j => if j = i then v else f j

def step (s : Sp) : Op → Sp
  | .construct i | .release i => { s with hold := put s.hold i (some .nothing) }
  | .constructRef i x | .assignRef i x => { s with hold := put s.hold i (some (.lent x)) }
  | .constructOwned i x | .assignOwned i x => ⟨put s.hold i (some (.own x)), s.given ++ [x]⟩
  | .copy i j | .assign i j => { s with hold := put s.hold i (s.hold j) }
  | .destroy i => { s with hold := put s.hold i none }

/-- Handles are constructed once before they are used; there are `n` variables for them; a stream is given once. -/
def Legal (n : Nat) (s : Sp) : Op → Prop
  | .construct i | .constructRef i _ => i < n ∧ s.hold i = none
  | .constructOwned i x => i < n ∧ s.hold i = none ∧ x ∉ s.given
  | .copy i j => i < n ∧ s.hold i = none ∧ s.hold j ≠ none
  | .destroy i | .assignRef i _ | .release i => s.hold i ≠ none
  | .assign i j => s.hold i ≠ none ∧ s.hold j ≠ none
  | .assignOwned i x => s.hold i ≠ none ∧ x ∉ s.given

/-- A handle is not assigned to itself. -/
def NotSelf : Op → Prop
  | .assign i j => i ≠ j
  | _ => True

def run (s : Sp) (ops : List Op) : Sp := ops.foldl step s

def AllLegal (n : Nat) (s : Sp) : List Op → Prop
  | [] => True
  | op :: ops => Legal n s op ∧ AllLegal n (step s op) ops

/-- The stream a handle holds. -/
def stream : Option Target → Option Nat
  | some (.lent x) | some (.own x) => some x
  | _ => none

end Verif.Spec.IStreamHandle
