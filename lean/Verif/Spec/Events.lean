import Verif.Model.Events
set_option autoImplicit false
/-!
# Event listeners and dispatch, DOM Level 2 Events
-/
namespace Verif.Spec.Events
open Verif.Events (Node EvType Listener Phase Call Reg Op)

/-- The listeners registered after a history, the latest call first: those added and not removed since. -/
def registered (n : Node) (c : Bool) (t : EvType) : List Op → List Listener
  | [] => []
  | .add n' t' l c' :: h =>
    let ls := registered n c t h
    if n' = n ∧ c' = c ∧ t' = t then (if l ∈ ls then ls else ls ++ [l]) else ls
  | .remove n' t' l c' :: h =>
    let ls := registered n c t h
    if n' = n ∧ c' = c ∧ t' = t then ls.filter (· ≠ l) else ls

/-- A removal takes away the listener that was registered first, or finds nothing to remove. -/
def RemovesFirst : List Op → Prop
  | [] => True
  | .add .. :: h => RemovesFirst h
  | .remove n t l c :: h =>
    RemovesFirst h ∧ (l ∉ registered n c t h ∨ ∃ ls, registered n c t h = l :: ls)

/-- The calls for an event nobody stops, node by node: capturing listeners from the outermost ancestor
inwards, the target's, and if the event bubbles the others outwards. -/
def groups (t : EvType) (bubbles : Bool) (reg : Node → Bool → EvType → List Listener) (target : Node)
    (ancestors : List Node) : List (List Call) :=
  ancestors.reverse.map (fun n => (reg n true t).map fun l => ⟨n, .capturing, l⟩) ++
    [(reg target false t).map fun l => ⟨target, .atTarget, l⟩] ++
    (if bubbles then ancestors.map (fun n => (reg n false t).map fun l => ⟨n, .bubbling, l⟩) else [])

/-- Does one of the calls, made in this order after those before, stop the event? -/
def someStops (stops : List Call → Call → Bool) : List Call → List Call → Bool
  | _, [] => false
  | before, c :: cs => stops before c || someStops stops (before ++ [c]) cs

/-- The calls made: node by node, up to the node on which the event is stopped. -/
def untilStop (stops : List Call → Call → Bool) : List Call → List (List Call) → List Call
  | before, [] => before
  | before, g :: gs => if someStops stops before g then before ++ g else untilStop stops (before ++ g) gs

end Verif.Spec.Events
