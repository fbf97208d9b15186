set_option autoImplicit false
/-!
# include/DOM/Simple/EventTargetImpl.hpp and EventImpl.hpp: event listeners and dispatch

Nodes, event types and listeners are numbers.  A listener may call `stopPropagation`, decided by everything
called so far.  Not modelled: listeners that add or remove listeners while an event is dispatched (removing
the listener that runs invalidates the iterator), and listeners that throw.  No class of the Simple DOM
derives from EventTargetImpl, so this is the class for programs that do so themselves.
-/
namespace Verif.Events

abbrev Node := Nat
abbrev EvType := Nat
abbrev Listener := Nat

inductive Phase where
  | capturing | atTarget | bubbling
  deriving DecidableEq, Repr

/-- A call of `handleEvent`. -/
structure Call where
  node : Node
  phase : Phase
  listener : Listener
  deriving DecidableEq, Repr

/-- `eventCapturers_` (true) and `eventListeners_` (false) of all nodes, lines 156-157: the values of a key
of a `multimap` are in the order of insertion. -/
abbrev Reg := Node → Bool → EvType → List Listener

def Reg.set (r : Reg) (n : Node) (c : Bool) (t : EvType) (l : List Listener) : Reg :=
  fun n' c' t' => if n' = n ∧ c' = c ∧ t' = t then l else r n' c' t'

/-- `addEventListener`, lines 52-72. -/
def addEventListener (r : Reg) (n : Node) (t : EvType) (l : Listener) (useCapture : Bool) : Reg :=
  if l ∈ r n useCapture t then r else r.set n useCapture t (r n useCapture t ++ [l])

/-- `removeEventListener`, lines 74-94: the loop returns in its first round. -/
def removeEventListener (r : Reg) (n : Node) (t : EvType) (l : Listener) (useCapture : Bool) : Reg :=
  match r n useCapture t with
  | [] => r
  | l' :: ls => if l' = l then r.set n useCapture t ls else r

inductive Op where
  | add (n : Node) (t : EvType) (l : Listener) (useCapture : Bool)
  | remove (n : Node) (t : EvType) (l : Listener) (useCapture : Bool)

def step (r : Reg) : Op → Reg
  | .add n t l c => addEventListener r n t l c
  | .remove n t l c => removeEventListener r n t l c

def run (r : Reg) (ops : List Op) : Reg := ops.foldl step r

/-- `EventImpl`: what `initEvent` set, EventImpl.hpp lines 105-110. -/
structure Event where
  type : EvType
  canBubble : Bool
  canCancel : Bool

/-- The loops over a node's listeners: lines 116-118, 129-131 and 141-143.  `stopPropagation`, EventImpl.hpp
lines 94-98, sets `stopped_` if the event can be cancelled.  The calls made so far are the first argument,
`stops` says whether a call stops the event. -/
def callAll (ev : Event) (stops : List Call → Call → Bool) (n : Node) (p : Phase) :
    List Call × Bool → List Listener → List Call × Bool
  | st, [] => st
  | (calls, stopped), l :: ls =>
    let c : Call := ⟨n, p, l⟩
    callAll ev stops n p (calls ++ [c], stopped || (stops calls c && ev.canCancel)) ls

/-- The capturing loop, lines 112-124; the flag is false if the event was stopped. -/
def capture (ev : Event) (stops : List Call → Call → Bool) (r : Reg) : List Call × Bool → List Node → (List Call × Bool) × Bool
  | st, [] => (st, true)
  | st, n :: ns =>
    let st := callAll ev stops n .capturing st (r n true ev.type)
    if st.2 then (st, false) else capture ev stops r st ns

/-- The bubbling loop, lines 136-149. -/
def bubble (ev : Event) (stops : List Call → Call → Bool) (r : Reg) : List Call × Bool → List Node → (List Call × Bool) × Bool
  | st, [] => (st, true)
  | st, n :: ns =>
    let st := callAll ev stops n .bubbling st (r n false ev.type)
    if st.2 then (st, false) else bubble ev stops r st ns

/-- `dispatchEvent`, lines 96-153, on an event not dispatched before.  `ancestors` are the target's, the
parent first.  The calls made, and the result. -/
def dispatchEvent (ev : Event) (stops : List Call → Call → Bool) (r : Reg) (target : Node) (ancestors : List Node) :
    List Call × Bool :=
  let chain := ancestors.foldl (fun ch n => n :: ch) []
  match capture ev stops r ([], false) chain with
  | (st, false) => (st.1, false)
  | (st, true) =>
    let st := callAll ev stops target .atTarget st (r target false ev.type)
    if ev.canBubble then
      match bubble ev stops r st chain.reverse with
      | (st, b) => (st.1, b)
    else (st.1, true)

end Verif.Events
