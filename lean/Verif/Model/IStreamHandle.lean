set_option autoImplicit false
/-!
# include/SAX/IStreamHandle.hpp: handles of streams

Handles are the variables of a program, streams and counters are numbered in the order they are made; a number
is not used again.  `none` is undefined: a counter is used that is not there, a stream is deleted twice, or a
variable is used that is not constructed.  The functions for `std::iostream` are those for `std::istream`.
-/
namespace Verif.IStreamHandle

/-- `is_`, `counter_`, `owner_`, lines 256-258. -/
structure H where
  is : Option Nat
  counter : Option Nat
  owner : Bool
  deriving DecidableEq, Repr

structure St where
  /-- The handles that are constructed and not destroyed. -/
  hs : Nat → Option H
  /-- The `int`s on the heap. -/
  cnt : Nat → Option Int
  next : Nat
  /-- The streams that were deleted, in order. -/
  deleted : List Nat

def init : St := ⟨fun _ => none, fun _ => none, 0, []⟩

def put {α : Type} (f : Nat → α) (i : Nat) (v : α) : Nat → α := fun j => if j = i then v else f j

/-- `addRef`, lines 417-422. -/
def addRef (s : St) (h : H) : Option St :=
  match h.counter with
  | none => none
  | some c => match s.cnt c with
    | none => none
    | some n => some { s with cnt := put s.cnt c (some (n + 1)) }

/-- `delete is_`, line 438. -/
def deleteStream (s : St) : Option Nat → Option St
  | none => some s
  | some x => if x ∈ s.deleted then none else some { s with deleted := s.deleted ++ [x] }

/-- What `removeRef` leaves in a handle, lines 443-445. -/
def null : H := ⟨none, none, false⟩

/-- `removeRef`, lines 427-446. -/
def removeRef (s : St) (i : Nat) (h : H) : Option St :=
  match h.counter with
  | none => some { s with hs := put s.hs i (some null) }
  | some c => match s.cnt c with
    | none => none
    | some n =>
      if n - 1 = 0 then
        match (if h.owner then deleteStream s h.is else some s) with
        | none => none
        | some s => some { s with cnt := put s.cnt c none, hs := put s.hs i (some null) }
      else some { s with cnt := put s.cnt c (some (n - 1)), hs := put s.hs i (some null) }

/-- `set`, lines 399-405, and the initialisers of the constructors, lines 278-318. -/
def set (s : St) (i : Nat) (is : Option Nat) (own : Bool) : Option St :=
  let h : H := ⟨is, some s.next, own⟩
  addRef { s with hs := put s.hs i (some h), cnt := put s.cnt s.next (some 0), next := s.next + 1 } h

inductive Op where
  /-- `IStreamHandle h;` -/
  | construct (i : Nat)
  /-- `IStreamHandle h(stream);` -/
  | constructRef (i x : Nat)
  /-- `IStreamHandle h(std::unique_ptr<std::istream>(stream));` -/
  | constructOwned (i x : Nat)
  /-- `IStreamHandle h(g);` -/
  | copy (i j : Nat)
  | destroy (i : Nat)
  /-- `h = g;` -/
  | assign (i j : Nat)
  | assignRef (i x : Nat)
  | assignOwned (i x : Nat)
  | release (i : Nat)
  deriving DecidableEq, Repr

/-- A constructor with a counter of its own, lines 278-318. -/
def make (s : St) (i : Nat) (is : Option Nat) (own : Bool) : Option St :=
  match s.hs i with
  | some _ => none
  | none => set s i is own

/-- `removeRef` and `set`: lines 354-390 and 407-414. -/
def renew (s : St) (i : Nat) (is : Option Nat) (own : Bool) : Option St :=
  match s.hs i with
  | none => none
  | some h => match removeRef s i h with
    | none => none
    | some s => set s i is own

def step (s : St) : Op → Option St
  | .construct i => make s i none false
  | .constructRef i x => make s i (some x) false
  | .constructOwned i x => make s i (some x) true
  -- lines 320-328
  | .copy i j => match s.hs i, s.hs j with
    | none, some h => addRef { s with hs := put s.hs i (some h) } h
    | _, _ => none
  -- lines 330-337
  | .destroy i => match s.hs i with
    | none => none
    | some h => match removeRef s i h with
      | none => none
      | some s => some { s with hs := put s.hs i none }
  -- lines 339-352
  | .assign i j => match s.hs i, s.hs j with
    | some hi, some hj => match addRef s hj with
      | none => none
      | some s => match removeRef s i hi with
        | none => none
        | some s => match s.hs j with
          | none => none
          | some r => some { s with hs := put s.hs i (some r) }
    | _, _ => none
  | .assignRef i x => renew s i (some x) false
  | .assignOwned i x => renew s i (some x) true
  | .release i => renew s i none false

def run (s : St) : List Op → Option St
  | [] => some s
  | op :: ops => match step s op with
    | none => none
    | some s => run s ops

/-- `get`, lines 392-396. -/
def get (s : St) (i : Nat) : Option Nat :=
  match s.hs i with
  | none => none
  | some h => h.is

end Verif.IStreamHandle
