import Verif.Model.Socket
set_option autoImplicit false
/-!
# What reading from and writing to a connection should do
-/
namespace Verif.Spec.Socket
open Verif.Socket (Op Given)

/-- The bytes that arrive on a connection: all that `recv` gives, to the end of the connection or to an error. -/
def arriving : List (Option (List UInt8)) → List UInt8
  | [] => []
  | none :: _ => []
  | some [] :: _ => []
  | some (c :: cs) :: r => c :: cs ++ arriving r

/-- The bytes that are put. -/
def written : List Op → List UInt8
  | [] => []
  | .put c :: os => c :: written os
  | _ :: os => written os

/-- The gets and ungets only. -/
def reading : List Op → List Op
  | [] => []
  | .get :: os => .get :: reading os
  | .unget :: os => .unget :: reading os
  | _ :: os => reading os

/-- What gets and ungets give. -/
def bytes : List Given → List (Option UInt8)
  | [] => []
  | .byte c :: rs => c :: bytes rs
  | .ok _ :: rs => bytes rs

/-- Reading `cs` one byte at a time from the place `pos`, when `far` have been read already: getting gives the next
byte, or none at the end; putting back gives the one before, and may fail only at the beginning and if four
bytes have been put back since the last one read for the first time. -/
inductive Cursor (cs : List UInt8) : Nat → Nat → List Op → List (Option UInt8) → Prop
  | nil (pos far : Nat) : Cursor cs pos far [] []
  | next {pos far : Nat} {as : List Op} {rs : List (Option UInt8)} {c : UInt8} : cs[pos]? = some c →
      Cursor cs (pos + 1) (max far (pos + 1)) as rs → Cursor cs pos far (.get :: as) (some c :: rs)
  | last {pos far : Nat} {as : List Op} {rs : List (Option UInt8)} : pos = cs.length →
      Cursor cs pos far as rs → Cursor cs pos far (.get :: as) (none :: rs)
  | back {pos far : Nat} {as : List Op} {rs : List (Option UInt8)} {c : UInt8} : cs[pos]? = some c →
      Cursor cs pos far as rs → Cursor cs (pos + 1) far (.unget :: as) (some c :: rs)
  | stop {pos far : Nat} {as : List Op} {rs : List (Option UInt8)} : pos = 0 ∨ pos + 4 ≤ far →
      Cursor cs pos far as rs → Cursor cs pos far (.unget :: as) (none :: rs)

/-- Right to the end: as `Cursor` says, to the first get that finds the end, and nothing after that. -/
def ToTheEnd (cs : List UInt8) (pos far : Nat) (as : List Op) (rs : List (Option UInt8)) : Prop :=
  Cursor cs pos far as rs ∨
  ∃ as1 as2 rs1, as = as1 ++ .get :: as2 ∧ rs = rs1 ++ none :: List.replicate as2.length none ∧
    Cursor cs pos far (as1 ++ [.get]) (rs1 ++ [none])

/-- Pieces of at least four bytes each, as `recv` gives them to a buffer of 1024. -/
def Big (rs : List (Option (List UInt8))) : Prop := ∀ c, some c ∈ rs → c = [] ∨ 4 ≤ c.length ∧ c.length ≤ 1024

/-- Nothing of this ends the connection. -/
def Stays (os : List Op) : Prop := .close ∉ os ∧ .connect ∉ os

end Verif.Spec.Socket
