import Verif.Model.ConvertAdaptor
import Verif.Spec.Utf8
set_option autoImplicit false
/-!
# What reading and writing through a conversion should do
-/
namespace Verif.Spec.ConvertAdaptor
open Verif.ConvertAdaptor (Act Op)

/-- Reading `cs` one character at a time from the place `pos`, when `far` have been read already: getting gives the next
character, or none at the end; putting back gives the one before, and may fail only at the beginning and
if four characters have been put back since the last one read for the first time. -/
inductive Cursor {β : Type} (cs : List β) : Nat → Nat → List Act → List (Option β) → Prop
  | nil (pos far : Nat) : Cursor cs pos far [] []
  | next {pos far : Nat} {as : List Act} {rs : List (Option β)} {c : β} : cs[pos]? = some c →
      Cursor cs (pos + 1) (max far (pos + 1)) as rs → Cursor cs pos far (.get :: as) (some c :: rs)
  | last {pos far : Nat} {as : List Act} {rs : List (Option β)} : pos = cs.length →
      Cursor cs pos far as rs → Cursor cs pos far (.get :: as) (none :: rs)
  | back {pos far : Nat} {as : List Act} {rs : List (Option β)} {c : β} : cs[pos]? = some c →
      Cursor cs pos far as rs → Cursor cs (pos + 1) far (.unget :: as) (some c :: rs)
  | stop {pos far : Nat} {as : List Act} {rs : List (Option β)} : pos = 0 ∨ pos + 4 ≤ far →
      Cursor cs pos far as rs → Cursor cs pos far (.unget :: as) (none :: rs)

/-- Everything written. -/
def written {β : Type} : List (Op β) → List β
  | [] => []
  | .write cs :: ops => cs ++ written ops
  | .flush :: ops => written ops

/-- The pieces between flushes. -/
def pieces {β : Type} : List (Op β) → List β → List (List β)
  | [], cur => [cur]
  | .write cs :: ops, cur => pieces ops (cur ++ cs)
  | .flush :: ops, cur => cur :: pieces ops []

end Verif.Spec.ConvertAdaptor
