import Verif.Model.XsltSort
set_option autoImplicit false
/-!
# XSLT 1.0, section 10: sorting
-/
namespace Verif.Spec.XsltSort
open Verif.XPath (Num)
open Verif.Xslt (Key)

/-- The order of numbers for sorting: NaN is before all others. -/
def numBefore : Num → Num → Prop
  | .nan, .nan => False
  | .nan, _ => True
  | _, .nan => False
  | .ninf, .ninf => False
  | .ninf, _ => True
  | _, .ninf => False
  | .pinf, _ => False
  | _, .pinf => True
  | .fin a, .fin b => a < b

/-- `a` and `b` have the same value for one sort key. -/
def SameKey {α : Type} (k : Key α) (a b : α) : Prop :=
  if k.number then k.num a = k.num b else k.str a = k.str b

/-- `a` is to come before `b` by one sort key. -/
def KeyBefore {α : Type} (k : Key α) (a b : α) : Prop :=
  match k.number, k.ascending with
  | true, true => numBefore (k.num a) (k.num b)
  | true, false => numBefore (k.num b) (k.num a)
  | false, true => k.str a < k.str b
  | false, false => k.str b < k.str a

/-- `a` and `b` agree in all sort keys. -/
def Tie {α : Type} (keys : List (Key α)) (a b : α) : Prop := ∀ k ∈ keys, SameKey k a b

/-- `a` is to come before `b`: by the first sort key, or they agree in that and it is before by the
others. -/
def Before {α : Type} : List (Key α) → α → α → Prop
  | [], _, _ => False
  | k :: ks, a, b => KeyBefore k a b ∨ (SameKey k a b ∧ Before ks a b)

/-- Section 10: the nodes of `l`, sorted. None is before another that is to come before it, and those that agree in all
sort keys stay in the order they had. -/
structure Arranged {α : Type} (keys : List (Key α)) (l l' : List α) : Prop where
  perm : l'.Perm l
  order : l'.Pairwise fun a b => ¬ Before keys b a
  stable : ∀ x ∈ l, ∀ p : α → Bool, (∀ a ∈ l, p a = true ↔ Tie keys x a) → l'.filter p = l.filter p

end Verif.Spec.XsltSort
