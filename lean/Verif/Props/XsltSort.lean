import Verif.Lemmas.XsltSort
set_option autoImplicit false
/-!
# C46: xsl:sort
-/
namespace Verif.Props.XsltSort
open Verif.Xslt Verif.Spec.XsltSort Verif.XPath
variable {α : Type}

/-- C46: the result is a permutation of the nodes; no node comes after one it is to come before by the
sort keys; the nodes that agree in all keys with any one keep their order. -/
theorem C46_sort (keys : List (Key α)) (nodes : List α) :
    (stableSort keys nodes).Perm nodes ∧
    (stableSort keys nodes).Pairwise (fun a b => ¬ Before keys b a) ∧
    ∀ (x : α) (p : α → Bool), (∀ a, p a = true ↔ Tie keys x a) →
      (stableSort keys nodes).filter p = nodes.filter p :=
  ⟨sort_perm _ _, sort_sorted keys nodes, fun x p hp =>
    sort_stable keys nodes p fun a b ha hb =>
      tie_trans keys _ _ _ (tie_symm keys _ _ ((hp a).mp ha)) ((hp b).mp hb)⟩

/-- C46: the comparison handed to `std::stable_sort` is the order of the specification, and that is a
strict weak order, as `std::stable_sort` requires: two nodes agree in all keys or one is before the
other, never both. -/
theorem C46_order (keys : List (Key α)) (a b c : α) :
    (sortLess keys a b = true ↔ Before keys a b) ∧ ¬ Before keys a a ∧
    (Before keys a b → Before keys b c → Before keys a c) ∧
    (Tie keys a b ∨ Before keys a b ∨ Before keys b a) ∧ (Tie keys a b → ¬ Before keys a b) ∧
    (Tie keys a b → (Before keys b c → Before keys a c)) :=
  ⟨sortLess_iff keys a b, before_irrefl keys a, before_trans keys a b c, before_total keys a b,
    tie_not_before keys a b, tie_before_left keys a b c⟩

/-- Two keys, a number descending and a string ascending; NaN goes last. -/
def exKeys : List (Key (Num × List Char)) :=
  [⟨true, false, Prod.fst, Prod.snd⟩, ⟨false, true, Prod.fst, Prod.snd⟩]

example : stableSort exKeys
    [(.nan, ['x']), (.fin 1, ['b']), (.pinf, ['z']), (.fin 1, ['a']), (.nan, ['c'])] =
    [(.pinf, ['z']), (.fin 1, ['a']), (.fin 1, ['b']), (.nan, ['c']), (.nan, ['x'])] := by
  decide +kernel

end Verif.Props.XsltSort
