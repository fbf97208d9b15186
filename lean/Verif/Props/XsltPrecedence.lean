import Verif.Lemmas.XsltPrecedence
set_option autoImplicit false
/-!
# C44: import precedence
-/
namespace Verif.Props.XsltPrecedence
open Verif.Xslt Verif.Spec.Xslt

/-- C44: the comparison of precedences is a strict total order, and `>` is its converse. -/
theorem C44_order (a b c : List Int) :
    precLt a a = false ∧
    (precLt a b = true → precLt b c = true → precLt a c = true) ∧
    (a ≠ b → precLt a b = true ∨ precLt b a = true) ∧
    (precGt a b = true ↔ precLt b a = true) :=
  ⟨precLt_irrefl a, precLt_trans a b c, fun h => (precLt_total a b).resolve_left h, precGt_iff a b⟩

/-- C44: for every import tree, reading the stylesheets gives precedences that increase strictly along
the post-order of the tree: an importing stylesheet is above all it imports, a later import above
everything an earlier one brings in, and no two are equal. -/
theorem C44_imports (s : Sheet) :
    ((readSheet initialPrecedence s).reverse.map Prod.fst = postorder s) ∧
    (readSheet initialPrecedence s).reverse.Pairwise (fun a b => precLt a.2 b.2 = true) := by
  constructor
  · rw [List.map_reverse, read_postorder, List.reverse_reverse]
  · rw [List.pairwise_reverse]
    exact read_sorted _ s

/-- Not vacuous: 0 imports 1 and 2; 1 imports 3 and 4; 2 imports 5. -/
example :
    readSheet initialPrecedence
      (.mk 0 (.cons (.mk 1 (.cons (.mk 3 .nil) (.cons (.mk 4 .nil) .nil)))
        (.cons (.mk 2 (.cons (.mk 5 .nil) .nil)) .nil))) =
      [(0, [0]), (2, [0, 2]), (5, [0, 2, 1]), (1, [0, 1]), (4, [0, 1, 2]), (3, [0, 1, 1])] := by
  simp [readSheet, readImports, initialPrecedence, nextGeneration]

/-- C44: what is below a stylesheet in the import tree is exactly what `is_descendant` accepts: its
numbers extend those of the importing one; everything is below the frozen precedence used for
`xsl:apply-templates`. -/
theorem C44_descendant (a b : List Int) :
    (isDescendant a b = true ↔ ∃ c, c ≠ [] ∧ b = a ++ c) ∧
    (isDescendant a b = true → precLt b a = true) ∧
    (isDescendant frozenPrecedence.prec b = true ↔ b ≠ []) := by
  refine ⟨isDescendant_iff a b, ?_, ?_⟩
  · intro h
    obtain ⟨c, hc, rfl⟩ := (isDescendant_iff a b).mp h
    have := precLt_append a c []
    rw [List.append_nil] at this
    rw [this]
    cases c with
    | nil => exact absurd rfl hc
    | cons x xs => exact precLt_nil_right x xs
  · rw [isDescendant_iff]
    simp [frozenPrecedence]

end Verif.Props.XsltPrecedence
