import Verif.Model.XsltPrecedence
import Verif.Spec.Xslt
set_option autoImplicit false
set_option linter.unusedSimpArgs false
set_option linter.unusedVariables false
/-! Lemmas about import precedence. -/
namespace Verif.Xslt
open Verif.Spec.Xslt (postorder postorders)

theorem precLt_nil_left (r : List Int) : precLt [] r = false := by
  unfold precLt
  cases r with
  | nil => simp
  | cons => simp [ltLoop]

theorem precLt_nil_right (a : Int) (l : List Int) : precLt (a :: l) [] = true := by
  simp [precLt, ltLoop]

theorem precLt_cons (a b : Int) (l r : List Int) :
    precLt (a :: l) (b :: r) = true ↔ a < b ∨ (a = b ∧ precLt l r = true) := by
  unfold precLt
  by_cases hab : a < b
  · have : a ≠ b := by omega
    simp [ltLoop, hab, this]
  · by_cases hba : b < a
    · have : a ≠ b := by omega
      simp [ltLoop, hab, hba, this]
    · have : a = b := by omega
      subst this
      simp only [ltLoop, hab, if_false, List.cons.injEq, true_and, List.length_cons,
        Nat.add_lt_add_iff_right, false_or, gt_iff_lt]

theorem precLt_irrefl (l : List Int) : precLt l l = false := by simp [precLt]

theorem precLt_trans (a b c : List Int) (h1 : precLt a b = true) (h2 : precLt b c = true) :
    precLt a c = true := by
  induction a generalizing b c with
  | nil => rw [precLt_nil_left] at h1; cases h1
  | cons x xs ih =>
    cases c with
    | nil => exact precLt_nil_right x xs
    | cons z zs =>
      cases b with
      | nil => rw [precLt_nil_left] at h2; cases h2
      | cons y ys =>
        rw [precLt_cons] at h1 h2 ⊢
        rcases h1 with h1 | ⟨rfl, h1⟩
        · rcases h2 with h2 | ⟨rfl, h2⟩
          · exact Or.inl (by omega)
          · exact Or.inl h1
        · rcases h2 with h2 | ⟨rfl, h2⟩
          · exact Or.inl h2
          · exact Or.inr ⟨rfl, ih _ _ h1 h2⟩

theorem precLt_total (a b : List Int) : a = b ∨ precLt a b = true ∨ precLt b a = true := by
  induction a generalizing b with
  | nil =>
    cases b with
    | nil => exact Or.inl rfl
    | cons y ys => exact Or.inr (Or.inr (precLt_nil_right y ys))
  | cons x xs ih =>
    cases b with
    | nil => exact Or.inr (Or.inl (precLt_nil_right x xs))
    | cons y ys =>
      rw [precLt_cons, precLt_cons]
      by_cases h : x < y
      · exact Or.inr (Or.inl (Or.inl h))
      · by_cases h' : y < x
        · exact Or.inr (Or.inr (Or.inl h'))
        · have : x = y := by omega
          subst this
          rcases ih ys with rfl | h | h
          · exact Or.inl rfl
          · exact Or.inr (Or.inl (Or.inr ⟨rfl, h⟩))
          · exact Or.inr (Or.inr (Or.inr ⟨rfl, h⟩))

theorem precGt_iff (a b : List Int) : precGt a b = true ↔ precLt b a = true := by
  unfold precGt
  rcases precLt_total a b with rfl | h | h
  · simp [precLt_irrefl]
  · have hne : a ≠ b := by rintro rfl; rw [precLt_irrefl] at h; cases h
    have : precLt b a = false := by
      cases hb : precLt b a with
      | false => rfl
      | true =>
        have := precLt_trans _ _ _ h hb
        rw [precLt_irrefl] at this; cases this
    simp [h, this]
  · have hne : a ≠ b := by rintro rfl; rw [precLt_irrefl] at h; cases h
    have : precLt a b = false := by
      cases hb : precLt a b with
      | false => rfl
      | true =>
        have := precLt_trans _ _ _ h hb
        rw [precLt_irrefl] at this; cases this
    simp [h, this, hne]

theorem precLt_append (p : List Int) (l r : List Int) : precLt (p ++ l) (p ++ r) = precLt l r := by
  induction p with
  | nil => rfl
  | cons a p ih =>
    rw [Bool.eq_iff_iff, List.cons_append, List.cons_append, precLt_cons]
    simp [ih]

theorem samePlaces_iff (a b : List Int) (h : a.length < b.length) :
    samePlaces a b = true ↔ ∃ c, c ≠ [] ∧ b = a ++ c := by
  induction a generalizing b with
  | nil =>
    simp only [samePlaces, List.nil_append, true_iff]
    exact ⟨b, by rintro rfl; simp at h, rfl⟩
  | cons x xs ih =>
    cases b with
    | nil => simp at h
    | cons y ys =>
      simp only [samePlaces]
      by_cases hxy : y = x
      · subst hxy
        simp only [ne_eq, not_true_eq_false, if_false]
        rw [ih ys (by simpa using h)]
        simp
      · simp only [ne_eq, hxy, not_false_eq_true, if_true, Bool.false_eq_true, false_iff]
        rintro ⟨c, _, hc⟩
        exact hxy (List.cons.inj hc).1

theorem isDescendant_iff (a b : List Int) : isDescendant a b = true ↔ ∃ c, c ≠ [] ∧ b = a ++ c := by
  unfold isDescendant
  split
  · rename_i h
    simp only [Bool.false_eq_true, false_iff]
    rintro ⟨c, hc, rfl⟩
    have : c.length ≠ 0 := by simpa using hc
    simp only [List.length_append] at h
    omega
  · exact samePlaces_iff a b (by omega)

/-- All precedences of a read stylesheet extend its own. -/
def Below (p : List Int) (x : Nat × List Int) : Prop := ∃ c, x.2 = p ++ c

mutual
theorem read_below (p : Precedence) (s : Sheet) : ∀ x ∈ readSheet p s, Below p.prec x := by
  cases s with
  | mk id imports =>
    intro x hx
    rw [readSheet] at hx
    rcases List.mem_cons.mp hx with rfl | hx
    · exact ⟨[], by simp⟩
    · obtain ⟨k, c, _, h⟩ := imports_below p imports x hx
      exact ⟨_, h⟩
theorem imports_below (p : Precedence) (s : Sheets) :
    ∀ x ∈ readImports p s, ∃ k c, p.children < k ∧ x.2 = p.prec ++ k :: c := by
  cases s with
  | nil => intro x hx; simp [readImports] at hx
  | cons s rest =>
    intro x hx
    rw [readImports] at hx
    rcases List.mem_append.mp hx with hx | hx
    · obtain ⟨k, c, hk, h⟩ := imports_below (nextGeneration p).1 rest x hx
      exact ⟨k, c, by simp [nextGeneration] at hk; omega, h⟩
    · obtain ⟨c, h⟩ := read_below (nextGeneration p).2 s x hx
      refine ⟨p.children + 1, c, by omega, ?_⟩
      rw [h]; simp [nextGeneration]
end

mutual
theorem read_sorted (p : Precedence) (s : Sheet) :
    (readSheet p s).Pairwise (fun a b => precLt b.2 a.2 = true) := by
  cases s with
  | mk id imports =>
    rw [readSheet, List.pairwise_cons]
    refine ⟨?_, imports_sorted p imports⟩
    intro x hx
    obtain ⟨k, c, _, h⟩ := imports_below p imports x hx
    rw [h]
    have := precLt_append p.prec (k :: c) []
    rw [List.append_nil] at this
    rw [this]
    exact precLt_nil_right _ _
theorem imports_sorted (p : Precedence) (s : Sheets) :
    (readImports p s).Pairwise (fun a b => precLt b.2 a.2 = true) := by
  cases s with
  | nil => simp [readImports]
  | cons s rest =>
    rw [readImports, List.pairwise_append]
    refine ⟨imports_sorted _ rest, read_sorted _ s, ?_⟩
    intro a ha b hb
    obtain ⟨k, c, hk, h⟩ := imports_below _ rest a ha
    obtain ⟨d, h'⟩ := read_below _ s b hb
    rw [h, h']
    simp only [nextGeneration, List.append_assoc, List.singleton_append] at hk ⊢
    rw [precLt_append, precLt_cons]
    exact Or.inl hk
end

mutual
theorem read_postorder (p : Precedence) (s : Sheet) :
    (readSheet p s).map Prod.fst = (postorder s).reverse := by
  cases s with
  | mk id imports =>
    rw [readSheet, postorder]
    simp [imports_postorder p imports]
theorem imports_postorder (p : Precedence) (s : Sheets) :
    (readImports p s).map Prod.fst = (postorders s).reverse := by
  cases s with
  | nil => simp [readImports, postorders]
  | cons s rest =>
    rw [readImports, postorders]
    simp [imports_postorder _ rest, read_postorder _ s]
end

end Verif.Xslt
