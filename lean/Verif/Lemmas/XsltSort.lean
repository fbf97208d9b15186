import Verif.Spec.XsltSort
set_option autoImplicit false
set_option linter.unusedSimpArgs false
set_option linter.unusedVariables false
/-! Lemmas about sorting. -/
namespace Verif.Xslt
open Verif.XPath (Num)
open Verif.Spec.XsltSort
variable {α : Type}

theorem numBefore_irrefl (a : Num) : ¬ numBefore a a := by
  cases a <;> simp [numBefore, Rat.lt_irrefl]

theorem numBefore_trans (a b c : Num) (h1 : numBefore a b) (h2 : numBefore b c) : numBefore a c := by
  cases a <;> cases b <;> cases c <;> simp_all [numBefore]
  grind

theorem numBefore_total (a b : Num) : a = b ∨ numBefore a b ∨ numBefore b a := by
  cases a <;> cases b <;> simp_all [numBefore]
  grind

theorem keyBefore_irrefl (k : Key α) (a : α) : ¬ KeyBefore k a a := by
  unfold KeyBefore
  split
  · exact numBefore_irrefl _
  · exact numBefore_irrefl _
  · exact List.lt_irrefl _
  · exact List.lt_irrefl _

theorem keyBefore_trans (k : Key α) (a b c : α) (h1 : KeyBefore k a b) (h2 : KeyBefore k b c) :
    KeyBefore k a c := by
  unfold KeyBefore at *
  split <;> rename_i h h' <;> simp only [h, h'] at h1 h2
  · exact numBefore_trans _ _ _ h1 h2
  · exact numBefore_trans _ _ _ h2 h1
  · exact List.lt_trans h1 h2
  · exact List.lt_trans h2 h1

theorem str_total (a b : List Char) : a = b ∨ a < b ∨ b < a := by
  by_cases h : a < b
  · exact Or.inr (Or.inl h)
  · by_cases h' : b < a
    · exact Or.inr (Or.inr h')
    · exact Or.inl (List.le_antisymm (List.not_lt.mp h') (List.not_lt.mp h))

theorem keyBefore_total (k : Key α) (a b : α) : SameKey k a b ∨ KeyBefore k a b ∨ KeyBefore k b a := by
  unfold KeyBefore SameKey
  cases k.number <;> cases k.ascending <;> simp
  · have := str_total (k.str a) (k.str b); grind
  · exact str_total _ _
  · have := numBefore_total (k.num a) (k.num b); grind
  · exact numBefore_total _ _

theorem sameKey_refl (k : Key α) (a : α) : SameKey k a a := by unfold SameKey; split <;> rfl

theorem sameKey_symm (k : Key α) (a b : α) (h : SameKey k a b) : SameKey k b a := by
  unfold SameKey at *; split <;> simp_all

theorem sameKey_trans (k : Key α) (a b c : α) (h : SameKey k a b) (h' : SameKey k b c) : SameKey k a c := by
  unfold SameKey at *; split <;> simp_all

theorem keyBefore_same_left (k : Key α) (a b c : α) (h : SameKey k a b) (h' : KeyBefore k b c) :
    KeyBefore k a c := by
  unfold SameKey at h; unfold KeyBefore at *
  split <;> rename_i h1 h2 <;> simp_all

theorem keyBefore_same_right (k : Key α) (a b c : α) (h : KeyBefore k a b) (h' : SameKey k b c) :
    KeyBefore k a c := by
  unfold SameKey at h'; unfold KeyBefore at *
  split <;> rename_i h1 h2 <;> simp_all

theorem before_irrefl (ks : List (Key α)) (a : α) : ¬ Before ks a a := by
  induction ks with
  | nil => simp [Before]
  | cons k ks ih =>
    rw [Before]
    rintro (h | ⟨_, h⟩)
    · exact keyBefore_irrefl k a h
    · exact ih h

theorem before_trans (ks : List (Key α)) (a b c : α) (h1 : Before ks a b) (h2 : Before ks b c) :
    Before ks a c := by
  induction ks with
  | nil => simp [Before] at h1
  | cons k ks ih =>
    rw [Before] at *
    rcases h1 with h1 | ⟨e1, h1⟩
    · rcases h2 with h2 | ⟨e2, h2⟩
      · exact Or.inl (keyBefore_trans k _ _ _ h1 h2)
      · exact Or.inl (keyBefore_same_right k _ _ _ h1 e2)
    · rcases h2 with h2 | ⟨e2, h2⟩
      · exact Or.inl (keyBefore_same_left k _ _ _ e1 h2)
      · exact Or.inr ⟨sameKey_trans k _ _ _ e1 e2, ih h1 h2⟩

theorem before_total (ks : List (Key α)) (a b : α) : Tie ks a b ∨ Before ks a b ∨ Before ks b a := by
  induction ks with
  | nil => exact Or.inl (by simp [Tie])
  | cons k ks ih =>
    rw [Before, Before]
    rcases keyBefore_total k a b with h | h | h
    · rcases ih with ih | ih | ih
      · refine Or.inl ?_
        intro k' hk'
        rcases List.mem_cons.mp hk' with rfl | hk'
        · exact h
        · exact ih _ hk'
      · exact Or.inr (Or.inl (Or.inr ⟨h, ih⟩))
      · exact Or.inr (Or.inr (Or.inr ⟨sameKey_symm k _ _ h, ih⟩))
    · exact Or.inr (Or.inl (Or.inl h))
    · exact Or.inr (Or.inr (Or.inl h))

theorem tie_symm (ks : List (Key α)) (a b : α) (h : Tie ks a b) : Tie ks b a :=
  fun k hk => sameKey_symm k _ _ (h k hk)

theorem tie_trans (ks : List (Key α)) (a b c : α) (h : Tie ks a b) (h' : Tie ks b c) : Tie ks a c :=
  fun k hk => sameKey_trans k _ _ _ (h k hk) (h' k hk)

theorem tie_not_before (ks : List (Key α)) (a b : α) (h : Tie ks a b) : ¬ Before ks a b := by
  induction ks with
  | nil => simp [Before]
  | cons k ks ih =>
    rw [Before]
    rintro (h' | ⟨_, h'⟩)
    · exact keyBefore_irrefl k a
        (keyBefore_same_right k _ _ _ h' (sameKey_symm k _ _ (h k (by simp))))
    · exact ih (fun k' hk' => h k' (List.mem_cons_of_mem _ hk')) h'

theorem tie_before_left (ks : List (Key α)) (a b c : α) (h : Tie ks a b) (h' : Before ks b c) :
    Before ks a c := by
  induction ks with
  | nil => simp [Before] at h'
  | cons k ks ih =>
    rw [Before] at *
    rcases h' with h' | ⟨e, h'⟩
    · exact Or.inl (keyBefore_same_left k _ _ _ (h k (by simp)) h')
    · exact Or.inr ⟨sameKey_trans k _ _ _ (h k (by simp)) e,
        ih (fun k' hk' => h k' (List.mem_cons_of_mem _ hk')) h'⟩

theorem before_neg_trans (ks : List (Key α)) (a b c : α) (h1 : ¬ Before ks b a) (h2 : ¬ Before ks c b) :
    ¬ Before ks c a := by
  intro h
  rcases before_total ks a b with t | t | t
  · exact h2 (by
      have := tie_before_left ks b a c (tie_symm ks _ _ t)
      rcases before_total ks b c with u | u | u
      · exact absurd h (tie_not_before ks _ _ (tie_symm ks _ _ (tie_trans ks _ _ _ t u)))
      · exact absurd (before_trans ks _ _ _ u h) h1
      · exact u)
  · exact h2 (before_trans ks _ _ _ h t)
  · exact h1 t

theorem num_eq_iff (a b : Num) : ((a.isNaN && b.isNaN) || a.eq b) = true ↔ a = b := by
  cases a <;> cases b <;> simp [Num.isNaN, Num.eq]

theorem numLt_iff (a b : Num) (ha : a.isNaN = false) (hb : b.isNaN = false) :
    a.lt b = true ↔ numBefore a b := by
  cases a <;> cases b <;> simp_all [Num.isNaN, Num.lt, numBefore]

theorem sortLess_iff (ks : List (Key α)) (a b : α) : sortLess ks a b = true ↔ Before ks a b := by
  induction ks with
  | nil => simp [sortLess, Before]
  | cons k ks ih =>
    have hlast : ks.isEmpty = true → ¬ Before ks a b := by
      intro h; rw [List.isEmpty_iff.mp h]; simp [Before]
    rw [sortLess, Before]
    cases hn : k.number with
    | true =>
      simp only [if_true, hn]
      by_cases he : k.num a = k.num b
      · have hs : SameKey k a b := by simp [SameKey, hn, he]
        have hnb : ¬ KeyBefore k a b := fun h =>
          keyBefore_irrefl k a (keyBefore_same_right k _ _ _ h (sameKey_symm k _ _ hs))
        rw [(num_eq_iff _ _).mpr he]
        cases hks : ks.isEmpty with
        | false => simp [ih, hnb, hs]
        | true =>
          have := hlast hks
          rw [he]
          simp only [Bool.true_and, Bool.not_true, Bool.false_eq_true, if_false, Bool.or_self, hnb, hs,
            this, and_false, or_false, iff_false]
          cases hnan : (k.num b).isNaN with
          | true => simp [nanCompare, hnan]
          | false =>
            simp only [Bool.false_eq_true, if_false, numCompare]
            have hi := numBefore_irrefl (k.num b)
            rw [← numLt_iff _ _ hnan hnan] at hi
            simp [hi]
      · have hs : ¬ SameKey k a b := by simp [SameKey, hn, he]
        have hf : ((((k.num a).isNaN && (k.num b).isNaN) || (k.num a).eq (k.num b))) = false := by
          rw [← Bool.not_eq_true, num_eq_iff]; exact he
        rw [hf]
        simp only [Bool.false_and, Bool.false_eq_true, if_false, hs, false_and, or_false]
        unfold KeyBefore
        rw [hn]
        have hfa : ¬ ((k.num a).isNaN = true ∧ (k.num b).isNaN = true) := by
          rintro ⟨h1, h2⟩
          exact he ((num_eq_iff _ _).mp (by simp [h1, h2]))
        cases hna : (k.num a).isNaN <;> cases hnb : (k.num b).isNaN
        · cases k.ascending <;> simp [numCompare, numLt_iff _ _ hna hnb, numLt_iff _ _ hnb hna]
        · have : k.num b = .nan := by cases h : k.num b <;> simp_all [Num.isNaN]
          cases k.ascending <;> simp [nanCompare, this] <;> cases h : k.num a <;>
            simp_all [numBefore, Num.isNaN]
        · have : k.num a = .nan := by cases h : k.num a <;> simp_all [Num.isNaN]
          cases k.ascending <;> simp [nanCompare, this] <;> cases h : k.num b <;>
            simp_all [numBefore, Num.isNaN]
        · exact absurd ⟨hna, hnb⟩ hfa
    | false =>
      simp only [Bool.false_eq_true, if_false]
      by_cases he : k.str a = k.str b
      · have hs : SameKey k a b := by simp [SameKey, hn, he]
        have hnb : ¬ KeyBefore k a b := fun h =>
          keyBefore_irrefl k a (keyBefore_same_right k _ _ _ h (sameKey_symm k _ _ hs))
        cases hks : ks.isEmpty with
        | false => simp [ih, hnb, hs, he]
        | true =>
          have := hlast hks
          simp [he, hnb, hs, this, strCompare, List.lt_irrefl]
      · have hs : ¬ SameKey k a b := by simp [SameKey, hn, he]
        simp only [he, decide_false, Bool.false_and, Bool.false_eq_true, if_false, hs, false_and, or_false]
        unfold KeyBefore strCompare
        rw [hn]
        cases k.ascending <;> simp

theorem insert_perm (ks : List (Key α)) (a : α) : ∀ l : List α, (insertNode ks a l).Perm (a :: l)
  | [] => .refl _
  | b :: l => by
    rw [insertNode]
    split
    · exact ((insert_perm ks a l).cons b).trans (.swap a b l)
    · exact .refl _

theorem sort_perm (ks : List (Key α)) : ∀ l : List α, (stableSort ks l).Perm l
  | [] => .refl _
  | a :: l => (insert_perm ks a _).trans ((sort_perm ks l).cons a)

theorem insert_sorted (ks : List (Key α)) (a : α) : ∀ l : List α, l.Pairwise (fun a b => ¬ Before ks b a) →
    (insertNode ks a l).Pairwise (fun a b => ¬ Before ks b a)
  | [], _ => by simp [insertNode]
  | b :: l, h => by
    rw [List.pairwise_cons] at h
    rw [insertNode]
    split
    · rename_i hb
      rw [sortLess_iff] at hb
      refine List.pairwise_cons.2 ⟨fun c hc => ?_, insert_sorted ks a l h.2⟩
      rcases List.mem_cons.1 ((insert_perm ks a l).mem_iff.1 hc) with rfl | hc
      · exact fun h' => before_irrefl ks b (before_trans ks _ _ _ hb h')
      · exact h.1 c hc
    · rename_i hb
      rw [sortLess_iff] at hb
      refine List.pairwise_cons.2 ⟨fun c hc => ?_, List.pairwise_cons.2 h⟩
      rcases List.mem_cons.1 hc with rfl | hc
      · exact hb
      · exact before_neg_trans ks _ _ _ hb (h.1 c hc)

theorem sort_sorted (ks : List (Key α)) : ∀ l : List α, (stableSort ks l).Pairwise (fun a b => ¬ Before ks b a)
  | [] => .nil
  | a :: l => insert_sorted ks a _ (sort_sorted ks l)

theorem insert_filter (ks : List (Key α)) (a : α) (p : α → Bool)
    (hp : ∀ a b, p a = true → p b = true → Tie ks a b) : ∀ l : List α, (insertNode ks a l).filter p = (a :: l).filter p
  | [] => rfl
  | b :: l => by
    rw [insertNode]
    split
    · rename_i hb
      rw [sortLess_iff] at hb
      rw [List.filter_cons, insert_filter ks a p hp l, List.filter_cons, List.filter_cons, List.filter_cons]
      cases ha : p a with
      | false => simp
      | true =>
        cases hb' : p b with
        | false => simp
        | true => exact absurd hb (tie_not_before ks _ _ (hp _ _ hb' ha))
    · rfl

theorem sort_stable (ks : List (Key α)) (l : List α) (p : α → Bool)
    (hp : ∀ a b, p a = true → p b = true → Tie ks a b) : (stableSort ks l).filter p = l.filter p := by
  induction l with
  | nil => rfl
  | cons a l ih => rw [stableSort, insert_filter ks a p hp, List.filter_cons, ih, ← List.filter_cons]

end Verif.Xslt
