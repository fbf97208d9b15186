import Verif.Model.Dom
import Verif.Spec.Dom
import Verif.Spec.DomHistory
set_option autoImplicit false
set_option linter.unusedSimpArgs false
set_option linter.unusedVariables false
namespace Verif.Dom
open Verif.Spec.Dom (Anc)

def AncEq (par : Id → Option Id) (a c : Id) : Prop := a = c ∨ Anc par a c

structure WFT (kids : Id → List Id) (parent prev next : Id → Option Id) : Prop where
  link : ∀ p l1 c l2, kids p = l1 ++ c :: l2 →
    parent c = some p ∧ prev c = l1.getLast? ∧ next c = l2.head? ∧ c ∉ l1 ∧ c ∉ l2
  orph : ∀ c, parent c = none → prev c = none ∧ next c = none
  par : ∀ c p, parent c = some p → c ∈ kids p
  acyc : ∀ c, ¬ Anc parent c c

/-! ## ancestors -/

theorem anc_trans {par : Id → Option Id} {a b c : Id} (h1 : Anc par a b) (h2 : Anc par b c) :
    Anc par a c := by
  induction h2 with
  | parent c h => exact .above _ _ _ h h1
  | above q c h _ ih => exact .above _ _ _ h ih

theorem anceq_anc {par : Id → Option Id} {a b c : Id} (h1 : AncEq par a b) (h2 : Anc par b c) :
    Anc par a c := by
  rcases h1 with rfl | h1
  · exact h2
  · exact anc_trans h1 h2

theorem anc_anceq {par : Id → Option Id} {a b c : Id} (h1 : Anc par a b) (h2 : AncEq par b c) :
    Anc par a c := by
  rcases h2 with rfl | h2
  · exact h1
  · exact anc_trans h1 h2

theorem anceq_trans {par : Id → Option Id} {a b c : Id} (h1 : AncEq par a b) (h2 : AncEq par b c) :
    AncEq par a c := by
  rcases h2 with rfl | h2
  · exact h1
  · exact Or.inr (anceq_anc h1 h2)

theorem anc_unlink {par : Id → Option Id} {c a x : Id} (h : Anc (upd par c none) a x) : Anc par a x := by
  induction h with
  | parent x h =>
    unfold upd at h
    split at h
    · cases h
    · exact .parent _ _ h
  | above q x h _ ih =>
    unfold upd at h
    split at h
    · cases h
    · exact .above _ _ _ h ih

theorem anc_link {par : Id → Option Id} {c p a x : Id} (hc : par c = none)
    (h : Anc (upd par c (some p)) a x) : Anc par a x ∨ (AncEq par a p ∧ AncEq par c x) := by
  induction h with
  | parent x h =>
    unfold upd at h
    split at h
    · rename_i e; cases h; subst e; exact Or.inr ⟨Or.inl rfl, Or.inl rfl⟩
    · exact Or.inl (.parent _ _ h)
  | above q x h _ ih =>
    unfold upd at h
    split at h
    · rename_i e; cases h; subst e
      rcases ih with ih | ih
      · exact Or.inr ⟨Or.inr ih, Or.inl rfl⟩
      · exact Or.inr ⟨ih.1, Or.inl rfl⟩
    · rcases ih with ih | ⟨i1, i2⟩
      · exact Or.inl (.above _ _ _ h ih)
      · refine Or.inr ⟨i1, Or.inr ?_⟩
        rcases i2 with rfl | i2
        · exact .parent _ _ h
        · exact .above _ _ _ h i2

theorem acyc_link {par : Id → Option Id} {c p : Id} (h : ∀ x, ¬ Anc par x x) (hc : par c = none)
    (hp : ¬ AncEq par c p) : ∀ x, ¬ Anc (upd par c (some p)) x x := by
  intro x hx
  rcases anc_link hc hx with h1 | ⟨h1, h2⟩
  · exact h x h1
  · exact hp (anceq_trans h2 h1)

/-! ## lists -/

theorem eraseChild_some (c : Id) : ∀ l l', eraseChild c l = some l' →
    ∃ l1 l2, l = l1 ++ c :: l2 ∧ c ∉ l1 ∧ l' = l1 ++ l2
  | [], l', h => by simp [eraseChild] at h
  | a :: l, l', h => by
    unfold eraseChild at h
    split at h
    · rename_i e; cases h; subst e; exact ⟨[], l, rfl, by simp, rfl⟩
    · rename_i e
      cases hm : eraseChild c l with
      | none => rw [hm] at h; simp at h
      | some m =>
        rw [hm] at h; simp at h; subst h
        obtain ⟨l1, l2, h1, h2, h3⟩ := eraseChild_some c l m hm
        exact ⟨a :: l1, l2, by simp [h1], by simp [h2, Ne.symm e], by simp [h3]⟩

theorem eraseChild_eq (c : Id) : ∀ l l', eraseChild c l = some l' → l' = l.erase c
  | [], l', h => by simp [eraseChild] at h
  | a :: l, l', h => by
    unfold eraseChild at h
    by_cases e : a = c
    · rw [if_pos e] at h; cases h; simp [e]
    · rw [if_neg e] at h
      cases hm : eraseChild c l with
      | none => rw [hm] at h; simp at h
      | some m =>
        rw [hm] at h; simp at h; subst h
        rw [List.erase_cons_tail (by simpa using e), ← eraseChild_eq c l m hm]

theorem eraseChild_none (c : Id) : ∀ l, eraseChild c l = none ↔ c ∉ l
  | [] => by simp [eraseChild]
  | a :: l => by
    unfold eraseChild
    by_cases e : a = c
    · simp [e]
    · rw [if_neg e]; simp [eraseChild_none c l, Ne.symm e]

theorem insertChild_some (n r : Id) : ∀ l l', insertChild n r l = some l' →
    ∃ l1 l2, l = l1 ++ r :: l2 ∧ r ∉ l1 ∧ l' = l1 ++ n :: r :: l2
  | [], l', h => by simp [insertChild] at h
  | a :: l, l', h => by
    unfold insertChild at h
    split at h
    · rename_i e; cases h; subst e; exact ⟨[], l, rfl, by simp, rfl⟩
    · rename_i e
      cases hm : insertChild n r l with
      | none => rw [hm] at h; simp at h
      | some m =>
        rw [hm] at h; simp at h; subst h
        obtain ⟨l1, l2, h1, h2, h3⟩ := insertChild_some n r l m hm
        exact ⟨a :: l1, l2, by simp [h1], by simp [h2, Ne.symm e], by simp [h3]⟩

theorem insertChild_eq (n r : Id) : ∀ l l', insertChild n r l = some l' → l' = Spec.Dom.before n r l
  | [], l', h => by simp [insertChild] at h
  | a :: l, l', h => by
    unfold insertChild at h
    unfold Spec.Dom.before
    by_cases e : a = r
    · rw [if_pos e] at h ⊢; cases h; rfl
    · rw [if_neg e] at h ⊢
      cases hm : insertChild n r l with
      | none => rw [hm] at h; simp at h
      | some m => rw [hm] at h; simp at h; subst h; rw [← insertChild_eq n r l m hm]

theorem insertChild_none (n r : Id) : ∀ l, insertChild n r l = none ↔ r ∉ l
  | [] => by simp [insertChild]
  | a :: l => by
    unfold insertChild
    by_cases e : a = r
    · simp [e]
    · rw [if_neg e]; simp [insertChild_none n r l, Ne.symm e]

theorem substChild_some (n o : Id) : ∀ l l', substChild n o l = some l' →
    ∃ l1 l2, l = l1 ++ o :: l2 ∧ o ∉ l1 ∧ l' = l1 ++ n :: l2
  | [], l', h => by simp [substChild] at h
  | a :: l, l', h => by
    unfold substChild at h
    split at h
    · rename_i e; cases h; subst e; exact ⟨[], l, rfl, by simp, rfl⟩
    · rename_i e
      cases hm : substChild n o l with
      | none => rw [hm] at h; simp at h
      | some m =>
        rw [hm] at h; simp at h; subst h
        obtain ⟨l1, l2, h1, h2, h3⟩ := substChild_some n o l m hm
        exact ⟨a :: l1, l2, by simp [h1], by simp [h2, Ne.symm e], by simp [h3]⟩

theorem substChild_none (n o : Id) : ∀ l, substChild n o l = none ↔ o ∉ l
  | [] => by simp [substChild]
  | a :: l => by
    unfold substChild
    by_cases e : a = o
    · simp [e]
    · rw [if_neg e]; simp [substChild_none n o l, Ne.symm e]

/-- The two ways to split a list of the form `l1 ++ l2`. -/
theorem split_cases {l1 l2 m1 m2 : List Id} {x : Id} (h : l1 ++ l2 = m1 ++ x :: m2) :
    (∃ k, l1 = m1 ++ x :: k ∧ m2 = k ++ l2) ∨ (∃ k, m1 = l1 ++ k ∧ l2 = k ++ x :: m2) := by
  rcases List.append_eq_append_iff.mp h with ⟨a, h1, h2⟩ | ⟨a, h1, h2⟩
  · exact Or.inr ⟨a, h1, h2⟩
  · cases a with
    | nil => exact Or.inr ⟨[], by simpa using h1.symm, by simpa using h2.symm⟩
    | cons y a =>
      simp only [List.cons_append, List.cons.injEq] at h2
      obtain ⟨rfl, h2⟩ := h2
      exact Or.inl ⟨a, h1, h2⟩

theorem getLast?_mem' {l : List Id} {x : Id} (h : l.getLast? = some x) : x ∈ l := by
  rw [List.getLast?_eq_some_iff] at h
  obtain ⟨k, rfl⟩ := h; simp

theorem head?_mem' {l : List Id} {x : Id} (h : l.head? = some x) : x ∈ l := by
  cases l with
  | nil => cases h
  | cons a l => simp at h; simp [h]

theorem getLast?_append_cons (l1 : List Id) (x : Id) (k : List Id) :
    (l1 ++ x :: k).getLast? = if k = [] then some x else k.getLast? := by
  cases k with
  | nil => simp
  | cons b k => simp [List.getLast?_append, List.getLast?_cons]

/-! ## unlinking -/

theorem wft_unlink {kids kids' : Id → List Id} {parent prev next parent' prev' next' : Id → Option Id}
    {p c : Id} {l1 l2 : List Id} (h : WFT kids parent prev next)
    (hk : kids p = l1 ++ c :: l2)
    (hkids : kids' = upd kids p (l1 ++ l2))
    (hpar : parent' = upd parent c none)
    (hprev : ∀ x, prev' x = if x = c then none else if next c = some x then prev c else prev x)
    (hnext : ∀ x, next' x = if x = c then none else if prev c = some x then next c else next x) :
    WFT kids' parent' prev' next' := by
  obtain ⟨c1, c2, c3, c4, c5⟩ := h.link p l1 c l2 hk
  subst hkids hpar
  refine ⟨?_, ?_, ?_, ?_⟩
  · intro q m1 x m2 hq
    unfold upd at hq
    by_cases e : q = p
    · rw [if_pos e] at hq
      subst e
      rcases split_cases hq with ⟨k, rfl, rfl⟩ | ⟨k, rfl, rfl⟩
      · have hd : kids q = m1 ++ x :: (k ++ c :: l2) := by rw [hk]; simp
        obtain ⟨d1, d2, d3, d4, d5⟩ := h.link _ _ _ _ hd
        simp only [List.mem_append, List.mem_cons, not_or] at d5
        have hxc : x ≠ c := d5.2.1
        have hn : ¬ next c = some x := by
          rw [c3]; intro hh; exact d5.2.2 (head?_mem' hh)
        refine ⟨by simp [upd, hxc, d1], ?_, ?_, d4, by simp [d5.1, d5.2.2]⟩
        · rw [hprev, if_neg hxc, if_neg hn, d2]
        · rw [hnext, if_neg hxc, c2, getLast?_append_cons, c3, d3]
          cases k with
          | nil => simp
          | cons b k =>
            simp only [reduceCtorEq, if_false, List.cons_append, List.head?_cons]
            rw [if_neg]
            intro hh; exact d5.1 (getLast?_mem' hh)
      · have hd : kids q = (l1 ++ c :: k) ++ x :: m2 := by rw [hk]; simp
        obtain ⟨d1, d2, d3, d4, d5⟩ := h.link _ _ _ _ hd
        simp only [List.mem_append, List.mem_cons, not_or] at d4
        have hxc : x ≠ c := d4.2.1
        have hn : ¬ prev c = some x := by
          rw [c2]; intro hh; exact d4.1 (getLast?_mem' hh)
        refine ⟨by simp [upd, hxc, d1], ?_, ?_, by simp [d4.1, d4.2.2], d5⟩
        · rw [hprev, if_neg hxc, c3, d2, c2, getLast?_append_cons]
          cases k with
          | nil => simp
          | cons b k =>
            simp only [List.cons_append, List.head?_cons, Option.some.injEq]
            have : b ≠ x := by intro e; subst e; exact d4.2.2 (by simp)
            rw [if_neg this]
            simp [List.getLast?_append, List.getLast?_cons]
        · rw [hnext, if_neg hxc, if_neg hn, d3]
    · rw [if_neg e] at hq
      obtain ⟨d1, d2, d3, d4, d5⟩ := h.link _ _ _ _ hq
      have hxc : x ≠ c := by
        intro ee; subst ee; rw [c1] at d1; cases d1; exact e rfl
      have hmem : ∀ y, y ∈ kids p → parent y = some p := by
        intro y hy
        obtain ⟨a, b, hab⟩ := List.append_of_mem hy
        exact (h.link _ _ _ _ hab).1
      have hn1 : ¬ next c = some x := by
        rw [c3]; intro hh
        have := hmem x (by rw [hk]; simp [head?_mem' hh])
        rw [d1] at this; cases this; exact e rfl
      have hn2 : ¬ prev c = some x := by
        rw [c2]; intro hh
        have := hmem x (by rw [hk]; simp [getLast?_mem' hh])
        rw [d1] at this; cases this; exact e rfl
      refine ⟨by simp [upd, hxc, d1], ?_, ?_, d4, d5⟩
      · rw [hprev, if_neg hxc, if_neg hn1, d2]
      · rw [hnext, if_neg hxc, if_neg hn2, d3]
  · intro x hx
    unfold upd at hx
    by_cases e : x = c
    · rw [hprev, hnext, if_pos e, if_pos e]; exact ⟨rfl, rfl⟩
    · rw [if_neg e] at hx
      obtain ⟨o1, o2⟩ := h.orph x hx
      have hmem : x ∉ kids p := by
        intro hy
        obtain ⟨a, b, hab⟩ := List.append_of_mem hy
        have := (h.link _ _ _ _ hab).1
        rw [hx] at this; cases this
      have hn1 : ¬ next c = some x := by
        rw [c3]; intro hh
        exact hmem (by rw [hk]; simp [head?_mem' hh])
      have hn2 : ¬ prev c = some x := by
        rw [c2]; intro hh
        exact hmem (by rw [hk]; simp [getLast?_mem' hh])
      rw [hprev, hnext, if_neg e, if_neg e, if_neg hn1, if_neg hn2]; exact ⟨o1, o2⟩
  · intro x q hx
    unfold upd at hx
    split at hx
    · cases hx
    · rename_i e
      have := h.par x q hx
      unfold upd
      split
      · rename_i e2; subst e2; rw [hk] at this
        simp at this ⊢
        rcases this with t | t | t
        · exact Or.inl t
        · exact absurd t e
        · exact Or.inr t
      · exact this
  · intro x hx; exact h.acyc x (anc_unlink hx)

/-! ## linking -/

theorem wft_link {kids kids' : Id → List Id} {parent prev next parent' prev' next' : Id → Option Id}
    {p c : Id} {l1 l2 : List Id} (h : WFT kids parent prev next)
    (hc : parent c = none) (hanc : ¬ AncEq parent c p)
    (hk : kids p = l1 ++ l2)
    (hkids : kids' = upd kids p (l1 ++ c :: l2))
    (hpar : parent' = upd parent c (some p))
    (hprev : ∀ x, prev' x = if x = c then l1.getLast? else if l2.head? = some x then some c else prev x)
    (hnext : ∀ x, next' x = if x = c then l2.head? else if l1.getLast? = some x then some c else next x) :
    WFT kids' parent' prev' next' := by
  have hcn : ∀ q, c ∉ kids q := by
    intro q hq
    obtain ⟨a, b, hab⟩ := List.append_of_mem hq
    have := (h.link _ _ _ _ hab).1
    rw [hc] at this; cases this
  have hmem : ∀ y, y ∈ kids p → parent y = some p := by
    intro y hy
    obtain ⟨a, b, hab⟩ := List.append_of_mem hy
    exact (h.link _ _ _ _ hab).1
  have hcl := hcn p
  rw [hk] at hcl
  simp only [List.mem_append, not_or] at hcl
  subst hkids hpar
  refine ⟨?_, ?_, ?_, acyc_link h.acyc hc hanc⟩
  · intro q m1 x m2 hq
    unfold upd at hq
    by_cases e : q = p
    · rw [if_pos e] at hq
      subst e
      rcases split_cases hq with ⟨k, rfl, rfl⟩ | ⟨k, rfl, hk2⟩
      · have hd : kids q = m1 ++ x :: (k ++ l2) := by rw [hk]; simp
        obtain ⟨d1, d2, d3, d4, d5⟩ := h.link _ _ _ _ hd
        simp only [List.mem_append, not_or] at d5
        have hxc : x ≠ c := by intro e; subst e; exact hcl.1 (by simp)
        have hn : ¬ l2.head? = some x := fun hh => d5.2 (head?_mem' hh)
        refine ⟨by simp [upd, hxc, d1], ?_, ?_, d4, by simp [d5.1, d5.2, hxc]⟩
        · rw [hprev, if_neg hxc, if_neg hn, d2]
        · rw [hnext, if_neg hxc, getLast?_append_cons, d3]
          cases k with
          | nil => simp
          | cons b k =>
            simp only [reduceCtorEq, if_false, List.cons_append, List.head?_cons]
            rw [if_neg]
            intro hh; exact d5.1 (getLast?_mem' hh)
      · cases k with
        | nil =>
          simp only [List.nil_append, List.cons.injEq] at hk2
          obtain ⟨rfl, rfl⟩ := hk2
          refine ⟨by simp [upd], by rw [hprev]; simp, by rw [hnext]; simp, by simpa using hcl.1, hcl.2⟩
        | cons y k =>
          simp only [List.cons_append, List.cons.injEq] at hk2
          obtain ⟨rfl, rfl⟩ := hk2
          have hd : kids q = (l1 ++ k) ++ x :: m2 := by rw [hk]; simp
          obtain ⟨d1, d2, d3, d4, d5⟩ := h.link _ _ _ _ hd
          simp only [List.mem_append, not_or] at d4
          have hxc : x ≠ c := by intro e; subst e; exact hcl.2 (by simp)
          have hn : ¬ l1.getLast? = some x := fun hh => d4.1 (getLast?_mem' hh)
          refine ⟨by simp [upd, hxc, d1], ?_, ?_, by simp [d4.1, d4.2, hxc], d5⟩
          · rw [hprev, if_neg hxc, d2]
            cases k with
            | nil => simp
            | cons b k =>
              simp only [List.cons_append, List.head?_cons, Option.some.injEq]
              have : b ≠ x := by intro e; subst e; exact d4.2 (by simp)
              rw [if_neg this]
              simp [List.getLast?_append, List.getLast?_cons]
          · rw [hnext, if_neg hxc, if_neg hn, d3]
    · rw [if_neg e] at hq
      obtain ⟨d1, d2, d3, d4, d5⟩ := h.link _ _ _ _ hq
      have hxc : x ≠ c := by
        intro ee; subst ee; rw [hc] at d1; cases d1
      have hn1 : ¬ l2.head? = some x := by
        intro hh
        have := hmem x (by rw [hk]; simp [head?_mem' hh])
        rw [d1] at this; cases this; exact e rfl
      have hn2 : ¬ l1.getLast? = some x := by
        intro hh
        have := hmem x (by rw [hk]; simp [getLast?_mem' hh])
        rw [d1] at this; cases this; exact e rfl
      refine ⟨by simp [upd, hxc, d1], ?_, ?_, d4, d5⟩
      · rw [hprev, if_neg hxc, if_neg hn1, d2]
      · rw [hnext, if_neg hxc, if_neg hn2, d3]
  · intro x hx
    unfold upd at hx
    split at hx
    · cases hx
    · rename_i e
      obtain ⟨o1, o2⟩ := h.orph x hx
      have hm : x ∉ kids p := by
        intro hy; have := hmem x hy; rw [hx] at this; cases this
      rw [hk] at hm
      simp only [List.mem_append, not_or] at hm
      have hn1 : ¬ l2.head? = some x := fun hh => hm.2 (head?_mem' hh)
      have hn2 : ¬ l1.getLast? = some x := fun hh => hm.1 (getLast?_mem' hh)
      rw [hprev, hnext, if_neg e, if_neg e, if_neg hn1, if_neg hn2]; exact ⟨o1, o2⟩
  · intro x q hx
    unfold upd at hx
    split at hx
    · rename_i e; cases hx; subst e; simp [upd]
    · have := h.par x q hx
      unfold upd
      split
      · rename_i e2; subst e2; rw [hk] at this
        simp at this ⊢
        rcases this with t | t
        · exact Or.inl t
        · exact Or.inr (Or.inr t)
      · exact this

end Verif.Dom
