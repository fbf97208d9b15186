import Verif.Lemmas.TagList
set_option autoImplicit false
set_option linter.unusedSimpArgs false
set_option linter.unusedVariables false
/-!
# Lemmas: the lists of elements
-/
namespace Verif.TagList
open Verif.Dom
open Verif.Spec.Dom (Anc)
open Verif.Spec.TagList

theorem hit_named {q : Query} (hq : ∀ l, q ≠ .ns [] l) (n : Name) : hit q n = true ↔ Named q n := by
  cases q with
  | tag t =>
    show (decide (t = n.nodeName) || decide (t = star)) = true ↔ (t = ['*'] ∨ n.nodeName = t)
    simp only [Bool.or_eq_true, decide_eq_true_eq]
    exact ⟨fun h => h.symm.imp id Eq.symm, fun h => h.symm.imp Eq.symm id⟩
  | ns u l =>
    have hu : u ≠ [] := fun e => hq l (by rw [e])
    show (if (n.uri.isSome && decide (n.uri = some u)) || decide (u = star) then
      decide (l = n.localName) || decide (l = star) else false) = true ↔
      ((u = ['*'] ∨ n.uri = (if u = [] then none else some u)) ∧ (l = ['*'] ∨ n.localName = l))
    rw [if_neg hu]
    by_cases h1 : u = star
    · have : u = ['*'] := h1
      simp only [h1, decide_true, Bool.or_true, if_true, true_or, true_and, Bool.or_eq_true, decide_eq_true_eq]
      rw [← h1, this]
      simp only [true_or, true_and]
      exact ⟨fun h => h.symm.imp id Eq.symm, fun h => h.symm.imp Eq.symm id⟩
    · have h1' : ¬ u = ['*'] := h1
      by_cases h2 : n.uri = some u
      · simp only [h2, Option.isSome_some, decide_true, Bool.true_and, Bool.true_or, if_true, or_true, true_and,
          Bool.or_eq_true, decide_eq_true_eq]
        exact ⟨fun h => h.symm.imp id Eq.symm, fun h => h.symm.imp Eq.symm id⟩
      · simp [h1, h1', h2]

theorem anc_of_child {s : St} (h : Inv s) {n c e : Id} (hc : c ∈ s.kids n) (he : Anc s.parent e c) :
    AncEq s.parent e n := by
  have hp := h.child_parent hc
  cases he with
  | parent _ t => rw [hp] at t; cases t; exact Or.inl rfl
  | above q _ t u => rw [hp] at t; cases t; exact Or.inr u

theorem anc_mid {s : St} (h : Inv s) {n c e : Id} (hc : c ∈ s.kids n) (h1 : Anc s.parent n e) (he : Anc s.parent e c) :
    False := h.wf.acyc n (anc_anceq h1 (anc_of_child h hc he))

theorem visit_mem {s : St} (h : Inv s) (nm : Id → Name) (q : Query) : ∀ (fuel : Nat) (n x : Id),
    x ∈ visit s nm q fuel n → s.kind x = .element ∧ Anc s.parent n x ∧ hit q (nm x) = true ∧ Clear s n x := by
  intro fuel
  induction fuel with
  | zero => intro n x hx; cases hx
  | succ fuel ih =>
    intro n x hx
    rw [visit] at hx
    obtain ⟨c, hc, hx⟩ := List.mem_flatMap.mp hx
    have hp := h.child_parent hc
    by_cases hk : s.kind c = .element
    · rw [if_pos hk] at hx
      rcases List.mem_append.mp hx with hx | hx
      · by_cases hh : hit q (nm c) = true
        · rw [if_pos hh] at hx
          simp only [List.mem_singleton] at hx
          subst hx
          exact ⟨hk, .parent _ _ hp, hh, fun e h1 h2 => (anc_mid h hc h1 h2).elim⟩
        · rw [if_neg hh] at hx; cases hx
      · obtain ⟨a1, a2, a3, a4⟩ := ih c x hx
        refine ⟨a1, anc_trans (.parent _ _ hp) a2, a3, ?_⟩
        intro e h1 h2
        rcases anc_comparable (Or.inr h2) (Or.inr a2) with t | t
        · rcases t with rfl | t
          · rw [hk]; exact fun e => by cases e
          · exact (anc_mid h hc h1 t).elim
        · rcases t with rfl | t
          · rw [hk]; exact fun e => by cases e
          · exact a4 e t h2
    · rw [if_neg hk] at hx; cases hx

theorem inner_kind {k : Kind} (h1 : hasKids k = true) (h2 : childKind k = true) (h3 : k ≠ .entityRef) :
    k = .element := by
  cases k <;> first | rfl | (exfalso; exact h3 rfl) | (revert h1 h2; decide)

theorem mem_visit {s : St} (h : Inv s) (nm : Id → Name) (q : Query) (x : Id) (hx : s.kind x = .element)
    (hh : hit q (nm x) = true) : ∀ (fuel : Nat) (seen : List Id) (c : Id), seen.Nodup →
    (∀ y ∈ seen, y < s.size ∧ Anc s.parent y c) → c < s.size → s.size + 1 ≤ fuel + seen.length →
    Anc s.parent c x → Clear s c x → x ∈ visit s nm q fuel c := by
  intro fuel
  induction fuel with
  | zero =>
    intro seen c hn hs hlt hf
    have := nodup_length_le s.size seen hn (fun x hx => (hs x hx).1)
    omega
  | succ fuel ih =>
    intro seen c hn hs hlt hf ha hcl
    rw [visit]
    obtain ⟨y, hy, hyx⟩ := anc_child ha
    have hm := h.wf.par y c hy
    refine List.mem_flatMap.mpr ⟨y, hm, ?_⟩
    rcases hyx with rfl | hyx
    · rw [if_pos hx, if_pos hh]; simp
    · have hk : s.kind y = .element := by
        obtain ⟨z, hz, _⟩ := anc_child hyx
        exact inner_kind (h.kinds y z (h.wf.par z y hz)).1 (h.kinds c y hm).2 (hcl y (.parent _ _ hy) hyx)
      rw [if_pos hk]
      refine List.mem_append_right _ (ih (c :: seen) y ?_ ?_ (h.lt c y hm).1 (by simp; omega) hyx ?_)
      · rw [List.nodup_cons]
        exact ⟨fun hin => h.wf.acyc c (hs c hin).2, hn⟩
      · intro z hz
        cases List.mem_cons.mp hz with
        | inl e => subst e; exact ⟨hlt, .parent _ _ hy⟩
        | inr e => exact ⟨(hs z e).1, .above _ _ _ hy (hs z e).2⟩
      · intro e h1 h2; exact hcl e (anc_trans (.parent _ _ hy) h1) h2

theorem pairwise_splits {α : Type} {P : α → α → Prop} : ∀ {l : List α},
    (∀ l1 a l2 b l3, l = l1 ++ a :: l2 ++ b :: l3 → P a b) → l.Pairwise P
  | [], _ => .nil
  | a :: l, h => by
    refine List.Pairwise.cons ?_ (pairwise_splits ?_)
    · intro b hb
      obtain ⟨l2, l3, rfl⟩ := List.append_of_mem hb
      exact h [] a l2 b l3 (by simp)
    · intro l1 x l2 y l3 e
      exact h (a :: l1) x l2 y l3 (by rw [e]; simp)

theorem within_anceq {s : St} {a x : Id} : Within s a x ↔ AncEq s.parent a x :=
  ⟨fun h => h.imp Eq.symm id, fun h => h.imp Eq.symm id⟩

theorem mem_child {s : St} (h : Inv s) {nm : Id → Name} {q : Query} {fuel : Nat} {c x : Id}
    (hx : x ∈ (if s.kind c = .element then (if hit q (nm c) then [c] else []) ++ visit s nm q fuel c else [])) :
    Within s c x := by
  by_cases hk : s.kind c = .element
  · rw [if_pos hk] at hx
    rcases List.mem_append.mp hx with hx | hx
    · by_cases hh : hit q (nm c) = true
      · rw [if_pos hh] at hx
        simp only [List.mem_singleton] at hx
        exact Or.inl hx
      · rw [if_neg hh] at hx; cases hx
    · exact Or.inr (visit_mem h nm q fuel c x hx).2.1
  · rw [if_neg hk] at hx; cases hx

theorem visit_order {s : St} (h : Inv s) (nm : Id → Name) (q : Query) (root : Id) : ∀ (fuel : Nat) (n : Id),
    Within s root n → (visit s nm q fuel n).Pairwise (Before s root) := by
  intro fuel
  induction fuel with
  | zero => intro n _; exact .nil
  | succ fuel ih =>
    intro n hn
    rw [visit, List.pairwise_flatMap]
    constructor
    · intro c hc
      by_cases hk : s.kind c = .element
      · rw [if_pos hk, List.pairwise_append]
        refine ⟨?_, ih c ?_, ?_⟩
        · by_cases hh : hit q (nm c) = true
          · rw [if_pos hh]; simp
          · rw [if_neg hh]; exact .nil
        · exact within_anceq.mpr (anceq_trans (within_anceq.mp hn) (Or.inr (.parent _ _ (h.child_parent hc))))
        · intro a ha x hx
          by_cases hh : hit q (nm c) = true
          · rw [if_pos hh] at ha
            simp only [List.mem_singleton] at ha
            subst ha
            exact Or.inl (visit_mem h nm q fuel a x hx).2.1
          · rw [if_neg hh] at ha; cases ha
      · rw [if_neg hk]; exact .nil
    · refine pairwise_splits ?_
      intro l1 a l2 b l3 e x hx y hy
      exact Or.inr ⟨n, a, b, l1, l2, l3, hn, e, mem_child h hx, mem_child h hy⟩

/-- No node is before itself. -/
theorem before_irrefl {s : St} (h : Inv s) {root x : Id} : ¬ Before s root x x := by
  rintro (t | ⟨p, a, b, l1, l2, l3, _, hk, ha, hb⟩)
  · exact h.wf.acyc x t
  · have ham : a ∈ s.kids p := by rw [hk]; simp
    have hbm : b ∈ s.kids p := by rw [hk]; simp
    have hne : a ≠ b := by
      rintro rfl
      have := (h.wf.link p (l1 ++ a :: l2) a l3 hk).2.2.2.1
      exact this (by simp)
    have one : ∀ {u v : Id}, u ∈ s.kids p → v ∈ s.kids p → Anc s.parent u v → False := fun hu hv t =>
      h.wf.acyc p (anc_anceq (.parent _ _ (h.child_parent hu)) (anc_of_child h hv t))
    rcases anc_comparable (within_anceq.mp ha) (within_anceq.mp hb) with t | t
    · rcases t with t | t
      · exact hne t
      · exact one ham hbm t
    · rcases t with t | t
      · exact hne t.symm
      · exact one hbm ham t

/-- What `populate` collects is right. -/
theorem visit_lists {s : St} (h : Inv s) (nm : Id → Name) {q : Query} (hq : ∀ l, q ≠ .ns [] l) {root : Id}
    (hr : root < s.size) : Lists false s nm root q (visit s nm q (s.size + 1) root) := by
  have ho := visit_order h nm q root (s.size + 1) root (Or.inl rfl)
  refine ⟨?_, ?_, ho⟩
  · intro x
    constructor
    · intro hx
      obtain ⟨a1, a2, a3, a4⟩ := visit_mem h nm q _ _ x hx
      exact ⟨a1, a2, (hit_named hq _).mp a3, fun _ => a4⟩
    · rintro ⟨a1, a2, a3, a4⟩
      exact mem_visit h nm q x a1 ((hit_named hq _).mpr a3) (s.size + 1) [] root List.nodup_nil (by simp) hr (by simp) a2 (a4 rfl)
  · exact List.Pairwise.imp (S := (· ≠ ·)) (fun {a b} t (e : a = b) => before_irrefl (root := root) h (x := a) (by rw [← e] at t; exact t)) ho

/-! ## what the counter protects -/

theorem keep_anc {s t : St} (hs : Inv s) (ht : Inv t) (hc : Counts s t) {root d : Id} (hr : root < s.size)
    (hd : s.doc root = some d) (he : t.changes d = s.changes d) {x : Id} :
    Anc s.parent root x → Anc t.parent root x ∧ x < s.size ∧ s.doc x = some d := by
  intro h
  induction h with
  | parent x hx =>
    have hm := hs.wf.par x root hx
    refine ⟨.parent _ _ (ht.child_parent ?_), (hs.lt _ _ hm).1, (hs.owner _ _ hm).trans hd⟩
    rw [hc.same d he root hr hd]; exact hm
  | above p x hx _ ih =>
    have hm := hs.wf.par x p hx
    refine ⟨.above _ _ _ (ht.child_parent ?_) ih.1, (hs.lt _ _ hm).1, (hs.owner _ _ hm).trans ih.2.2⟩
    rw [hc.same d he p ih.2.1 ih.2.2]; exact hm

theorem anc_keep' {s t : St} (hs : Inv s) (ht : Inv t) (hc : Counts s t) {root d : Id} (hr : root < s.size)
    (hd : s.doc root = some d) (he : t.changes d = s.changes d) {x : Id} :
    Anc t.parent root x → Anc s.parent root x ∧ x < s.size ∧ s.doc x = some d := by
  intro h
  induction h with
  | parent x hx =>
    have hm := ht.wf.par x root hx
    rw [hc.same d he root hr hd] at hm
    exact ⟨.parent _ _ (hs.child_parent hm), (hs.lt _ _ hm).1, (hs.owner _ _ hm).trans hd⟩
  | above p x hx _ ih =>
    have hm := ht.wf.par x p hx
    rw [hc.same d he p ih.2.1 ih.2.2] at hm
    exact ⟨.above _ _ _ (hs.child_parent hm) ih.1, (hs.lt _ _ hm).1, (hs.owner _ _ hm).trans ih.2.2⟩

theorem keep_lists {s t : St} (hs : Inv s) (ht : Inv t) (hc : Counts s t) {root d : Id} (hr : root < s.size)
    (hd : s.doc root = some d) (he : t.changes d = s.changes d) {nm nm' : Id → Name} {q : Query}
    (hn : ∀ n, n < s.size → (Named q (nm' n) ↔ Named q (nm n))) {l : List Id} (hl : Lists false s nm root q l) :
    Lists false t nm' root q l := by
  have iff : ∀ a, a < s.size → s.doc a = some d → ∀ x, Anc s.parent a x ↔ Anc t.parent a x := fun a ha hda x =>
    ⟨fun h => (keep_anc hs ht hc ha hda he h).1, fun h => (anc_keep' hs ht hc ha hda he h).1⟩
  have into : ∀ x, Anc s.parent root x → x < s.size ∧ s.doc x = some d := fun x h =>
    (keep_anc hs ht hc hr hd he h).2
  have clear : ∀ x, Clear s root x ↔ Clear t root x := by
    intro x
    constructor
    · intro h e h1 h2
      have h1' := (iff root hr hd e).mpr h1
      obtain ⟨he1, he2⟩ := into e h1'
      rw [hc.kind e he1]
      exact h e h1' ((iff e he1 he2 x).mpr h2)
    · intro h e h1 h2
      obtain ⟨he1, he2⟩ := into e h1
      rw [← hc.kind e he1]
      exact h e ((iff root hr hd e).mp h1) ((iff e he1 he2 x).mp h2)
  refine ⟨?_, hl.once, ?_⟩
  · intro x
    rw [hl.mem x]
    constructor
    · rintro ⟨a1, a2, a3, a4⟩
      obtain ⟨x1, x2⟩ := into x a2
      exact ⟨by rw [hc.kind x x1]; exact a1, (iff root hr hd x).mp a2, (hn x x1).mpr a3, fun e => (clear x).mp (a4 e)⟩
    · rintro ⟨a1, a2, a3, a4⟩
      have a2' := (iff root hr hd x).mpr a2
      obtain ⟨x1, x2⟩ := into x a2'
      exact ⟨by rw [← hc.kind x x1]; exact a1, a2', (hn x x1).mp a3, fun e => (clear x).mpr (a4 e)⟩
  · refine hl.order.imp_of_mem ?_
    intro x y hx hy hb
    have hx' := ((hl.mem x).mp hx).2.1
    obtain ⟨x1, x2⟩ := into x hx'
    have within : ∀ {a z : Id}, a < s.size → s.doc a = some d → Within s a z → Within t a z := fun ha hda hw =>
      hw.imp id (fun u => (iff _ ha hda _).mp u)
    rcases hb with hb | ⟨p, a, b, l1, l2, l3, hp, hk, ha, hb⟩
    · exact Or.inl ((iff x x1 x2 y).mp hb)
    · have hp' : p < s.size ∧ s.doc p = some d := by
        rcases hp with rfl | hp
        · exact ⟨hr, hd⟩
        · exact into p hp
      have ham : a ∈ s.kids p := by rw [hk]; simp
      have hbm : b ∈ s.kids p := by rw [hk]; simp
      refine Or.inr ⟨p, a, b, l1, l2, l3, within hr hd hp, ?_, ?_, ?_⟩
      · rw [hc.same d he p hp'.1 hp'.2]; exact hk
      · exact within (hs.lt _ _ ham).1 ((hs.owner _ _ ham).trans hp'.2) ha
      · exact within (hs.lt _ _ hbm).1 ((hs.owner _ _ hbm).trans hp'.2) hb

end Verif.TagList
