import Verif.Lemmas.TreeWalker3
set_option autoImplicit false
set_option linter.unusedSimpArgs false
set_option linter.unusedVariables false
namespace Verif.Walker
open Verif.XTree Verif.Spec.XPathAxes Verif.Spec.TreeWalker

section
variable {t : Tree} {w : WalkState}

theorem isFirst_head {S : Ref → Prop} {l : List Ref} (hl : l.Pairwise Before) (hm : ∀ y, y ∈ l ↔ S y) : IsFirst S l.head? := by
  cases l with
  | nil => exact fun y hy => by simpa using (hm y).2 hy
  | cons x l =>
    refine ⟨(hm x).1 (by simp), fun y hy => ?_⟩
    rcases List.mem_cons.1 ((hm y).2 hy) with e | e
    · exact .inl e
    · exact .inr ((List.pairwise_cons.1 hl).1 y e)

theorem isLast_getLast {S : Ref → Prop} {l : List Ref} (hl : l.Pairwise Before) (hm : ∀ y, y ∈ l ↔ S y) :
    IsLast S l.getLast? := by
  cases h : l.getLast? with
  | none =>
    have := List.getLast?_eq_none_iff.1 h
    subst this
    exact fun y hy => by simpa using (hm y).2 hy
  | some x =>
    obtain ⟨l', rfl⟩ := List.getLast?_eq_some_iff.1 h
    refine ⟨(hm x).1 (by simp), fun y hy => ?_⟩
    rcases List.mem_append.1 ((hm y).2 hy) with e | e
    · exact .inr ((List.pairwise_append.1 hl).2.2 y e x (by simp))
    · exact .inl (by simpa using e)

/-- The walker's place as a way down from its root. -/
theorem atView_path {c : Ref} (hr : (sub t w.root).isSome) (h : c = w.root ∨ Sees t w c) :
    ∃ (s : Ref), c = s ++ w.root ∧ AllChild s ∧ (sub t (s ++ w.root)).isSome ∧
      Thru (fun x => acceptNode t w x ≠ .reject) (blocked t w) w.root s ∧
      (s = [] ∨ acceptNode t w (s ++ w.root) = .accept) := by
  rcases h with rfl | h
  · exact ⟨[], rfl, allChild_nil, hr, trivial, .inl rfl⟩
  · obtain ⟨s, h1, h2, rfl, h3, h4, h5⟩ := sees_iff.1 h
    exact ⟨s, rfl, h2, h3, h5, .inr h4⟩

theorem accept_ne {v : Verdict} {s : Ref} (h : s = [] ∨ v = .accept) : s = [] ∨ v ≠ .skip := by
  rcases h with h | h
  · exact .inl h
  · exact .inr (by rw [h]; simp)

theorem accept_open {v : Verdict} {s : Ref} (h : s = [] ∨ v = .accept) : s ≠ [] → v ≠ .reject := by
  rcases h with h | h
  · exact fun e => absurd h e
  · exact fun _ => by rw [h]; simp

/-- `nextNode` goes to the next node of the view. -/
theorem nextNode_spec (hE : EntitiesShown t w) (h : AtView t w) :
    ∃ x, IsFirst (fun y => Sees t w y ∧ Before w.current y) x ∧ Evals (fun j => nextNodeImpl t w j) x := by
  obtain ⟨s, hc, h1, h2, h3, h4⟩ := atView_path h.1 h.2
  obtain ⟨n, hn⟩ := Option.isSome_iff_exists.1 h2
  refine ⟨_, ?_, nextNode_eval hE h1 (noReject_of_thru h3) hn (accept_ne h4) hc⟩
  refine isFirst_head ?_ fun y => ?_
  · refine List.pairwise_append.2 ⟨vis_sorted _ _, (rest_sorted s).1, fun a ha b hb => ?_⟩
    have h5 := (rest_sorted s).2 b hb
    have h6 := ((mem_below h1 hn h3 (accept_open h4)).1 ha).2
    exact before_of_div (anc_div h5 h6)
  · rw [List.mem_append, mem_below h1 hn h3 (accept_open h4), mem_rest h1 h2 h3, ← and_or_left, hc, before_iff]

/-! ## Children in the view -/

theorem reach_viewChild {p : Ref} {n : Tree} (hp : AllChild p) (hn : sub t (p ++ w.root) = some n)
    (h3 : Thru (fun x => acceptNode t w x ≠ .reject) (blocked t w) w.root p)
    (h4 : p = [] ∨ acceptNode t w (p ++ w.root) = .accept) {y : Ref} :
    ViewChild t w (p ++ w.root) y ↔
      ∃ (q : Ref), q ≠ [] ∧ y = q ++ (p ++ w.root) ∧
        Reach (acceptNode t w) (fun x => acceptNode t w x = .skip) (blocked t w) (p ++ w.root) n q := by
  have hsome : (sub t (p ++ w.root)).isSome := by rw [hn]; rfl
  constructor
  · rintro ⟨_, h5, h6, h7⟩
    obtain ⟨q, hq, rfl, h8, h9, h10, h11⟩ := (mem_vis n _ y).1 ((mem_below hp hn h3 (accept_open h4)).2 ⟨h5, h6⟩)
    refine ⟨q, hq, rfl, h8, h9, h10, thru_iff.2 fun s' s'' e e' => ?_⟩
    obtain ⟨h12, h13⟩ := thru_iff.1 h11 s' s'' e e'
    refine ⟨h12, fun e'' => ?_⟩
    cases hv : acceptNode t w (s'' ++ (p ++ w.root)) with
    | skip => rfl
    | reject => exact absurd hv (h13 e'')
    | accept =>
      have hz : Sees t w (s'' ++ (p ++ w.root)) := by
        subst e
        rw [thru_append] at h11
        refine ((mem_below hp hn h3 (accept_open h4)).1 ((mem_vis n _ _).2 ⟨s'', e'', rfl, ?_, ?_, hv, h11.1⟩)).1
        · exact (allChild_append.1 h8).2
        · rw [sub_app] at h9
          cases hx : sub n s'' with
          | none => rw [hx] at h9; simp at h9
          | some _ => rfl
      refine absurd ⟨anc_append e'' _, ?_⟩ (h7 _ hz)
      rw [e, List.append_assoc]; exact anc_append e' _
  · rintro ⟨q, hq, rfl, h8, h9, h10, h11⟩
    refine ⟨?_, ?_, anc_append hq _, ?_⟩
    · rcases h4 with e | e
      · subst e; exact .inl rfl
      · by_cases e' : p = []
        · subst e'; exact .inl rfl
        · exact .inr (sees_iff.2 ⟨p, e', hp, rfl, hsome, e, h3⟩)
    · refine ((mem_below hp hn h3 (accept_open h4)).1 ((mem_vis n _ _).2 ⟨q, hq, rfl, h8, h9, h10, ?_⟩)).1
      exact thru_mono (fun x h => by rw [h]; simp) h11
    · rintro z hz ⟨⟨s'', e1, rfl⟩, ⟨s', e2, h⟩⟩
      have e : q = s' ++ s'' := by
        rw [← List.append_assoc s'] at h
        exact List.append_cancel_right h
      have h12 := (thru_iff.1 h11 s' s'' e e2).2 e1
      obtain ⟨_, _, _, _, _, h13, _⟩ := sees_iff.1 hz
      rw [h13] at h12
      cases h12

theorem mem_tops_iff {p : Ref} {n : Tree} (hp : AllChild p) (hn : sub t (p ++ w.root) = some n)
    (h3 : Thru (fun x => acceptNode t w x ≠ .reject) (blocked t w) w.root p)
    (h4 : p = [] ∨ acceptNode t w (p ++ w.root) = .accept) (y : Ref) :
    y ∈ tops (acceptNode t w) (blocked t w) (p ++ w.root) n ↔ ViewChild t w (p ++ w.root) y := by
  rw [mem_tops, reach_viewChild hp hn h3 h4]

theorem firstChild_spec (hE : EntitiesShown t w) (h : AtView t w) :
    ∃ x, IsFirst (ViewChild t w w.current) x ∧ Evals (fun j => getFirstChildImpl t w j w.current) x := by
  obtain ⟨s, hc, h1, h2, h3, h4⟩ := atView_path h.1 h.2
  obtain ⟨n, hn⟩ := Option.isSome_iff_exists.1 h2
  rw [hc]
  exact ⟨_, isFirst_head (tops_sorted n _) (mem_tops_iff h1 hn h3 h4), first_eval hE h1 hn (accept_ne h4)⟩

theorem lastChild_spec (hE : EntitiesShown t w) (h : AtView t w) :
    ∃ x, IsLast (ViewChild t w w.current) x ∧ Evals (fun j => getLastChildImpl t w j w.current) x := by
  obtain ⟨s, hc, h1, h2, h3, h4⟩ := atView_path h.1 h.2
  obtain ⟨n, hn⟩ := Option.isSome_iff_exists.1 h2
  rw [hc]
  exact ⟨_, isLast_getLast (tops_sorted n _) (mem_tops_iff h1 hn h3 h4), last_eval hE h1 hn (accept_ne h4)⟩

/-! ## The parent in the view -/

/-- The way from the nearest accepted ancestor, or the root. -/
theorem parent_exists {s : Ref} (hs : s ≠ []) (h : Thru (fun x => acceptNode t w x ≠ .reject) (blocked t w) w.root s) :
    ∃ (q p : Ref), s = q ++ p ∧ q ≠ [] ∧ Thru (fun x => acceptNode t w x = .skip) (blocked t w) (p ++ w.root) q ∧
      (p = [] ∨ acceptNode t w (p ++ w.root) = .accept) := by
  induction s with
  | nil => exact absurd rfl hs
  | cons x s ih =>
    obtain ⟨h1, h2, h3⟩ := h
    by_cases e : s = []
    · subst e
      exact ⟨[x], [], rfl, by simp, ⟨h1, fun h => absurd rfl h, trivial⟩, .inl rfl⟩
    · cases hv : acceptNode t w (s ++ w.root) with
      | accept => exact ⟨[x], s, rfl, by simp, ⟨by simpa using h1, fun h => absurd rfl h, trivial⟩, .inr hv⟩
      | reject => exact absurd hv (h2 e)
      | skip =>
        obtain ⟨q, p, rfl, h4, h5, h6⟩ := ih e h3
        rw [List.append_assoc] at h1 hv
        exact ⟨x :: q, p, rfl, by simp, ⟨h1, fun _ => hv, h5⟩, h6⟩

/-- The parent in the view of a node in the view. -/
theorem parent_of_sees {c : Ref} (h : Sees t w c) :
    ∃ (q p : Ref), c = q ++ (p ++ w.root) ∧ q ≠ [] ∧ AllChild (q ++ p) ∧ (sub t c).isSome ∧
      Thru (fun x => acceptNode t w x = .skip) (blocked t w) (p ++ w.root) q ∧
      Thru (fun x => acceptNode t w x ≠ .reject) (blocked t w) w.root p ∧
      (p = [] ∨ acceptNode t w (p ++ w.root) = .accept) ∧ ViewChild t w (p ++ w.root) c := by
  obtain ⟨s, h1, h2, rfl, h3, h4, h5⟩ := sees_iff.1 h
  obtain ⟨q, p, rfl, h6, h7, h8⟩ := parent_exists h1 h5
  have h9 := (thru_append.1 h5).1
  refine ⟨q, p, by simp, h6, h2, h3, h7, h9, h8, ?_⟩
  rw [List.append_assoc, sub_app] at h3
  cases hn : sub t (p ++ w.root) with
  | none => rw [hn] at h3; simp at h3
  | some n =>
    rw [hn] at h3
    rw [List.append_assoc] at h4 ⊢
    exact (reach_viewChild (allChild_append.1 h2).2 hn h9 h8).2 ⟨q, h6, rfl, (allChild_append.1 h2).1, h3, h4, h7⟩

theorem viewParent_unique {p p' c : Ref} (h : ViewChild t w p c) (h' : ViewChild t w p' c) : p = p' := by
  rcases cases5 p p' with e | e | e | e | e
  · exact e
  · rcases h'.1 with e' | e'
    · subst e'
      rcases h.1 with e'' | e''
      · exact e''
      · obtain ⟨s, h1, _, rfl, _⟩ := sees_iff.1 e''
        exact absurd (anc_trans (anc_append h1 _) e) (anc_irrefl _)
    · exact absurd ⟨e, h'.2.2.1⟩ (h.2.2.2 p' e')
  · rcases h.1 with e' | e'
    · subst e'
      rcases h'.1 with e'' | e''
      · exact e''.symm
      · obtain ⟨s, h1, _, rfl, _⟩ := sees_iff.1 e''
        exact absurd (anc_trans (anc_append h1 _) e) (anc_irrefl _)
    · exact absurd ⟨e, h.2.2.1⟩ (h'.2.2.2 p e')
  · exact absurd (anc_div e h.2.2.1) (not_div_of_anc' h'.2.2.1)
  · exact absurd (anc_div e h'.2.2.1) (not_div_of_anc' h.2.2.1)

theorem getParent_eval {q p : Ref} (hq : q ≠ []) (ha : AllChild q)
    (h : Thru (fun x => acceptNode t w x = .skip) (blocked t w) (p ++ w.root) q)
    (h' : p = [] ∨ acceptNode t w (p ++ w.root) = .accept) :
    getParentNodeImpl t w (q ++ (p ++ w.root)) = if p = [] then none else some (p ++ w.root) := by
  induction q with
  | nil => exact absurd rfl hq
  | cons x q ih =>
    obtain ⟨i, rfl⟩ := ha x (by simp)
    have ha' : AllChild q := fun y hy => ha y (by simp [hy])
    rw [List.cons_append, getParentNodeImpl, if_neg (child_ne_root (s := q ++ p) (by simp))]
    by_cases e : q = []
    · subst e
      rw [List.nil_append]
      by_cases e' : p = []
      · subst e'
        simp
      · rw [if_neg (below_ne e'), if_neg e', if_pos (h'.resolve_left e')]
    · have hsk := h.2.1 e
      rw [if_neg, if_neg (by rw [hsk]; simp), ih e ha' h.2.2]
      rw [← List.append_assoc]
      exact below_ne (by simp [e])

theorem getParent_root : getParentNodeImpl t w w.root = none := by
  match h : w.root with
  | [] => rfl
  | .attr _ :: _ => rfl
  | .child i :: up => rw [getParentNodeImpl, if_pos h.symm]

theorem parent_spec' (h : AtView t w) (p : Ref) :
    getParentNodeImpl t w w.current = some p ↔ ViewChild t w p w.current ∧ p ≠ w.root := by
  rcases h.2 with e | e
  · rw [e, getParent_root]
    constructor
    · intro h; cases h
    · rintro ⟨⟨_, h1, _⟩, _⟩
      obtain ⟨s, h2, _, h3, _⟩ := sees_iff.1 h1
      exact absurd h3.symm (below_ne h2)
  · obtain ⟨q, p', h1, h2, h3, h4, h5, h6, h7, h8⟩ := parent_of_sees e
    rw [h1, getParent_eval h2 (allChild_append.1 h3).1 h5 h7, ← h1]
    by_cases e' : p' = []
    · rw [if_pos e']
      constructor
      · intro h; cases h
      · rintro ⟨h9, h10⟩
        have := viewParent_unique h9 h8
        rw [e'] at this
        exact absurd this h10
    · rw [if_neg e']
      constructor
      · rintro h
        cases h
        exact ⟨h8, below_ne e'⟩
      · rintro ⟨h9, _⟩
        rw [viewParent_unique h9 h8]

/-! ## The previous sibling in the view -/

theorem mem_topsTake {up y : Ref} {m : Tree} {i : Nat} {v : Ref → Verdict} {b : Ref → Bool} :
    y ∈ topsL v b up 0 (m.kids.take i) ↔ ∃ (k : Nat) (c : Tree), k < i ∧ m.kids[k]? = some c ∧
      ∃ (q : Ref), y = q ++ .child k :: up ∧ Reach v (fun x => v x = .skip) b (.child k :: up) c q ∧
        (q ≠ [] → v (.child k :: up) = .skip) := by
  rw [mem_topsL]
  constructor
  · rintro ⟨j, c, hc, hy⟩
    rw [Nat.zero_add] at hy
    rw [List.getElem?_take] at hc
    by_cases hj : j < i
    · rw [if_pos hj] at hc
      exact ⟨j, c, hj, hc, mem_topsN.1 hy⟩
    · rw [if_neg hj] at hc; cases hc
  · rintro ⟨k, c, hk, hc, hy⟩
    refine ⟨k, c, ?_, ?_⟩
    · rw [List.getElem?_take, if_pos hk]; exact hc
    · rw [Nat.zero_add]; exact mem_topsN.2 hy

theorem contP_sorted (s : Ref) : (contP t w s).Pairwise Before ∧ ∀ y ∈ contP t w s, Div y (s ++ w.root) := by
  induction s with
  | nil => simp [contP]
  | cons x s ih =>
    cases x with
    | attr i => simp [contP]
    | child i =>
      rw [contP]
      have h : ∀ y ∈ topsL (acceptNode t w) (blocked t w) (s ++ w.root) 0 ((kidsOf t (s ++ w.root)).take i),
          ∃ q k, k < i ∧ y = q ++ Step.child k :: (s ++ w.root) := by
        intro y hy
        obtain ⟨j, c, hc, hy⟩ := mem_topsL.1 hy
        obtain ⟨q, rfl, _⟩ := mem_topsN.1 hy
        rw [List.getElem?_take] at hc
        by_cases hj : j < i
        · exact ⟨q, j, hj, by rw [Nat.zero_add]⟩
        · rw [if_neg hj] at hc; cases hc
      have h' : (if s ≠ [] ∧ acceptNode t w (s ++ w.root) = .skip then contP t w s else []).Pairwise Before ∧
          ∀ y ∈ (if s ≠ [] ∧ acceptNode t w (s ++ w.root) = .skip then contP t w s else []), Div y (s ++ w.root) := by
        by_cases e : s ≠ [] ∧ acceptNode t w (s ++ w.root) = .skip
        · rw [if_pos e]; exact ih
        · rw [if_neg e]; simp
      refine ⟨List.pairwise_append.2 ⟨h'.1, topsL_sorted _ _ _, ?_⟩, ?_⟩
      · intro a ha a' ha'
        obtain ⟨q, k, _, rfl⟩ := h a' ha'
        have h'' := div_append [] (q ++ [Step.child k]) (h'.2 a ha)
        rw [List.append_assoc] at h''
        exact before_of_div h''
      · intro y hy
        rcases List.mem_append.1 hy with hy | hy
        · exact div_append [] [.child i] (h'.2 y hy)
        · obtain ⟨q, k, hk, rfl⟩ := h y hy
          exact div_siblings q [] (by simpa only [StepLt] using hk)

theorem mem_contP {p : Ref} {n : Tree} (hn : sub t (p ++ w.root) = some n)
    (h4 : p = [] ∨ acceptNode t w (p ++ w.root) = .accept) {q : Ref} (hq : q ≠ []) (ha : AllChild q)
    (hv : (sub t (q ++ (p ++ w.root))).isSome)
    (h : Thru (fun x => acceptNode t w x = .skip) (blocked t w) (p ++ w.root) q) {y : Ref} :
    y ∈ contP t w (q ++ p) ↔ (∃ (q' : Ref), q' ≠ [] ∧ y = q' ++ (p ++ w.root) ∧
      Reach (acceptNode t w) (fun x => acceptNode t w x = .skip) (blocked t w) (p ++ w.root) n q') ∧
      Div y (q ++ (p ++ w.root)) := by
  induction q with
  | nil => exact absurd rfl hq
  | cons x q ih =>
    obtain ⟨i, rfl⟩ := ha x (by simp)
    have ha' : AllChild q := fun y hy => ha y (by simp [hy])
    obtain ⟨m, hm⟩ : ∃ m, sub t (q ++ (p ++ w.root)) = some m := Option.isSome_iff_exists.1 (sub_below hv)
    rw [List.cons_append, contP, List.mem_append, List.append_assoc, List.cons_append, div_cons_right, and_or_left, or_comm]
    refine or_congr ?_ ?_
    · rw [kidsOf_eq hm, mem_topsTake]
      have hm' : sub n q = some m := by rw [sub_app_some hn] at hm; exact hm
      constructor
      · rintro ⟨k, c, hk, hc, q', rfl, ⟨h1, h2, h3, h5⟩, h6⟩
        refine ⟨⟨q' ++ .child k :: q, by simp, by simp, ?_, ?_, by simpa using h3, ?_⟩, q', .child k, rfl, hk⟩
        · exact allChild_append.2 ⟨h1, allChild_cons.2 ⟨⟨_, rfl⟩, ha'⟩⟩
        · rw [sub_app, sub_child, kidsOf_eq hm', hc]; exact h2
        · exact thru_append.2 ⟨h, h5, fun e _ => h6 e⟩
      · rintro ⟨⟨q', h1, h2, h3, h5, h6, h7⟩, s', x, rfl, hx⟩
        have e : q' = s' ++ x :: q := by
          rw [← List.cons_append, ← List.append_assoc] at h2
          exact (List.append_cancel_right h2).symm
        subst e
        obtain ⟨h8, h9⟩ := allChild_append.1 h3
        obtain ⟨k, rfl⟩ := h9 x (by simp)
        simp only [StepLt] at hx
        obtain ⟨h10, h11, h12⟩ := thru_append.1 h7
        rw [sub_app, sub_child, kidsOf_eq hm'] at h5
        cases hc : m.kids[k]? with
        | none => rw [hc] at h5; simp at h5
        | some c =>
          rw [hc] at h5
          exact ⟨k, c, hx, hc, s', rfl, ⟨h8, h5, by simpa using h6, h11⟩, fun e => h12 e (by simp)⟩
    · by_cases e : q = []
      · subst e
        rw [List.nil_append, List.nil_append, if_neg]
        · simp only [List.not_mem_nil, false_iff]
          rintro ⟨⟨q', _, rfl, _⟩, hd⟩
          exact not_div_below' hd
        · rintro ⟨h1, h2⟩
          rcases h4 with h4 | h4
          · exact h1 h4
          · rw [h4] at h2; cases h2
      · rw [if_pos ⟨by simp [e], h.2.1 e⟩]
        exact ih e ha' (sub_below hv) h.2.2

theorem previousSibling_spec (hE : EntitiesShown t w) (h : AtView t w) :
    ∃ x, IsLast (fun y => Before y w.current ∧ ∃ p, ViewChild t w p w.current ∧ ViewChild t w p y) x ∧
      Evals (fun j => getPreviousSiblingImpl t w j w.current) x := by
  rcases h.2 with e | e
  · rw [e]
    refine ⟨none, ?_, ?_⟩
    · rintro y ⟨_, p, ⟨_, h1, _⟩, _⟩
      obtain ⟨s, h2, _, h3, _⟩ := sees_iff.1 h1
      exact absurd h3.symm (below_ne h2)
    · refine Evals.succ ?_
      simp only [getPreviousSiblingImpl, if_true]
      exact .const none
  · obtain ⟨q, p, h1, h2, h3, h4, h5, h6, h7, h8⟩ := parent_of_sees e
    rw [h1] at h4
    have h4' := h4
    rw [sub_app] at h4'
    cases hn : sub t (p ++ w.root) with
    | none => rw [hn] at h4'; simp at h4'
    | some n =>
      have hcur : w.current = (q ++ p) ++ w.root := by rw [h1]; simp
      refine ⟨(contP t w (q ++ p)).getLast?, ?_, ?_⟩
      · refine isLast_getLast (contP_sorted _).1 fun y => ?_
        rw [mem_contP hn h7 h2 (allChild_append.1 h3).1 h4 h5, ← reach_viewChild (allChild_append.1 h3).2 hn h6 h7, ← h1]
        constructor
        · rintro ⟨h9, h10⟩
          exact ⟨before_of_div h10, _, h8, h9⟩
        · rintro ⟨h9, p', h10, h11⟩
          have := viewParent_unique h10 h8
          subst this
          refine ⟨h11, (div_iff_of_not_anc fun ha => ?_).1 h9⟩
          exact h8.2.2.2 y h11.2.1 ⟨h11.2.2.1, ha⟩
      · rw [hcur]
        exact (prev_eval hE (q ++ p) h3 (by rw [List.append_assoc]; exact h4)).1 (by simp [h2])

/-! ## All calls of `nextNode` -/

theorem sees_current {w : WalkState} (c y : Ref) : Sees t { w with current := c } y ↔ Sees t w y := Iff.rfl

theorem calls_spec (hE : EntitiesShown t w) (hr : (sub t w.root).isSome) (R : List Ref) : ∀ c, (c = w.root ∨ Sees t w c) →
    R.Pairwise Before → (∀ y, y ∈ R ↔ Sees t w y ∧ Before c y) →
    Evals (fun j => callNextNode t j (R.length + 1) { w with current := c }) (R.map some ++ [none]) := by
  induction R with
  | nil =>
    intro c hc _ hm
    obtain ⟨x, hx, k, hk⟩ := nextNode_spec (w := { w with current := c }) hE ⟨hr, hc⟩
    have : x = none := by
      cases x with
      | none => rfl
      | some x => exact absurd ((hm x).2 hx.1) (by simp)
    subst this
    refine ⟨k, fun j hj => ?_⟩
    replace hk := hk j hj
    show callNextNode t j (0 + 1) _ = _
    rw [callNextNode, goNextNode]
    rw [show nextNodeImpl t { w with current := c } j = .done none from hk]
    rfl
  | cons z R ih =>
    intro c hc hs hm
    obtain ⟨x, hx, k, hk⟩ := nextNode_spec (w := { w with current := c }) hE ⟨hr, hc⟩
    have hz := (hm z).1 (by simp)
    have hs' := List.pairwise_cons.1 hs
    have : x = some z := by
      cases x with
      | none => exact absurd hz (hx z)
      | some x =>
        have h1 := (hm x).2 hx.1
        rcases List.mem_cons.1 h1 with e | e
        · rw [e]
        · rcases hx.2 z hz with e' | e'
          · rw [e']
          · exact (before_asymm e' (hs'.1 x e)).elim
    subst this
    obtain ⟨k', hk'⟩ := ih z (.inr hz.1) hs'.2 fun y => by
      constructor
      · intro hy
        exact ⟨((hm y).1 (by simp [hy])).1, hs'.1 y hy⟩
      · rintro ⟨h1, h2⟩
        rcases List.mem_cons.1 ((hm y).2 ⟨h1, before_trans hz.2 h2⟩) with e | e
        · subst e; exact (before_irrefl _ h2).elim
        · exact e
    refine ⟨max k k', fun j hj => ?_⟩
    replace hk := hk j (by omega)
    replace hk' := hk' j (by omega)
    show callNextNode t j (R.length + 1 + 1) _ = _
    rw [callNextNode, goNextNode]
    rw [show nextNodeImpl t { w with current := c } j = .done (some z) from hk]
    simp only [moveTo]
    rw [show callNextNode t j (R.length + 1) { w with current := z } = .done (R.map some ++ [none]) from hk']
    rfl

end
end Verif.Walker
