import Verif.Lemmas.TreeWalker2
set_option autoImplicit false
set_option linter.unusedSimpArgs false
set_option linter.unusedVariables false
namespace Verif.Walker
open Verif.XTree Verif.Spec.XPathAxes Verif.Spec.TreeWalker

/-! ## Ways down -/

/-- On the way from `r` nothing is blocked, and everything between has a property. -/
def Thru (P : Ref → Prop) (b : Ref → Bool) (r : Ref) : Ref → Prop
  | [] => True
  | _ :: s => b (s ++ r) = false ∧ (s ≠ [] → P (s ++ r)) ∧ Thru P b r s

section
variable {P : Ref → Prop} {b : Ref → Bool}

theorem thru_append {r s q : Ref} : Thru P b r (q ++ s) ↔
    Thru P b r s ∧ Thru P b (s ++ r) q ∧ (q ≠ [] → s ≠ [] → P (s ++ r)) := by
  induction q with
  | nil => simp [Thru]
  | cons x q ih =>
    rw [List.cons_append, Thru, ih, Thru]
    constructor
    · rintro ⟨h1, h2, h3, h4, h5⟩
      refine ⟨h3, ⟨by simpa using h1, fun h => ?_, h4⟩, fun _ h => ?_⟩
      · have := h2 (by simp [h]); simpa using this
      · by_cases e : q = []
        · subst e; exact h2 h
        · exact h5 e h
    · rintro ⟨h1, ⟨h2, h3, h4⟩, h5⟩
      refine ⟨by simpa using h2, fun h => ?_, h1, h4, fun _ h => h5 (by simp) h⟩
      by_cases e : q = []
      · subst e; exact h5 (by simp) h
      · have := h3 e; simpa using this

theorem thru_mono {Q : Ref → Prop} (h : ∀ x, P x → Q x) {r s : Ref} (ht : Thru P b r s) : Thru Q b r s := by
  induction s with
  | nil => trivial
  | cons x s ih => exact ⟨ht.1, fun e => h _ (ht.2.1 e), ih ht.2.2⟩

theorem thru_iff {r s : Ref} : Thru P b r s ↔
    ∀ s' s'', s = s' ++ s'' → s' ≠ [] → b (s'' ++ r) = false ∧ (s'' ≠ [] → P (s'' ++ r)) := by
  induction s with
  | nil =>
    refine ⟨fun _ s' s'' h h' => ?_, fun _ => trivial⟩
    simp at h
    exact absurd h.1 h'
  | cons x s ih =>
    rw [Thru, ih]
    constructor
    · rintro ⟨h1, h2, h3⟩ s' s'' h h'
      cases s' with
      | nil => exact absurd rfl h'
      | cons y s' =>
        simp at h
        obtain ⟨rfl, h⟩ := h
        by_cases e : s' = []
        · subst e
          simp at h
          subst h
          exact ⟨h1, h2⟩
        · exact h3 s' s'' h e
    · intro h
      have h0 := h [x] s rfl (by simp)
      exact ⟨h0.1, h0.2, fun s' s'' h1 h2 => h (x :: s') s'' (by rw [h1]; rfl) (by simp)⟩

end

section
variable {v : Ref → Verdict} {b : Ref → Bool}

theorem mem_topsL {r y : Ref} {i : Nat} {cs : List Tree} :
    y ∈ topsL v b r i cs ↔ ∃ (j : Nat) (c : Tree), cs[j]? = some c ∧ y ∈ topsN v b (.child (i + j) :: r) c := by
  induction cs generalizing i with
  | nil => simp [topsL]
  | cons c cs ih =>
    rw [topsL_cons, List.mem_append, ih]
    constructor
    · rintro (h | ⟨j, c', h1, h2⟩)
      · exact ⟨0, c, rfl, h⟩
      · exact ⟨j + 1, c', h1, by rw [show i + (j + 1) = i + 1 + j by omega]; exact h2⟩
    · rintro ⟨j, c', h1, h2⟩
      cases j with
      | zero => simp at h1; subst h1; exact .inl h2
      | succ j => exact .inr ⟨j, c', h1, by rw [show i + 1 + j = i + (j + 1) by omega]; exact h2⟩

theorem mem_visL {r y : Ref} {i : Nat} {cs : List Tree} :
    y ∈ visL v b r i cs ↔ ∃ (j : Nat) (c : Tree), cs[j]? = some c ∧ y ∈ visN v b (.child (i + j) :: r) c := by
  induction cs generalizing i with
  | nil => simp [visL]
  | cons c cs ih =>
    rw [visL_cons, List.mem_append, ih]
    constructor
    · rintro (h | ⟨j, c', h1, h2⟩)
      · exact ⟨0, c, rfl, h⟩
      · exact ⟨j + 1, c', h1, by rw [show i + (j + 1) = i + 1 + j by omega]; exact h2⟩
    · rintro ⟨j, c', h1, h2⟩
      cases j with
      | zero => simp at h1; subst h1; exact .inl h2
      | succ j => exact .inr ⟨j, c', h1, by rw [show i + 1 + j = i + (j + 1) by omega]; exact h2⟩

/-- Reached from `r`, with the nodes between having a property. -/
def Reach (v : Ref → Verdict) (P : Ref → Prop) (b : Ref → Bool) (r : Ref) (n : Tree) (q : Ref) : Prop :=
  AllChild q ∧ (sub n q).isSome ∧ v (q ++ r) = .accept ∧ Thru P b r q

theorem reach_last {P : Ref → Prop} {r : Ref} {n : Tree} {i : Nat} {q : Ref} :
    Reach v P b r n (q ++ [.child i]) ↔ b r = false ∧ ∃ c, n.kids[i]? = some c ∧
      Reach v P b (.child i :: r) c q ∧ (q ≠ [] → P (.child i :: r)) := by
  unfold Reach
  rw [thru_append, sub_last, allChild_append]
  simp only [Thru, List.nil_append, ne_eq, not_true, false_implies, and_true, true_and, List.cons_append,
    List.append_assoc, reduceCtorEq, not_false_eq_true, true_implies]
  constructor
  · rintro ⟨⟨h1, _⟩, h2, h3, h4, h5, h6⟩
    cases hc : n.kids[i]? with
    | none => rw [hc] at h2; simp at h2
    | some c =>
      rw [hc] at h2
      exact ⟨h4, c, rfl, ⟨h1, h2, h3, h5⟩, h6⟩
  · rintro ⟨h4, c, hc, ⟨h1, h2, h3, h5⟩, h6⟩
    exact ⟨⟨h1, by simp [AllChild]⟩, by rw [hc]; exact h2, h3, h4, h5, h6⟩

theorem last_child {q : Ref} (hq : q ≠ []) (ha : AllChild q) : ∃ (q' : Ref) (i : Nat), q = q' ++ [.child i] := by
  obtain ⟨s', x, rfl⟩ : ∃ s' x, q = s' ++ [x] := ⟨q.dropLast, q.getLast hq, (List.dropLast_concat_getLast hq).symm⟩
  obtain ⟨i, rfl⟩ := ha x (by simp)
  exact ⟨s', i, rfl⟩

theorem reach_nil {P : Ref → Prop} {r : Ref} {n : Tree} : Reach v P b r n [] ↔ v r = .accept := by
  simp [Reach, allChild_nil, sub, Thru]


theorem mem_visN_of {r : Ref} {n : Tree} (ih : ∀ y, y ∈ vis v b r n ↔
    ∃ (q : Ref), q ≠ [] ∧ y = q ++ r ∧ Reach v (fun x => v x ≠ .reject) b r n q) (y : Ref) :
    y ∈ visN v b r n ↔ ∃ (q : Ref), y = q ++ r ∧ Reach v (fun x => v x ≠ .reject) b r n q ∧ (q ≠ [] → v r ≠ .reject) := by
  rw [visN]
  cases hv : v r with
  | accept =>
    simp only
    constructor
    · intro h
      rcases List.mem_cons.1 h with e | e
      · exact ⟨[], e, reach_nil.2 hv, fun h => absurd rfl h⟩
      · obtain ⟨q, h1, h2, h3⟩ := (ih y).1 e
        exact ⟨q, h2, h3, fun _ => by simp⟩
    · rintro ⟨q, rfl, h2, _⟩
      by_cases e : q = []
      · subst e; simp
      · exact List.mem_cons_of_mem _ ((ih _).2 ⟨q, e, rfl, h2⟩)
  | skip =>
    simp only
    rw [ih]
    constructor
    · rintro ⟨q, h1, h2, h3⟩
      exact ⟨q, h2, h3, fun _ => by simp⟩
    · rintro ⟨q, h1, h2, h3⟩
      refine ⟨q, ?_, h1, h2⟩
      rintro rfl
      have := reach_nil.1 h2
      rw [hv] at this; cases this
  | reject =>
    simp only [List.not_mem_nil, false_iff]
    rintro ⟨q, h1, h2, h3⟩
    by_cases e : q = []
    · subst e
      have := reach_nil.1 h2
      rw [hv] at this; cases this
    · have := h3 e
      simp at this

theorem mem_vis : ∀ (n : Tree) (r y : Ref), y ∈ vis v b r n ↔
    ∃ (q : Ref), q ≠ [] ∧ y = q ++ r ∧ Reach v (fun x => v x ≠ .reject) b r n q := by
  refine tree_ind (P := fun n => ∀ r y : Ref, y ∈ vis v b r n ↔
    ∃ (q : Ref), q ≠ [] ∧ y = q ++ r ∧ Reach v (fun x => v x ≠ .reject) b r n q) ?_
  intro n ih r y
  rw [vis_eq]
  by_cases hb : b r = true
  · rw [if_pos hb]
    simp only [List.not_mem_nil, false_iff]
    rintro ⟨q, hq, _, h⟩
    obtain ⟨q', i, rfl⟩ := last_child hq h.1
    have := (reach_last.1 h).1
    rw [hb] at this; cases this
  · rw [if_neg hb, mem_visL]
    have hb' : b r = false := by simpa using hb
    constructor
    · rintro ⟨j, c, hc, hy⟩
      rw [Nat.zero_add] at hy
      obtain ⟨q, h1, h2, h3⟩ := (mem_visN_of (fun y => ih c (List.mem_of_getElem? hc) _ y) _).1 hy
      exact ⟨q ++ [.child j], by simp, by simpa using h1, reach_last.2 ⟨hb', c, hc, h2, h3⟩⟩
    · rintro ⟨q, hq, rfl, h⟩
      obtain ⟨q', i, rfl⟩ := last_child hq h.1
      obtain ⟨_, c, hc, hr, hp⟩ := reach_last.1 h
      refine ⟨i, c, hc, ?_⟩
      rw [Nat.zero_add]
      exact (mem_visN_of (fun y => ih c (List.mem_of_getElem? hc) _ y) _).2 ⟨q', by simp, hr, hp⟩

theorem mem_visN {r y : Ref} {n : Tree} :
    y ∈ visN v b r n ↔ ∃ (q : Ref), y = q ++ r ∧ Reach v (fun x => v x ≠ .reject) b r n q ∧ (q ≠ [] → v r ≠ .reject) :=
  mem_visN_of (fun y => mem_vis n r y) y

theorem mem_topsN_of {r : Ref} {n : Tree} (ih : ∀ y, y ∈ tops v b r n ↔
    ∃ (q : Ref), q ≠ [] ∧ y = q ++ r ∧ Reach v (fun x => v x = .skip) b r n q) (y : Ref) :
    y ∈ topsN v b r n ↔ ∃ (q : Ref), y = q ++ r ∧ Reach v (fun x => v x = .skip) b r n q ∧ (q ≠ [] → v r = .skip) := by
  rw [topsN]
  cases hv : v r with
  | accept =>
    simp only
    constructor
    · intro h
      exact ⟨[], List.mem_singleton.1 h, reach_nil.2 hv, fun h => absurd rfl h⟩
    · rintro ⟨q, rfl, h2, h3⟩
      by_cases e : q = []
      · subst e; simp
      · have := h3 e; cases this
  | skip =>
    simp only
    rw [ih]
    constructor
    · rintro ⟨q, h1, h2, h3⟩
      exact ⟨q, h2, h3, fun _ => by simp⟩
    · rintro ⟨q, h1, h2, h3⟩
      refine ⟨q, ?_, h1, h2⟩
      rintro rfl
      have := reach_nil.1 h2
      rw [hv] at this; cases this
  | reject =>
    simp only [List.not_mem_nil, false_iff]
    rintro ⟨q, h1, h2, h3⟩
    by_cases e : q = []
    · subst e
      have := reach_nil.1 h2
      rw [hv] at this; cases this
    · have := h3 e
      simp at this

theorem mem_tops : ∀ (n : Tree) (r y : Ref), y ∈ tops v b r n ↔
    ∃ (q : Ref), q ≠ [] ∧ y = q ++ r ∧ Reach v (fun x => v x = .skip) b r n q := by
  refine tree_ind (P := fun n => ∀ r y : Ref, y ∈ tops v b r n ↔
    ∃ (q : Ref), q ≠ [] ∧ y = q ++ r ∧ Reach v (fun x => v x = .skip) b r n q) ?_
  intro n ih r y
  rw [tops_eq]
  by_cases hb : b r = true
  · rw [if_pos hb]
    simp only [List.not_mem_nil, false_iff]
    rintro ⟨q, hq, _, h⟩
    obtain ⟨q', i, rfl⟩ := last_child hq h.1
    have := (reach_last.1 h).1
    rw [hb] at this; cases this
  · rw [if_neg hb, mem_topsL]
    have hb' : b r = false := by simpa using hb
    constructor
    · rintro ⟨j, c, hc, hy⟩
      rw [Nat.zero_add] at hy
      obtain ⟨q, h1, h2, h3⟩ := (mem_topsN_of (fun y => ih c (List.mem_of_getElem? hc) _ y) _).1 hy
      exact ⟨q ++ [.child j], by simp, by simpa using h1, reach_last.2 ⟨hb', c, hc, h2, h3⟩⟩
    · rintro ⟨q, hq, rfl, h⟩
      obtain ⟨q', i, rfl⟩ := last_child hq h.1
      obtain ⟨_, c, hc, hr, hp⟩ := reach_last.1 h
      refine ⟨i, c, hc, ?_⟩
      rw [Nat.zero_add]
      exact (mem_topsN_of (fun y => ih c (List.mem_of_getElem? hc) _ y) _).2 ⟨q', by simp, hr, hp⟩

theorem mem_topsN {r y : Ref} {n : Tree} :
    y ∈ topsN v b r n ↔ ∃ (q : Ref), y = q ++ r ∧ Reach v (fun x => v x = .skip) b r n q ∧ (q ≠ [] → v r = .skip) :=
  mem_topsN_of (fun y => mem_tops n r y) y

/-! ## Order -/

theorem topsN_sub_of {r : Ref} {n : Tree} (ih : (tops v b r n).Sublist (vis v b r n)) : (topsN v b r n).Sublist (visN v b r n) := by
  rw [topsN, visN]
  cases v r with
  | accept => exact (List.nil_sublist _).cons₂ _
  | skip => exact ih
  | reject => exact List.nil_sublist _

theorem topsL_sub_of {r : Ref} {cs : List Tree} (ih : ∀ c ∈ cs, ∀ r, (tops v b r c).Sublist (vis v b r c)) (i : Nat) :
    (topsL v b r i cs).Sublist (visL v b r i cs) := by
  induction cs generalizing i with
  | nil => rw [topsL, visL]; exact List.nil_sublist _
  | cons c cs ih' =>
    rw [topsL_cons, visL_cons]
    exact (topsN_sub_of (ih c (by simp) _)).append (ih' (fun c hc => ih c (by simp [hc])) _)

theorem tops_sub : ∀ (n : Tree) (r : Ref), (tops v b r n).Sublist (vis v b r n) := by
  refine tree_ind (P := fun n => ∀ r : Ref, (tops v b r n).Sublist (vis v b r n)) ?_
  intro n ih r
  rw [tops_eq, vis_eq]
  by_cases hb : b r = true
  · rw [if_pos hb, if_pos hb]; exact List.nil_sublist _
  · rw [if_neg hb, if_neg hb]; exact topsL_sub_of ih 0

theorem visN_sorted_of {r : Ref} {n : Tree} (ih : (vis v b r n).Pairwise Before) : (visN v b r n).Pairwise Before := by
  rw [visN]
  cases v r with
  | accept =>
    refine List.pairwise_cons.2 ⟨fun y hy => ?_, ih⟩
    obtain ⟨q, h1, rfl, _⟩ := (mem_vis n r y).1 hy
    exact before_of_anc (anc_append h1 _)
  | skip => exact ih
  | reject => exact List.Pairwise.nil

theorem visL_sorted_of {r : Ref} {cs : List Tree} (ih : ∀ c ∈ cs, ∀ r, (vis v b r c).Pairwise Before) (i : Nat) :
    (visL v b r i cs).Pairwise Before := by
  induction cs generalizing i with
  | nil => rw [visL]; exact List.Pairwise.nil
  | cons c cs ih' =>
    rw [visL_cons]
    refine List.pairwise_append.2 ⟨visN_sorted_of (ih c (by simp) _), ih' (fun c hc => ih c (by simp [hc])) _, ?_⟩
    intro a ha a' ha'
    obtain ⟨q, rfl, _⟩ := mem_visN.1 ha
    obtain ⟨j, c', _, h⟩ := mem_visL.1 ha'
    obtain ⟨q', rfl, _⟩ := mem_visN.1 h
    exact before_of_div (div_siblings q q' (by simp only [StepLt]; omega))

theorem vis_sorted : ∀ (n : Tree) (r : Ref), (vis v b r n).Pairwise Before := by
  refine tree_ind (P := fun n => ∀ r : Ref, (vis v b r n).Pairwise Before) ?_
  intro n ih r
  rw [vis_eq]
  by_cases hb : b r = true
  · rw [if_pos hb]; exact List.Pairwise.nil
  · rw [if_neg hb]; exact visL_sorted_of ih 0

theorem visL_sorted (r : Ref) (cs : List Tree) (i : Nat) : (visL v b r i cs).Pairwise Before :=
  visL_sorted_of (fun c _ r => vis_sorted c r) i

theorem topsL_sorted (r : Ref) (cs : List Tree) (i : Nat) : (topsL v b r i cs).Pairwise Before :=
  (visL_sorted r cs i).sublist (topsL_sub_of (fun c _ r => tops_sub c r) i)

theorem tops_sorted (n : Tree) (r : Ref) : (tops v b r n).Pairwise Before := (vis_sorted n r).sublist (tops_sub n r)

end

section
variable {t : Tree} {w : WalkState}

theorem sees_iff {y : Ref} : Sees t w y ↔ ∃ (s : Ref), s ≠ [] ∧ AllChild s ∧ y = s ++ w.root ∧ (sub t y).isSome ∧
    acceptNode t w y = .accept ∧ Thru (fun x => acceptNode t w x ≠ .reject) (blocked t w) w.root s := by
  rw [Sees]
  refine exists_congr fun s => and_congr_right fun _ => and_congr_right fun _ => and_congr_right fun _ =>
    and_congr_right fun _ => ?_
  rw [acceptNode_eq, thru_iff]
  refine and_congr_right fun _ => ?_
  refine forall_congr' fun s' => forall_congr' fun s'' => forall_congr' fun _ => forall_congr' fun _ => ?_
  rw [Opens, and_comm, acceptNode_eq]
  refine and_congr ?_ ?_
  · rw [← Bool.not_eq_true, blocked_iff]
    cases w.expand <;> simp
  · refine ⟨fun h e => h (below_ne e), fun h e => h fun e' => ?_⟩
    subst e'
    simp at e

theorem noReject_of_thru {s : Ref} (h : Thru (fun x => acceptNode t w x ≠ .reject) (blocked t w) w.root s) : NoReject t w s := by
  induction s with
  | nil => trivial
  | cons x s ih => exact ⟨h.2.1, ih h.2.2⟩

/-- The nodes below a node in the view. -/
theorem mem_below {s : Ref} {n : Tree} (hs : AllChild s) (hn : sub t (s ++ w.root) = some n)
    (ht : Thru (fun x => acceptNode t w x ≠ .reject) (blocked t w) w.root s)
    (hv : s ≠ [] → acceptNode t w (s ++ w.root) ≠ .reject) {y : Ref} :
    y ∈ vis (acceptNode t w) (blocked t w) (s ++ w.root) n ↔ Sees t w y ∧ Ancestor (s ++ w.root) y := by
  rw [mem_vis, sees_iff]
  constructor
  · rintro ⟨q, h1, rfl, h2, h3, h4, h5⟩
    refine ⟨⟨q ++ s, by simp [h1], allChild_append.2 ⟨h2, hs⟩, by simp, ?_, h4, ?_⟩, anc_append h1 _⟩
    · rw [sub_app_some hn]; exact h3
    · exact thru_append.2 ⟨ht, h5, fun _ => hv⟩
  · rintro ⟨⟨s', h1, h2, rfl, h3, h4, h5⟩, q, h6, h7⟩
    have e : s' = q ++ s := by
      rw [← List.append_assoc] at h7
      exact List.append_cancel_right h7
    subst e
    rw [List.append_assoc] at h3 h4 ⊢
    refine ⟨q, h6, rfl, (allChild_append.1 h2).1, ?_, h4, (thru_append.1 h5).2.1⟩
    rw [sub_app_some hn] at h3; exact h3

theorem not_div_below {s q : Ref} : ¬ Div s (q ++ s) := by
  by_cases e : q = []
  · subst e; intro h; exact before_irrefl _ (before_of_div h)
  · exact not_div_of_anc (anc_append e _)

theorem not_div_below' {s q : Ref} : ¬ Div (q ++ s) s := by
  by_cases e : q = []
  · subst e; intro h; exact before_irrefl _ (before_of_div h)
  · exact not_div_of_anc' (anc_append e _)

/-- The nodes after a node and its descendants. -/
theorem mem_rest {s : Ref} (hs : AllChild s) (hn : (sub t (s ++ w.root)).isSome)
    (ht : Thru (fun x => acceptNode t w x ≠ .reject) (blocked t w) w.root s) {y : Ref} :
    y ∈ restV t w s ↔ Sees t w y ∧ Div (s ++ w.root) y := by
  induction s with
  | nil =>
    simp only [restV, List.not_mem_nil, false_iff, List.nil_append]
    rintro ⟨h, h'⟩
    obtain ⟨q, _, _, rfl, _⟩ := sees_iff.1 h
    exact not_div_below h'
  | cons x s ih =>
    obtain ⟨i, rfl⟩ := hs x (by simp)
    have hs' : AllChild s := fun y hy => hs y (by simp [hy])
    obtain ⟨m, hm⟩ : ∃ m, sub t (s ++ w.root) = some m := Option.isSome_iff_exists.1 (sub_below hn)
    rw [restV, List.mem_append, ih hs' (sub_below hn) ht.2.2, List.cons_append, div_cons_left, and_or_left]
    refine or_congr_left ?_
    rw [kidsOf_eq hm, mem_visL]
    constructor
    · rintro ⟨j, c, hc, hy⟩
      rw [List.getElem?_drop] at hc
      obtain ⟨q, rfl, ⟨h1, h2, h3, h4⟩, h5⟩ := mem_visN.1 hy
      have hsub : sub t (.child (i + 1 + j) :: (s ++ w.root)) = some c := by rw [sub_child, kidsOf_eq hm]; exact hc
      refine ⟨sees_iff.2 ⟨q ++ .child (i + 1 + j) :: s, by simp, ?_, by simp, ?_, h3, ?_⟩, q, _, rfl, ?_⟩
      · exact allChild_append.2 ⟨h1, allChild_cons.2 ⟨⟨_, rfl⟩, hs'⟩⟩
      · rw [sub_app_some hsub]; exact h2
      · exact thru_append.2 ⟨ht, h4, fun h _ => h5 h⟩
      · simp only [StepLt]; omega
    · rintro ⟨h, q, x, rfl, hx⟩
      obtain ⟨s', h1, h2, h3, h4, h5, h6⟩ := sees_iff.1 h
      have e : s' = q ++ x :: s := by
        rw [← List.cons_append, ← List.append_assoc] at h3
        exact (List.append_cancel_right h3).symm
      subst e
      obtain ⟨h7, h8⟩ := allChild_append.1 h2
      obtain ⟨k, rfl⟩ := h8 x (by simp)
      simp only [StepLt] at hx
      obtain ⟨h9, h10, h11⟩ := thru_append.1 h6
      rw [sub_app] at h4
      cases hc : sub t (.child k :: (s ++ w.root)) with
      | none => rw [hc] at h4; simp at h4
      | some c =>
        rw [hc] at h4
        refine ⟨k - (i + 1), c, ?_, ?_⟩
        · rw [List.getElem?_drop, show i + 1 + (k - (i + 1)) = k by omega]
          rw [sub_child, kidsOf_eq hm] at hc; exact hc
        · rw [show i + 1 + (k - (i + 1)) = k by omega]
          exact mem_visN.2 ⟨q, rfl, ⟨h7, h4, h5, h10⟩, fun h => h11 h (by simp)⟩

theorem rest_sorted (s : Ref) : (restV t w s).Pairwise Before ∧ ∀ y ∈ restV t w s, Div (s ++ w.root) y := by
  induction s with
  | nil => simp [restV]
  | cons x s ih =>
    cases x with
    | attr i => simp [restV]
    | child i =>
      rw [restV]
      have h : ∀ y ∈ visL (acceptNode t w) (blocked t w) (s ++ w.root) (i + 1) ((kidsOf t (s ++ w.root)).drop (i + 1)),
          ∃ q k, i < k ∧ y = q ++ Step.child k :: (s ++ w.root) := by
        intro y hy
        obtain ⟨j, c, _, hy⟩ := mem_visL.1 hy
        obtain ⟨q, rfl, _⟩ := mem_visN.1 hy
        exact ⟨q, i + 1 + j, by omega, rfl⟩
      refine ⟨List.pairwise_append.2 ⟨visL_sorted _ _ _, ih.1, ?_⟩, ?_⟩
      · intro a ha a' ha'
        obtain ⟨q, k, _, rfl⟩ := h a ha
        have := ih.2 a' ha'
        have h' := div_append (q ++ [Step.child k]) [] this
        rw [List.append_assoc] at h'
        exact before_of_div h'
      · intro y hy
        rcases List.mem_append.1 hy with hy | hy
        · obtain ⟨q, k, hk, rfl⟩ := h y hy
          exact div_siblings [] q (by simpa only [StepLt] using hk)
        · exact div_append [.child i] [] (ih.2 y hy)

end
end Verif.Walker
