import Verif.Lemmas.TreeWalker
set_option autoImplicit false
set_option linter.unusedSimpArgs false
set_option linter.unusedVariables false
namespace Verif.Walker
open Verif.XTree Verif.Spec.XPathAxes Verif.Spec.TreeWalker

section
variable {t : Tree} {w : WalkState}

/-! ## Backwards -/

def LastOk (t : Tree) (w : WalkState) (n : Tree) : Prop :=
  ∀ r s, r = s ++ w.root → sub t r = some n → ∀ x, Climb (getPreviousSiblingImpl t w) t w r x →
    (n.kids ≠ [] ∨ r = w.root ∨ acceptNode t w r ≠ .skip) →
    Evals (fun j => getLastChildImpl t w j r) ((tops (acceptNode t w) (blocked t w) r n).getLast?.or x)

theorem not_blocked (hE : EntitiesShown t w) {r : Ref} (hv : acceptNode t w r = .skip) : blocked t w r = false := by
  cases hbl : blocked t w r with
  | false => rfl
  | true =>
    obtain ⟨h2, h3⟩ := blocked_iff.1 hbl
    rcases hE with h | h
    · rw [h] at h2; cases h2
    · exact absurd (by rw [← acceptNode_eq]; exact hv) (h _ h3)

theorem take_succ' {l : List Tree} {i : Nat} {c : Tree} (h : l[i]? = some c) : l.take (i + 1) = l.take i ++ [c] := by
  rw [List.take_add_one, h]; rfl

theorem prevSibling_ok (hE : EntitiesShown t w) {n : Tree} (ih : ∀ c ∈ n.kids, LastOk t w c) {r s : Ref} (hr : r = s ++ w.root)
    (hn : sub t r = some n) {x : Option Ref} (hx : Climb (getPreviousSiblingImpl t w) t w r x) :
    ∀ i, i < n.kids.length → Evals (fun j => getPreviousSiblingImpl t w j (.child i :: r))
        ((topsL (acceptNode t w) (blocked t w) r 0 (n.kids.take i)).getLast?.or x) := by
  intro i
  induction i with
  | zero =>
    intro _
    refine Evals.succ ?_
    simp only [getPreviousSiblingImpl, if_neg (child_ne_root hr), prevSibling, parentNode]
    rw [show (topsL (acceptNode t w) (blocked t w) r 0 (n.kids.take 0)).getLast?.or x = x from by
      rw [List.take_zero, topsL]; rfl]
    rcases hx with ⟨h, rfl⟩ | ⟨h, h', he⟩ | ⟨h, h', rfl⟩
    · simp only [if_pos h]; exact .const none
    · simp only [if_neg h, if_pos h']; exact he
    · simp only [if_neg h, if_neg h']; exact .const none
  | succ i ihi =>
    intro hi
    have hrest := ihi (by omega)
    obtain ⟨c, hc⟩ : ∃ c, n.kids[i]? = some c := ⟨n.kids[i], List.getElem?_eq_getElem (by omega)⟩
    have hsub : sub t (.child i :: r) = some c := by rw [sub, hn]; exact hc
    refine Evals.succ ?_
    simp only [getPreviousSiblingImpl, if_neg (child_ne_root hr), prevSibling]
    rw [take_succ' hc, topsL_append, List.length_take, Nat.min_eq_left (by omega), Nat.zero_add, topsL_cons,
      List.getLast?_append]
    simp only [topsL, List.append_nil]
    rw [topsN]
    have hne : Step.child i :: r ≠ w.root := child_ne_root hr
    cases hv : acceptNode t w (.child i :: r) with
    | accept => exact .const _
    | reject => exact hrest
    | skip =>
      simp only
      have hb := not_blocked hE hv
      by_cases hck : c.kids = []
      · have hf : ∀ j, getLastChildImpl t w (j + 1) (.child i :: r) = .done none := by
          intro j
          rw [getLastChildImpl, if_neg (fun h => by rw [blocked_iff.2 h] at hb; cases hb)]
          simp only [lastChild, kidsOf_eq hsub, hck]
        have hh : hasChildNodes t (.child i :: r) = false := by simp [hasChildNodes, kidsOf_eq hsub, hck]
        have ht : tops (acceptNode t w) (blocked t w) (.child i :: r) c = [] := by
          rw [tops_eq, hck]; simp [topsL]
        rw [ht]
        refine Evals.succ ?_
        simp only [hf, hh]
        obtain ⟨k, hk⟩ := hrest
        exact ⟨k, fun j hj => hk (j + 1) (by omega)⟩
      · have hcc := ih c (List.mem_of_getElem? hc) (.child i :: r) (.child i :: s) (by rw [hr]; rfl) hsub _
          (.inr (.inl ⟨hne, hv, hrest⟩)) (.inl hck)
        have hh : hasChildNodes t (.child i :: r) = true := by
          simp [hasChildNodes, kidsOf_eq hsub, hck]
        rw [Option.or_assoc]
        refine hcc.congr fun j hj => ?_
        rw [hj]
        simp only [hh]
        cases ((tops (acceptNode t w) (blocked t w) (.child i :: r) c).getLast?.or
          ((topsL (acceptNode t w) (blocked t w) r 0 (n.kids.take i)).getLast?.or x)) <;> rfl

theorem lastChild_ok (hE : EntitiesShown t w) : ∀ n : Tree, LastOk t w n := by
  refine tree_ind ?_
  intro n ih r s hr hn x hx hcond
  by_cases hb : blocked t w r = true
  · have hx' : x = none := by
      rcases hx with ⟨_, h⟩ | ⟨_, h', _⟩ | ⟨_, _, h⟩
      · exact h
      · rw [not_blocked hE h'] at hb; cases hb
      · exact h
    subst hx'
    rw [tops_eq, if_pos hb]
    refine Evals.succ ?_
    simp only [getLastChildImpl, if_pos (blocked_iff.1 hb)]
    exact .const none
  · rw [tops_eq, if_neg hb]
    refine Evals.succ ?_
    simp only [getLastChildImpl, if_neg (fun h => hb (blocked_iff.2 h)), lastChild, kidsOf_eq hn]
    have hpo := prevSibling_ok hE ih hr hn hx
    cases hk : n.kids with
    | nil =>
      simp only
      have hx' : x = none := by
        rcases hx with ⟨_, h⟩ | ⟨h1, h2, _⟩ | ⟨_, _, h⟩
        · exact h
        · rcases hcond with h | h | h
          · exact absurd hk h
          · exact absurd h h1
          · exact absurd h2 h
        · exact h
      subst hx'
      exact .const none
    | cons d cs =>
      simp only
      have hi : cs.length < n.kids.length := by rw [hk]; simp
      obtain ⟨c, hc⟩ : ∃ c, n.kids[cs.length]? = some c := ⟨n.kids[cs.length], List.getElem?_eq_getElem hi⟩
      have hsub : sub t (.child cs.length :: r) = some c := by rw [sub, hn]; exact hc
      have hrest := hpo cs.length hi
      rw [← hk, show n.kids = n.kids.take (cs.length + 1) from by rw [List.take_of_length_le]; rw [hk]; simp,
        take_succ' hc, topsL_append, List.length_take, Nat.min_eq_left (by omega), Nat.zero_add, topsL_cons,
        List.getLast?_append]
      simp only [topsL, List.append_nil]
      rw [topsN]
      have hne : Step.child cs.length :: r ≠ w.root := child_ne_root hr
      cases hv : acceptNode t w (.child cs.length :: r) with
      | accept => exact .const _
      | reject => exact hrest
      | skip =>
        simp only
        by_cases hck : c.kids = []
        · have hh : hasChildNodes t (.child cs.length :: r) = false := by simp [hasChildNodes, kidsOf_eq hsub, hck]
          have ht : tops (acceptNode t w) (blocked t w) (.child cs.length :: r) c = [] := by
            rw [tops_eq, hck]; simp [topsL]
          rw [ht]
          simp only [hh]
          exact hrest
        · have hcc := ih c (List.mem_of_getElem? hc) (.child cs.length :: r) (.child cs.length :: s) (by rw [hr]; rfl) hsub _
            (.inr (.inl ⟨hne, hv, hrest⟩)) (.inl hck)
          have hh : hasChildNodes t (.child cs.length :: r) = true := by
            simp [hasChildNodes, kidsOf_eq hsub, hck]
          rw [Option.or_assoc]
          simp only [hh]
          exact hcc

/-! ## Anywhere below the root -/

/-- The nodes after one with the same parent in the view. -/
def contN (t : Tree) (w : WalkState) : Ref → List Ref
  | .child i :: s =>
    topsL (acceptNode t w) (blocked t w) (s ++ w.root) (i + 1) ((kidsOf t (s ++ w.root)).drop (i + 1)) ++
      (if s ≠ [] ∧ acceptNode t w (s ++ w.root) = .skip then contN t w s else [])
  | _ => []

/-- The nodes before it. -/
def contP (t : Tree) (w : WalkState) : Ref → List Ref
  | .child i :: s =>
    (if s ≠ [] ∧ acceptNode t w (s ++ w.root) = .skip then contP t w s else []) ++
      topsL (acceptNode t w) (blocked t w) (s ++ w.root) 0 ((kidsOf t (s ++ w.root)).take i)
  | _ => []

theorem below_ne {s : Ref} (h : s ≠ []) : s ++ w.root ≠ w.root := by
  intro e
  have := congrArg List.length e
  simp at this
  exact h this

theorem sub_below {x : Step} {r : Ref} (h : (sub t (x :: r)).isSome) : (sub t r).isSome := by
  rw [sub] at h
  cases hs : sub t r with
  | none => rw [hs] at h; simp at h
  | some n => rfl

theorem next_eval (hE : EntitiesShown t w) (s : Ref) (hs : AllChild s) (hv : (sub t (s ++ w.root)).isSome) :
    (s ≠ [] → Evals (fun j => getNextSiblingImpl t w j (s ++ w.root)) (contN t w s).head?) ∧
    Climb (getNextSiblingImpl t w) t w (s ++ w.root)
      (if s ≠ [] ∧ acceptNode t w (s ++ w.root) = .skip then contN t w s else []).head? := by
  induction s with
  | nil => exact ⟨fun h => absurd rfl h, .inl ⟨rfl, rfl⟩⟩
  | cons x s ih =>
    obtain ⟨i, rfl⟩ := hs x (by simp)
    have hs' : AllChild s := fun y hy => hs y (by simp [hy])
    obtain ⟨m, hm⟩ : ∃ m, sub t (s ++ w.root) = some m := Option.isSome_iff_exists.1 (sub_below hv)
    have ih := (ih hs' (sub_below hv)).2
    have he : Evals (fun j => getNextSiblingImpl t w j (.child i :: s ++ w.root)) (contN t w (.child i :: s)).head? := by
      rw [contN, kidsOf_eq hm, List.head?_append]
      rw [List.cons_append, sub_child, kidsOf_eq hm] at hv
      obtain ⟨c, hc⟩ := Option.isSome_iff_exists.1 hv
      obtain ⟨hi, hc⟩ := List.getElem?_eq_some_iff.1 hc
      have hk : m.kids = m.kids.take i ++ c :: m.kids.drop (i + 1) := by
        rw [← hc, List.getElem_cons_drop, List.take_append_drop]
      have := nextSibling_ok hE (fun c _ => firstChild_ok hE c) rfl hm ih _ _ _ hk
      rw [List.length_take, Nat.min_eq_left (by omega)] at this
      exact this
    refine ⟨fun _ => he, ?_⟩
    by_cases hsk : acceptNode t w (.child i :: s ++ w.root) = .skip
    · rw [if_pos ⟨by simp, hsk⟩]
      exact .inr (.inl ⟨below_ne (by simp), hsk, he⟩)
    · rw [if_neg (fun h => hsk h.2)]
      exact .inr (.inr ⟨below_ne (by simp), hsk, rfl⟩)

theorem prev_eval (hE : EntitiesShown t w) (s : Ref) (hs : AllChild s) (hv : (sub t (s ++ w.root)).isSome) :
    (s ≠ [] → Evals (fun j => getPreviousSiblingImpl t w j (s ++ w.root)) (contP t w s).getLast?) ∧
    Climb (getPreviousSiblingImpl t w) t w (s ++ w.root)
      (if s ≠ [] ∧ acceptNode t w (s ++ w.root) = .skip then contP t w s else []).getLast? := by
  induction s with
  | nil => exact ⟨fun h => absurd rfl h, .inl ⟨rfl, rfl⟩⟩
  | cons x s ih =>
    obtain ⟨i, rfl⟩ := hs x (by simp)
    have hs' : AllChild s := fun y hy => hs y (by simp [hy])
    obtain ⟨m, hm⟩ : ∃ m, sub t (s ++ w.root) = some m := Option.isSome_iff_exists.1 (sub_below hv)
    have ih := (ih hs' (sub_below hv)).2
    have he : Evals (fun j => getPreviousSiblingImpl t w j (.child i :: s ++ w.root)) (contP t w (.child i :: s)).getLast? := by
      rw [contP, kidsOf_eq hm, List.getLast?_append]
      rw [List.cons_append, sub_child, kidsOf_eq hm] at hv
      obtain ⟨c, hc⟩ := Option.isSome_iff_exists.1 hv
      obtain ⟨hi, hc⟩ := List.getElem?_eq_some_iff.1 hc
      exact prevSibling_ok hE (fun c _ => lastChild_ok hE c) rfl hm ih i hi
    refine ⟨fun _ => he, ?_⟩
    by_cases hsk : acceptNode t w (.child i :: s ++ w.root) = .skip
    · rw [if_pos ⟨by simp, hsk⟩]
      exact .inr (.inl ⟨below_ne (by simp), hsk, he⟩)
    · rw [if_neg (fun h => hsk h.2)]
      exact .inr (.inr ⟨below_ne (by simp), hsk, rfl⟩)

/-- The first child in the view, of the root or an accepted node. -/
theorem first_eval (hE : EntitiesShown t w) {s : Ref} (hs : AllChild s) {n : Tree} (hn : sub t (s ++ w.root) = some n)
    (hv : s = [] ∨ acceptNode t w (s ++ w.root) ≠ .skip) :
    Evals (fun j => getFirstChildImpl t w j (s ++ w.root)) (tops (acceptNode t w) (blocked t w) (s ++ w.root) n).head? := by
  have := firstChild_ok hE n (s ++ w.root) s rfl hn none ?_ ?_
  · simpa using this
  · rcases hv with rfl | h
    · exact .inl ⟨rfl, rfl⟩
    · by_cases e : s = []
      · subst e; exact .inl ⟨rfl, rfl⟩
      · exact .inr (.inr ⟨below_ne e, h, rfl⟩)
  · rcases hv with rfl | h
    · exact .inr (.inl rfl)
    · exact .inr (.inr h)

theorem last_eval (hE : EntitiesShown t w) {s : Ref} (hs : AllChild s) {n : Tree} (hn : sub t (s ++ w.root) = some n)
    (hv : s = [] ∨ acceptNode t w (s ++ w.root) ≠ .skip) :
    Evals (fun j => getLastChildImpl t w j (s ++ w.root)) (tops (acceptNode t w) (blocked t w) (s ++ w.root) n).getLast? := by
  have := lastChild_ok hE n (s ++ w.root) s rfl hn none ?_ ?_
  · simpa using this
  · rcases hv with rfl | h
    · exact .inl ⟨rfl, rfl⟩
    · by_cases e : s = []
      · subst e; exact .inl ⟨rfl, rfl⟩
      · exact .inr (.inr ⟨below_ne e, h, rfl⟩)
  · rcases hv with rfl | h
    · exact .inr (.inl rfl)
    · exact .inr (.inr h)

/-! ## The next node -/

/-- All nodes of the view after one and not below it. -/
def restV (t : Tree) (w : WalkState) : Ref → List Ref
  | .child i :: s =>
    visL (acceptNode t w) (blocked t w) (s ++ w.root) (i + 1) ((kidsOf t (s ++ w.root)).drop (i + 1)) ++ restV t w s
  | _ => []

/-- Nothing on the way down from the root is rejected. -/
def NoReject (t : Tree) (w : WalkState) : Ref → Prop
  | [] => True
  | _ :: s => (s ≠ [] → acceptNode t w (s ++ w.root) ≠ .reject) ∧ NoReject t w s

/-- The part of a reference below the root. -/
theorem parent_spec {s : Ref} (hs : AllChild s) (hr : NoReject t w s) :
    (getParentNodeImpl t w (s ++ w.root) = none ∧ (restV t w s).head? = (contN t w s).head?) ∨
    (∃ p, p ≠ [] ∧ AllChild p ∧ NoReject t w p ∧ p.length < s.length ∧ acceptNode t w (p ++ w.root) = .accept ∧
      (∃ q, s = q ++ p) ∧
      getParentNodeImpl t w (s ++ w.root) = some (p ++ w.root) ∧
      (restV t w s).head? = (contN t w s).head?.or (restV t w p).head?) ∨ s = [] := by
  induction s with
  | nil => exact .inr (.inr rfl)
  | cons x s ih =>
    obtain ⟨i, rfl⟩ := hs x (by simp)
    have hs' : AllChild s := fun y hy => hs y (by simp [hy])
    have hne : Step.child i :: (s ++ w.root) ≠ w.root := child_ne_root rfl
    rw [List.cons_append, getParentNodeImpl, if_neg hne, restV, contN, List.head?_append, List.head?_append, head_visL]
    by_cases e : s = []
    · subst e
      left
      simp [restV]
    · rw [if_neg (below_ne e)]
      cases hv : acceptNode t w (s ++ w.root) with
      | accept =>
        right; left
        refine ⟨s, e, hs', hr.2, by simp, hv, ⟨[.child i], rfl⟩, ?_, ?_⟩
        · simp
        · simp
      | reject => exact absurd hv (hr.1 e)
      | skip =>
        simp only [e, ne_eq, not_false_eq_true, and_self, if_true]
        rw [if_neg (by simp)]
        rcases ih hs' hr.2 with ⟨h1, h2⟩ | ⟨p, h1, h2, h3, h4, h5, ⟨q, h8⟩, h6, h7⟩ | h
        · left; exact ⟨h1, by rw [h2]⟩
        · right; left
          refine ⟨p, h1, h2, h3, by rw [List.length_cons]; omega, h5, ⟨.child i :: q, by rw [h8]; rfl⟩, h6, ?_⟩
          rw [h7, Option.or_assoc]
        · exact absurd h e

theorem loop_eval (hE : EntitiesShown t w) : ∀ (k : Nat) (s : Ref), s.length = k → s ≠ [] → AllChild s → NoReject t w s →
    (sub t (s ++ w.root)).isSome →
    ∃ f, ∀ j, f ≤ j → ∃ x, getNextSiblingImpl t w j (s ++ w.root) = .done x ∧
      ∃ y, parentLoop t w j (getParentNodeImpl t w (s ++ w.root)) = .done y ∧ x.or y = (restV t w s).head? := by
  intro k
  induction k using Nat.strongRecOn with
  | _ k ih =>
    intro s hk hne hs hr hv
    obtain ⟨f1, h1⟩ := (next_eval hE s hs hv).1 hne
    rcases parent_spec (w := w) hs hr with ⟨hp, hh⟩ | ⟨p, p1, p2, p3, p4, p5, ⟨q, p8⟩, p6, p7⟩ | h
    · refine ⟨f1, fun j hj => ⟨_, h1 j hj, none, ?_, by rw [hh]; simp⟩⟩
      rw [hp]; cases j <;> rfl
    · have hvp : (sub t (p ++ w.root)).isSome := by
        rw [p8, List.append_assoc, sub_app] at hv
        cases h : sub t (p ++ w.root) with
        | none => rw [h] at hv; simp at hv
        | some n => rfl
      obtain ⟨f2, h2⟩ := ih p.length (by omega) p rfl p1 p2 p3 hvp
      refine ⟨max f1 (f2 + 1), fun j hj => ?_⟩
      refine ⟨_, h1 j (by omega), (restV t w p).head?, ?_, p7.symm⟩
      obtain ⟨j, rfl⟩ : ∃ i, j = i + 1 := ⟨j - 1, by omega⟩
      obtain ⟨x, hx, y, hy, hxy⟩ := h2 j (by omega)
      rw [p6, parentLoop, hx, ← hxy]
      cases x with
      | none => exact hy
      | some x => rfl
    · exact absurd h hne

theorem nextNode_eval (hE : EntitiesShown t w) {s : Ref} {n : Tree} (hs : AllChild s) (hr : NoReject t w s)
    (hn : sub t (s ++ w.root) = some n) (hv : s = [] ∨ acceptNode t w (s ++ w.root) ≠ .skip) (hc : w.current = s ++ w.root) :
    Evals (fun j => nextNodeImpl t w j) ((vis (acceptNode t w) (blocked t w) (s ++ w.root) n ++ restV t w s).head?) := by
  obtain ⟨f1, h1⟩ := first_eval hE hs hn hv
  replace h1 : ∀ j, f1 ≤ j → getFirstChildImpl t w j (s ++ w.root) =
    .done (tops (acceptNode t w) (blocked t w) (s ++ w.root) n).head? := h1
  rw [List.head?_append, ← head_vis]
  by_cases e : s = []
  · subst e
    have h2 : ∀ j, getNextSiblingImpl t w (j + 1) ([] ++ w.root) = .done none := by
      intro j; rw [getNextSiblingImpl, if_pos (by simp)]
    refine ⟨f1 + 1, fun j hj => ?_⟩
    obtain ⟨j, rfl⟩ : ∃ i, j = i + 1 := ⟨j - 1, by omega⟩
    show nextNodeImpl t w (j + 1) = _
    rw [nextNodeImpl, hc, h1 _ (by omega), h2]
    simp only [restV, List.head?_nil, Option.or_none]
    cases (tops (acceptNode t w) (blocked t w) ([] ++ w.root) n).head? with
    | some x => rfl
    | none =>
      simp only
      have : getParentNodeImpl t w ([] ++ w.root) = none := by
        rw [List.nil_append]
        match h : w.root with
        | [] => rfl
        | .attr _ :: _ => rfl
        | .child i :: up => rw [getParentNodeImpl, if_pos h.symm]
      rw [this]; rfl
  · obtain ⟨f2, h2⟩ := loop_eval hE s.length s rfl e hs hr (by simp [hn])
    refine ⟨max f1 f2, fun j hj => ?_⟩
    obtain ⟨x, hx, y, hy, hxy⟩ := h2 j (by omega)
    show nextNodeImpl t w j = _
    rw [nextNodeImpl, hc, h1 _ (by omega), hx, hy, ← hxy]
    cases (tops (acceptNode t w) (blocked t w) (s ++ w.root) n).head? with
    | some z => rfl
    | none => cases x <;> rfl

end
end Verif.Walker
