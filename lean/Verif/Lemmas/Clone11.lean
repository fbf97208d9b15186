import Verif.Lemmas.Clone10
set_option autoImplicit false
set_option linter.unusedSimpArgs false
set_option linter.unusedVariables false
namespace Verif.Clone
open Verif.Dom (Str Kind Err upd upd_ne upd_same)
open Verif.DomNames (NsName plain)

/-! ## what is within a copy -/

theorem within_ge {s : St} {m : Nat} (hu : Up m s) {x : Nat} (h : Within s m x) : m ≤ x := by
  induction h with
  | self => exact Nat.le_refl _
  | kid x y _ hy ih => have := hu x y ih (.inl hy); exact Nat.le_of_lt (Nat.lt_of_le_of_lt ih this)
  | attr x y _ hy ih => have := hu x y ih (.inr hy); exact Nat.le_of_lt (Nat.lt_of_le_of_lt ih this)

theorem within_lt {C : Chars} {s : St} (h : Good C s) {m x : Nat} (hm : m < s.base.size) (hw : Within s m x) : x < s.base.size := by
  cases hw with
  | self => exact hm
  | kid x y _ hy => exact (h.dom.inv.lt _ _ hy).1
  | attr x y _ hy => exact (h.attr _ _ hy).2.1

theorem within_doc {C : Chars} {s : St} (h : Good C s) {m x d : Nat} (hd : s.base.doc m = some d) (hw : Within s m x) :
    s.base.doc x = some d := by
  induction hw with
  | self => exact hd
  | kid x y _ hy ih => rw [h.dom.inv.owner _ _ hy]; exact ih
  | attr x y _ hy ih => rw [(h.attr _ _ hy).2.2.2.2]; exact ih

/-- Old nodes lead to old nodes only. -/
theorem within_old {C : Chars} {s s' : St} (h : Good C s) (hu : Upto s.base.size s s') {n x : Nat} (hn : n < s.base.size)
    (hw : Within s' n x) : x < s.base.size := by
  induction hw with
  | self => exact hn
  | kid x y _ hy ih => rw [(node_fields (hu x ih)).2.2.2.2.1] at hy; exact (h.dom.inv.lt _ _ hy).1
  | attr x y _ hy ih => rw [(node_fields (hu x ih)).2.2.2.2.2.2.2.2.2.2.1] at hy; exact (h.attr _ _ hy).2.1

/-! ## trees to check -/

mutual

def showsB (s : St) : Tree → Nat → Bool
  | .node k r v i as ks, n =>
    decide (s.base.kind n = k) && decide (nameOf s n = r) && decide (valueOf s n = v) && decide (idsOf s n = i) &&
      showsAllB s as (attrsOf s n) && showsAllB s ks (s.base.kids n)

def showsAllB (s : St) : List Tree → List Nat → Bool
  | [], [] => true
  | t :: ts, n :: ns => showsB s t n && showsAllB s ts ns
  | _, _ => false

end

mutual

theorem showsB_iff {s : St} : (t : Tree) → (n : Nat) → (showsB s t n = true ↔ Shows s t n)
  | .node k r v i as ks, n => by
    rw [showsB, Shows]
    simp only [Bool.and_eq_true, decide_eq_true_eq, and_assoc]
    rw [showsAllB_iff as (attrsOf s n), showsAllB_iff ks (s.base.kids n)]

theorem showsAllB_iff {s : St} : (ts : List Tree) → (ns : List Nat) → (showsAllB s ts ns = true ↔ ShowsAll s ts ns)
  | [], [] => by simp [showsAllB, ShowsAll]
  | [], _ :: _ => by simp [showsAllB, ShowsAll]
  | _ :: _, [] => by simp [showsAllB, ShowsAll]
  | t :: ts, n :: ns => by
    rw [showsAllB, ShowsAll, Bool.and_eq_true, showsB_iff t n, showsAllB_iff ts ns]

end

instance (s : St) (t : Tree) (n : Nat) : Decidable (Shows s t n) := decidable_of_iff _ (showsB_iff t n)

/-! ## histories to run -/

def isSelf : Dom.Op → Bool
  | .insertBefore p n _ => decide (p = n)
  | _ => false

def exec (C : Chars) : St → List (Dom.Op ⊕ Op) → Option St
  | s, [] => some s
  | s, .inl op :: l =>
    if plainOp op && !isSelf op then
      match Dom.step s.base op with
      | .ok b _ => exec C { s with base := b } l
      | _ => none
    else none
  | s, .inr op :: l =>
    match step C 100 s op with
    | .ok s' _ => exec C s' l
    | _ => none

theorem exec_reach {C : Chars} : ∀ (l : List (Dom.Op ⊕ Op)) {s t : St}, Reach C s → exec C s l = some t → Reach C t
  | [], s, t, h, e => by cases e; exact h
  | .inl op :: l, s, t, h, e => by
    rw [exec] at e
    by_cases hc : (plainOp op && !isSelf op) = true
    · rw [if_pos hc] at e
      simp only [Bool.and_eq_true, Bool.not_eq_true'] at hc
      cases hs : Dom.step s.base op with
      | ok b u =>
        rw [hs] at e
        refine exec_reach l (Reach.dom s b op h hc.1 ?_ (.inl hs)) e
        intro hd
        cases op with
        | insertBefore p n r =>
          have h1 := hc.2
          simp only [isSelf, decide_eq_false_iff_not] at h1
          exact h1 hd.1
        | _ => exact hd
      | err _ _ => rw [hs] at e; cases e
      | diverges => rw [hs] at e; cases e
      | ub => rw [hs] at e; cases e
    · rw [if_neg hc] at e; cases e
  | .inr op :: l, s, t, h, e => by
    rw [exec] at e
    cases hs : step C 100 s op with
    | ok b u => rw [hs] at e; exact exec_reach l (Reach.call s b op 100 h hs) e
    | err _ => rw [hs] at e; cases e
    | diverges => rw [hs] at e; cases e
    | ub => rw [hs] at e; cases e

end Verif.Clone
