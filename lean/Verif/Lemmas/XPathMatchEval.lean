import Verif.Lemmas.XPathPath
import Verif.Model.XPathMatch
import Verif.Spec.XPathMatch
set_option autoImplicit false
set_option linter.unusedSimpArgs false
set_option linter.unusedVariables false
namespace Verif.XTree
open Verif.Spec.XPathAxes Verif.Spec.XPathNodeSet Verif.Spec.XPathPath
open Verif.Spec.XPathMatch (Steady)
open Verif.XPathMatch (isAmong)

/-! ## predicates that take no notice of the position -/

/-- A steady predicate holds of a node. -/
def Holds (p : Pred) (x : XN) : Prop := Keeps 1 (p x 1 1)

theorem steady_keeps {p : Pred} (h : Steady p) (x : XN) (i n : Nat) : Keeps i (p x i n) ↔ Holds p x := by
  rw [Holds, (h x i n 1 1).1]
  have h2 := (h x 1 1 1 1).2
  cases hv : p x 1 1 with
  | num v => exact absurd hv (h2 v)
  | bool b => exact Iff.rfl
  | str s => exact Iff.rfl
  | nodes l => exact Iff.rfl

theorem filtered_index {p : Pred} {l m : List XN} (h : Filtered p l m) (y : XN) :
    y ∈ m ↔ ∃ i, l[i]? = some y ∧ Keeps (i + 1) (p y (i + 1) l.length) := by
  obtain ⟨keep, _, hm, hk⟩ := h
  have h1 : y ∈ m ↔ some y ∈ keep.map fun i => l[i]? := by
    rw [← hm]
    simp
  rw [h1, List.mem_map]
  constructor
  · rintro ⟨i, hi, e⟩
    exact ⟨i, e, (hk i y e).1 hi⟩
  · rintro ⟨i, e, hi⟩
    exact ⟨i, (hk i y e).2 hi, e⟩

theorem filtered_steady {p : Pred} (hp : Steady p) {l m : List XN} (h : Filtered p l m) (y : XN) :
    y ∈ m ↔ y ∈ l ∧ Holds p y := by
  rw [filtered_index h]
  constructor
  · rintro ⟨i, e, hi⟩
    exact ⟨List.mem_of_getElem? e, (steady_keeps hp _ _ _).1 hi⟩
  · rintro ⟨hy, h2⟩
    obtain ⟨i, hi, e⟩ := List.mem_iff_getElem.1 hy
    exact ⟨i, by rw [List.getElem?_eq_getElem hi, e], (steady_keeps hp _ _ _).2 h2⟩

theorem filteredBy_steady {ps : List Pred} (hp : ∀ p ∈ ps, Steady p) {l m : List XN} (h : FilteredBy ps l m) (y : XN) :
    y ∈ m ↔ y ∈ l ∧ ∀ p ∈ ps, Holds p y := by
  induction ps generalizing l with
  | nil =>
    rw [FilteredBy] at h
    simp [h]
  | cons p ps ih =>
    obtain ⟨k, hk, h2⟩ := h
    rw [ih (fun q hq => hp q (List.mem_cons_of_mem _ hq)) h2, filtered_steady (hp p (List.mem_cons_self ..)) hk]
    simp [and_assoc]

theorem filteredBy_append {ps qs : List Pred} {l m : List XN} :
    FilteredBy (ps ++ qs) l m ↔ ∃ k, FilteredBy ps l k ∧ FilteredBy qs k m := by
  induction ps generalizing l with
  | nil => simp [FilteredBy]
  | cons p ps ih =>
    simp only [List.cons_append, FilteredBy, ih]
    constructor
    · rintro ⟨a, ha, k, hk, hm⟩
      exact ⟨k, ⟨a, ha, hk⟩, hm⟩
    · rintro ⟨k, ⟨a, ha, hk⟩, hm⟩
      exact ⟨a, ha, k, hk, hm⟩

theorem filteredBy_exists (ps : List Pred) (l : List XN) : ∃ m, FilteredBy ps l m :=
  ⟨_, applyPredicates_spec ps { nodes := l }⟩

theorem filtered_sublist {p : Pred} {l m : List XN} (h : Filtered p l m) : m.Sublist l := by
  rw [filtered_unique h (filtered_loop p l)]
  generalize l.length = size
  generalize hpos : 1 = pos
  replace hpos : 0 < pos := by omega
  clear h
  induction l generalizing pos with
  | nil => rw [predicateLoop]; exact List.Sublist.slnil
  | cons x xs ih =>
    rcases predicateLoop_cons p size pos x xs hpos with ⟨_, e⟩ | ⟨_, e⟩
    · rw [e]; exact (ih (pos + 1) (by omega)).cons_cons x
    · rw [e]; exact (ih (pos + 1) (by omega)).cons x

theorem filteredBy_sublist {ps : List Pred} {l m : List XN} (h : FilteredBy ps l m) : m.Sublist l := by
  induction ps generalizing l with
  | nil => rw [FilteredBy] at h; rw [h]; exact List.Sublist.refl _
  | cons p ps ih =>
    obtain ⟨k, hk, h2⟩ := h
    exact (ih h2).trans (filtered_sublist hk)

theorem sublist_eq_of_mem {l a b : List XN} (hn : l.Nodup) (ha : a.Sublist l) (hb : b.Sublist l) (h : ∀ y, y ∈ a ↔ y ∈ b) :
    a = b := by
  induction l generalizing a b with
  | nil => rw [List.sublist_nil.1 ha, List.sublist_nil.1 hb]
  | cons x xs ih =>
    obtain ⟨hx, hn⟩ := List.nodup_cons.1 hn
    cases ha with
    | cons _ ha =>
      cases hb with
      | cons _ hb => exact ih hn ha hb h
      | cons_cons _ hb => exact absurd (ha.subset ((h x).2 (List.mem_cons_self ..))) hx
    | cons_cons _ ha =>
      cases hb with
      | cons _ hb => exact absurd (hb.subset ((h x).1 (List.mem_cons_self ..))) hx
      | cons_cons _ hb =>
        rename_i a' b'
        congr 1
        refine ih hn ha hb fun y => ?_
        have hya : y ∈ a' → y ≠ x := fun h1 e => hx (e ▸ ha.subset h1)
        have hyb : y ∈ b' → y ≠ x := fun h1 e => hx (e ▸ hb.subset h1)
        have := h y
        simp only [List.mem_cons] at this
        constructor
        · intro h1
          rcases this.1 (.inr h1) with e | h2
          · exact absurd e (hya h1)
          · exact h2
        · intro h1
          rcases this.2 (.inr h1) with e | h2
          · exact absurd e (hyb h1)
          · exact h2

/-! ## steps with such predicates -/

theorem stepSelects_steady {w : World} {s : PathStep} {x y : XN} (hp : ∀ p ∈ s.preds, Steady p) {l : List Ref}
    (hl : IsAxis (w.tree x.1) x.2 s.axis l) :
    StepSelects w s x y ↔ y.1 = x.1 ∧ XNode (w.tree x.1) y.2 ∧ OnAxis x.2 y.2 s.axis ∧
      s.test.at (w.tree x.1) y.2 = true ∧ ∀ p ∈ s.preds, Holds p y := by
  obtain ⟨m, hm⟩ := filteredBy_exists s.preds ((l.filter (s.test.at (w.tree x.1))).map fun r => (x.1, r))
  rw [stepSelects_iff hl hm, filteredBy_steady hp hm]
  obtain ⟨k, r⟩ := y
  simp only [List.mem_map, List.mem_filter, Prod.mk.injEq]
  constructor
  · rintro ⟨⟨r', ⟨h1, h2⟩, e1, e2⟩, h3⟩
    subst e1 e2
    obtain ⟨h4, h5⟩ := (hl.1 r').1 h1
    exact ⟨rfl, h4, h5, h2, h3⟩
  · rintro ⟨e1, h1, h2, h3, h4⟩
    subst e1
    exact ⟨⟨r, ⟨(hl.1 r).2 ⟨h1, h2⟩, h3⟩, rfl, rfl⟩, h4⟩

/-! ## the children of a node -/

theorem skipTexts_range {up : Ref} {l : List Tree} {i : Nat} {r : Ref} (h : skipTexts up i l = some r) :
    ∃ j, r = .child j :: up ∧ i ≤ j ∧ j < i + l.length := by
  induction l generalizing i with
  | nil => rw [skipTexts] at h; cases h
  | cons c cs ih =>
    rw [skipTexts] at h
    by_cases hc : c.isText = true
    · rw [if_pos hc] at h
      obtain ⟨j, e, h1, h2⟩ := ih h
      exact ⟨j, e, by omega, by simp; omega⟩
    · rw [if_neg hc] at h
      cases h
      exact ⟨i, rfl, by omega, by simp⟩

theorem findNextSibling_range {t : Tree} {i : Nat} {up r : Ref} (h : findNextSibling t (.child i :: up) = some r) :
    ∃ j, r = .child j :: up ∧ i < j ∧ j < (kidsOf t up).length := by
  rw [findNextSibling] at h
  by_cases hc : isTextAt t (.child i :: up) = true
  · rw [if_pos hc] at h
    obtain ⟨j, e, h1, h2⟩ := skipTexts_range h
    rw [List.length_drop] at h2
    exact ⟨j, e, by omega, by omega⟩
  · rw [if_neg hc, nextSibling] at h
    by_cases hi : i + 1 < (kidsOf t up).length
    · rw [if_pos hi] at h
      cases h
      exact ⟨i + 1, rfl, by omega, hi⟩
    · rw [if_neg hi] at h
      cases h

theorem drain_child {t : Tree} {c up : Ref} (n i : Nat) (hi : i < (kidsOf t up).length)
    (hn : (kidsOf t up).length - i < n) (w : Walker) (hw : w.cur = some (.child i :: up)) :
    ∃ l, drain t c .child n w = .done l := by
  induction n generalizing i w with
  | zero => omega
  | succ n ih =>
    rw [drain]
    simp only [hw, advance]
    cases hf : findNextSibling t (.child i :: up) with
    | none =>
      cases n with
      | zero => omega
      | succ n => exact ⟨_, by rw [drain]; rfl⟩
    | some r =>
      obtain ⟨j, e, h1, h2⟩ := findNextSibling_range hf
      subst e
      obtain ⟨l, hl⟩ := ih j h2 (by omega) ⟨some (.child j :: up), none, 0⟩ rfl
      exact ⟨_, by rw [hl]; rfl⟩

theorem enumerate_child (t : Tree) (up : Ref) : ∃ l, enumerate t up .child ((kidsOf t up).length + 1) = .done l := by
  rw [enumerate]
  simp only [create, firstChild]
  cases hk : kidsOf t up with
  | nil => exact ⟨[], by simp [drain]⟩
  | cons a as =>
    have := drain_child (t := t) (c := up) (up := up) ((kidsOf t up).length + 1) 0 (by rw [hk]; simp) (by omega)
      ⟨some (.child 0 :: up), none, 0⟩ rfl
    rw [hk] at this
    exact this

/-- A replacement always has a list to look in. -/
theorem among_done (w : World) (test : NodeTest) (ps : List Pred) (k : Nat) (up : Ref) :
    ∃ r, enumerateOver w ⟨.child, test, ps⟩ ((kidsOf (w.tree k) up).length + 1) {} (k, up) = .done r := by
  rw [enumerateOver]
  obtain ⟨l, hl⟩ := enumerate_child (w.tree k) up
  simp only [hl]
  split
  · exact ⟨_, rfl⟩
  · exact ⟨_, rfl⟩

/-- What a replacement says: whether the predicates keep the node among the children that pass the test. -/
theorem isAmong_iff {w : World} {test : NodeTest} {ps : List Pred} {x : XN} {up : Ref} {i : Nat} {l : List Ref}
    (hx : x.2 = .child i :: up) (hl : IsAxis (w.tree x.1) up .child l)
    (hf : ∃ f, enumerate (w.tree x.1) up .child f = .done l) {m : List XN}
    (hm : FilteredBy ps ((l.filter (test.at (w.tree x.1))).map fun r => (x.1, r)) m) :
    isAmong w test ps x = true ↔ x ∈ m := by
  rw [isAmong]
  have hp : parentNode x.2 = some up := by rw [hx]; rfl
  simp only [hp]
  obtain ⟨l', hl'⟩ := enumerate_child (w.tree x.1) up
  obtain ⟨f, hf⟩ := hf
  have he : l' = l := by
    have h1 := enumerate_mono hl' (Nat.le_max_left _ f)
    have h2 := enumerate_mono hf (Nat.le_max_right ((kidsOf (w.tree x.1) up).length + 1) f)
    rw [h1] at h2
    cases h2
    rfl
  subst he
  rw [enumerateOver]
  simp only [hl']
  cases ps with
  | nil =>
    rw [FilteredBy] at hm
    subst hm
    simp only [List.isEmpty_nil, if_true, List.contains_iff_mem, foldl_push_nodes]
    have : (NodeSet.setForward {} (Axis.forward .child)).nodes = [] := by rfl
    rw [this, List.nil_append]
  | cons p ps =>
    simp only [List.isEmpty_cons, Bool.false_eq_true, if_false, NodeSet.insert, List.contains_iff_mem]
    have h0 : (NodeSet.setForward {} (Axis.forward .child)).nodes = [] := by rfl
    rw [h0]
    simp only [List.take_nil, List.nil_append, List.drop_nil, List.append_nil]
    have h1 := applyPredicates_spec (p :: ps) (((l'.filter (test.at (w.tree x.1))).map fun r => (x.1, r)).foldl
      NodeSet.push { forward := Axis.forward .child })
    rw [foldl_push_nodes] at h1
    have h2 := filteredBy_unique h1 hm
    rw [h2]

end Verif.XTree
