import Verif.Lemmas.XPathValue2
set_option autoImplicit false
set_option linter.unusedSimpArgs false
set_option linter.unusedVariables false
/-! Lemmas about the comparisons of XPath values. -/
namespace Verif.XPath
open Verif.Spec.XPath (Cmp cmpNum cmpSimple Holds boolean number truth)

/-- The two comparisons `<` and `<=`. -/
structure LessOp (op : Num → Num → Bool) : Prop where
  down : ∀ v w b, Num.lt v w = false → w ≠ .nan → op v b = true → op w b = true
  down' : ∀ v w b, Num.lt v w = true → op w b = true → op v b = true
  up : ∀ v w a, Num.lt w v = false → w ≠ .nan → op a v = true → op a w = true
  up' : ∀ v w a, Num.lt w v = true → op a w = true → op a v = true
  nanl : ∀ b, op .nan b = false
  nanr : ∀ a, op a .nan = false

theorem lessOp_lt : LessOp Num.lt := by
  constructor
  · intro v w b h1 h2 h3
    cases v <;> cases w <;> cases b <;> simp_all [Num.lt]
    all_goals grind
  · intro v w b h1 h2
    cases v <;> cases w <;> cases b <;> simp_all [Num.lt]
    all_goals grind
  · intro v w b h1 h2 h3
    cases v <;> cases w <;> cases b <;> simp_all [Num.lt]
    all_goals grind
  · intro v w b h1 h2
    cases v <;> cases w <;> cases b <;> simp_all [Num.lt]
    all_goals grind
  · intro b; cases b <;> rfl
  · intro b; cases b <;> rfl

theorem lessOp_le : LessOp Num.le := by
  constructor
  · intro v w b h1 h2 h3
    cases v <;> cases w <;> cases b <;> simp_all [Num.lt, Num.le, Num.eq]
    all_goals grind
  · intro v w b h1 h2
    cases v <;> cases w <;> cases b <;> simp_all [Num.lt, Num.le, Num.eq]
    all_goals grind
  · intro v w b h1 h2 h3
    cases v <;> cases w <;> cases b <;> simp_all [Num.lt, Num.le, Num.eq]
    all_goals grind
  · intro v w b h1 h2
    cases v <;> cases w <;> cases b <;> simp_all [Num.lt, Num.le, Num.eq]
    all_goals grind
  · intro b; cases b <;> rfl
  · intro b; cases b <;> rfl

theorem isNaN_iff (v : Num) : v.isNaN = true ↔ v = .nan := by cases v <;> simp [Num.isNaN]

theorem minLoop_iff {op} (ho : LessOp op) (v : Num) (l : List Num) (b : Num) :
    op (minLoop v l) b = true ↔ op v b = true ∨ ∃ x ∈ l, op x b = true := by
  induction l generalizing v with
  | nil => simp [minLoop]
  | cons w ws ih =>
    rw [minLoop]
    by_cases hn : w.isNaN = true
    · rw [if_pos hn, ih]
      have := (isNaN_iff w).mp hn
      subst this
      simp [ho.nanl]
    · rw [if_neg hn]
      have hw : w ≠ .nan := fun h => hn ((isNaN_iff w).mpr h)
      by_cases hl : Num.lt v w = true
      · rw [if_neg (by simp [hl]), ih]
        simp only [List.mem_cons, exists_eq_or_imp]
        constructor
        · rintro (h | h)
          · exact Or.inl h
          · exact Or.inr (Or.inr h)
        · rintro (h | h | h)
          · exact Or.inl h
          · exact Or.inl (ho.down' v w b hl h)
          · exact Or.inr h
      · have hl' : Num.lt v w = false := by simpa using hl
        rw [if_pos (by simp [hl']), ih]
        simp only [List.mem_cons, exists_eq_or_imp]
        constructor
        · rintro (h | h)
          · exact Or.inr (Or.inl h)
          · exact Or.inr (Or.inr h)
        · rintro (h | h | h)
          · exact Or.inl (ho.down v w b hl' hw h)
          · exact Or.inl h
          · exact Or.inr h

theorem maxLoop_iff {op} (ho : LessOp op) (v : Num) (l : List Num) (a : Num) :
    op a (maxLoop v l) = true ↔ op a v = true ∨ ∃ x ∈ l, op a x = true := by
  induction l generalizing v with
  | nil => simp [maxLoop]
  | cons w ws ih =>
    rw [maxLoop]
    by_cases hn : w.isNaN = true
    · rw [if_pos hn, ih]
      have := (isNaN_iff w).mp hn
      subst this
      simp [ho.nanr]
    · rw [if_neg hn]
      have hw : w ≠ .nan := fun h => hn ((isNaN_iff w).mpr h)
      by_cases hl : Num.lt w v = true
      · rw [if_neg (by simp [hl]), ih]
        simp only [List.mem_cons, exists_eq_or_imp]
        constructor
        · rintro (h | h)
          · exact Or.inl h
          · exact Or.inr (Or.inr h)
        · rintro (h | h | h)
          · exact Or.inl h
          · exact Or.inl (ho.up' v w a hl h)
          · exact Or.inr h
      · have hl' : Num.lt w v = false := by simpa using hl
        rw [if_pos (by simp [hl']), ih]
        simp only [List.mem_cons, exists_eq_or_imp]
        constructor
        · rintro (h | h)
          · exact Or.inr (Or.inl h)
          · exact Or.inr (Or.inr h)
        · rintro (h | h | h)
          · exact Or.inl (ho.up v w a hl' hw h)
          · exact Or.inl h
          · exact Or.inr h

theorem compareNodeSets_iff (cv : Conv) {op} (ho : LessOp op) (l r : List (List Char)) (b : Bool)
    (h : compareNodeSets cv op l r = some b) :
    b = true ↔ ∃ x ∈ l, ∃ y ∈ r, op (cv.number x) (cv.number y) = true := by
  cases l with
  | nil => simp [compareNodeSets, minValue] at h
  | cons x xs =>
    cases r with
    | nil => simp [compareNodeSets, minValue, maxValue] at h
    | cons y ys =>
      simp only [compareNodeSets, minValue, maxValue, List.map_cons, Option.some.injEq] at h
      rw [← h, minLoop_iff ho]
      simp only [maxLoop_iff ho]
      simp only [List.mem_cons, List.mem_map, exists_eq_or_imp, or_self_left]
      constructor
      · rintro ((h | ⟨_, ⟨y', hy, rfl⟩, h⟩) | ⟨_, ⟨x', hx, rfl⟩, (h | ⟨_, ⟨y', hy, rfl⟩, h⟩)⟩)
        · exact Or.inl (Or.inl h)
        · exact Or.inl (Or.inr ⟨y', hy, h⟩)
        · exact Or.inr ⟨x', hx, Or.inl h⟩
        · exact Or.inr ⟨x', hx, Or.inr ⟨y', hy, h⟩⟩
      · rintro ((h | ⟨y', hy, h⟩) | ⟨x', hx, (h | ⟨y', hy, h⟩)⟩)
        · exact Or.inl (Or.inl h)
        · exact Or.inl (Or.inr ⟨_, ⟨y', hy, rfl⟩, h⟩)
        · exact Or.inr ⟨_, ⟨x', hx, rfl⟩, Or.inl h⟩
        · exact Or.inr ⟨_, ⟨x', hx, rfl⟩, Or.inr ⟨_, ⟨y', hy, rfl⟩, h⟩⟩

theorem compareNodeSets_none (cv : Conv) (op : Num → Num → Bool) (l r : List (List Char)) :
    compareNodeSets cv op l r = none ↔ l = [] ∨ r = [] := by
  cases l with
  | nil => simp [compareNodeSets, minValue]
  | cons x xs =>
    cases r with
    | nil => simp [compareNodeSets, minValue, maxValue]
    | cons y ys => simp [compareNodeSets, minValue, maxValue]

/-! ## equality -/

theorem firstLoop_none (p1 : List Char → List Char → Bool) (x : List Char) (r vs : List (List Char)) :
    firstLoop p1 x r vs = none ↔ ∃ y ∈ r, p1 x y = true := by
  induction r generalizing vs with
  | nil => simp [firstLoop]
  | cons y ys ih =>
    rw [firstLoop]
    by_cases h : p1 x y = true
    · rw [if_pos h]; simp [h]
    · rw [if_neg h, ih]; simp [h]

theorem firstLoop_some (p1 : List Char → List Char → Bool) (x : List Char) (r vs ws : List (List Char))
    (h : firstLoop p1 x r vs = some ws) : ∀ y, y ∈ ws ↔ y ∈ vs ∨ y ∈ r := by
  induction r generalizing vs with
  | nil => simp [firstLoop] at h; simp [h]
  | cons y ys ih =>
    rw [firstLoop] at h
    by_cases hp : p1 x y = true
    · rw [if_pos hp] at h; cases h
    · rw [if_neg hp] at h
      intro z
      rw [ih _ h z]
      by_cases hy : y ∈ vs
      · rw [if_pos hy]
        simp only [List.mem_cons]
        constructor
        · rintro (h | h)
          · exact Or.inl h
          · exact Or.inr (Or.inr h)
        · rintro (h | rfl | h)
          · exact Or.inl h
          · exact Or.inl hy
          · exact Or.inr h
      · rw [if_neg hy]
        simp only [List.mem_cons]
        constructor
        · rintro ((h | h) | h)
          · exact Or.inr (Or.inl h)
          · exact Or.inl h
          · exact Or.inr (Or.inr h)
        · rintro (h | h | h)
          · exact Or.inl (Or.inr h)
          · exact Or.inl (Or.inl h)
          · exact Or.inr h

theorem nodeSetsEqual_iff (l r : List (List Char)) :
    nodeSetsEqual l r = true ↔ ∃ x ∈ l, ∃ y ∈ r, x = y := by
  unfold nodeSetsEqual nodeSetsCompare
  cases l with
  | nil => simp
  | cons x xs =>
    simp only
    by_cases hr : r = []
    · simp [hr]
    rw [if_neg hr]
    cases hf : firstLoop (fun a b => decide (a = b)) x r [] with
    | none =>
      obtain ⟨y, hy, hxy⟩ := (firstLoop_none _ _ _ _).mp hf
      simp only [true_iff]
      exact ⟨x, List.mem_cons_self .., y, hy, by simpa using hxy⟩
    | some ws =>
      have hm := firstLoop_some _ _ _ _ _ hf
      have hno : ∀ y ∈ r, x ≠ y := by
        intro y hy hxy
        have := (firstLoop_none (fun a b => decide (a = b)) x r []).mpr ⟨y, hy, by simp [hxy]⟩
        rw [hf] at this; cases this
      simp only [List.any_eq_true, beq_iff_eq, decide_eq_true_eq]
      constructor
      · rintro ⟨z, hz, hzw⟩
        have hzr : z ∈ r := by simpa using (hm z).mp hzw
        exact ⟨z, List.mem_cons_of_mem _ hz, z, hzr, rfl⟩
      · rintro ⟨z, hz, y, hy, rfl⟩
        rcases List.mem_cons.mp hz with rfl | hz
        · exact absurd rfl (hno z hy)
        · exact ⟨z, hz, (hm z).mpr (Or.inr hy)⟩

theorem nodeSetsNotEqual_iff (l r : List (List Char)) :
    nodeSetsNotEqual l r = true ↔ ∃ x ∈ l, ∃ y ∈ r, x ≠ y := by
  unfold nodeSetsNotEqual nodeSetsCompare
  cases l with
  | nil => simp
  | cons x xs =>
    simp only
    by_cases hr : r = []
    · simp [hr]
    rw [if_neg hr]
    cases hf : firstLoop (fun a b => decide (a ≠ b)) x r [] with
    | none =>
      obtain ⟨y, hy, hxy⟩ := (firstLoop_none _ _ _ _).mp hf
      simp only [true_iff]
      exact ⟨x, List.mem_cons_self .., y, hy, by simpa using hxy⟩
    | some ws =>
      have hm := firstLoop_some _ _ _ _ _ hf
      have hno : ∀ y ∈ r, x = y := by
        intro y hy
        by_cases hxy : x = y
        · exact hxy
        · have := (firstLoop_none (fun a b => decide (a ≠ b)) x r []).mpr ⟨y, hy, by simp [hxy]⟩
          rw [hf] at this; cases this
      simp only [List.any_eq_true, beq_iff_eq, decide_eq_false_iff_not]
      constructor
      · rintro ⟨z, hz, hzw⟩
        obtain ⟨y, hy⟩ := List.exists_mem_of_ne_nil r hr
        refine ⟨z, List.mem_cons_of_mem _ hz, y, hy, ?_⟩
        rintro rfl
        exact hzw ((hm z).mpr (Or.inr hy))
      · rintro ⟨z, hz, y, hy, hzy⟩
        rcases List.mem_cons.mp hz with rfl | hz
        · exact absurd (hno y hy) hzy
        · refine ⟨z, hz, ?_⟩
          intro hw
          have : z ∈ r := by simpa using (hm z).mp hw
          exact hzy ((hno z this).symm.trans (hno y hy))

theorem eq_comm_num (a b : Num) : a.eq b = b.eq a := by
  cases a <;> cases b <;> simp [Num.eq, eq_comm]

theorem asBool_iff (v : Value) : asBool v = true ↔ boolean v := by
  cases v with
  | bool b => simp [asBool, boolean]
  | num n => cases n <;> simp [asBool, boolean, Num.isNaN, Num.eq]
  | str s => simp [asBool, boolean]
  | nodes l => simp [asBool, boolean]

theorem asNumber_eq (cv : Conv) (v : Value) : asNumber cv v = number cv v := by
  cases v with
  | bool b => cases b <;> rfl
  | nodes l => cases l <;> rfl
  | _ => rfl

theorem bool_beq_iff (a b : Bool) : (a == b) = true ↔ ((a = true) ↔ (b = true)) := by
  cases a <;> cases b <;> simp

theorem bool_bne_iff (a b : Bool) : (a != b) = true ↔ ¬ ((a = true) ↔ (b = true)) := by
  cases a <;> cases b <;> simp

theorem bool_beq_iff' (b : Bool) (v : Value) : (b == asBool v) = true ↔ (boolean (.bool b) ↔ boolean v) := by
  rw [bool_beq_iff, asBool_iff]; rfl

theorem bool_beq_iff'' (b : Bool) (v : Value) : (asBool v == b) = true ↔ (boolean v ↔ boolean (.bool b)) := by
  rw [bool_beq_iff, asBool_iff]; rfl

theorem areEqual_iff (cv : Conv) (l r : Value) : areEqual cv l r = true ↔ Holds cv .eq l r := by
  cases l <;> cases r
  case nodes.nodes l r => exact nodeSetsEqual_iff l r
  case bool.nodes b l =>
    simp only [areEqual, nodeSetAndValueEqual, Holds, cmpSimple, truth, boolean]
    rw [bool_beq_iff]; exact Iff.comm
  case nodes.bool l b =>
    simp only [areEqual, nodeSetAndValueEqual, Holds, cmpSimple, truth, boolean]
    rw [bool_beq_iff]
  case num.nodes n l =>
    simp only [areEqual, nodeSetAndValueEqual, Holds, cmpSimple, cmpNum, number, List.any_eq_true]
    simp only [eq_comm_num n]
  case nodes.num l n =>
    simp only [areEqual, nodeSetAndValueEqual, Holds, cmpSimple, cmpNum, number, List.any_eq_true]
  case str.nodes n l =>
    simp only [areEqual, nodeSetAndValueEqual, Holds, cmpSimple, List.any_eq_true, decide_eq_true_eq]
    simp only [eq_comm]
  case nodes.str l n =>
    simp only [areEqual, nodeSetAndValueEqual, Holds, cmpSimple, List.any_eq_true, decide_eq_true_eq]
  case bool.bool a b => exact bool_beq_iff' _ _
  case bool.num a b => exact bool_beq_iff' _ _
  case bool.str a b => exact bool_beq_iff' _ _
  case num.bool a b => exact bool_beq_iff'' _ _
  case str.bool a b => exact bool_beq_iff'' _ _
  case num.num a b => exact Iff.rfl
  case num.str a b => exact Iff.rfl
  case str.num a b => exact Iff.rfl
  case str.str a b => simp [areEqual, Holds, cmpSimple]

theorem areNotEqual_iff (cv : Conv) (l r : Value) : areNotEqual cv l r = true ↔ Holds cv .ne l r := by
  have key : ∀ b : Bool, (!b) = true ↔ ¬ b = true := by intro b; cases b <;> simp
  cases l <;> cases r
  case nodes.nodes l r => exact nodeSetsNotEqual_iff l r
  case bool.nodes b l =>
    simp only [areNotEqual, nodeSetAndValueNotEqual, Holds, cmpSimple, truth, boolean]
    rw [bool_bne_iff]
    exact not_congr Iff.comm
  case nodes.bool l b =>
    simp only [areNotEqual, nodeSetAndValueNotEqual, Holds, cmpSimple, truth, boolean]
    rw [bool_bne_iff]
  case num.nodes n l =>
    simp only [areNotEqual, nodeSetAndValueNotEqual, Holds, cmpSimple, cmpNum, number, List.any_eq_true]
    simp only [eq_comm_num n, Bool.not_eq_true']
  case nodes.num l n =>
    simp only [areNotEqual, nodeSetAndValueNotEqual, Holds, cmpSimple, cmpNum, number, List.any_eq_true,
      Bool.not_eq_true']
  case str.nodes n l =>
    simp only [areNotEqual, nodeSetAndValueNotEqual, Holds, cmpSimple, List.any_eq_true, decide_eq_true_eq]
    simp only [ne_comm]
  case nodes.str l n =>
    simp only [areNotEqual, nodeSetAndValueNotEqual, Holds, cmpSimple, List.any_eq_true, decide_eq_true_eq]
  case bool.bool a b => rw [areNotEqual, key, areEqual_iff]; exact Iff.rfl; all_goals nofun
  case bool.num a b => rw [areNotEqual, key, areEqual_iff]; exact Iff.rfl; all_goals nofun
  case bool.str a b => rw [areNotEqual, key, areEqual_iff]; exact Iff.rfl; all_goals nofun
  case num.bool a b => rw [areNotEqual, key, areEqual_iff]; exact Iff.rfl; all_goals nofun
  case str.bool a b => rw [areNotEqual, key, areEqual_iff]; exact Iff.rfl; all_goals nofun
  case num.num a b => rw [areNotEqual, key, areEqual_iff]; exact Bool.not_eq_true _ ▸ Iff.rfl; all_goals nofun
  case num.str a b => rw [areNotEqual, key, areEqual_iff]; exact Bool.not_eq_true _ ▸ Iff.rfl; all_goals nofun
  case str.num a b => rw [areNotEqual, key, areEqual_iff]; exact Bool.not_eq_true _ ▸ Iff.rfl; all_goals nofun
  case str.str a b => rw [areNotEqual, key, areEqual_iff]; exact Iff.rfl; all_goals nofun

/-- Neither operand is an empty node-set compared with a node-set, nor a node-set compared with a
boolean. -/
def Comparable : Value → Value → Prop
  | .nodes l, .nodes r => l ≠ [] ∧ r ≠ []
  | .nodes _, .bool _ => False
  | .bool _, .nodes _ => False
  | _, _ => True

theorem lessThan_iff (cv : Conv) (l r : Value) (h : Comparable l r) :
    ∃ b, isLessThan cv l r = some b ∧ (b = true ↔ Holds cv .lt l r) := by
  cases l <;> cases r
  case nodes.nodes l r =>
    cases hc : compareNodeSets cv Num.lt l r with
    | none =>
      rcases (compareNodeSets_none cv Num.lt l r).mp hc with h' | h'
      · exact absurd h' h.1
      · exact absurd h' h.2
    | some b => exact ⟨b, hc, compareNodeSets_iff cv lessOp_lt l r b hc⟩
  case bool.nodes => exact h.elim
  case nodes.bool => exact h.elim
  case num.nodes n l =>
    exact ⟨_, rfl, by simp only [compareNodeSetWith, asNumber_eq, List.any_eq_true]; exact Iff.rfl⟩
  case nodes.num l n =>
    exact ⟨_, rfl, by simp only [compareNodeSetWith, asNumber_eq, List.any_eq_true]; exact Iff.rfl⟩
  case str.nodes n l =>
    exact ⟨_, rfl, by simp only [compareNodeSetWith, asNumber_eq, List.any_eq_true]; exact Iff.rfl⟩
  case nodes.str l n =>
    exact ⟨_, rfl, by simp only [compareNodeSetWith, asNumber_eq, List.any_eq_true]; exact Iff.rfl⟩
  all_goals exact ⟨_, rfl, by simp only [asNumber_eq]; exact Iff.rfl⟩

theorem lessThanEquals_iff (cv : Conv) (l r : Value) (h : Comparable l r) :
    ∃ b, isLessThanEquals cv l r = some b ∧ (b = true ↔ Holds cv .le l r) := by
  cases l <;> cases r
  case nodes.nodes l r =>
    cases hc : compareNodeSets cv Num.le l r with
    | none =>
      rcases (compareNodeSets_none cv Num.le l r).mp hc with h' | h'
      · exact absurd h' h.1
      · exact absurd h' h.2
    | some b => exact ⟨b, hc, compareNodeSets_iff cv lessOp_le l r b hc⟩
  case bool.nodes => exact h.elim
  case nodes.bool => exact h.elim
  case num.nodes n l =>
    exact ⟨_, rfl, by simp only [compareNodeSetWith, asNumber_eq, List.any_eq_true]; exact Iff.rfl⟩
  case nodes.num l n =>
    exact ⟨_, rfl, by simp only [compareNodeSetWith, asNumber_eq, List.any_eq_true]; exact Iff.rfl⟩
  case str.nodes n l =>
    exact ⟨_, rfl, by simp only [compareNodeSetWith, asNumber_eq, List.any_eq_true]; exact Iff.rfl⟩
  case nodes.str l n =>
    exact ⟨_, rfl, by simp only [compareNodeSetWith, asNumber_eq, List.any_eq_true]; exact Iff.rfl⟩
  all_goals exact ⟨_, rfl, by simp only [asNumber_eq]; exact Iff.rfl⟩

theorem comparable_symm (l r : Value) (h : Comparable l r) : Comparable r l := by
  cases l <;> cases r <;> first | exact ⟨h.2, h.1⟩ | exact h

theorem holds_flip_lt (cv : Conv) (l r : Value) : Holds cv .gt l r ↔ Holds cv .lt r l := by
  cases l <;> cases r
  case nodes.nodes l r =>
    constructor
    · rintro ⟨a, ha, b, hb, h⟩; exact ⟨b, hb, a, ha, h⟩
    · rintro ⟨a, ha, b, hb, h⟩; exact ⟨b, hb, a, ha, h⟩
  all_goals exact Iff.rfl

theorem holds_flip_le (cv : Conv) (l r : Value) : Holds cv .ge l r ↔ Holds cv .le r l := by
  cases l <;> cases r
  case nodes.nodes l r =>
    constructor
    · rintro ⟨a, ha, b, hb, h⟩; exact ⟨b, hb, a, ha, h⟩
    · rintro ⟨a, ha, b, hb, h⟩; exact ⟨b, hb, a, ha, h⟩
  all_goals exact Iff.rfl

end Verif.XPath
