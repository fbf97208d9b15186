import Verif.Lemmas.XPathValue
set_option autoImplicit false
set_option linter.unusedSimpArgs false
set_option linter.unusedVariables false
/-! Lemmas about `substring` and the comparisons. -/
namespace Verif.XPath
open Verif.Spec.XPath (IsRound IsFloor IsCeiling IsMod Contains FirstAt pick Selected Cmp cmpNum cmpSimple Holds boolean number truth)

theorem round_fin (q : Rat) : ∃ n : Int, roundNumber (.fin q) = .fin n := by
  obtain ⟨n, h, _⟩ := round_is (.fin q)
  exact ⟨n, h⟩

theorem lt_int (a b : Int) : Num.lt (.fin a) (.fin b) = decide (a < b) := by
  simp [Num.lt, Rat.intCast_lt_intCast]

theorem eq_int (a b : Int) : Num.eq (.fin a) (.fin b) = decide (a = b) := by
  simp [Num.eq, Rat.intCast_inj]

theorem le_int (a b : Int) : Num.le (.fin a) (.fin b) = decide (a ≤ b) := by
  simp only [Num.le, lt_int, eq_int]
  by_cases h : a ≤ b
  · simp [h]; omega
  · simp [h]; omega

theorem add_int (a b : Int) : Num.add (.fin a) (.fin b) = .fin ((a + b : Int) : Rat) := by
  simp [Num.add, Rat.intCast_add]

theorem sub_int (a b : Int) : Num.sub (.fin a) (.fin b) = .fin ((a - b : Int) : Rat) := by
  simp only [Num.sub, Num.neg, Num.add, Int.sub_eq_add_neg, Rat.intCast_add, Rat.intCast_neg]

theorem natCast_int (n : Nat) : (n : Rat) = ((n : Int) : Rat) := rfl

theorem cast_int (b : Nat) (n : Int) (h1 : -(2 ^ (b - 1) : Int) ≤ n) (h2 : n < (2 ^ (b - 1) : Int)) :
    castTo b (.fin n) = some n := by
  simp only [castTo, truncate_int]
  rw [if_pos ⟨h1, h2⟩]

/-- The cut for an integral start and end. -/
theorem cut_int (v : List Char) (a e : Int) (hv : v.length < 2 ^ 31) (ha : a ≤ v.length) :
    substringCut v (.fin a) (.fin e) = .val ((v.take e.toNat).drop a.toNat) := by
  unfold substringCut
  have z : (Num.fin 0) = Num.fin ((0 : Int) : Rat) := rfl
  simp only [z, natCast_int, lt_int, Num.isNaN, Num.isInfinite, Bool.or_false, Bool.false_or]
  by_cases h : e < 0 ∨ e < a
  · have hd : (decide (e < 0) || decide (e < a)) = true := by simpa using h
    rw [if_pos hd]
    rcases h with h | h
    · have : e.toNat = 0 := by omega
      simp [this]
    · have : e.toNat ≤ a.toNat := by omega
      rw [List.drop_eq_nil_of_le]
      simp only [List.length_take]
      omega
  · have hd : ¬ (decide (e < 0) || decide (e < a)) = true := by simpa using h
    rw [if_neg hd]
    have e1 : (if decide (a < 0) = true then Num.fin ((0 : Int) : Rat) else Num.fin a) =
        Num.fin ((max a 0 : Int) : Rat) := by
      by_cases h0 : a < 0
      · have : max a 0 = 0 := by omega
        simp [h0, this]
      · have : max a 0 = a := by omega
        simp [h0, this]
    have e2 : (if decide ((v.length : Int) < e) = true then Num.fin ((v.length : Int) : Rat) else Num.fin e) =
        Num.fin ((min e v.length : Int) : Rat) := by
      by_cases h0 : (v.length : Int) < e
      · have : min e v.length = (v.length : Int) := by omega
        simp [h0, this]
      · have : min e v.length = e := by omega
        simp [h0, this]
    simp only [e1, e2, sub_int]
    rw [cast_int 32 _ (by omega) (by omega), cast_int 32 _ (by omega) (by omega)]
    simp only [substr]
    rw [if_neg (by omega), if_neg (by omega)]
    congr 1
    rw [List.take_drop]
    by_cases h0 : (v.length : Int) ≤ e
    · have x1 : v.take e.toNat = v := List.take_of_length_le (by omega)
      have x2 : v.take ((max a 0).toNat + (min e v.length - max a 0).toNat) = v :=
        List.take_of_length_le (by omega)
      rw [x1, x2]
      congr 1; omega
    · congr 1
      · omega
      · congr 1; omega

/-- The cut for an end at infinity. -/
theorem cut_inf (v : List Char) (a : Int) (hv : v.length < 2 ^ 31) (ha : a ≤ v.length) :
    substringCut v (.fin a) .pinf = .val (v.drop a.toNat) := by
  unfold substringCut
  have z : (Num.fin 0) = Num.fin ((0 : Int) : Rat) := rfl
  have e0 : (Num.lt .pinf (.fin 0) || Num.lt .pinf (.fin a) || Num.isNaN .pinf) = false := rfl
  have e1 : (if Num.lt (.fin a) (.fin 0) = true then Num.fin 0 else Num.fin a) =
        Num.fin ((max a 0 : Int) : Rat) := by
    rw [z, lt_int]
    by_cases h0 : a < 0
    · have : max a 0 = 0 := by omega
      simp [h0, this]
    · have : max a 0 = a := by omega
      simp [h0, this]
  have e2 : (if (Num.isInfinite .pinf || Num.lt (.fin v.length) .pinf) = true then Num.fin v.length else .pinf) =
      Num.fin ((v.length : Int) : Rat) := rfl
  rw [e0]
  simp only [e1, e2, sub_int]
  rw [cast_int 32 _ (by omega) (by omega), cast_int 32 _ (by omega) (by omega)]
  simp only [substr, Bool.false_eq_true, if_false]
  rw [if_neg (by omega), if_neg (by omega)]
  have : (v.drop (max a 0).toNat).length ≤ (↑v.length - max a 0).toNat := by
    rw [List.length_drop]; omega
  rw [List.take_of_length_le this]
  congr 2; omega

/-- Beyond the end. -/
theorem cut_beyond (v : List Char) (a e : Int) (hv : v.length < 2 ^ 31) (ha : (v.length : Int) < a)
    (hb : a < 2 ^ 31) (he : a ≤ e) :
    substringCut v (.fin a) (.fin e) = .outOfRange := by
  unfold substringCut
  have z : (Num.fin 0) = Num.fin ((0 : Int) : Rat) := rfl
  simp only [z, natCast_int, lt_int, Num.isNaN, Num.isInfinite, Bool.or_false, Bool.false_or]
  rw [if_neg (by simp; omega)]
  have h1 : ¬ a < 0 := by omega
  have h2 : (v.length : Int) < e := by omega
  simp only [h1, h2, decide_true, decide_false, if_true, Bool.false_eq_true, if_false, sub_int]
  rw [cast_int 32 _ (by omega) (by omega), cast_int 32 _ (by omega) (by omega)]
  simp only [substr]
  rw [if_pos (Or.inr ha)]

theorem cut_beyond_inf (v : List Char) (a : Int) (hv : v.length < 2 ^ 31) (ha : (v.length : Int) < a)
    (hb : a < 2 ^ 31) :
    substringCut v (.fin a) .pinf = .outOfRange := by
  unfold substringCut
  have z : (Num.fin 0) = Num.fin ((0 : Int) : Rat) := rfl
  have h0 : Num.lt (.fin a) (.fin 0) = false := by
    rw [z, lt_int]; simp; omega
  simp only [h0]
  simp only [Num.lt, Num.isNaN, Num.isInfinite, Bool.or_false, Bool.false_or, Bool.true_or, if_true,
    Bool.false_eq_true, if_false, natCast_int, sub_int]
  rw [cast_int 32 _ (by omega) (by omega), cast_int 32 _ (by omega) (by omega)]
  simp only [substr]
  rw [if_pos (Or.inr ha)]

/-! ## the specification of substring for integers -/

theorem spec_int (v : List Char) (n m : Int) :
    Spec.XPath.substring v (.fin n) (some (.fin m)) = (v.take (n + m - 1).toNat).drop (n - 1).toNat := by
  unfold Spec.XPath.substring
  rw [pick_congr _ (fun p => decide (n.toNat ≤ p) && decide (p < (n + m).toNat)) v 1]
  · rw [pick_range]
    congr 1
    · omega
    · congr 1; omega
  · intro p h1 h2
    simp only [Selected, natCast_int, le_int, lt_int, add_int]
    congr 1
    · simp
    · simp only [decide_eq_decide]; omega

theorem spec_tail (v : List Char) (n : Int) (l : Option Num) (hl : l = none ∨ l = some .pinf) :
    Spec.XPath.substring v (.fin n) l = v.drop (n - 1).toNat := by
  unfold Spec.XPath.substring
  rw [pick_congr _ (fun p => decide (n.toNat ≤ p) && decide (p < v.length + 1)) v 1]
  · rw [pick_range]
    simp only [Nat.add_sub_cancel]
    rw [List.take_of_length_le (Nat.le_refl _)]
    congr 1; omega
  · intro p h1 h2
    have h3 : decide (p < v.length + 1) = true := by simp; omega
    rw [h3]
    rcases hl with rfl | rfl
    · simp only [Selected, natCast_int, le_int]
      simp
    · simp only [Selected, natCast_int, le_int, Num.add, Num.lt]
      simp

theorem spec_none (v : List Char) (s : Num) (l : Option Num)
    (h : ∀ p, Selected s l p = false) : Spec.XPath.substring v s l = [] :=
  pick_none _ _ _ (fun p _ _ => h p)

theorem one_sub (n : Int) : Num.sub (.fin n) (.fin 1) = .fin ((n - 1 : Int) : Rat) := sub_int n 1

theorem substring_good (v : List Char) (start : Num) (len : Option Num) (hv : v.length < 2 ^ 31)
    (h : ∀ q, start = .fin q → q < v.length + 3/2) (hp : start ≠ .pinf)
    (hn : start = .ninf → len ≠ none) :
    substringFn v start len =
      .val (Spec.XPath.substring v (roundNumber start) (len.map roundNumber)) := by
  unfold substringFn
  by_cases hv0 : v = []
  · subst hv0; simp [Spec.XPath.substring, pick]
  rw [if_neg hv0]
  show substringCut v ((roundNumber start).sub (.fin 1))
    ((roundNumber (len.getD .pinf)).add ((roundNumber start).sub (.fin 1))) = _
  cases start with
  | pinf => exact absurd rfl hp
  | nan =>
    rw [spec_none v _ _ (by intro p; cases len <;> simp [Selected, roundNumber, Num.le, Num.lt, Num.eq])]
    have : ∀ x : Num, Num.add x (Num.sub .nan (.fin 1)) = .nan := by
      intro x; cases x <;> rfl
    simp only [roundNumber, this]
    simp [substringCut, Num.isNaN]
  | ninf =>
    cases len with
    | none => exact absurd rfl (hn rfl)
    | some l =>
      rw [spec_none]
      · have e1 : Num.sub (roundNumber .ninf) (.fin 1) = .ninf := rfl
        simp only [e1, Option.getD_some]
        cases l with
        | fin q =>
          obtain ⟨m, hm⟩ := round_fin q
          rw [hm]; simp [substringCut, Num.add, Num.lt]
        | nan => simp [substringCut, Num.add, Num.lt, Num.isNaN, roundNumber]
        | ninf => simp [substringCut, Num.add, Num.lt, Num.isNaN, roundNumber]
        | pinf => simp [substringCut, Num.add, Num.lt, Num.isNaN, roundNumber]
      · intro p
        simp only [Selected, Option.map_some]
        cases l with
        | fin q =>
          obtain ⟨m, hm⟩ := round_fin q
          rw [hm]; simp [roundNumber, Num.add, Num.lt]
        | _ => simp [roundNumber, Num.add, Num.lt]
  | fin q =>
    obtain ⟨n, hn'⟩ := round_fin q
    have hr := round_is (.fin q)
    rw [hn'] at hr
    obtain ⟨n', e, hb1, hb2⟩ := hr
    have : n = n' := by
      have : (n : Rat) = n' := Num.fin.inj e
      exact Rat.intCast_inj.mp this
    subst this
    have hle : n - 1 ≤ (v.length : Int) := by
      have hq := h q rfl
      have : (n : Rat) < ((v.length + 2 : Int) : Rat) := by
        rw [Rat.intCast_add, ← natCast_int]
        have : ((2 : Int) : Rat) = 2 := rfl
        grind
      have := Rat.intCast_lt_intCast.mp this
      omega
    rw [hn', one_sub]
    cases len with
    | none =>
      simp only [Option.getD_none, roundNumber, Num.add, Option.map_none]
      rw [cut_inf v _ hv hle, spec_tail v n none (Or.inl rfl)]
    | some l =>
      simp only [Option.getD_some, Option.map_some]
      cases l with
      | fin r =>
        obtain ⟨m, hm⟩ := round_fin r
        rw [hm, add_int, cut_int v _ _ hv hle, spec_int]
        congr 3
        omega
      | nan =>
        rw [spec_none v _ _ (by intro p; simp [Selected, roundNumber, Num.add, Num.lt])]
        simp [substringCut, roundNumber, Num.add, Num.lt, Num.isNaN]
      | ninf =>
        rw [spec_none v _ _ (by intro p; simp [Selected, roundNumber, Num.add, Num.lt])]
        simp [substringCut, roundNumber, Num.add, Num.lt, Num.isNaN]
      | pinf =>
        simp only [roundNumber, Num.add]
        rw [cut_inf v _ hv hle, spec_tail v n (some .pinf) (Or.inr rfl)]

/-- Beyond the end of the string the call throws, whenever the length argument is not negative. -/
theorem substring_beyond (v : List Char) (n : Int) (len : Option Num) (hv : v.length < 2 ^ 31)
    (h0 : v ≠ []) (h1 : (v.length : Int) + 1 < n) (h2 : n ≤ 2 ^ 31)
    (hl : len = none ∨ len = some .pinf ∨ ∃ m : Int, 0 ≤ m ∧ len = some (.fin m)) :
    substringFn v (.fin n) len = .outOfRange := by
  have hr : ∀ n : Int, roundNumber (.fin n) = .fin n := by
    intro n
    apply round_unique (.fin n) _ _ (round_is _)
    exact ⟨n, rfl, by grind, by grind⟩
  unfold substringFn
  rw [if_neg h0]
  simp only [hr, one_sub]
  rcases hl with rfl | rfl | ⟨m, hm, rfl⟩
  · exact cut_beyond_inf v _ hv (by omega) (by omega)
  · exact cut_beyond_inf v _ hv (by omega) (by omega)
  · simp only [Option.getD_some, hr, add_int]
    exact cut_beyond v _ _ hv (by omega) (by omega) (by omega)

/-! ## mod -/

theorem mod_int (a b : Int) (ha : -(2 ^ 63 : Int) ≤ a ∧ a < (2 ^ 63 : Int))
    (hb : -(2 ^ 63 : Int) ≤ b ∧ b < (2 ^ 63 : Int)) (h0 : b ≠ 0)
    (h1 : ¬ (a = -(2 ^ 63 : Int) ∧ b = -1)) :
    modulus (.fin a) (.fin b) = some (.fin (Int.tmod a b)) := by
  unfold modulus
  rw [cast_int 64 a ha.1 ha.2, cast_int 64 b hb.1 hb.2]
  simp only [Num.isNaN, Bool.or_false, Bool.false_eq_true, if_false]
  rw [if_neg h0, if_neg h1]

theorem tmod_is (a b : Int) (h0 : b ≠ 0) : IsMod (.fin a) (.fin b) (.fin (Int.tmod a b)) := by
  simp only [IsMod]
  have hb : (b : Rat) ≠ 0 := by
    intro h; exact h0 (Rat.intCast_inj.mp (h.trans rfl))
  rw [if_neg hb]
  refine ⟨_, Int.tdiv a b, rfl, ?_, ?_, ?_⟩
  · rw [← Rat.intCast_mul, ← Rat.intCast_add]
    congr 1
    exact (Int.mul_tdiv_add_tmod a b).symm
  · rw [← Rat.intCast_mul]
    have : (0 : Int) ≤ a * Int.tmod a b := by
      by_cases ha : 0 ≤ a
      · exact Int.mul_nonneg ha (Int.tmod_nonneg b ha)
      · have h1 : Int.tmod a b ≤ 0 := by
          have := Int.tmod_nonneg b (show (0:Int) ≤ -a by omega)
          rw [Int.neg_tmod] at this
          omega
        exact Int.mul_nonneg_of_nonpos_of_nonpos (by omega) h1
    exact Rat.intCast_le_intCast.mpr this
  · rw [← Rat.intCast_mul, ← Rat.intCast_mul]
    apply Rat.intCast_lt_intCast.mpr
    have hx : (Int.tmod a b).natAbs < b.natAbs := by
      rw [Int.natAbs_tmod]
      exact Nat.mod_lt _ (by omega)
    have := Nat.mul_self_lt_mul_self hx
    rw [← Int.natAbs_mul_self (a := Int.tmod a b), ← Int.natAbs_mul_self (a := b)]
    exact_mod_cast this

end Verif.XPath
