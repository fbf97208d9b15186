import Verif.Lemmas.XPathValue3
import Verif.Lemmas.Text
import Verif.Spec.Utf8
set_option autoImplicit false
/-!
# C39, C40, C43: XPath comparisons, string functions and numbers
-/
namespace Verif.Props.XPathValue
open Verif.XPath Verif.Spec.XPath

/-! ## C39: comparisons -/

/-- C39: `=` is what XPath defines, for all pairs of values of all types. -/
theorem C39_equal (cv : Conv) (l r : Value) : areEqual cv l r = true ↔ Holds cv .eq l r :=
  areEqual_iff cv l r

/-- C39: so is `!=`. -/
theorem C39_not_equal (cv : Conv) (l r : Value) : areNotEqual cv l r = true ↔ Holds cv .ne l r :=
  areNotEqual_iff cv l r

/-- C39, partial: `<`, `<=`, `>` and `>=` are what XPath defines, whatever the sizes of the node-sets
and however many of their values are NaN. Missing: an empty node-set compared with a node-set, and
node-sets compared with booleans. -/
theorem C39_less_partial (cv : Conv) (l r : Value)
    (hne : ∀ a b, l = .nodes a → r = .nodes b → a ≠ [] ∧ b ≠ [])
    (hb1 : ∀ a b, ¬ (l = .nodes a ∧ r = .bool b)) (hb2 : ∀ a b, ¬ (l = .bool b ∧ r = .nodes a)) :
    (∃ b, isLessThan cv l r = some b ∧ (b = true ↔ Holds cv .lt l r)) ∧
    (∃ b, isLessThanEquals cv l r = some b ∧ (b = true ↔ Holds cv .le l r)) ∧
    (∃ b, isGreaterThan cv l r = some b ∧ (b = true ↔ Holds cv .gt l r)) ∧
    (∃ b, isGreaterThanEquals cv l r = some b ∧ (b = true ↔ Holds cv .ge l r)) := by
  have h : Comparable l r := by
    cases l <;> cases r <;> first
      | exact hne _ _ rfl rfl
      | exact hb1 _ _ ⟨rfl, rfl⟩
      | exact hb2 _ _ ⟨rfl, rfl⟩
      | trivial
  refine ⟨lessThan_iff cv l r h, lessThanEquals_iff cv l r h, ?_, ?_⟩
  · rw [holds_flip_lt]; exact lessThan_iff cv r l (comparable_symm l r h)
  · rw [holds_flip_le]; exact lessThanEquals_iff cv r l (comparable_symm l r h)

/-- A conversion for the examples: a digit is a number, everything else is NaN. -/
def digits : Conv :=
  { number := fun s => match s with
      | [c] => if c.isDigit then .fin (c.toNat - 48 : Nat) else .nan
      | _ => .nan
    string := fun _ => [] }

/-- Not vacuous: NaN first on the left, the only smaller pair in the middle. -/
example : isLessThan digits (.nodes [['x'], ['5'], ['3']]) (.nodes [['2'], ['4'], ['y']]) = some true := by
  decide +kernel

example : isLessThan digits (.nodes [['x'], ['5'], ['4']]) (.nodes [['2'], ['4'], ['y']]) = some false := by
  decide +kernel

/-- C39 is false of the code for `<` with an empty node-set: the call reads the first element of an
empty vector, and it does so exactly then. -/
theorem C39_violated_empty (cv : Conv) (l r : List (List Char)) :
    (isLessThan cv (.nodes l) (.nodes r) = none ↔ l = [] ∨ r = []) ∧
    (isLessThanEquals cv (.nodes l) (.nodes r) = none ↔ l = [] ∨ r = []) :=
  ⟨compareNodeSets_none cv _ l r, compareNodeSets_none cv _ l r⟩

/-- Outside C39's wording: a node-set against a boolean. `x < true()` with the single node "0" is
false in XPath, because a non-empty node-set is true; the code compares the number 0 with 1. -/
theorem C39_violated_boolean :
    isLessThan digits (.nodes [['0']]) (.bool true) = some true ∧
    ¬ Holds digits .lt (.nodes [['0']]) (.bool true) := by
  refine ⟨by decide +kernel, ?_⟩
  simp only [Holds, cmpSimple, cmpNum, truth, number]
  decide +kernel

/-- `and` and `or` of two values. -/
theorem C39_logic (l r : Value) :
    (orOp l r = true ↔ boolean l ∨ boolean r) ∧ (andOp l r = true ↔ boolean l ∧ boolean r) := by
  simp [orOp, andOp, asBool_iff]

/-! ## C40: string functions -/

/-- C40: `contains` and `starts-with`. -/
theorem C40_contains (s t : List Char) :
    (containsFn s t = true ↔ Contains s t) ∧ (startsWithFn s t = true ↔ ∃ b, s = t ++ b) :=
  ⟨contains_iff s t, startsWith_iff s t⟩

/-- C40: `substring-before` returns the text before the first occurrence, or nothing. It never
throws. -/
theorem C40_before (s t : List Char) (r : List Char) :
    substringBeforeFn s t = .val r ↔ IsBefore s t r := by
  unfold substringBeforeFn
  cases hf : find s t with
  | none =>
    have hn := find_none s t hf
    simp only [Res.val.injEq]
    constructor
    · rintro rfl; exact Or.inr ⟨hn, rfl⟩
    · rintro (⟨b, h⟩ | ⟨_, h⟩)
      · exact absurd ⟨r, b, h.1⟩ hn
      · exact h.symm
  | some i =>
    obtain ⟨hl, h1⟩ := find_some s t i hf
    simp only [substr]
    rw [if_neg (by omega), if_neg (by omega)]
    simp only [Res.val.injEq]
    constructor
    · intro h
      have : s.take i = r := by simpa using h
      exact Or.inl ⟨_, this ▸ h1⟩
    · rintro (⟨b, h⟩ | ⟨h, _⟩)
      · simpa using (firstAt_unique s t _ _ _ _ h1 h).1
      · exact absurd ⟨_, _, h1.1⟩ h

/-- C40: `substring-after`. -/
theorem C40_after (s t : List Char) (r : List Char) :
    substringAfterFn s t = .val r ↔ IsAfter s t r := by
  unfold substringAfterFn
  cases hf : find s t with
  | none =>
    have hn := find_none s t hf
    simp only [Res.val.injEq]
    constructor
    · rintro rfl; exact Or.inr ⟨hn, rfl⟩
    · rintro (⟨a, h⟩ | ⟨_, h⟩)
      · exact absurd ⟨a, r, h.1⟩ hn
      · exact h.symm
  | some i =>
    obtain ⟨hl, h1⟩ := find_some s t i hf
    have key : (if i + t.length ≥ s.length then Res.val [] else substr s ((i + t.length : Nat) : Int) s.length) =
        Res.val (s.drop (i + t.length)) := by
      split
      · rw [List.drop_eq_nil_of_le (by omega)]
      · unfold substr
        rw [if_neg (by omega), if_neg (by omega)]
        congr 1
        simp only [Int.toNat_natCast]
        exact List.take_of_length_le (by simp)
    simp only [key, Res.val.injEq]
    constructor
    · rintro rfl; exact Or.inl ⟨_, h1⟩
    · rintro (⟨a, h⟩ | ⟨h, _⟩)
      · exact (firstAt_unique s t _ _ _ _ h1 h).2
      · exact absurd ⟨_, _, h1.1⟩ h

/-- Not vacuous: `substring-before("1999/04/01", "/")` and `substring-after("1999/04/01", "/")`. -/
example : substringBeforeFn "1999/04/01".toList "/".toList = .val "1999".toList ∧
    substringAfterFn "1999/04/01".toList "/".toList = .val "04/01".toList := by decide +kernel

/-- C40: `concat` is concatenation, `string-length` the number of code units, `normalize-space` the
words joined by single spaces. -/
theorem C40_simple (l : List (List Char)) (s : List Char) :
    concatFn l = l.flatten ∧ stringLengthFn s = .fin s.length ∧
    normalizeSpaceFn s = Spec.Text.joinSpace (Spec.Text.words s) := by
  refine ⟨?_, rfl, ?_⟩
  · induction l with
    | nil => rfl
    | cons a as ih => rw [concatFn, ih]; rfl
  · exact Verif.Text.normalize_eq s

/-- C40, partial: `substring` selects exactly the characters XPath defines, for every string, every
start up to the end of the string, every length, NaN and infinities included. Missing: a start that
rounds to a position beyond the end, positive infinity, and negative infinity without a length. -/
theorem C40_substring_partial (s : List Char) (start : Num) (len : Option Num) (hs : s.length < 2 ^ 31)
    (hend : ∀ q, start = .fin q → q < s.length + 3/2) (hp : start ≠ .pinf)
    (hn : start = .ninf → len ≠ none) :
    ∃ rs rl, IsRound start rs ∧ (len = none ∧ rl = none ∨ ∃ l r, len = some l ∧ rl = some r ∧ IsRound l r) ∧
      substringFn s start len = .val (substring s rs rl) := by
  refine ⟨roundNumber start, len.map roundNumber, round_is start, ?_, substring_good s start len hs hend hp hn⟩
  cases len with
  | none => exact Or.inl ⟨rfl, rfl⟩
  | some l => exact Or.inr ⟨l, _, rfl, rfl, round_is l⟩

/-- Rounding is determined, so the theorem above names one result. -/
theorem C40_round_unique (v a b : Num) (ha : IsRound v a) (hb : IsRound v b) : a = b :=
  round_unique v a b ha hb

/-- Not vacuous: the examples of the recommendation. -/
example :
    substringFn "12345".toList (.fin (3/2)) (some (.fin (13/5))) = .val "234".toList ∧
    substringFn "12345".toList (.fin 0) (some (.fin 3)) = .val "12".toList ∧
    substringFn "12345".toList .nan (some (.fin 3)) = .val [] ∧
    substringFn "12345".toList (.fin (-42)) (some .pinf) = .val "12345".toList ∧
    substringFn "12345".toList .ninf (some .pinf) = .val [] := by decide +kernel

/-- C40 is false of the code: a start beyond the end makes `substring` throw `std::out_of_range`
where XPath says the result is the empty string; for every non-empty string. -/
theorem C40_violated_beyond (s : List Char) (n : Int) (len : Option Num) (hs : s.length < 2 ^ 31)
    (h0 : s ≠ []) (h1 : (s.length : Int) + 1 < n) (h2 : n ≤ 2 ^ 31)
    (hl : len = none ∨ len = some .pinf ∨ ∃ m : Int, 0 ≤ m ∧ len = some (.fin m)) :
    substringFn s (.fin n) len = .outOfRange :=
  substring_beyond s n len hs h0 h1 h2 hl

example : substringFn ['a'] (.fin 3) none = .outOfRange := by decide +kernel

/-- C40 is false of the code: an infinite start is undefined behaviour, and with negative infinity and
no length the result is empty instead of the whole string. -/
theorem C40_violated_infinite :
    substringFn ['a'] .pinf none = .ub ∧
    substringFn ['a'] .ninf none = .val [] ∧ substring ['a'] .ninf none = ['a'] := by decide +kernel

/-- C40, partial: `translate` replaces and deletes as defined, if no character that is kept unchanged
follows a deleted one. -/
theorem C40_translate_partial (a b src dst : List Char)
    (ha : ∀ c ∈ a, ∀ r, src.idxOf? c = some r → r < dst.length)
    (hb : ∀ c ∈ b, c ∈ src) :
    translateFn (a ++ b) src dst = translate (a ++ b) src dst := by
  apply translate_good src dst a b ha
  intro c hc hn
  rw [List.idxOf?_eq_none_iff] at hn
  exact hn (hb c hc)

/-- Not vacuous: `translate("bar-b-", "ab-", "AB")`, with deletions at the end. -/
example : translateFn ("bar".toList ++ "-b-".toList) "ab-".toList "AB".toList = "BArB".toList ∧
    translate ("bar".toList ++ "-b-".toList) "ab-".toList "AB".toList = "BArB".toList := by decide +kernel

/-- C40 is false of the code: `translate("--aaa--", "abc-", "ABC")`, the recommendation's own example,
is right, but `translate("-xyz", "-", "")` is "-xy": characters that stay unchanged are not moved down
over the deleted ones. -/
theorem C40_violated_translate :
    translateFn "--aaa--".toList "abc-".toList "ABC".toList = "AAA".toList ∧
    translateFn "-xyz".toList "-".toList [] = "-xy".toList ∧
    translate "-xyz".toList "-".toList [] = "xyz".toList := by decide +kernel

/-- C40 is false of the code for narrow strings: `string-length` counts the bytes of the UTF-8 form, so
that the one character U+00E9 has length two. -/
theorem C40_violated_length :
    stringLengthFn ((Spec.Utf8.encode [0xE9]).map (fun b => Char.ofNat b.toNat)) = .fin 2 := by decide +kernel

/-! ## C43: numbers -/

/-- `round`, `floor` and `ceiling` are what XPath defines, for all numbers. -/
theorem C43_rounding (v : Num) :
    IsRound v (roundNumber v) ∧ IsFloor v (floorFn v) ∧ IsCeiling v (ceilingFn v) :=
  ⟨round_is v, floor_is v, ceil_is v⟩

example : roundNumber (.fin (-5/2)) = .fin (-2) ∧ roundNumber (.fin (5/2)) = .fin 3 := by decide +kernel

/-- C43, partial: `a mod b` is the remainder of truncating division for all integers that fit a
`long`, with `b` nonzero. Missing: fractional operands, infinities, a zero divisor, and the one
pair whose quotient does not fit. -/
theorem C43_partial (a b : Int) (ha : -(2 ^ 63 : Int) ≤ a ∧ a < (2 ^ 63 : Int))
    (hb : -(2 ^ 63 : Int) ≤ b ∧ b < (2 ^ 63 : Int)) (h0 : b ≠ 0)
    (h1 : ¬ (a = -(2 ^ 63 : Int) ∧ b = -1)) :
    ∃ r, modulus (.fin a) (.fin b) = some r ∧ IsMod (.fin a) (.fin b) r :=
  ⟨_, mod_int a b ha hb h0 h1, tmod_is a b h0⟩

example : modulus (.fin (-5)) (.fin 2) = some (.fin (-1)) ∧ modulus (.fin 5) (.fin (-2)) = some (.fin 1) := by
  decide +kernel

/-- NaN operands give NaN. -/
theorem C43_nan (a b : Num) (h : a = .nan ∨ b = .nan) :
    modulus a b = some .nan ∧ IsMod a b .nan := by
  rcases h with rfl | rfl
  · exact ⟨by simp [modulus, Num.isNaN], by cases b <;> rfl⟩
  · exact ⟨by simp [modulus, Num.isNaN], by cases a <;> rfl⟩

/-- C43 is false of the code: `5.5 mod 2` is 1 instead of 1.5; a zero divisor, a divisor between -1
and 1, and infinite operands are undefined behaviour (a trap on common processors). -/
theorem C43_violated :
    modulus (.fin (11/2)) (.fin 2) = some (.fin 1) ∧ ¬ IsMod (.fin (11/2)) (.fin 2) (.fin 1) ∧
    modulus (.fin 1) (.fin 0) = none ∧ IsMod (.fin 1) (.fin 0) .nan ∧
    modulus (.fin 1) (.fin (1/2)) = none ∧ IsMod (.fin 1) (.fin (1/2)) (.fin 0) ∧
    modulus (.fin 1) .pinf = none ∧ IsMod (.fin 1) .pinf (.fin 1) := by
  refine ⟨by decide +kernel, ?_, by decide +kernel, rfl, by decide +kernel, ?_, by decide +kernel, rfl⟩
  · simp only [IsMod]
    rw [if_neg (by decide +kernel)]
    rintro ⟨s, k, hs, h, _⟩
    have hs : (1 : Rat) = s := Num.fin.inj hs
    subst hs
    have h2 : ((9 : Int) : Rat) = ((4 * k : Int) : Rat) := by
      rw [Rat.intCast_mul]
      have e1 : ((9 : Int) : Rat) = 9 := rfl
      have e2 : ((4 : Int) : Rat) = 4 := rfl
      rw [e1, e2]
      grind
    have := Rat.intCast_inj.mp h2
    omega
  · simp only [IsMod]
    rw [if_neg (by decide +kernel)]
    exact ⟨0, 2, rfl, by decide +kernel, by decide +kernel, by decide +kernel⟩

end Verif.Props.XPathValue
