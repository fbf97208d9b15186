import Verif.Model.Names
import Verif.Spec.XmlChars
set_option autoImplicit false
set_option linter.unusedSimpArgs false
set_option linter.unusedVariables false
namespace Verif.Names
open Verif.XmlChars Verif.Spec

theorem inAny_iff (c : Int) : ∀ l : List (Int × Int), inAny c l = true ↔ ∃ r ∈ l, r.1 ≤ c ∧ c ≤ r.2
  | [] => by simp [inAny]
  | (lo, hi) :: t => by
    simp [inAny, inAny_iff c t]

def Sorted : List (Int × Int) → Bool
  | [] => true
  | [(lo, hi)] => decide (lo ≤ hi)
  | (lo, hi) :: (lo', hi') :: t => decide (lo ≤ hi) && decide (hi < lo') && Sorted ((lo', hi') :: t)

theorem sorted_lower : ∀ (l : List (Int × Int)) (lo hi : Int), Sorted ((lo, hi) :: l) = true →
    ∀ r ∈ l, hi < r.1
  | [], _, _, _, r, h => by simp at h
  | (lo', hi') :: t, lo, hi, hs, r, h => by
    simp only [Sorted, Bool.and_eq_true, decide_eq_true_eq] at hs
    obtain ⟨⟨h1, h2⟩, h3⟩ := hs
    simp only [List.mem_cons] at h
    rcases h with h | h
    · rw [h]; exact h2
    · have := sorted_lower t lo' hi' h3 r h
      have h4 : lo' ≤ hi' := by
        cases t with
        | nil => simpa [Sorted] using h3
        | cons x xs => obtain ⟨a, b⟩ := x; simp [Sorted] at h3; exact h3.1.1
      omega

theorem baseLoop_iff (c : Int) : ∀ l : List (Int × Int), Sorted l = true →
    (baseLoop c l = true ↔ ∃ r ∈ l, r.1 ≤ c ∧ c ≤ r.2)
  | [], _ => by simp [baseLoop]
  | (lo, hi) :: t, hs => by
    have ht : Sorted t = true := by
      cases t with
      | nil => rfl
      | cons x xs => obtain ⟨a, b⟩ := x; simp [Sorted] at hs; exact hs.2
    have hl := sorted_lower t lo hi hs
    have hlo : lo ≤ hi := by
      cases t with
      | nil => simpa [Sorted] using hs
      | cons x xs => obtain ⟨a, b⟩ := x; simp [Sorted] at hs; exact hs.1.1
    unfold baseLoop
    split
    · rename_i h
      simp only [Bool.false_eq_true, false_iff, not_exists]
      rintro r ⟨hr, h1, h2⟩
      simp only [List.mem_cons] at hr
      rcases hr with hr | hr
      · rw [hr] at h1; simp at h1; omega
      · have := hl r hr; omega
    · split
      · rename_i h
        simp only [true_iff]
        exact ⟨(lo, hi), by simp, h⟩
      · rename_i h1 h2
        rw [baseLoop_iff c t ht]
        constructor
        · rintro ⟨r, hr, h⟩; exact ⟨r, by simp [hr], h⟩
        · rintro ⟨r, hr, h⟩
          simp only [List.mem_cons] at hr
          rcases hr with hr | hr
          · rw [hr] at h; exact absurd h (by simp; simp at h2; omega)
          · exact ⟨r, hr, h⟩

/-- A code table as integers. -/
def lift (l : List (Nat × Nat)) : List (Int × Int) := l.map fun r => ((r.1 : Int), (r.2 : Int))

theorem lift_iff (l : List (Nat × Nat)) (c : Nat) :
    (∃ r ∈ lift l, r.1 ≤ (c : Int) ∧ (c : Int) ≤ r.2) ↔ Xml.In l c := by
  unfold lift Xml.In
  constructor
  · rintro ⟨r, hr, h1, h2⟩
    simp only [List.mem_map] at hr
    obtain ⟨a, ha, rfl⟩ := hr
    exact ⟨a, ha, by simpa using h1, by simpa using h2⟩
  · rintro ⟨a, ha, h1, h2⟩
    exact ⟨((a.1 : Int), (a.2 : Int)), List.mem_map.mpr ⟨a, ha, rfl⟩, by simpa using h1, by simpa using h2⟩

theorem base_table : baseCharRanges = lift Xml.baseChar := by decide +kernel
theorem base_sorted : Sorted baseCharRanges = true := by decide +kernel
theorem ideo_table : ideographicTests = lift Xml.ideographic := by decide +kernel
theorem digit_table : digitTests = lift Xml.digit := by decide +kernel
theorem comb_table : combiningTests = lift Xml.combiningChar := by decide +kernel
theorem ext_table : extenderTests = lift Xml.extender := by decide +kernel

theorem base_iff (c : Nat) : isBaseChar c = true ↔ Xml.In Xml.baseChar c := by
  unfold isBaseChar
  rw [baseLoop_iff _ _ base_sorted, base_table, lift_iff]
theorem ideo_iff (c : Nat) : isIdeographic c = true ↔ Xml.In Xml.ideographic c := by
  unfold isIdeographic; rw [inAny_iff, ideo_table, lift_iff]
theorem digit_iff (c : Nat) : isDigit c = true ↔ Xml.In Xml.digit c := by
  unfold isDigit; rw [inAny_iff, digit_table, lift_iff]
theorem comb_iff (c : Nat) : isCombiningChar c = true ↔ Xml.In Xml.combiningChar c := by
  unfold isCombiningChar; rw [inAny_iff, comb_table, lift_iff]
theorem ext_iff (c : Nat) : isExtender c = true ↔ Xml.In Xml.extender c := by
  unfold isExtender; rw [inAny_iff, ext_table, lift_iff]

theorem letter_iff (c : Nat) : isLetter c = true ↔ Xml.Letter c := by
  unfold isLetter Xml.Letter; rw [Bool.or_eq_true, base_iff, ideo_iff]

theorem cast_beq (c k : Nat) : (((c : Int) == (k : Int)) = true) ↔ c = k := by
  rw [beq_iff_eq]; omega

theorem nameChar_iff (c : Nat) : isNameChar c = true ↔ Xml.NameChar c := by
  unfold isNameChar Xml.NameChar
  simp only [Bool.or_eq_true, letter_iff, digit_iff, comb_iff, ext_iff]
  have h1 := cast_beq c 0x2E; have h2 := cast_beq c 0x2D; have h3 := cast_beq c 0x5F
  have h4 := cast_beq c 0x3A
  have e1 : '.'.toNat = 0x2E := rfl
  have e2 : '-'.toNat = 0x2D := rfl
  have e3 : '_'.toNat = 0x5F := rfl
  have e4 : ':'.toNat = 0x3A := rfl
  simp only [e1, e2, e3, e4, ← h1, ← h2, ← h3, ← h4]
  simp only [or_assoc]; rfl

theorem not_colon_class : isLetter 0x3A = false ∧ isDigit 0x3A = false ∧
    isCombiningChar 0x3A = false ∧ isExtender 0x3A = false := by decide +kernel

theorem ncnameChar_iff (c : Nat) : isNCNameChar c = true ↔ Xml.NCNameChar c := by
  unfold Xml.NCNameChar
  rw [← nameChar_iff]
  have e4 : ':'.toNat = 0x3A := rfl
  rw [e4]
  by_cases hc : c = 0x3A
  · subst hc
    simp only [ne_eq, not_true_eq_false, and_false, iff_false]
    have : isNCNameChar ((0x3A : Nat) : Int) = false := by decide +kernel
    rw [this]; simp
  · unfold isNCNameChar isNameChar
    have : ((c : Int) == 0x3A) = false := by
      have := cast_beq c 0x3A
      cases h : ((c : Int) == 0x3A)
      · rfl
      · exact absurd (this.mp h) hc
    rw [this]
    simp [hc]

theorem char_iff (c : Nat) : isChar c = true ↔ Xml.Char c := by
  unfold isChar Xml.Char
  simp only [Bool.or_eq_true, Bool.and_eq_true, decide_eq_true_eq, beq_iff_eq, ge_iff_le]
  omega

theorem space_iff (c : Nat) : isSpace c = true ↔ Xml.Space c := by
  unfold isSpace Xml.Space
  simp only [Bool.or_eq_true, beq_iff_eq]
  omega

theorem neg_inAny (c : Int) (l : List (Nat × Nat)) (h : c < 0) : inAny c (lift l) = false := by
  cases hh : inAny c (lift l) with
  | false => rfl
  | true =>
    rw [inAny_iff] at hh
    obtain ⟨r, hr, h1, h2⟩ := hh
    simp only [lift, List.mem_map] at hr
    obtain ⟨a, _, rfl⟩ := hr
    simp at h1; omega

theorem neg_letter (c : Int) (h : c < 0) : isLetter c = false := by
  unfold isLetter isBaseChar isIdeographic
  rw [ideo_table, neg_inAny c _ h]
  have : baseLoop c baseCharRanges = false := by
    unfold baseCharRanges baseLoop
    rw [if_pos (by omega)]
  rw [this]; rfl

theorem neg_ncnameChar (c : Int) (h : c < 0) : isNCNameChar c = false := by
  unfold isNCNameChar isDigit isCombiningChar isExtender
  rw [neg_letter c h, digit_table, comb_table, ext_table, neg_inAny c _ h, neg_inAny c _ h,
    neg_inAny c _ h]
  simp; omega

theorem neg_nameChar (c : Int) (h : c < 0) : isNameChar c = false := by
  unfold isNameChar isDigit isCombiningChar isExtender
  rw [neg_letter c h, digit_table, comb_table, ext_table, neg_inAny c _ h, neg_inAny c _ h,
    neg_inAny c _ h]
  simp; omega

theorem ncnameRest_iff : ∀ s : List Int, ncnameRest s = true ↔ ∀ c ∈ s, isNCNameChar c = true
  | [] => by simp [ncnameRest]
  | c :: cs => by
    unfold ncnameRest
    by_cases h : isNCNameChar c = true
    · simp [h, ncnameRest_iff cs]
    · simp [h]

/-- A wide string as the classification functions see it. -/
def wide (s : List Nat) : List Int := s.map Int.ofNat

theorem ncname_iff (s : List Nat) : isNCName (wide s) = true ↔ Xml.NCName s := by
  unfold Xml.NCName wide
  cases s with
  | nil => simp [isNCName]
  | cons c t =>
    have e : '_'.toNat = 0x5F := rfl
    simp only [List.map_cons, isNCName, e]
    have hl := letter_iff c
    have hu := cast_beq c 0x5F
    have hr : ncnameRest (t.map Int.ofNat) = true ↔ ∀ x ∈ t, Xml.NCNameChar x := by
      rw [ncnameRest_iff]
      simp only [List.mem_map, forall_exists_index, and_imp, forall_apply_eq_imp_iff₂]
      constructor
      · intro h x hx; exact (ncnameChar_iff x).mp (h x hx)
      · intro h x hx; exact (ncnameChar_iff x).mpr (h x hx)
    have hcond : ((isLetter (Int.ofNat c) || Int.ofNat c == 0x5F) = true) ↔ (Xml.Letter c ∨ c = 0x5F) := by
      rw [Bool.or_eq_true]; exact or_congr hl hu
    by_cases hc : Xml.Letter c ∨ c = 0x5F
    · rw [if_pos (hcond.mpr hc), hr]
      constructor
      · intro h; exact ⟨c, t, rfl, hc, h⟩
      · rintro ⟨c', t', h1, h2, h3⟩
        simp only [List.cons.injEq] at h1
        obtain ⟨rfl, rfl⟩ := h1
        exact h3
    · rw [if_neg (fun h => hc (hcond.mp h))]
      simp only [Bool.false_eq_true, false_iff]
      rintro ⟨c', t', h1, h2, h3⟩
      simp only [List.cons.injEq] at h1
      obtain ⟨rfl, rfl⟩ := h1
      exact hc h2

theorem findColon_none : ∀ s : List Int, findColon s = none ↔ (0x3A : Int) ∉ s
  | [] => by simp [findColon]
  | c :: cs => by
    unfold findColon
    by_cases h : c = 0x3A
    · simp [h]
    · simp [h, findColon_none cs, Ne.symm h]

theorem findColon_some : ∀ (s : List Int) (i : Nat), findColon s = some i →
    s = s.take i ++ 0x3A :: s.drop (i + 1) ∧ (0x3A : Int) ∉ s.take i
  | [], i, h => by simp [findColon] at h
  | c :: cs, i, h => by
    unfold findColon at h
    by_cases hc : c = 0x3A
    · simp [hc] at h; subst h; simp [hc]
    · simp only [beq_eq_false_iff_ne.mpr hc, Bool.false_eq_true, if_false, Option.map_eq_some_iff] at h
      obtain ⟨j, hj, rfl⟩ := h
      obtain ⟨h1, h2⟩ := findColon_some cs j hj
      refine ⟨?_, ?_⟩
      · simp; exact h1
      · simp [Ne.symm hc, h2]

theorem findColon_append (p l : List Int) (h : (0x3A : Int) ∉ p) :
    findColon (p ++ 0x3A :: l) = some p.length := by
  induction p with
  | nil => simp [findColon]
  | cons c p ih =>
    simp at h
    simp only [List.cons_append, findColon]
    rw [beq_eq_false_iff_ne.mpr (Ne.symm h.1)]
    simp [ih h.2]

theorem ncname_no_colon (s : List Nat) (h : Xml.NCName s) : (0x3A : Nat) ∉ s := by
  obtain ⟨c, t, rfl, hc, ht⟩ := h
  intro hm
  simp only [List.mem_cons] at hm
  rcases hm with hm | hm
  · subst hm
    rcases hc with hc | hc
    · have := (letter_iff 0x3A).mpr hc
      have h2 : isLetter ((0x3A : Nat) : Int) = false := by decide +kernel
      rw [h2] at this; cases this
    · exact absurd hc (by decide)
  · exact (ht _ hm).2 rfl

theorem wide_colon (s : List Nat) : (0x3A : Int) ∈ wide s ↔ 0x3A ∈ s := by
  unfold wide
  simp only [List.mem_map]
  constructor
  · rintro ⟨a, ha, h⟩
    have : a = 0x3A := by simp at h; omega
    rwa [← this]
  · intro h; exact ⟨_, h, rfl⟩

theorem qname_iff (s : List Nat) : isQName (wide s) = true ↔ Xml.QName s := by
  unfold isQName Xml.QName
  cases h : findColon (wide s) with
  | none =>
    simp only
    rw [ncname_iff]
    constructor
    · exact Or.inl
    · rintro (h1 | ⟨p, l, rfl, h1, h2⟩)
      · exact h1
      · have := (findColon_none _).mp h
        rw [wide_colon] at this
        exact absurd (by simp) this
  | some i =>
    simp only [Bool.and_eq_true]
    obtain ⟨h1, h2⟩ := findColon_some _ _ h
    have et : (wide s).take i = wide (s.take i) := by simp [wide, List.map_take]
    have ed : (wide s).drop (i + 1) = wide (s.drop (i + 1)) := by simp [wide, List.map_drop]
    rw [et, ed, ncname_iff, ncname_iff]
    have hmem : 0x3A ∈ s := by
      rw [← wide_colon, h1]; simp
    constructor
    · rintro ⟨a, b⟩
      right
      refine ⟨s.take i, s.drop (i + 1), ?_, a, b⟩
      have : wide s = wide (s.take i ++ 0x3A :: s.drop (i + 1)) := by
        conv => lhs; rw [h1]
        rw [et, ed]
        simp [wide]
      have inj : Function.Injective wide := by
        intro x y hxy
        exact (List.map_inj_right (fun a b h => by simp at h; omega)).mp hxy
      exact inj this
    · rintro (hn | ⟨p, l, rfl, hp, hl⟩)
      · exact absurd hmem (ncname_no_colon _ hn)
      · have hnp : (0x3A : Int) ∉ wide p := by
          rw [wide_colon]; exact ncname_no_colon _ hp
        have : findColon (wide (p ++ ':'.toNat :: l)) = some p.length := by
          have := findColon_append (wide p) (wide l) hnp
          simpa [wide] using this
        rw [this] at h
        simp at h; subst h
        simp [hp, hl]

end Verif.Names
