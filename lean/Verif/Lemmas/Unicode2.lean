import Verif.Lemmas.Unicode
set_option autoImplicit false
set_option linter.unusedSimpArgs false
set_option linter.unusedVariables false
namespace Verif.Unicode
open Verif.Codecvt Verif.Spec

/-! ## the decoders as scans -/

def utf8One : List UInt8 → Option (Option (Nat × List UInt8))
  | [] => some none
  | b :: rest =>
    let e := leadEntry b.toNat tab 0
    if e.1 ≥ (b :: rest).length then some none
    else (foldCont e.1 b.toNat rest).map fun p => some (p.1 &&& e.2, p.2)

def isoOne : List UInt8 → Option (Option (UInt8 × List UInt8))
  | [] => some none
  | b :: rest =>
    (isoLead b.toNat tab b.toNat rest).map fun p =>
      some (if p.1 ≤ 0xFF then UInt8.ofNat p.1 else 63, p.2)

def rot13One : List UInt8 → Option (Option (UInt8 × List UInt8))
  | [] => some none
  | b :: rest => rot13Table[b.toNat]?.map fun x => some (x, rest)

def utf16One (be : Bool) : List UInt8 → Option (Option (Nat × List UInt8))
  | [] => some none
  | [_] => some none
  | b1 :: b2 :: rest =>
    some (some (if be then (b1.toNat <<< 8) + b2.toNat else (b2.toNat <<< 8) + b1.toNat, rest))

theorem utf8_scan : utf8ToUcs2 = scan utf8One := by
  funext n
  induction n with
  | zero => funext inp; cases inp <;> rfl
  | succ n ih =>
    funext inp
    cases inp with
    | nil => rfl
    | cons b rest =>
      unfold utf8ToUcs2 scan
      rw [ih]
      simp only [utf8One]
      split
      · rfl
      · cases foldCont (leadEntry b.toNat tab 0).1 b.toNat rest with
        | none => rfl
        | some p => obtain ⟨v, r⟩ := p; simp only [Option.map_some]; cases scan utf8One n r <;> rfl

theorem iso_scan : utf8ToIso = scan isoOne := by
  funext n
  induction n with
  | zero => funext inp; cases inp <;> rfl
  | succ n ih =>
    funext inp
    cases inp with
    | nil => rfl
    | cons b rest =>
      unfold utf8ToIso scan
      rw [ih]
      simp only [isoOne]
      cases isoLead b.toNat tab b.toNat rest with
      | none => rfl
      | some p => obtain ⟨v, r⟩ := p; simp only [Option.map_some]; cases scan isoOne n r <;> rfl

theorem rot13_scan : rot13 = scan rot13One := by
  funext n
  induction n with
  | zero => funext inp; cases inp <;> rfl
  | succ n ih =>
    funext inp
    cases inp with
    | nil => rfl
    | cons b rest =>
      unfold rot13 scan
      rw [ih]
      simp only [rot13One]
      cases rot13Table[b.toNat]? with
      | none => rfl
      | some p => simp only [Option.map_some]; cases scan rot13One n rest <;> rfl

theorem utf16_scan (be : Bool) : utf16ToUcs2 be = scan (utf16One be) := by
  funext n
  induction n with
  | zero =>
    funext inp
    match inp with
    | [] => rfl
    | [_] => rfl
    | _ :: _ :: _ => rfl
  | succ n ih =>
    funext inp
    match inp with
    | [] => rfl
    | [_] => rfl
    | b1 :: b2 :: rest =>
      unfold utf16ToUcs2 scan
      rw [ih]
      simp only [utf16One]
      cases scan (utf16One be) n rest <;> rfl

theorem foldCont_length : ∀ (k acc : Nat) (l : List UInt8) v r, foldCont k acc l = some (v, r) →
    r.length ≤ l.length
  | 0, acc, l, v, r, h => by unfold foldCont at h; simp at h; simp [h.2]
  | k + 1, acc, [], v, r, h => by unfold foldCont at h; simp at h
  | k + 1, acc, b :: l, v, r, h => by
    unfold foldCont at h
    have := foldCont_length k _ l v r h
    simp; omega

theorem isoLead_length (start : Nat) : ∀ (ts : List Tab) (acc : Nat) (l : List UInt8) v r,
    isoLead start ts acc l = some (v, r) → r.length ≤ l.length
  | [], acc, l, v, r, h => by unfold isoLead at h; simp at h; simp [h.2]
  | t :: ts, acc, l, v, r, h => by
    unfold isoLead at h
    split at h
    · simp at h; simp [h.2]
    · split at h
      · simp at h
      · have := isoLead_length start ts _ _ v r h
        simp; omega

theorem utf8_shrinks : Shrinks utf8One := by
  intro inp v rest h
  cases inp with
  | nil => simp [utf8One] at h
  | cons b l =>
    simp only [utf8One] at h
    split at h
    · simp at h
    · cases hf : foldCont (leadEntry b.toNat tab 0).1 b.toNat l with
      | none => rw [hf] at h; simp at h
      | some p =>
        rw [hf] at h; simp at h
        have := foldCont_length _ _ _ p.1 p.2 hf
        rw [← h.2]; simp; omega

theorem iso_shrinks : Shrinks isoOne := by
  intro inp v rest h
  cases inp with
  | nil => simp [isoOne] at h
  | cons b l =>
    simp only [isoOne] at h
    cases hf : isoLead b.toNat tab b.toNat l with
    | none => rw [hf] at h; simp at h
    | some p =>
      rw [hf] at h; simp at h
      have := isoLead_length _ _ _ _ p.1 p.2 hf
      rw [← h.2]; simp; omega

theorem rot13_shrinks : Shrinks rot13One := by
  intro inp v rest h
  cases inp with
  | nil => simp [rot13One] at h
  | cons b l =>
    simp only [rot13One] at h
    cases hf : rot13Table[b.toNat]? with
    | none => rw [hf] at h; simp at h
    | some p =>
      rw [hf] at h; simp at h
      rw [← h.2]; simp

theorem utf16_shrinks (be : Bool) : Shrinks (utf16One be) := by
  intro inp v rest h
  match inp with
  | [] => simp [utf16One] at h
  | [_] => simp [utf16One] at h
  | _ :: _ :: l =>
    simp only [utf16One] at h
    simp at h; rw [← h.2]; simp; omega

/-! ## lead bytes -/

theorem leadEntry_all : ∀ b : Fin 256, leadEntry b.val tab 0 =
    if b.val < 128 then (0, 0x7F) else if b.val < 192 then (3, 0)
    else if b.val < 224 then (1, 0x7FF) else if b.val < 240 then (2, 0xFFFF) else (3, 0) := by
  decide +kernel

theorem leadEntry_eq (b : Nat) (h : b < 256) : leadEntry b tab 0 =
    if b < 128 then (0, 0x7F) else if b < 192 then (3, 0)
    else if b < 224 then (1, 0x7FF) else if b < 240 then (2, 0xFFFF) else (3, 0) :=
  leadEntry_all ⟨b, h⟩

theorem mask_all : ∀ b : Fin 256, ((b.val &&& 0x80 = 0) ↔ b.val < 128) ∧
    ((b.val &&& 0xE0 = 0xC0) ↔ (192 ≤ b.val ∧ b.val < 224)) ∧
    ((b.val &&& 0xF0 = 0xE0) ↔ (224 ≤ b.val ∧ b.val < 240)) ∧
    ((b.val &&& 0xC0 = 0xC0) ↔ (192 ≤ b.val)) := by
  decide +kernel

theorem mask80 (b : Nat) (h : b < 256) : (b &&& 0x80 = 0) ↔ b < 128 := (mask_all ⟨b, h⟩).1
theorem maskE0 (b : Nat) (h : b < 256) : (b &&& 0xE0 = 0xC0) ↔ (192 ≤ b ∧ b < 224) :=
  (mask_all ⟨b, h⟩).2.1
theorem maskF0 (b : Nat) (h : b < 256) : (b &&& 0xF0 = 0xE0) ↔ (224 ≤ b ∧ b < 240) :=
  (mask_all ⟨b, h⟩).2.2.1
theorem maskC0 (b : Nat) (h : b < 256) : (b &&& 0xC0 = 0xC0) ↔ 192 ≤ b := (mask_all ⟨b, h⟩).2.2.2

theorem cont_all : ∀ y : Fin 64, ((0x80 + y.val) ^^^ 0x80) &&& 0xff = y.val := by decide +kernel
theorem cont_eq (y : Nat) (h : y < 64) : ((0x80 + y) ^^^ 0x80) &&& 0xff = y := cont_all ⟨y, h⟩

theorem toNat_ofNat8 (n : Nat) (h : n < 256) : (UInt8.ofNat n).toNat = n := by
  rw [UInt8.toNat_ofNat']; exact Nat.mod_eq_of_lt h

theorem acc_eq (a y : Nat) (h : y < 64) : (a <<< 6) ||| y = a * 64 + y := by
  rw [← Nat.shiftLeft_add_eq_or_of_lt (by simpa using h), Nat.shiftLeft_eq]

theorem and7F (n : Nat) : n &&& 0x7F = n % 128 := Nat.and_two_pow_sub_one_eq_mod n 7
theorem and3F (n : Nat) : n &&& 0x3F = n % 64 := Nat.and_two_pow_sub_one_eq_mod n 6
theorem andFF (n : Nat) : n &&& 0xFF = n % 256 := Nat.and_two_pow_sub_one_eq_mod n 8
theorem and7FF (n : Nat) : n &&& 0x7FF = n % 2048 := Nat.and_two_pow_sub_one_eq_mod n 11
theorem andFFFF (n : Nat) : n &&& 0xFFFF = n % 65536 := Nat.and_two_pow_sub_one_eq_mod n 16

theorem orC0 (n : Nat) (h : n < 64) : 0xC0 ||| n = 0xC0 + n := by
  have := Nat.two_pow_add_eq_or_of_lt (i := 6) (b := n) (by simpa using h) 3
  simpa using this.symm
theorem orE0 (n : Nat) (h : n < 32) : 0xE0 ||| n = 0xE0 + n := by
  have := Nat.two_pow_add_eq_or_of_lt (i := 5) (b := n) (by simpa using h) 7
  simpa using this.symm
theorem or80 (n : Nat) (h : n < 64) : 0x80 ||| n = 0x80 + n := by
  have := Nat.two_pow_add_eq_or_of_lt (i := 6) (b := n) (by simpa using h) 2
  simpa using this.symm

/-! ## encoding one character -/

theorem encodeOne_eq (c room : Nat) : encodeOne c room tab 0 =
    if c < 0x10000 then
      (if room ≤ (Utf8.encodeChar c).length then none else some (Utf8.encodeChar c))
    else some [] := by
  unfold tab encodeOne encodeOne encodeOne encodeOne
  simp only [Utf8.encodeChar]
  have e0 : contBytes c 0 = [] := rfl
  have e1 : contBytes c 1 = [UInt8.ofNat (0x80 ||| ((c >>> (6 * 0)) &&& 0x3F))] := rfl
  have e2 : contBytes c 2 = [UInt8.ofNat (0x80 ||| ((c >>> (6 * 1)) &&& 0x3F)),
    UInt8.ofNat (0x80 ||| ((c >>> (6 * 0)) &&& 0x3F))] := rfl
  have hm : ∀ k, c >>> k &&& 0x3F < 64 := fun k => by rw [and3F]; omega
  by_cases h1 : c < 0x80
  · simp only [show ¬ c > 0x7F by omega, if_false, show c < 0x10000 by omega, if_true, h1]
    simp [e0]
  · by_cases h2 : c < 0x800
    · have hs : c >>> 6 < 64 := by rw [Nat.shiftRight_eq_div_pow]; omega
      simp only [show c > 0x7F by omega, show ¬ c > 0x7FF by omega, if_false,
        show c < 0x10000 by omega, if_true, h1, h2, Nat.reduceMul, Nat.reduceDiv, e1, Nat.mul_zero,
        or80 _ (hm _), orC0 _ hs]
      simp only [and3F, Nat.shiftRight_eq_div_pow]
      simp
    · by_cases h3 : c < 0x10000
      · have hs : c >>> 12 < 32 := by rw [Nat.shiftRight_eq_div_pow]; omega
        simp only [show c > 0x7F by omega, show c > 0x7FF by omega, show ¬ c > 0xFFFF by omega,
          if_false, if_true, h1, h2, h3, Nat.reduceMul, Nat.reduceDiv, e2, Nat.mul_zero,
          Nat.mul_one, or80 _ (hm _), orE0 _ hs]
        simp only [and3F, Nat.shiftRight_eq_div_pow]
        simp
      · simp only [show c > 0x7F by omega, show c > 0x7FF by omega, show c > 0xFFFF by omega,
          if_false, if_true, h3]

/-- What the encoder writes for a wide character: nothing above the BMP. -/
def encBmp (c : Nat) : List UInt8 := if c < 0x10000 then Utf8.encodeChar c else []

theorem encodeChar_length (c : Nat) : (Utf8.encodeChar c).length ≤ 4 := by
  unfold Utf8.encodeChar; split
  · simp
  · split
    · simp
    · split <;> simp

theorem encodeChar_length' (c : Nat) (h : c < 0x10000) : (Utf8.encodeChar c).length ≤ 3 := by
  unfold Utf8.encodeChar; split
  · simp
  · split
    · simp
    · simp [h]

theorem ucs2_encodes : Encodes ucs2ToUtf8 encBmp 4 := by
  apply encodes_of_shape ucs2ToUtf8 encBmp 1 (by intro cap; rfl)
  · intro c cs cap
    rw [ucs2ToUtf8]
    rw [encodeOne_eq]
    unfold encBmp
    by_cases h : c < 0x10000
    · simp only [h, if_true]
      by_cases h2 : cap ≤ (Utf8.encodeChar c).length
      · left; simp [h2]; omega
      · right; simp [h2]
    · right; simp [h]
  · intro c; unfold encBmp; split
    · have := encodeChar_length' c (by assumption); omega
    · simp

theorem iso_encodes : Encodes isoToUtf8 (fun c => Utf8.encodeChar c.toNat) 4 := by
  apply encodes_of_shape isoToUtf8 _ 1 (by intro cap; rfl)
  · intro c cs cap
    have hc := c.toNat_lt
    rw [isoToUtf8]
    rw [encodeOne_eq]
    simp only [show c.toNat < 0x10000 by omega, if_true]
    by_cases h2 : cap ≤ (Utf8.encodeChar c.toNat).length
    · left; simp [h2]; omega
    · right; simp [h2]
  · intro c
    have hc := c.toNat_lt
    have := encodeChar_length' c.toNat (by omega); omega

/-- bytes of one UTF-16 unit as the encoder writes them -/
def enc16 (be : Bool) (c : Nat) : List UInt8 :=
  if be then Utf8.be16 (c % 65536) else Utf8.le16 (c % 65536)

theorem utf16_encodes (be : Bool) : Encodes (ucs2ToUtf16 be) (enc16 be) 3 := by
  apply encodes_of_shape (ucs2ToUtf16 be) (enc16 be) 1 (by intro cap; rfl)
  · intro c cs cap
    have hl : (enc16 be c).length = 2 := by
      unfold enc16 Utf8.be16 Utf8.le16; cases be <;> simp
    rw [ucs2ToUtf16]
    rw [hl]
    by_cases h : 2 ≥ cap
    · left; simp [h]; omega
    · right
      simp only [h, if_false]
      congr 1
      unfold enc16 Utf8.be16 Utf8.le16
      have e1 : c >>> 8 &&& 0xFF = c % 65536 / 256 := by
        rw [andFF, Nat.shiftRight_eq_div_pow]; omega
      have e2 : c &&& 0xFF = c % 65536 % 256 := by rw [andFF]; omega
      rw [e1, e2]
  · intro c
    have hl : (enc16 be c).length = 2 := by
      unfold enc16 Utf8.be16 Utf8.le16; cases be <;> simp
    omega

/-! ## decoding one encoded character -/

theorem utf8One_encode (c : Nat) (h : c < 0x110000) (t : List UInt8) :
    utf8One (Utf8.encodeChar c ++ t) = some (some (if c < 0x10000 then c else 0, t)) := by
  unfold Utf8.encodeChar
  by_cases h1 : c < 0x80
  · simp only [h1, if_true, List.cons_append, List.nil_append, utf8One,
      toNat_ofNat8 c (by omega), leadEntry_eq c (by omega), show c < 128 from h1]
    simp [foldCont, and7F, show c < 65536 by omega]
    omega
  · by_cases h2 : c < 0x800
    · simp only [h1, h2, if_true, if_false, List.cons_append, List.nil_append, utf8One,
        toNat_ofNat8 (0xC0 + c / 64) (by omega), leadEntry_eq (0xC0 + c / 64) (by omega),
        show ¬ (0xC0 + c / 64) < 128 by omega, show ¬ (0xC0 + c / 64) < 192 by omega,
        show (0xC0 + c / 64) < 224 by omega, foldCont, toNat_ofNat8 (0x80 + c % 64) (by omega),
        cont_eq (c % 64) (by omega), acc_eq _ (c % 64) (by omega), and7FF,
        show c < 0x10000 by omega]
      simp
      omega
    · by_cases h3 : c < 0x10000
      · simp only [h1, h2, h3, if_true, if_false, List.cons_append, List.nil_append, utf8One,
          toNat_ofNat8 (0xE0 + c / 4096) (by omega), leadEntry_eq (0xE0 + c / 4096) (by omega),
          show ¬ (0xE0 + c / 4096) < 128 by omega, show ¬ (0xE0 + c / 4096) < 192 by omega,
          show ¬ (0xE0 + c / 4096) < 224 by omega, show (0xE0 + c / 4096) < 240 by omega, foldCont,
          toNat_ofNat8 (0x80 + c / 64 % 64) (by omega), toNat_ofNat8 (0x80 + c % 64) (by omega),
          cont_eq (c / 64 % 64) (by omega), cont_eq (c % 64) (by omega),
          acc_eq _ (c % 64) (by omega), acc_eq _ (c / 64 % 64) (by omega), andFFFF]
        simp
        omega
      · simp only [h1, h2, h3, if_true, if_false, List.cons_append, List.nil_append, utf8One,
          toNat_ofNat8 (0xF0 + c / 262144) (by omega), leadEntry_eq (0xF0 + c / 262144) (by omega),
          show ¬ (0xF0 + c / 262144) < 128 by omega, show ¬ (0xF0 + c / 262144) < 192 by omega,
          show ¬ (0xF0 + c / 262144) < 224 by omega, show ¬ (0xF0 + c / 262144) < 240 by omega, foldCont]
        simp

theorem isoLead_eq (b : Nat) (h : b < 256) (rest : List UInt8) :
    isoLead b tab b rest =
      if b < 128 then some (b &&& 0x7F, rest)
      else match rest with
        | [] => none
        | x :: rest =>
          let n1 := (b <<< 6) ||| ((x.toNat ^^^ 0x80) &&& 0xff)
          if 192 ≤ b ∧ b < 224 then some (n1 &&& 0x7FF, rest)
          else match rest with
            | [] => none
            | y :: rest =>
              let n2 := (n1 <<< 6) ||| ((y.toNat ^^^ 0x80) &&& 0xff)
              if 224 ≤ b ∧ b < 240 then some (n2 &&& 0xFFFF, rest)
              else match rest with
                | [] => none
                | z :: rest => some ((n2 <<< 6) ||| ((z.toNat ^^^ 0x80) &&& 0xff), rest) := by
  unfold tab isoLead
  simp only [mask80 b h]
  split
  · rfl
  · cases rest with
    | nil => rfl
    | cons x rest =>
      unfold isoLead
      simp only [maskE0 b h]
      split
      · rfl
      · cases rest with
        | nil => rfl
        | cons y rest =>
          unfold isoLead
          simp only [maskF0 b h]
          split
          · rfl
          · cases rest <;> rfl

theorem isoOne_encode (c : Nat) (h : c < 0x110000) (t : List UInt8) :
    isoOne (Utf8.encodeChar c ++ t) =
      some (some (if c ≤ 0xFF then UInt8.ofNat c else 63, t)) := by
  unfold Utf8.encodeChar
  by_cases h1 : c < 0x80
  · simp only [h1, if_true, List.cons_append, List.nil_append, isoOne,
      toNat_ofNat8 c (by omega), isoLead_eq c (by omega), show c < 128 from h1]
    simp only [and7F, Option.map_some, Nat.mod_eq_of_lt (show c < 128 from h1)]
  · by_cases h2 : c < 0x800
    · simp only [h1, h2, if_true, if_false, List.cons_append, List.nil_append, isoOne,
        toNat_ofNat8 (0xC0 + c / 64) (by omega), isoLead_eq (0xC0 + c / 64) (by omega),
        show ¬ (0xC0 + c / 64) < 128 by omega, show 192 ≤ (0xC0 + c / 64) by omega,
        show (0xC0 + c / 64) < 224 by omega, toNat_ofNat8 (0x80 + c % 64) (by omega),
        cont_eq (c % 64) (by omega), acc_eq _ (c % 64) (by omega), and7FF, and_self,
        Option.map_some]
      rw [show ((192 + c / 64) * 64 + c % 64) % 2048 = c by omega]
    · by_cases h3 : c < 0x10000
      · simp only [h1, h2, h3, if_true, if_false, List.cons_append, List.nil_append, isoOne,
          toNat_ofNat8 (0xE0 + c / 4096) (by omega), isoLead_eq (0xE0 + c / 4096) (by omega),
          show ¬ (0xE0 + c / 4096) < 128 by omega,
          show ¬ (0xE0 + c / 4096) < 224 by omega, show (0xE0 + c / 4096) < 240 by omega,
          show 224 ≤ (0xE0 + c / 4096) by omega, and_false,
          toNat_ofNat8 (0x80 + c / 64 % 64) (by omega), toNat_ofNat8 (0x80 + c % 64) (by omega),
          cont_eq (c / 64 % 64) (by omega), cont_eq (c % 64) (by omega), and_self,
          acc_eq _ (c % 64) (by omega), acc_eq _ (c / 64 % 64) (by omega), andFFFF, Option.map_some]
        rw [show (((224 + c / 4096) * 64 + c / 64 % 64) * 64 + c % 64) % 65536 = c by omega]
      · simp only [h1, h2, h3, if_true, if_false, List.cons_append, List.nil_append, isoOne,
          toNat_ofNat8 (0xF0 + c / 262144) (by omega), isoLead_eq (0xF0 + c / 262144) (by omega),
          show ¬ (0xF0 + c / 262144) < 128 by omega,
          show ¬ (0xF0 + c / 262144) < 224 by omega, show ¬ (0xF0 + c / 262144) < 240 by omega,
          and_false, toNat_ofNat8 (0x80 + c / 4096 % 64) (by omega),
          toNat_ofNat8 (0x80 + c / 64 % 64) (by omega), toNat_ofNat8 (0x80 + c % 64) (by omega),
          cont_eq (c / 64 % 64) (by omega), cont_eq (c % 64) (by omega), and_self,
          cont_eq (c / 4096 % 64) (by omega), acc_eq _ (c / 4096 % 64) (by omega),
          acc_eq _ (c % 64) (by omega), acc_eq _ (c / 64 % 64) (by omega), Option.map_some]
        rw [if_neg (by omega), if_neg (by omega)]

theorem encodeChar_ne (c : Nat) : Utf8.encodeChar c ≠ [] := by
  unfold Utf8.encodeChar; split
  · simp
  · split
    · simp
    · split <;> simp

theorem utf8_whole (s : List Nat) (h : ∀ c ∈ s, c < 0x110000) :
    whole utf8One (Utf8.encode s) =
      some ⟨.ok, (), [], s.map fun c => if c < 0x10000 then c else 0⟩ := by
  induction s with
  | nil => rfl
  | cons c s ih =>
    have hc := h c (by simp)
    have hne : Utf8.encode (c :: s) ≠ [] := by
      simp [Utf8.encode, encodeChar_ne]
    rw [whole_step utf8One utf8_shrinks _ hne]
    rw [show Utf8.encode (c :: s) = Utf8.encodeChar c ++ Utf8.encode s by simp [Utf8.encode]]
    rw [utf8One_encode c hc]
    simp only
    rw [ih (fun x hx => h x (by simp [hx]))]
    rfl

theorem iso_whole (s : List Nat) (h : ∀ c ∈ s, c < 0x110000) :
    whole isoOne (Utf8.encode s) =
      some ⟨.ok, (), [], s.map fun c => if c ≤ 0xFF then UInt8.ofNat c else 63⟩ := by
  induction s with
  | nil => rfl
  | cons c s ih =>
    have hc := h c (by simp)
    have hne : Utf8.encode (c :: s) ≠ [] := by
      simp [Utf8.encode, encodeChar_ne]
    rw [whole_step isoOne iso_shrinks _ hne]
    rw [show Utf8.encode (c :: s) = Utf8.encodeChar c ++ Utf8.encode s by simp [Utf8.encode]]
    rw [isoOne_encode c hc]
    simp only
    rw [ih (fun x hx => h x (by simp [hx]))]
    rfl

theorem utf16_whole (be : Bool) (s : List Nat) (h : ∀ c ∈ s, c < 0x10000) :
    whole (utf16One be) (s.flatMap (enc16 be)) = some ⟨.ok, (), [], s⟩ := by
  induction s with
  | nil => rfl
  | cons c s ih =>
    have hc := h c (by simp)
    have hl : enc16 be c ≠ [] := by
      unfold enc16 Utf8.be16 Utf8.le16; cases be <;> simp
    have hne : (c :: s).flatMap (enc16 be) ≠ [] := by simp [hl]
    rw [whole_step _ (utf16_shrinks be) _ hne]
    have : utf16One be ((c :: s).flatMap (enc16 be)) = some (some (c, s.flatMap (enc16 be))) := by
      simp only [List.flatMap_cons, enc16, Utf8.be16, Utf8.le16]
      rw [Nat.mod_eq_of_lt hc]
      cases be <;>
      · simp only [if_true, Bool.false_eq_true, if_false, List.cons_append, List.nil_append, utf16One,
          toNat_ofNat8 (c % 256) (by omega), toNat_ofNat8 (c / 256) (by omega), Nat.shiftLeft_eq]
        rw [show c / 256 * 2 ^ 8 + c % 256 = c by omega]
    rw [this]
    simp only
    rw [ih (fun x hx => h x (by simp [hx]))]
    rfl

theorem rot13_all : ∀ b : Fin 256, rot13Table[b.val]? = some (Utf8.rot13 (UInt8.ofNat b.val)) := by
  decide +kernel

theorem rot13_table (b : UInt8) : rot13Table[b.toNat]? = some (Utf8.rot13 b) := by
  have := rot13_all ⟨b.toNat, b.toNat_lt⟩
  simpa using this

theorem rot13_whole (s : List UInt8) :
    whole rot13One s = some ⟨.ok, (), [], s.map Utf8.rot13⟩ := by
  induction s with
  | nil => rfl
  | cons c s ih =>
    rw [whole_step _ rot13_shrinks _ (by simp)]
    simp only [rot13One, rot13_table, Option.map_some]
    rw [ih]; rfl

theorem rot13_invol_all : ∀ b : Fin 256,
    Utf8.rot13 (Utf8.rot13 (UInt8.ofNat b.val)) = UInt8.ofNat b.val := by
  decide +kernel

theorem rot13_invol (b : UInt8) : Utf8.rot13 (Utf8.rot13 b) = b := by
  have := rot13_invol_all ⟨b.toNat, b.toNat_lt⟩
  simpa using this

end Verif.Unicode
