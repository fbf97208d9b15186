import Verif.Lemmas.Unicode2
set_option autoImplicit false
/-!
# C03 to C08, C51, C52: the stateless code conversion facets

`driveU f inp caps` / `drive f () inp caps` is the resumption loop of the convert stream: facet `f`
is called with output buffers of sizes `caps` until it stops answering "partial".
-/
namespace Verif.Props.Unicode
open Verif.Codecvt Verif.Unicode Verif.Spec

/-! ## C03 -/

/-- C03: however buffered, a completed rot13 conversion rotates each letter by 13 within its case
and leaves every other byte (the specification `Utf8.rot13`). -/
theorem C03_rot13 (inp : List UInt8) (caps : List Nat) (r : CallRes Unit UInt8 UInt8)
    (h : driveU rot13 inp caps = some r) (hok : r.status = .ok) :
    r.out = inp.map Utf8.rot13 := by
  rw [rot13_scan] at h
  have := drive_whole _ rot13_shrinks caps inp r h hok
  rw [rot13_whole] at this
  simp at this; rw [← this]

/-- C03: applying the conversion twice gives back the input. -/
theorem C03_involution (inp : List UInt8) (caps caps' : List Nat) (r r' : CallRes Unit UInt8 UInt8)
    (h : driveU rot13 inp caps = some r) (hok : r.status = .ok)
    (h' : driveU rot13 r.out caps' = some r') (hok' : r'.status = .ok) : r'.out = inp := by
  rw [C03_rot13 _ _ _ h' hok', C03_rot13 _ _ _ h hok, List.map_map]
  rw [show Utf8.rot13 ∘ Utf8.rot13 = id from funext rot13_invol]
  simp

/-- C03: the table is never indexed outside its bounds and the loop completes with any nonempty
buffers. -/
theorem C03_total (inp : List UInt8) (c : Nat) (hc : 0 < c) :
    (∀ caps, driveU rot13 inp caps ≠ none) ∧
    ∃ r, driveU rot13 inp (List.replicate (inp.length + 1) c) = some r ∧ r.status = .ok := by
  rw [rot13_scan]
  constructor
  · intro caps hn
    have := drive_none _ rot13_shrinks caps inp hn
    rw [rot13_whole] at this; simp at this
  · exact ⟨_, drive_terminates _ rot13_shrinks inp.length inp _ c hc (Nat.le_refl _)
      (rot13_whole inp) rfl, rfl⟩

example : driveU rot13 [72, 105, 33] [1, 1, 2] = some ⟨.ok, (), [], [85, 118, 33]⟩ := by
  decide +kernel

/-! ## C05 -/

/-- C05, forward: a string of 16 bit characters converts to exactly its UTF-8 encoding. -/
theorem C05_encode (s : List Nat) (hs : ∀ c ∈ s, c < 0x10000) (caps : List Nat)
    (hok : (drive ucs2ToUtf8 () s caps).status = .ok) :
    (drive ucs2ToUtf8 () s caps).out = Utf8.encode s := by
  rw [drive_encodes_ok ucs2_encodes caps s hok]
  unfold Utf8.encode
  clear hok
  induction s with
  | nil => rfl
  | cons c s ih =>
    simp only [List.flatMap_cons, encBmp, if_pos (hs c (by simp))]
    rw [ih (fun x hx => hs x (by simp [hx]))]

/-- C05, backward: converting the UTF-8 encoding of 16 bit characters gives them back. -/
theorem C05_decode (s : List Nat) (hs : ∀ c ∈ s, c < 0x10000) (caps : List Nat)
    (r : CallRes Unit UInt8 Nat) (h : driveU utf8ToUcs2 (Utf8.encode s) caps = some r)
    (hok : r.status = .ok) : r.out = s := by
  rw [utf8_scan] at h
  have := drive_whole _ utf8_shrinks caps _ r h hok
  rw [utf8_whole s (fun c hc => by have := hs c hc; omega)] at this
  simp at this; rw [← this]
  simp only
  clear h hok this
  induction s with
  | nil => rfl
  | cons c s ih =>
    simp only [List.map_cons, if_pos (hs c (by simp)), ih (fun x hx => hs x (by simp [hx]))]

/-- C05, round trip through any buffers. -/
theorem C05_round_trip (s : List Nat) (hs : ∀ c ∈ s, c < 0x10000) (caps caps' : List Nat)
    (r : CallRes Unit UInt8 Nat) (henc : (drive ucs2ToUtf8 () s caps).status = .ok)
    (h : driveU utf8ToUcs2 (drive ucs2ToUtf8 () s caps).out caps' = some r)
    (hok : r.status = .ok) : r.out = s := by
  rw [C05_encode s hs caps henc] at h
  exact C05_decode s hs caps' r h hok

/-- C05: both conversions complete, with buffers of 4096 as the convert stream uses them. -/
theorem C05_completes (s : List Nat) (hs : ∀ c ∈ s, c < 0x10000) :
    (drive ucs2ToUtf8 () s (List.replicate (s.length + 1) 4096)).status = .ok ∧
    ∃ r, driveU utf8ToUcs2 (Utf8.encode s)
      (List.replicate ((Utf8.encode s).length + 1) 4096) = some r ∧ r.status = .ok := by
  constructor
  · exact drive_encodes_terminates ucs2_encodes 4096 (by omega) s.length s (Nat.le_refl _)
  · rw [utf8_scan]
    exact ⟨_, drive_terminates _ utf8_shrinks _ _ _ 4096 (by omega) (Nat.le_refl _)
      (utf8_whole s (fun c hc => by have := hs c hc; omega)) rfl, rfl⟩

/-- What happens above the BMP: the encoder silently drops the character and the decoder delivers
character 0 for it. -/
theorem C05_non_bmp (s : List Nat) (hs : ∀ c ∈ s, c < 0x110000) (caps : List Nat) :
    ((drive ucs2ToUtf8 () s caps).status = .ok →
      (drive ucs2ToUtf8 () s caps).out = Utf8.encode (s.filter (· < 0x10000))) ∧
    ∀ r, driveU utf8ToUcs2 (Utf8.encode s) caps = some r → r.status = .ok →
      r.out = s.map fun c => if c < 0x10000 then c else 0 := by
  constructor
  · intro hok
    rw [drive_encodes_ok ucs2_encodes caps s hok]
    unfold Utf8.encode
    clear hok hs
    induction s with
    | nil => rfl
    | cons c s ih =>
      by_cases h : c < 0x10000
      · simp only [List.flatMap_cons, encBmp, if_pos h, List.filter_cons, decide_true,
          if_true, decide_eq_true h, ih]
      · simp only [List.flatMap_cons, encBmp, if_neg h, List.filter_cons, decide_eq_false h, ih]
        simp
  · intro r h hok
    rw [utf8_scan] at h
    have := drive_whole _ utf8_shrinks caps _ r h hok
    rw [utf8_whole s hs] at this
    simp at this; rw [← this]

example : (drive ucs2ToUtf8 () [0x41, 0xE9, 0x20AC] [4, 5, 4]).status = .ok ∧
    (drive ucs2ToUtf8 () [0x41, 0xE9, 0x20AC] [4, 5, 4]).out =
      [0x41, 0xC3, 0xA9, 0xE2, 0x82, 0xAC] ∧
    driveU utf8ToUcs2 [0x41, 0xC3, 0xA9, 0xE2, 0x82, 0xAC] [1, 2] =
      some ⟨.ok, (), [], [0x41, 0xE9, 0x20AC]⟩ := by decide +kernel

/-! ## C06 -/

/-- The bytes of 16 bit characters in the chosen order. -/
def utf16 (be : Bool) (s : List Nat) : List UInt8 :=
  s.flatMap fun c => if be then Utf8.be16 c else Utf8.le16 c

/-- C06, forward: the bytes written are the UTF-16 bytes in the chosen order. -/
theorem C06_encode (be : Bool) (s : List Nat) (hs : ∀ c ∈ s, c < 0x10000) (caps : List Nat)
    (hok : (drive (ucs2ToUtf16 be) () s caps).status = .ok) :
    (drive (ucs2ToUtf16 be) () s caps).out = utf16 be s := by
  rw [drive_encodes_ok (utf16_encodes be) caps s hok]
  unfold utf16
  clear hok
  induction s with
  | nil => rfl
  | cons c s ih =>
    simp only [List.flatMap_cons, enc16, Nat.mod_eq_of_lt (hs c (by simp))]
    rw [ih (fun x hx => hs x (by simp [hx]))]

/-- C06, round trip in either byte order. -/
theorem C06_round_trip (be : Bool) (s : List Nat) (hs : ∀ c ∈ s, c < 0x10000) (caps caps' : List Nat)
    (r : CallRes Unit UInt8 Nat) (henc : (drive (ucs2ToUtf16 be) () s caps).status = .ok)
    (h : driveU (utf16ToUcs2 be) (drive (ucs2ToUtf16 be) () s caps).out caps' = some r)
    (hok : r.status = .ok) : r.out = s := by
  rw [drive_encodes_ok (utf16_encodes be) caps s henc, utf16_scan] at h
  have := drive_whole _ (utf16_shrinks be) caps' _ r h hok
  rw [utf16_whole be s hs] at this
  simp at this; rw [← this]

/-- Swap the bytes of each pair. -/
def swapPairs : List UInt8 → List UInt8
  | a :: b :: t => b :: a :: swapPairs t
  | l => l

/-- C06: the two byte orders differ by swapping each pair. -/
theorem C06_orders (s : List Nat) (hs : ∀ c ∈ s, c < 0x10000) (caps caps' : List Nat)
    (h1 : (drive (ucs2ToUtf16 true) () s caps).status = .ok)
    (h2 : (drive (ucs2ToUtf16 false) () s caps').status = .ok) :
    (drive (ucs2ToUtf16 false) () s caps').out =
      swapPairs (drive (ucs2ToUtf16 true) () s caps).out := by
  rw [C06_encode true s hs caps h1, C06_encode false s hs caps' h2]
  clear h1 h2
  unfold utf16
  induction s with
  | nil => rfl
  | cons c s ih =>
    simp only [List.flatMap_cons, if_true, Bool.false_eq_true, if_false, Utf8.be16, Utf8.le16,
      List.cons_append, List.nil_append, swapPairs] at ih ⊢
    rw [ih (fun x hx => hs x (by simp [hx]))]

/-- C06: completion with the convert stream's buffers. -/
theorem C06_completes (be : Bool) (s : List Nat) (hs : ∀ c ∈ s, c < 0x10000) :
    (drive (ucs2ToUtf16 be) () s (List.replicate (s.length + 1) 4096)).status = .ok ∧
    ∃ r, driveU (utf16ToUcs2 be) (utf16 be s)
      (List.replicate ((utf16 be s).length + 1) 4096) = some r ∧ r.status = .ok := by
  constructor
  · exact drive_encodes_terminates (utf16_encodes be) 4096 (by omega) s.length s (Nat.le_refl _)
  · have he : utf16 be s = s.flatMap (enc16 be) := by
      unfold utf16
      induction s with
      | nil => rfl
      | cons c s ih =>
        simp only [List.flatMap_cons, enc16, Nat.mod_eq_of_lt (hs c (by simp))]
        rw [ih (fun x hx => hs x (by simp [hx]))]
    rw [utf16_scan, he]
    exact ⟨_, drive_terminates _ (utf16_shrinks be) _ _ _ 4096 (by omega) (Nat.le_refl _)
      (utf16_whole be s hs) rfl, rfl⟩

example : (drive (ucs2ToUtf16 true) () [0x20AC, 0x41] [3, 4]).out = [0x20, 0xAC, 0, 0x41] ∧
    driveU (utf16ToUcs2 false) [0xAC, 0x20] [7] = some ⟨.ok, (), [], [0x20AC]⟩ := by
  decide +kernel

/-! ## C07 -/

/-- C07, forward: each byte becomes the UTF-8 encoding of the code point of the same number. -/
theorem C07_encode (s : List UInt8) (caps : List Nat)
    (hok : (drive isoToUtf8 () s caps).status = .ok) :
    (drive isoToUtf8 () s caps).out = Utf8.encode (s.map UInt8.toNat) := by
  rw [drive_encodes_ok iso_encodes caps s hok]
  simp [Utf8.encode, List.flatMap_map]

/-- C07, round trip through any buffers. -/
theorem C07_round_trip (s : List UInt8) (caps caps' : List Nat) (r : CallRes Unit UInt8 UInt8)
    (henc : (drive isoToUtf8 () s caps).status = .ok)
    (h : driveU utf8ToIso (drive isoToUtf8 () s caps).out caps' = some r)
    (hok : r.status = .ok) : r.out = s := by
  rw [C07_encode s caps henc, iso_scan] at h
  have := drive_whole _ iso_shrinks caps' _ r h hok
  rw [iso_whole _ (by
    intro c hc
    simp only [List.mem_map] at hc
    obtain ⟨b, _, rfl⟩ := hc
    have := b.toNat_lt; omega)] at this
  simp at this; rw [← this]
  simp only
  clear henc h hok this
  induction s with
  | nil => rfl
  | cons c s ih =>
    have hc := c.toNat_lt
    simp at ih ⊢
    exact ⟨fun hh => absurd hh (by omega), ih⟩

/-- C07: both conversions complete with the convert stream's buffers. -/
theorem C07_completes (s : List UInt8) :
    (drive isoToUtf8 () s (List.replicate (s.length + 1) 4096)).status = .ok ∧
    ∃ r, driveU utf8ToIso (Utf8.encode (s.map UInt8.toNat))
      (List.replicate ((Utf8.encode (s.map UInt8.toNat)).length + 1) 4096) = some r ∧
      r.status = .ok := by
  constructor
  · exact drive_encodes_terminates iso_encodes 4096 (by omega) s.length s (Nat.le_refl _)
  · rw [iso_scan]
    exact ⟨_, drive_terminates _ iso_shrinks _ _ _ 4096 (by omega) (Nat.le_refl _)
      (iso_whole _ (by
        intro c hc
        simp only [List.mem_map] at hc
        obtain ⟨b, _, rfl⟩ := hc
        have := b.toNat_lt; omega)) rfl, rfl⟩

/-- Characters outside ISO-8859-1 in well formed UTF-8 each become one question mark. -/
theorem C07_unmappable (s : List Nat) (hs : ∀ c ∈ s, c < 0x110000) (caps : List Nat)
    (r : CallRes Unit UInt8 UInt8) (h : driveU utf8ToIso (Utf8.encode s) caps = some r)
    (hok : r.status = .ok) :
    r.out = s.map fun c => if c ≤ 0xFF then UInt8.ofNat c else '?'.toNat.toUInt8 := by
  rw [iso_scan] at h
  have := drive_whole _ iso_shrinks caps _ r h hok
  rw [iso_whole s hs] at this
  simp at this; rw [← this]
  rfl

example : (drive isoToUtf8 () [0x41, 0xE9] [3, 3]).out = [0x41, 0xC3, 0xA9] ∧
    driveU utf8ToIso [0x41, 0xC3, 0xA9] [1, 1] = some ⟨.ok, (), [], [0x41, 0xE9]⟩ := by
  decide +kernel

/-! ## C04 -/

/-- C04 for the decoding direction of every stateless facet: two completed conversions of the same
input, through any buffers, deliver the same characters. -/
theorem C04_decoders (inp : List UInt8) (caps caps' : List Nat) :
    (∀ r r', driveU rot13 inp caps = some r → driveU rot13 inp caps' = some r' →
      r.status = .ok → r'.status = .ok → r.out = r'.out) ∧
    (∀ r r', driveU utf8ToUcs2 inp caps = some r → driveU utf8ToUcs2 inp caps' = some r' →
      r.status = .ok → r'.status = .ok → r.out = r'.out) ∧
    (∀ r r', driveU utf8ToIso inp caps = some r → driveU utf8ToIso inp caps' = some r' →
      r.status = .ok → r'.status = .ok → r.out = r'.out) ∧
    (∀ be r r', driveU (utf16ToUcs2 be) inp caps = some r →
      driveU (utf16ToUcs2 be) inp caps' = some r' →
      r.status = .ok → r'.status = .ok → r.out = r'.out) := by
  refine ⟨?_, ?_, ?_, ?_⟩
  · intro r r' h h' ho ho'
    rw [rot13_scan] at h h'
    have a := drive_whole _ rot13_shrinks caps inp r h ho
    have b := drive_whole _ rot13_shrinks caps' inp r' h' ho'
    rw [a] at b; simp at b; rw [b]
  · intro r r' h h' ho ho'
    rw [utf8_scan] at h h'
    have a := drive_whole _ utf8_shrinks caps inp r h ho
    have b := drive_whole _ utf8_shrinks caps' inp r' h' ho'
    rw [a] at b; simp at b; rw [b]
  · intro r r' h h' ho ho'
    rw [iso_scan] at h h'
    have a := drive_whole _ iso_shrinks caps inp r h ho
    have b := drive_whole _ iso_shrinks caps' inp r' h' ho'
    rw [a] at b; simp at b; rw [b]
  · intro be r r' h h' ho ho'
    rw [utf16_scan] at h h'
    have a := drive_whole _ (utf16_shrinks be) caps inp r h ho
    have b := drive_whole _ (utf16_shrinks be) caps' inp r' h' ho'
    rw [a] at b; simp at b; rw [b]

/-- C04 for the encoding direction of every stateless facet. -/
theorem C04_encoders (caps caps' : List Nat) :
    (∀ s : List Nat, (drive ucs2ToUtf8 () s caps).status = .ok →
      (drive ucs2ToUtf8 () s caps').status = .ok →
      (drive ucs2ToUtf8 () s caps).out = (drive ucs2ToUtf8 () s caps').out) ∧
    (∀ s : List UInt8, (drive isoToUtf8 () s caps).status = .ok →
      (drive isoToUtf8 () s caps').status = .ok →
      (drive isoToUtf8 () s caps).out = (drive isoToUtf8 () s caps').out) ∧
    (∀ be (s : List Nat), (drive (ucs2ToUtf16 be) () s caps).status = .ok →
      (drive (ucs2ToUtf16 be) () s caps').status = .ok →
      (drive (ucs2ToUtf16 be) () s caps).out = (drive (ucs2ToUtf16 be) () s caps').out) := by
  refine ⟨?_, ?_, ?_⟩
  · intro s h h'
    rw [drive_encodes_ok ucs2_encodes caps s h, drive_encodes_ok ucs2_encodes caps' s h']
  · intro s h h'
    rw [drive_encodes_ok iso_encodes caps s h, drive_encodes_ok iso_encodes caps' s h']
  · intro be s h h'
    rw [drive_encodes_ok (utf16_encodes be) caps s h, drive_encodes_ok (utf16_encodes be) caps' s h']

/-- C04: nothing is lost or duplicated by an interrupted conversion either: what was written so
far followed by the conversion of the unread rest is the conversion of the whole input, and the
unread rest is a suffix of the input for the encoders. -/
theorem C04_interrupted (s : List Nat) (caps : List Nat) (hs : ∀ c ∈ s, c < 0x10000) :
    let r := drive ucs2ToUtf8 () s caps
    r.out ++ r.rest.flatMap (fun c => if c < 0x10000 then Utf8.encodeChar c else []) =
      Utf8.encode s := by
  intro r
  have := (drive_encodes ucs2_encodes caps s).1
  have e : s.flatMap encBmp = Utf8.encode s := by
    unfold Utf8.encode
    clear this r
    induction s with
    | nil => rfl
    | cons c s ih =>
      simp only [List.flatMap_cons, encBmp, if_pos (hs c (by simp))]
      rw [ih (fun x hx => hs x (by simp [hx]))]
  rw [e] at this
  exact this.symm

example : (drive ucs2ToUtf8 () [0x20AC, 0x20AC] [4, 4]).status = .ok ∧
    (drive ucs2ToUtf8 () [0x20AC, 0x20AC] [100]).status = .ok := by decide +kernel

/-! ## C08 -/

/-- C08 for the UTF-8 to wide character decoder: no input, well formed or not, makes it read
outside its buffer, however it is called. -/
theorem C08_ucs2 (inp : List UInt8) (caps : List Nat) : driveU utf8ToUcs2 inp caps ≠ none := by
  rw [utf8_scan]
  intro h
  have hw := drive_none _ utf8_shrinks caps inp h
  clear h
  have key : ∀ (n : Nat) (inp : List UInt8), inp.length ≤ n → whole utf8One inp ≠ none := by
    intro n
    induction n with
    | zero =>
      intro inp hl
      have : inp = [] := by cases inp <;> simp_all
      subst this; simp [whole_nil]
    | succ n ih =>
      intro inp hl
      cases inp with
      | nil => simp [whole_nil]
      | cons b rest =>
        rw [whole_step _ utf8_shrinks _ (by simp)]
        have fc : ∀ (k acc : Nat) (l : List UInt8), k ≤ l.length → foldCont k acc l ≠ none := by
          intro k
          induction k with
          | zero => intro acc l _; simp [foldCont]
          | succ k ihk =>
            intro acc l hl
            cases l with
            | nil => simp at hl
            | cons x l => simp only [foldCont]; exact ihk _ _ (by simpa using hl)
        cases ho : utf8One (b :: rest) with
        | none =>
          simp only [utf8One] at ho
          split at ho
          · simp at ho
          · rename_i hlt
            simp only [List.length_cons] at hlt
            have := fc (leadEntry b.toNat tab 0).1 b.toNat rest (by omega)
            simp at ho
            exact absurd ho this
        | some o =>
          cases o with
          | none => simp
          | some p =>
            obtain ⟨v, rest'⟩ := p
            have := utf8_shrinks _ _ _ ho
            simp only [List.length_cons] at this hl
            have := ih rest' (by omega)
            simp only
            cases hr : whole utf8One rest' with
            | none => exact absurd hr this
            | some w => simp
  exact key inp.length inp (Nat.le_refl _) hw

/-- C08, the part that holds for the UTF-8 to ISO-8859-1 decoder: on well formed UTF-8 (of any
characters, also outside ISO-8859-1) it never reads outside its buffer, however it is called.
Missing: truncated and ill-formed input, where the claim is false (`C08_iso_violated`). -/
theorem C08_iso_partial (s : List Nat) (hs : ∀ c ∈ s, c < 0x110000) (caps : List Nat) :
    driveU utf8ToIso (Utf8.encode s) caps ≠ none := by
  rw [iso_scan]
  intro h
  have hw := drive_none _ iso_shrinks caps _ h
  rw [iso_whole s hs] at hw
  simp at hw

/-- C08 is false of the UTF-8 to ISO-8859-1 decoder: a lone lead byte, and equally a lone
continuation byte, makes it read the byte after the end. -/
theorem C08_iso_violated :
    (¬ ∀ (inp : List UInt8) (cap : Nat), utf8ToIso cap inp ≠ none) ∧
    utf8ToIso 4096 [0x41, 0xC3] = none ∧ utf8ToIso 4096 [0xA9, 0x41, 0x41] = none := by
  refine ⟨fun h => h [0xC3] 4096 (by decide +kernel), by decide +kernel, by decide +kernel⟩

/-- The exact condition, for a single byte at the end of the buffer: it is read past exactly if it
is not ASCII. -/
theorem C08_iso_last (b : UInt8) (cap : Nat) :
    utf8ToIso (cap + 1) [b] = none ↔ 128 ≤ b.toNat := by
  have hb := b.toNat_lt
  unfold utf8ToIso
  rw [isoLead_eq b.toNat (by omega)]
  by_cases h : b.toNat < 128
  · simp only [h, if_true, utf8ToIso]
    simp; omega
  · simp [h]; omega

example : driveU utf8ToIso (Utf8.encode [0x41, 0xE9, 0x20AC, 0x1F600]) [1, 1, 1, 1] =
    some ⟨.ok, (), [], [0x41, 0xE9, 63, 63]⟩ := by decide +kernel

/-! ## C51: conversion of a finite string terminates -/

/-- The part of C51 that holds: encoding any string terminates, and so does decoding well formed
UTF-8 and UTF-16 of any length; see also `C03_total`, `C05_completes`, `C06_completes`,
`C07_completes`.  Missing: truncated input to the decoders (`C51_violated`). -/
theorem C51_partial (c : Nat) (hc : 4 ≤ c) :
    (∀ s : List Nat, (drive ucs2ToUtf8 () s (List.replicate (s.length + 1) c)).status = .ok) ∧
    (∀ s : List UInt8, (drive isoToUtf8 () s (List.replicate (s.length + 1) c)).status = .ok) ∧
    (∀ be (s : List Nat),
      (drive (ucs2ToUtf16 be) () s (List.replicate (s.length + 1) c)).status = .ok) ∧
    (∀ s : List Nat, (∀ x ∈ s, x < 0x110000) →
      ∃ r, driveU utf8ToUcs2 (Utf8.encode s)
        (List.replicate ((Utf8.encode s).length + 1) c) = some r ∧ r.status = .ok) ∧
    (∀ s : List Nat, (∀ x ∈ s, x < 0x110000) →
      ∃ r, driveU utf8ToIso (Utf8.encode s)
        (List.replicate ((Utf8.encode s).length + 1) c) = some r ∧ r.status = .ok) := by
  refine ⟨fun s => ?_, fun s => ?_, fun be s => ?_, fun s hs => ?_, fun s hs => ?_⟩
  · exact drive_encodes_terminates ucs2_encodes c hc s.length s (Nat.le_refl _)
  · exact drive_encodes_terminates iso_encodes c hc s.length s (Nat.le_refl _)
  · exact drive_encodes_terminates (utf16_encodes be) c (by omega) s.length s (Nat.le_refl _)
  · rw [utf8_scan]
    exact ⟨_, drive_terminates _ utf8_shrinks _ _ _ c (by omega) (Nat.le_refl _)
      (utf8_whole s hs) rfl, rfl⟩
  · rw [iso_scan]
    exact ⟨_, drive_terminates _ iso_shrinks _ _ _ c (by omega) (Nat.le_refl _)
      (iso_whole s hs) rfl, rfl⟩

/-- C51 is false of the code: for UTF-8 input that ends inside a character the convert stream's
loop never ends, however many buffers of whatever size it is given; the same for an odd number of
UTF-16 bytes. -/
theorem C51_violated (caps : List Nat) :
    (∀ r, driveU utf8ToUcs2 [0x41, 0xC3] caps = some r → r.status = .incomplete) ∧
    (∀ be r, driveU (utf16ToUcs2 be) [0, 0x41, 0] caps = some r → r.status = .incomplete) := by
  constructor
  · intro r h
    rw [utf8_scan] at h
    cases hs : r.status with
    | incomplete => rfl
    | ok =>
      have := drive_whole _ utf8_shrinks caps _ r h hs
      have hw : whole utf8One [0x41, 0xC3] = some ⟨.incomplete, (), [0xC3], [0x41]⟩ := by
        decide +kernel
      rw [hw] at this
      simp at this; rw [← this] at hs; simp at hs
  · intro be r h
    rw [utf16_scan] at h
    cases hs : r.status with
    | incomplete => rfl
    | ok =>
      have := drive_whole _ (utf16_shrinks be) caps _ r h hs
      have hw : ∃ x, whole (utf16One be) [0, 0x41, 0] = some ⟨.incomplete, (), [0], x⟩ := by
        cases be
        · exact ⟨[0x4100], by decide +kernel⟩
        · exact ⟨[0x41], by decide +kernel⟩
      obtain ⟨x, hw⟩ := hw
      rw [hw] at this
      simp at this; rw [← this] at hs; simp at hs

/-! ## C52: do_length -/

/-- The part of C52 that holds: the encoders' `do_length` never exceeds the number of available
characters, and the UTF-8 decoders' neither, when it returns at all.
Missing: termination and the bound for the other facets (`C52_violated`). -/
theorem C52_partial :
    (∀ (s : List Nat) (max : Nat), utf16utf8Length s 0 max ≤ s.length) ∧
    (∀ (s : List UInt8) (max : Nat), isoUtf8Length s 0 max ≤ s.length) ∧
    (∀ (fuel : Nat) (s : List UInt8) (max n : Nat), utf8Length fuel s 0 max = some n →
      n ≤ s.length) := by
  have a : ∀ (s : List Nat) (k max : Nat), utf16utf8Length s k max ≤ s.length := by
    intro s
    induction s with
    | nil => intro k max; simp [utf16utf8Length]
    | cons c s ih =>
      intro k max
      unfold utf16utf8Length
      split
      · have := ih (k + (if c > 0x7FF then 1 else 0) + (if c > 0x7F then 1 else 0) + 1) max
        simp only [List.length_cons]; omega
      · omega
  have b : ∀ (s : List UInt8) (k max : Nat), isoUtf8Length s k max ≤ s.length := by
    intro s
    induction s with
    | nil => intro k max; simp [isoUtf8Length]
    | cons c s ih =>
      intro k max
      unfold isoUtf8Length
      split
      · have := ih (k + (if c.toNat &&& 0x80 ≠ 0 then 1 else 0) + 1) max
        simp only [List.length_cons]; omega
      · omega
  have d : ∀ (fuel : Nat) (s : List UInt8) (k max n : Nat), utf8Length fuel s k max = some n →
      n ≤ s.length := by
    intro fuel
    induction fuel with
    | zero =>
      intro s k max n h
      cases s with
      | nil => simp [utf8Length] at h; omega
      | cons b r => simp [utf8Length] at h
    | succ fuel ih =>
      intro s k max n h
      cases s with
      | nil => simp [utf8Length] at h; omega
      | cons b r =>
        unfold utf8Length at h
        split at h
        · split at h
          · simp only [Option.map_eq_some_iff] at h
            obtain ⟨m, hm, rfl⟩ := h
            have := ih _ _ _ _ hm
            simp only [List.length_cons]; omega
          · split at h
            · split at h
              · simp only [Option.map_eq_some_iff] at h
                obtain ⟨m, hm, rfl⟩ := h
                have := ih _ _ _ _ hm
                simp only [List.length_drop] at this
                simp only [List.length_cons] at *; omega
              · simp at h; omega
            · exact ih _ _ _ _ h
        · simp at h; omega
  exact ⟨fun s m => a s 0 m, fun s m => b s 0 m, fun f s m n h => d f s 0 m n h⟩

/-- C52 is false of the code: rot13 and UTF-16 answer more characters than there are, and the
UTF-8 facets loop forever on a continuation byte. -/
theorem C52_violated :
    rot13Length [65] 10 > [65].length ∧ utf16Length [0, 65] 10 > [0, 65].length ∧
    ∀ fuel, utf8Length fuel [0x80] 0 1 = none := by
  refine ⟨by decide, by decide, ?_⟩
  intro fuel
  induction fuel with
  | zero => rfl
  | succ n ih =>
    unfold utf8Length
    simp only [show (0 : Nat) < 1 by omega, if_true]
    rw [if_neg (by decide), if_neg (by decide)]
    exact ih

example : utf8Length 10 [0x41, 0xC3, 0xA9, 0x42] 0 3 = some 4 := by decide +kernel

end Verif.Props.Unicode
