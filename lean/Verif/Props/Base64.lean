import Verif.Lemmas.Base64In
set_option autoImplicit false
/-!
# C01, C02, C04 (base64 part)

`drive doOut St.init bytes caps` is the encoding loop of the convert stream with output buffers of
the sizes `caps`, `drive doIn St.init text caps` the decoding loop.
-/
namespace Verif.Props.Base64
open Verif.Codecvt Verif.Base64

/-- The short final group (if any) does not end in a NUL byte. -/
def NoNulTail (bytes : List UInt8) : Prop :=
  bytes.length % 3 = 0 ∨ bytes.getLast? ≠ some 0

/-- C01, the part that holds: for every byte string whose short final group does not end in NUL,
every sequence of encoding buffers and every sequence of decoding buffers, if both
conversions complete then decoding the encoded text gives the byte string back.
Missing: byte strings of length not divisible by three that end in NUL, where the claim is false
(`C01_violated`, and `C01_exact` for what happens then). -/
theorem C01_partial (bytes : List UInt8) (h : NoNulTail bytes) (caps caps' : List Nat)
    (henc : (drive doOut St.init bytes caps).status = .ok)
    (hdec : (drive doIn St.init (drive doOut St.init bytes caps).out caps').status = .ok) :
    (drive doIn St.init (drive doOut St.init bytes caps).out caps').out = bytes := by
  rw [drive_doIn _ _ _ hdec]
  obtain ⟨h1, h2, h3, h4⟩ := drive_eq_run caps St.init bytes
  have hr := run_encode bytes h 0
  have hu := run_unique _ _ St.init bytes (h4.mp henc).2 (by rw [hr]; rfl)
  rw [h1, hu, hr]
  exact decode_encode bytes 0

/-- What the round trip gives for every byte string: the bytes themselves, or all but the last
one when the short final group ends in NUL. -/
theorem C01_exact (bytes : List UInt8) (caps caps' : List Nat)
    (henc : (drive doOut St.init bytes caps).status = .ok)
    (hdec : (drive doIn St.init (drive doOut St.init bytes caps).out caps').status = .ok) :
    (NoNulTail bytes →
      (drive doIn St.init (drive doOut St.init bytes caps).out caps').out = bytes) ∧
    (¬ NoNulTail bytes →
      (drive doIn St.init (drive doOut St.init bytes caps).out caps').out = bytes.dropLast) := by
  refine ⟨fun h => C01_partial bytes h caps caps' henc hdec, fun h => ?_⟩
  rw [drive_doIn _ _ _ hdec]
  obtain ⟨h1, h2, h3, h4⟩ := drive_eq_run caps St.init bytes
  obtain ⟨e, he, hd⟩ := run_bad bytes h
  have hr := he 0
  have hu := run_unique _ _ St.init bytes (h4.mp henc).2 (by rw [hr]; rfl)
  rw [h1, hu, hr]
  exact hd 0

/-- C01 is false of the code: a single NUL byte is lost. -/
theorem C01_violated : ¬ ∀ (bytes : List UInt8) (caps caps' : List Nat),
    (drive doOut St.init bytes caps).status = .ok →
    (drive doIn St.init (drive doOut St.init bytes caps).out caps').status = .ok →
    (drive doIn St.init (drive doOut St.init bytes caps).out caps').out = bytes := by
  intro h
  have := h [0] [8] [8] (by decide +kernel) (by decide +kernel)
  revert this
  decide +kernel

/-- Both conversions complete in one call given enough room, so the hypotheses of `C01_partial`
can be met for every byte string. -/
theorem C01_completes (bytes : List UInt8) :
    (drive doOut St.init bytes [bytes.length * 4 + 4]).status = .ok ∧
    ∀ text : List Char, (drive doIn St.init text [text.length + 1]).status = .ok := by
  constructor
  · rw [(drive_eq_run _ _ _).2.2.2]
    refine ⟨by simp, ?_⟩
    simp only [List.sum_cons, List.sum_nil, Nat.add_zero]
    by_cases h : GoodTail bytes
    · have hlen : (Spec.Base64.encode bytes).length ≤ bytes.length * 4 + 4 := by
        clear h
        fun_induction Spec.Base64.encode bytes <;> simp_all <;> omega
      obtain ⟨k, hk⟩ := Nat.exists_eq_add_of_le hlen
      rw [hk, run_encode bytes h k]; rfl
    · obtain ⟨e, he, _⟩ := run_bad bytes h
      rw [he 4]; rfl
  · intro text
    unfold drive doIn
    have := inLoop_room text (text.length + 1) St.init (by omega)
    simp [this]

/-- `C01_partial` is not vacuous: "hello", through one-character buffers. -/
example : NoNulTail "hello".toUTF8.toList ∧
    (drive doOut St.init [104, 101, 108, 108, 111] [1, 2, 3, 0, 7]).status = .ok ∧
    (drive doIn St.init (drive doOut St.init [104, 101, 108, 108, 111] [1, 2, 3, 0, 7]).out
      [2, 2, 2]).out = [104, 101, 108, 108, 111] := by
  refine ⟨Or.inr ?_, ?_, ?_⟩ <;> decide +kernel

/-- C02, the part that holds: the encoded text is the RFC 4648 encoding, whatever the buffers.
Missing: inputs whose short final group ends in NUL (`C02_violated`). -/
theorem C02_partial (bytes : List UInt8) (h : NoNulTail bytes) (caps : List Nat)
    (henc : (drive doOut St.init bytes caps).status = .ok) :
    (drive doOut St.init bytes caps).out = Spec.Base64.encode bytes := by
  obtain ⟨h1, h2, h3, h4⟩ := drive_eq_run caps St.init bytes
  have hr := run_encode bytes h 0
  have hu := run_unique _ _ St.init bytes (h4.mp henc).2 (by rw [hr]; rfl)
  rw [h1, hu, hr]

/-- The encoding completes exactly when the buffers together hold the RFC encoding. -/
theorem C02_room (bytes : List UInt8) (h : NoNulTail bytes) (caps : List Nat) (hne : caps ≠ []) :
    (Spec.Base64.encode bytes).length ≤ caps.sum →
    (drive doOut St.init bytes caps).status = .ok := by
  intro hle
  rw [(drive_eq_run _ _ _).2.2.2]
  refine ⟨hne, ?_⟩
  obtain ⟨k, hk⟩ := Nat.exists_eq_add_of_le hle
  rw [hk, run_encode bytes h k]; rfl

/-- C02 is false of the code: a single NUL byte encodes as `A===`, not `AA==`. -/
theorem C02_violated : ¬ ∀ (bytes : List UInt8) (caps : List Nat),
    (drive doOut St.init bytes caps).status = .ok →
    (drive doOut St.init bytes caps).out = Spec.Base64.encode bytes := by
  intro h
  have := h [0] [8] (by decide +kernel)
  revert this
  decide +kernel

example : (drive doOut St.init [102, 111, 111, 98] [3, 3, 3]).out = "Zm9vYg==".toList := by
  decide +kernel

/-- Decoding skips every character that is neither in the alphabet nor `=`, such as line breaks. -/
theorem C01_decode_skips_junk (text : List Char) (caps caps' : List Nat)
    (h1 : (drive doIn St.init text caps).status = .ok)
    (h2 : (drive doIn St.init (text.filter (fun b => charset.contains b || b = '=')) caps').status
      = .ok) :
    (drive doIn St.init text caps).out =
      (drive doIn St.init (text.filter (fun b => charset.contains b || b = '=')) caps').out := by
  rw [drive_doIn _ _ _ h1, drive_doIn _ _ _ h2, decodeAll_filter]

example : (drive doIn St.init "aG\nVs\n".toList [2, 9]).status = .ok ∧
    (drive doIn St.init "aG\nVs\n".toList [2, 9]).out = [104, 101, 108] := by decide +kernel

/-- C04 for the base64 facet, encoding and decoding: any two completed sequences of buffers, from
any conversion state, deliver the same characters and leave the same state. -/
theorem C04_base64 (st : St) (caps caps' : List Nat) :
    (∀ bytes : List UInt8, (drive doOut st bytes caps).status = .ok →
      (drive doOut st bytes caps').status = .ok →
      (drive doOut st bytes caps).out = (drive doOut st bytes caps').out ∧
      (drive doOut st bytes caps).st = (drive doOut st bytes caps').st ∧
      (drive doOut st bytes caps).rest = []) ∧
    (∀ text : List Char, (drive doIn st text caps).status = .ok →
      (drive doIn st text caps').status = .ok →
      (drive doIn st text caps).out = (drive doIn st text caps').out) := by
  constructor
  · intro bytes h h'
    obtain ⟨a1, a2, a3, a4⟩ := drive_eq_run caps st bytes
    obtain ⟨b1, b2, b3, b4⟩ := drive_eq_run caps' st bytes
    have hf := (a4.mp h).2
    have hu := run_unique _ _ st bytes (a4.mp h).2 (b4.mp h').2
    refine ⟨by rw [a1, b1, hu], by rw [a2, b2, hu], ?_⟩
    rw [a3]
    unfold step at hf
    split at hf
    · rename_i hx
      simp only [exhausted, Bool.and_eq_true, List.isEmpty_iff] at hx
      exact hx.1
    · simp at hf
  · intro text h h'
    rw [drive_doIn _ _ _ h, drive_doIn _ _ _ h']

example : (drive doOut ⟨2, 7⟩ [1, 2] [1, 1, 1, 1, 1, 1]).status = .ok ∧
    (drive doOut ⟨2, 7⟩ [1, 2] [50]).status = .ok := by decide +kernel

end Verif.Props.Base64
