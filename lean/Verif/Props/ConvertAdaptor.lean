import Verif.Lemmas.ConvertAdaptor3
set_option autoImplicit false
/-!
# C84: streams that convert
-/
namespace Verif.Props.ConvertAdaptor
open Verif.ConvertAdaptor Verif.Unicode Verif.Codecvt Verif.Spec Verif.Spec.ConvertAdaptor

/-- C84 in full, reading: reading a stream with these bytes to the end through a conversion gives these characters. -/
def Reads {β : Type} [Inhabited β] (call : Nat → List UInt8 → Option (CallRes Unit UInt8 β)) (wide : Nat) (bytes : List UInt8)
    (cs : List β) : Prop :=
  ∃ N, ∀ n, N < n → readAll call wide n { ext := bytes } = .done cs

/-- Reading it to the end is undefined behaviour. -/
def Undefined {β : Type} [Inhabited β] (call : Nat → List UInt8 → Option (CallRes Unit UInt8 β)) (wide : Nat)
    (bytes : List UInt8) : Prop :=
  ∃ N, ∀ n, N < n → readAll call wide n { ext := bytes } = .undefined

/-- C84 in full, writing: characters written, with flushes anywhere, reach the stream underneath converted. -/
def Writes {α β : Type} (call : Nat → List β → Option (CallRes Unit β α)) (maxLength : Nat) (ops : List (Op β))
    (out : List α) : Prop :=
  ∃ N, ∀ n, N < n → writeAll call maxLength n ops {} = .done out

/-- The bytes of UTF-16. -/
def utf16 (be : Bool) (cs : List Nat) : List UInt8 := cs.flatMap fun c => if be then Utf8.be16 c else Utf8.le16 c

theorem utf16_enc (be : Bool) (cs : List Nat) (h : ∀ c ∈ cs, c < 0x10000) : utf16 be cs = cs.flatMap (enc16 be) := by
  unfold utf16
  induction cs with
  | nil => rfl
  | cons c cs ih =>
    rw [List.flatMap_cons, List.flatMap_cons, ih (fun x hx => h x (by simp [hx]))]
    simp only [enc16, Nat.mod_eq_of_lt (h c (by simp))]

theorem rot13_enc (bs : List UInt8) : (bs.map Utf8.rot13).flatMap (fun b => [Utf8.rot13 b]) = bs := by
  induction bs with
  | nil => rfl
  | cons b bs ih => rw [List.map_cons, List.flatMap_cons, ih, rot13_invol]; rfl

/-- C84, partial: however much there is to read, and whatever the size of a character, what is read is right, unless it is
undefined: from UTF-8, UTF-16 and rot13.  Missing: that it is never undefined, see `C84_utf8`, `C84_ascii`,
`C84_utf16` and `C84_rot13`; content that does not end with a whole character (`C84_violated_cut`), base64, conversions
with a state, and UTF-8 to ISO-8859-1. -/
theorem C84_partial (wide : Nat) (cs : List Nat) (h : ∀ c ∈ cs, c < 0x10000) (bs : List UInt8) :
    ∃ N, ∀ n, N < n →
      (readAll utf8ToUcs2 wide n { ext := Utf8.encode cs } = .done cs ∨
        readAll utf8ToUcs2 wide n { ext := Utf8.encode cs } = .undefined) ∧
      (∀ be, readAll (utf16ToUcs2 be) wide n { ext := utf16 be cs } = .done cs ∨
        readAll (utf16ToUcs2 be) wide n { ext := utf16 be cs } = .undefined) ∧
      (readAll rot13 wide n { ext := bs } = .done (bs.map Utf8.rot13) ∨ readAll rot13 wide n { ext := bs } = .undefined) := by
  refine ⟨(Utf8.encode cs).length + (utf16 true cs).length + (utf16 false cs).length + 2 * cs.length + 3 * bs.length + 1,
    fun n hn => ⟨?_, fun be => ?_, ?_⟩⟩
  · exact readAll_good utf8_decodes wide cs.length cs _ n (Nat.le_refl _) (at_start cs h) (by
      show (Utf8.encode cs).length + 2 * cs.length + 1 < n; omega)
  · have hl : (utf16 be cs).length + 2 * cs.length + 1 < n := by cases be <;> omega
    rw [utf16_enc be cs h] at hl ⊢
    exact readAll_good (utf16_decodes be) wide cs.length cs _ n (Nat.le_refl _) (at_start cs h) hl
  · have := readAll_good rot13_decodes wide _ (bs.map Utf8.rot13) _ n (Nat.le_refl _) (at_start _ (by simp)) (by
      simp only [rot13_enc, List.length_map]; omega)
    rwa [rot13_enc] at this

/-- UTF-8 of at most a block, 1024 bytes, read as `wchar_t` of four bytes: right, unless there are 2 to 15 characters:
then it is undefined. -/
theorem C84_utf8 (cs : List Nat) (h : ∀ c ∈ cs, c < 0x10000) (hl : (Utf8.encode cs).length ≤ 1024) :
    (2 ≤ cs.length ∧ cs.length ≤ 15 → Undefined utf8ToUcs2 4 (Utf8.encode cs)) ∧
    (cs.length < 2 ∨ 15 < cs.length → Reads utf8ToUcs2 4 (Utf8.encode cs) cs) := by
  refine ⟨fun h2 => ⟨_, fun n hn => (readAll_first utf8_decodes (.inr (.inr rfl)) cs n h hl hn).1 h2⟩,
    fun h2 => ⟨_, fun n hn => (readAll_first utf8_decodes (.inr (.inr rfl)) cs n h hl hn).2 ?_⟩⟩
  intro h3
  have h3 : 2 ≤ cs.length ∧ cs.length ≤ 15 := h3
  omega

/-- The same with `wchar_t` of two bytes. -/
theorem C84_utf8_two (cs : List Nat) (h : ∀ c ∈ cs, c < 0x10000) (hl : (Utf8.encode cs).length ≤ 1024) :
    (3 ≤ cs.length ∧ cs.length ≤ 7 → Undefined utf8ToUcs2 2 (Utf8.encode cs)) ∧
    (cs.length < 3 ∨ 7 < cs.length → Reads utf8ToUcs2 2 (Utf8.encode cs) cs) := by
  refine ⟨fun h2 => ⟨_, fun n hn => (readAll_first utf8_decodes (.inr (.inl rfl)) cs n h hl hn).1 h2⟩,
    fun h2 => ⟨_, fun n hn => (readAll_first utf8_decodes (.inr (.inl rfl)) cs n h hl hn).2 ?_⟩⟩
  intro h3
  have h3 : 3 ≤ cs.length ∧ cs.length ≤ 7 := h3
  omega

theorem fixed {β : Type} [Inhabited β] {call : Nat → List UInt8 → Option (CallRes Unit UInt8 β)} {E : β → List UInt8}
    {V : β → Prop} (D : Decodes call E V) {wide k m : Nat} (hw : wide = 1 ∨ wide = 2 ∨ wide = 4)
    (hkm : (k = 1 ∧ m = 1024) ∨ (k = 2 ∧ m = 512)) (fs : List β) (hV : ∀ c ∈ fs, V c)
    (hk : ∀ c ∈ fs, (E c).length = k) (hl : m < fs.length) :
    (0 < fs.length % m ∧ fs.length % m < 4 * wide → Undefined call wide (fs.flatMap E)) ∧
    (fs.length % m = 0 ∨ 4 * wide ≤ fs.length % m → Reads call wide (fs.flatMap E) fs) := by
  refine ⟨fun h => ⟨(fs.flatMap E).length + 2 * fs.length + 1, fun n hn => ?_⟩,
    fun h => ⟨(fs.flatMap E).length + 2 * fs.length + 1, fun n hn => ?_⟩⟩
  · rw [readAll_fixed D hw hkm fs n hV hk hl hn, if_pos h]
  · rw [readAll_fixed D hw hkm fs n hV hk hl hn, if_neg (by omega)]

/-- More than a block of ASCII read as `wchar_t` of four bytes: right, unless the last block has less than 16 characters:
then it is undefined. -/
theorem C84_ascii (cs : List Nat) (h : ∀ c ∈ cs, c < 0x80) (hl : 1024 < cs.length) :
    (0 < cs.length % 1024 ∧ cs.length % 1024 < 16 → Undefined utf8ToUcs2 4 (Utf8.encode cs)) ∧
    (cs.length % 1024 = 0 ∨ 16 ≤ cs.length % 1024 → Reads utf8ToUcs2 4 (Utf8.encode cs) cs) :=
  fixed (k := 1) utf8_decodes (.inr (.inr rfl)) (.inl ⟨rfl, rfl⟩) cs (fun c hc => by have := h c hc; omega)
    (fun c hc => by simp [Utf8.encodeChar, h c hc]) hl

/-- UTF-16, of either order, read as `wchar_t` of four bytes: a block has 512 characters. -/
theorem C84_utf16 (be : Bool) (cs : List Nat) (h : ∀ c ∈ cs, c < 0x10000) :
    (2 ≤ cs.length ∧ cs.length ≤ 15 ∨ 512 < cs.length ∧ 0 < cs.length % 512 ∧ cs.length % 512 < 16 →
      Undefined (utf16ToUcs2 be) 4 (utf16 be cs)) ∧
    (cs.length < 2 ∨ 15 < cs.length ∧ (cs.length % 512 = 0 ∨ 16 ≤ cs.length % 512) →
      Reads (utf16ToUcs2 be) 4 (utf16 be cs) cs) := by
  rw [utf16_enc be cs h]
  have hk : ∀ c ∈ cs, (enc16 be c).length = 2 := by
    intro c _; unfold enc16 Utf8.be16 Utf8.le16; cases be <;> simp
  have hl := flat_length 2 cs hk
  by_cases hle : cs.length ≤ 512
  · have hf := fun n => readAll_first (utf16_decodes be) (.inr (.inr rfl)) cs n h (by omega)
    refine ⟨fun h2 => ⟨_, fun n hn => (hf n hn).1 (show 2 ≤ cs.length ∧ cs.length ≤ 15 by omega)⟩,
      fun h2 => ⟨_, fun n hn => (hf n hn).2 ?_⟩⟩
    intro h3
    have h3 : 2 ≤ cs.length ∧ cs.length ≤ 15 := h3
    omega
  · obtain ⟨f1, f2⟩ := fixed (utf16_decodes be) (.inr (.inr rfl)) (.inr ⟨rfl, rfl⟩) cs h hk (by omega)
    exact ⟨fun h2 => f1 (by omega), fun h2 => f2 (by omega)⟩

/-- rot13, which is for `char`s: right, unless there is more than a block and the last block has 1 to 3 characters:
then it is undefined. -/
theorem C84_rot13 (bs : List UInt8) :
    (1024 < bs.length ∧ 0 < bs.length % 1024 ∧ bs.length % 1024 < 4 → Undefined rot13 1 bs) ∧
    (bs.length ≤ 1024 ∨ bs.length % 1024 = 0 ∨ 4 ≤ bs.length % 1024 → Reads rot13 1 bs (bs.map Utf8.rot13)) := by
  by_cases hle : bs.length ≤ 1024
  · refine ⟨fun h => by omega, fun _ => ?_⟩
    have hf := fun n => readAll_first rot13_decodes (.inl rfl) (bs.map Utf8.rot13) n (by simp) (by rw [rot13_enc]; exact hle)
    rw [rot13_enc] at hf
    exact ⟨_, fun n hn => (hf n hn).2 (fun h => h)⟩
  · obtain ⟨f1, f2⟩ := fixed rot13_decodes (.inl rfl) (.inl ⟨rfl, rfl⟩) (bs.map Utf8.rot13) (by simp) (by simp) (by
      rw [List.length_map]; omega)
    rw [rot13_enc, List.length_map] at f1 f2
    exact ⟨fun h => f1 (by omega), fun h => f2 (by omega)⟩

/-- ISO-8859-1 read as UTF-8: right, if it is at most 1019 bytes of UTF-8. -/
theorem C84_iso (bs : List UInt8) (h : (Utf8.encode (bs.map (·.toNat))).length ≤ 1019) :
    Reads isoIn 1 bs (Utf8.encode (bs.map (·.toNat))) := by
  have e : Utf8.encode (bs.map (·.toNat)) = bs.flatMap fun c => Utf8.encodeChar c.toNat := by
    simp [Utf8.encode, List.flatMap_map]
  rw [e] at h ⊢
  exact ⟨1022, fun n hn => iso_short n bs (by omega) hn⟩

/-- C84 is violated by all longer content: not one character is read, or it is undefined. -/
theorem C84_violated_iso (wide : Nat) (bs : List UInt8) (h : 1019 < (Utf8.encode (bs.map (·.toNat))).length) :
    ∃ N, ∀ n, N < n → readAll isoIn wide n { ext := bs } = .done [] ∨ readAll isoIn wide n { ext := bs } = .undefined := by
  have e : Utf8.encode (bs.map (·.toNat)) = bs.flatMap fun c => Utf8.encodeChar c.toNat := by
    simp [Utf8.encode, List.flatMap_map]
  rw [e] at h
  exact ⟨2, fun n hn => iso_long wide n bs (by omega) hn⟩

/-- C84, partial, putting characters back: with `char`s, whatever is got and put back, every character is the right one, and
up to four can be put back; or it is undefined.  Missing: that it is not undefined, and wider characters, see
`C84_violated_unget`. -/
theorem C84_unget_partial (bs : List UInt8) (as : List Act) : ∃ N, ∀ n, N < n →
    acts rot13 1 n as { ext := bs } = .undefined ∨
      ∃ rs, acts rot13 1 n as { ext := bs } = .done rs ∧ Cursor (bs.map Utf8.rot13) 0 0 as rs := by
  refine ⟨2 * bs.length, fun n hn => ?_⟩
  have := acts_good rot13_decodes (bs.map Utf8.rot13) n as _ 0 0 (kept_start _ (by simp)) (by
    simp only [rot13_enc, List.length_map]; omega)
  rwa [rot13_enc] at this

/-- Writing: wide characters to UTF-8 and to UTF-16, and ISO-8859-1 to UTF-8. -/
theorem C84_out (ops : List (Op Nat)) (h : ∀ c ∈ written ops, c < 0x10000) :
    Writes (fun cap inp => some (ucs2ToUtf8 () inp cap)) 3 ops (Utf8.encode (written ops)) ∧
    ∀ be, Writes (fun cap inp => some (ucs2ToUtf16 be () inp cap)) 2 ops (utf16 be (written ops)) := by
  refine ⟨⟨(written ops).length, fun n hn => ?_⟩, fun be => ⟨(written ops).length, fun n hn => ?_⟩⟩
  · rw [writeAll_encodes ucs2_encodes (by omega) ops hn]
    congr 1
    unfold Utf8.encode
    generalize written ops = cs at h
    induction cs with
    | nil => rfl
    | cons c cs ih =>
      simp only [List.flatMap_cons, encBmp, if_pos (h c (by simp))]
      rw [ih (fun x hx => h x (by simp [hx]))]
  · rw [writeAll_encodes (utf16_encodes be) (by omega) ops hn, utf16_enc be _ h]

theorem C84_out_iso (ops : List (Op UInt8)) :
    Writes (fun cap inp => some (isoToUtf8 () inp cap)) 3 ops (Utf8.encode ((written ops).map (·.toNat))) := by
  refine ⟨(written ops).length, fun n hn => ?_⟩
  rw [writeAll_encodes iso_encodes (by omega) ops hn]
  simp [Utf8.encode, List.flatMap_map]

theorem flatMap_same {α β : Type} (f : α → β) (ps : List (List α)) : ps.flatMap (List.map f) = ps.flatten.map f := by
  induction ps with
  | nil => rfl
  | cons p ps ih => simp [ih]

theorem C84_out_rot13 (ops : List (Op UInt8)) : Writes rot13 1 ops ((written ops).map Utf8.rot13) := by
  refine ⟨(written ops).length, fun n hn => ?_⟩
  rw [writeAll_good (enc := List.map Utf8.rot13) (P := fun _ => True) rfl (fun cs hc _ hl => ?_) ops {} (by simp) (by
    simpa using hn)]
  · simp only [List.nil_append]
    rw [flatMap_same, pieces_flat]; rfl
  · have := convertOut_decodes rot13_decodes (room := cs.length + 1) n (cs.map Utf8.rot13) (by omega) (by simp) (by simpa using hl)
    rwa [rot13_enc] at this

/-- C84, partial: UTF-8 written to a wide stream, if every flush is between two characters; see `C84_violated_flush`. -/
theorem C84_out_utf8_partial (ops : List (Op UInt8)) (css : List (List Nat)) (h : ∀ cs ∈ css, ∀ c ∈ cs, c < 0x10000)
    (hp : pieces ops [] = css.map Utf8.encode) : Writes utf8ToUcs2 1 ops css.flatten := by
  classical
  refine ⟨(written ops).length, fun n hn => ?_⟩
  have hdec : ∀ p, p ∈ pieces ops [] → ∃ cs, p = Utf8.encode cs ∧ (∀ c ∈ cs, c < 0x10000) := by
    intro p hm
    rw [hp, List.mem_map] at hm
    obtain ⟨cs, h1, rfl⟩ := hm
    exact ⟨cs, rfl, h cs h1⟩
  have hinj : ∀ cs cs', (∀ c ∈ cs, c < 0x10000) → (∀ c ∈ cs', c < 0x10000) → Utf8.encode cs = Utf8.encode cs' → cs = cs' := by
    intro cs cs' h1 h2 he
    have a1 := convertOut_decodes utf8_decodes (room := 1) (cs.length + cs'.length + 1) cs (by omega) h1 (by omega)
    have a2 := convertOut_decodes utf8_decodes (room := 1) (cs.length + cs'.length + 1) cs' (by omega) h2 (by omega)
    unfold Utf8.encode at he
    rw [he, a2] at a1
    cases a1; rfl
  let dec : List UInt8 → List Nat := fun p =>
    if hx : ∃ cs, p = Utf8.encode cs ∧ (∀ c ∈ cs, c < 0x10000) then hx.choose else []
  have hde : ∀ cs, (∀ c ∈ cs, c < 0x10000) → dec (Utf8.encode cs) = cs := by
    intro cs hcs
    have hx : ∃ cs', Utf8.encode cs = Utf8.encode cs' ∧ (∀ c ∈ cs', c < 0x10000) := ⟨cs, rfl, hcs⟩
    show dite _ _ _ = cs
    rw [dif_pos hx]
    exact (hinj cs _ hcs hx.choose_spec.2 hx.choose_spec.1).symm
  rw [writeAll_good (enc := dec) (P := fun p => ∃ cs, p = Utf8.encode cs ∧ (∀ c ∈ cs, c < 0x10000)) (hde [] (by simp))
    (fun p hc hP hl => ?_) ops {} hdec (by simpa using hn)]
  · simp only [List.nil_append, hp]
    congr 1
    clear hp hdec hn
    induction css with
    | nil => rfl
    | cons cs css ih =>
      rw [List.map_cons, List.flatMap_cons, List.flatten_cons, hde cs (h cs (by simp)), ih (fun x hx => h x (by simp [hx]))]
  · obtain ⟨cs, rfl, hcs⟩ := hP
    rw [hde cs hcs]
    have := flat_le utf8_decodes cs hcs
    exact convertOut_decodes utf8_decodes n cs (by omega) hcs (by unfold Utf8.encode at hl; omega)

/-- Flushes between characters of several bytes. -/
example : Writes utf8ToUcs2 1 [.write [0xC3], .write [0xA4, 0x41], .flush, .write [0xE2, 0x82, 0xAC]] [0xE4, 0x41, 0x20AC] :=
  C84_out_utf8_partial _ [[0xE4, 0x41], [0x20AC]] (by decide) (by decide)

/-- C84 is violated by a flush in a character: it never ends. -/
theorem C84_violated_flush (n : Nat) :
    writeAll utf8ToUcs2 1 n [.write [0xC3], .flush, .write [0xA4]] {} = .more ∧
    written [Op.write [0xC3], .flush, .write [0xA4]] = Utf8.encode [0xE4] := by
  refine ⟨?_, by decide⟩
  have h : ∀ n, convertOut utf8ToUcs2 2 n [0xC3] = .more := by
    intro n
    induction n with
    | zero => rfl
    | succ n ih =>
      rw [convertOut, show utf8ToUcs2 2 [0xC3] = some ⟨.incomplete, (), [0xC3], []⟩ by decide]
      simp only [ih]
  rw [writeAll, writeAll]
  simp only [flushOut, List.nil_append, List.length_cons, List.length_nil, Nat.zero_add, Nat.one_ne_zero, if_false, h]

/-- C84 is violated by two characters read as `wchar_t`: memory in front of the buffer is read. -/
theorem C84_violated_wide : Undefined utf8ToUcs2 4 [0x68, 0x69] ∧ [0x68, 0x69] = Utf8.encode [0x68, 0x69] :=
  ⟨(C84_utf8 [0x68, 0x69] (by decide) (by decide)).1 (by decide), by decide⟩

theorem all_replicate {β : Type} {P : β → Prop} (n : Nat) (x : β) (h : P x) : ∀ c ∈ List.replicate n x, P c := by
  intro c hc; rw [List.eq_of_mem_replicate hc]; exact h

example : Reads utf8ToUcs2 4 (Utf8.encode (List.replicate 16 0x20AC)) (List.replicate 16 0x20AC) :=
  (C84_utf8 _ (all_replicate _ _ (by decide)) (by decide)).2 (by decide)

example : Reads utf8ToUcs2 4 (Utf8.encode (List.replicate 3000 0x41)) (List.replicate 3000 0x41) :=
  (C84_ascii _ (all_replicate _ _ (by decide)) (by rw [List.length_replicate]; omega)).2 (by
    rw [List.length_replicate]; omega)

example : Reads (utf16ToUcs2 true) 4 (utf16 true (List.replicate 3000 0x20AC)) (List.replicate 3000 0x20AC) :=
  (C84_utf16 true _ (all_replicate _ _ (by decide))).2 (by rw [List.length_replicate]; omega)

/-- C84 is violated by 1025 `char`s. -/
theorem C84_violated_rot13 : Undefined rot13 1 (List.replicate 1025 65) :=
  (C84_rot13 _).1 (by rw [List.length_replicate]; omega)

example : Reads rot13 1 (List.replicate 5000 65) (List.replicate 5000 78) := by
  have := (C84_rot13 (List.replicate 5000 65)).2 (by rw [List.length_replicate]; omega)
  rwa [List.map_replicate, show Utf8.rot13 65 = 78 by decide] at this

/-- C84 is violated by content that ends in a character: the characters before it are lost as well. -/
theorem C84_violated_cut : Reads utf8ToUcs2 4 [0x41, 0x42, 0xC3] [] := by
  refine ⟨5, fun n hn => ?_⟩
  obtain ⟨m, rfl⟩ : ∃ m, n = m + 5 := ⟨n - 5, by omega⟩
  have hc : utf8ToUcs2 1020 [0x41, 0x42, 0xC3] = some ⟨.incomplete, (), [0xC3], [0x41, 0x42]⟩ := by decide +kernel
  rw [readAll]
  simp only [sbumpc, Nat.lt_irrefl, if_false, readIn, List.length_nil, if_true, copyBack, Nat.sub_self, Nat.zero_min,
    Bool.false_eq_true, List.take, bufferSize, reduceCtorEq]
  rw [fill, growIn_length]
  simp only [List.length_nil, if_true, pbSize, show 1024 + 4 - 4 - (4 + 0) = 1020 from rfl, hc]
  simp

/-- What getting and putting back should give, and does. -/
example : Cursor [10, 20] 0 0 [.get, .get, .get, .unget, .get, .unget, .unget, .unget]
    [some 10, some 20, none, some 20, some 20, some 20, some 10, none] := by
  refine .next rfl (.next rfl (.last rfl (.back rfl (.next rfl (.back rfl (.back rfl (.stop (.inl rfl) (.nil _ _))))))))

example : acts rot13 1 30 [.get, .get, .unget, .get] { ext := [65, 66] } = .done [some 78, some 79, some 79, some 79] := by
  decide +kernel

/-- C84 is violated by putting back two `wchar_t`s after the first of a block: the second is not the one read. -/
theorem C84_violated_unget :
    acts (utf16ToUcs2 true) 4 2000 (List.replicate 513 .get ++ [.unget, .unget])
      { ext := utf16 true ((List.range 528).map (· + 1)) } =
    .done ((List.range 513).map (fun i => some (i + 1)) ++ [some 513, some 500]) := by
  decide +kernel

end Verif.Props.ConvertAdaptor
