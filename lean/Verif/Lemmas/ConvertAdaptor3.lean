import Verif.Lemmas.ConvertAdaptor2
import Verif.Spec.ConvertAdaptor
set_option autoImplicit false
set_option linter.unusedSimpArgs false
set_option linter.unusedVariables false
namespace Verif.ConvertAdaptor
open Verif.Codecvt Verif.Unicode Verif.Spec Verif.Spec.ConvertAdaptor

variable {α β : Type}

/-! ## Putting back -/

/-- `pos` characters are before the place to read; `far` have been read. -/
structure Kept (E : β → List α) (V : β → Prop) (cs : List β) (s : In α β) (pos far : Nat) : Prop where
  lo : s.eback ≤ s.g
  hi : s.g ≤ s.eg
  le : s.eg ≤ s.buf.length
  at' : At E V { s with g := s.eg } (cs.drop (pos + (s.eg - s.g)))
  behind : s.g - s.eback ≤ pos
  ahead : pos + (s.eg - s.g) ≤ cs.length
  slice : (s.buf.drop s.eback).take (s.eg - s.eback) = (cs.drop (pos - (s.g - s.eback))).take (s.eg - s.eback)
  far1 : pos ≤ far
  far2 : far ≤ pos + (s.eg - s.g)
  room : pos - (s.g - s.eback) ≤ far - 4

theorem kept_get {E : β → List α} {V : β → Prop} {cs : List β} {s : In α β} {pos far i : Nat} (h : Kept E V cs s pos far)
    (h1 : s.eback ≤ i) (h2 : i < s.eg) : s.buf[i]? = cs[pos + i - s.g]? := by
  have h3 := congrArg (fun l => l[i - s.eback]?) h.slice
  simp only [List.getElem?_take, List.getElem?_drop, show i - s.eback < s.eg - s.eback by omega, if_true] at h3
  have := h.behind
  have := h.lo
  rw [show s.eback + (i - s.eback) = i by omega,
    show pos - (s.g - s.eback) + (i - s.eback) = pos + i - s.g by omega] at h3
  exact h3

theorem kept_move {E : β → List α} {V : β → Prop} {cs : List β} {s : In α β} {pos far : Nat} (h : Kept E V cs s pos far)
    (hg : s.g < s.eg) : Kept E V cs { s with g := s.g + 1 } (pos + 1) (max far (pos + 1)) := by
  have h1 := h.lo; have h2 := h.hi; have h4 := h.behind; have h5 := h.ahead; have h6 := h.far1; have h7 := h.far2
  have h8 := h.room
  refine ⟨by show s.eback ≤ s.g + 1; omega, hg, h.le, ?_, by show s.g + 1 - s.eback ≤ pos + 1; omega,
    by show pos + 1 + (s.eg - (s.g + 1)) ≤ cs.length; omega, ?_, Nat.le_max_right _ _,
    by show max far (pos + 1) ≤ pos + 1 + (s.eg - (s.g + 1)); omega,
    by show pos + 1 - (s.g + 1 - s.eback) ≤ max far (pos + 1) - 4; omega⟩
  · show At E V { s with g := s.eg } (cs.drop (pos + 1 + (s.eg - (s.g + 1))))
    rw [show pos + 1 + (s.eg - (s.g + 1)) = pos + (s.eg - s.g) by omega]; exact h.at'
  · show (s.buf.drop s.eback).take (s.eg - s.eback) = (cs.drop (pos + 1 - (s.g + 1 - s.eback))).take (s.eg - s.eback)
    rw [show pos + 1 - (s.g + 1 - s.eback) = pos - (s.g - s.eback) by omega]; exact h.slice

theorem kept_back {E : β → List α} {V : β → Prop} {cs : List β} {s : In α β} {pos far : Nat} (h : Kept E V cs s (pos + 1) far)
    (hg : s.eback < s.g) : Kept E V cs { s with g := s.g - 1 } pos far := by
  have h1 := h.lo; have h2 := h.hi; have h4 := h.behind; have h5 := h.ahead; have h6 := h.far1; have h7 := h.far2
  have h8 := h.room
  refine ⟨by show s.eback ≤ s.g - 1; omega, by show s.g - 1 ≤ s.eg; omega, h.le, ?_,
    by show s.g - 1 - s.eback ≤ pos; omega, by show pos + (s.eg - (s.g - 1)) ≤ cs.length; omega, ?_, by omega,
    by show far ≤ pos + (s.eg - (s.g - 1)); omega, by show pos - (s.g - 1 - s.eback) ≤ far - 4; omega⟩
  · show At E V { s with g := s.eg } (cs.drop (pos + (s.eg - (s.g - 1))))
    rw [show pos + (s.eg - (s.g - 1)) = pos + 1 + (s.eg - s.g) by omega]; exact h.at'
  · show (s.buf.drop s.eback).take (s.eg - s.eback) = (cs.drop (pos - (s.g - 1 - s.eback))).take (s.eg - s.eback)
    rw [show pos - (s.g - 1 - s.eback) = pos + 1 - (s.g - s.eback) by omega]; exact h.slice

/-- With `char`s the last characters are in front of the new ones. -/
theorem copyBack_one {buf b : List β} {eback g : Nat} (h : copyBack 1 buf eback g = some b) (hg : g ≤ buf.length)
    (hb : 4 ≤ buf.length) : (b.take 4).drop (4 - min (g - eback) 4) =
      (buf.drop (g - min (g - eback) 4)).take (min (g - eback) 4) ∧ b.length = buf.length := by
  unfold copyBack pbSize at h
  dsimp only at h
  have hp : min (g - eback) 4 ≤ 4 := Nat.min_le_right _ _
  have hp2 : min (g - eback) 4 ≤ g := by omega
  generalize min (g - eback) 4 = pb at *
  simp only [Nat.mul_one] at h
  split at h
  · rename_i h0
    cases h
    subst h0
    refine ⟨?_, rfl⟩
    rw [List.take_zero]
    exact List.drop_of_length_le (by rw [List.length_take]; omega)
  · split at h
    · cases h
    · split at h
      · cases h
      · split at h
        · cases h
        · cases h
          have hx : ((buf.drop (g - pb)).take pb).length = pb := by rw [List.length_take, List.length_drop]; omega
          have := put_take buf (4 - pb) ((buf.drop (g - pb)).take pb) (by omega)
          rw [hx, show 4 - pb + pb = 4 by omega] at this
          rw [this]
          refine ⟨?_, put_length' _ _ _ (by rw [hx]; omega)⟩
          rw [List.drop_append, List.drop_of_length_le (by simp; omega), List.length_take,
            show 4 - pb - min (4 - pb) buf.length = 0 by omega]
          simp

theorem kept_refill [Inhabited β] {call : Nat → List α → Option (CallRes Unit α β)} {E : β → List α} {V : β → Prop}
    (D : Decodes call E V) {cs : List β} {s : In α β} {pos far n : Nat} (h : Kept E V cs s pos far) (hg : s.g = s.eg)
    (hn : s.ext.length + cs.length < n) :
    readIn call 1 n s = .undefined ∨
    (∃ s', readIn call 1 n s = .done (s', 0) ∧ pos = cs.length ∧ Kept E V cs s' pos far) ∨
    (∃ s' r, readIn call 1 n s = .done (s', r + 1) ∧ s'.g < s'.eg ∧ Kept E V cs s' pos far ∧
      s'.ext.length ≤ s.ext.length) := by
  have h1 := h.lo; have h2 := h.hi; have h4 := h.behind; have h5 := h.ahead; have h6 := h.far1; have h7 := h.far2
  have h8 := h.room; have h3 := h.le
  have ha := h.at'
  have es : ({ s with g := s.eg } : In α β) = s := by cases s; simp at hg; simp [hg]
  rw [es, hg, Nat.sub_self, Nat.add_zero] at ha
  cases hc : copyBack 1 (base s) s.eback s.g with
  | none => left; exact readIn_undefined hc
  | some b =>
    right
    have hbase : (base s).length ≥ s.buf.length ∧ (base s).drop (s.g - min (s.g - s.eback) 4) =
        (base s).drop (s.g - min (s.g - s.eback) 4) := ⟨by
      unfold base; split
      · rw [growIn_length]; split <;> omega
      · exact Nat.le_refl _, rfl⟩
    have hbl := base_length ha
    obtain ⟨c1, c2⟩ := copyBack_one hc (by omega) (by omega)
    have hcopy : (b.take 4).drop (4 - min (s.g - s.eback) 4) =
        (cs.drop (pos - min (s.g - s.eback) 4)).take (min (s.g - s.eback) 4) := by
      rw [c1]
      rcases ha.buf with ⟨e1, e2, e3⟩ | hb
      · rw [e2, e3]; simp
      · rw [base_at hb]
        have := congrArg (List.drop (s.g - s.eback - min (s.g - s.eback) 4)) h.slice
        rw [List.drop_take, List.drop_take, List.drop_drop, List.drop_drop,
          show s.eback + (s.g - s.eback - min (s.g - s.eback) 4) = s.g - min (s.g - s.eback) 4 by omega,
          show pos - (s.g - s.eback) + (s.g - s.eback - min (s.g - s.eback) 4) = pos - min (s.g - s.eback) 4 by omega,
          show s.eg - s.eback - (s.g - s.eback - min (s.g - s.eback) 4) = min (s.g - s.eback) 4 by omega] at this
        exact this
    generalize hpb : min (s.g - s.eback) 4 = pb at *
    have hpb4 : pb ≤ 4 := by omega
    by_cases hf : cs.drop pos = []
    · left
      rw [hf] at ha
      have hpos : pos = cs.length := by
        have := congrArg List.length hf
        rw [List.length_drop, List.length_nil] at this; omega
      obtain ⟨s', r1, r2, r3, r4, r5, r6⟩ := readIn_end (call := call) (n := n) ha hc
      refine ⟨s', r1, hpos, ?_⟩
      rw [hpb] at r4
      refine ⟨by omega, by omega, by rw [r6, r2]; omega, ?_, by omega, by omega, ?_, h6, by omega, by omega⟩
      · rw [r5, r6, Nat.sub_self, Nat.add_zero, hf]
        refine ⟨rfl, by simpa using r3, by simp, fun _ => r3, .inr (by show 1028 ≤ s'.buf.length; rw [r2]; omega), ?_⟩
        show 4 ≤ s'.buf.length; rw [r2]; omega
      · rw [r4, r5, r6, r2, show 4 - (4 - pb) = pb by omega, ← hcopy, List.drop_take, show 4 - (4 - pb) = pb by omega]
    · right
      obtain ⟨s', r, ms, gs, r1, r2, r3, r4, r5, r6, r7, r8, r9, _⟩ := readIn_block D (n := n) ha hf hc (by
        rw [List.length_drop]; omega)
      have hm : 0 < ms.length := List.length_pos_iff.mpr r3
      have hl := congrArg List.length r2
      rw [List.length_drop, List.length_append] at hl
      rw [hpb] at r6
      have hle := r9.le
      have hgs : gs = cs.drop (pos + ms.length) := by
        rw [← List.drop_drop, r2]; simp
      refine ⟨s', r, r1, by omega, ⟨by omega, by omega, hle, ?_, by omega, by omega, ?_, h6, by omega, by omega⟩, ?_⟩
      · rw [r4, r5, show 4 + ms.length - 4 = ms.length by omega, ← hgs]
        rw [r5] at r9
        exact r9
      · rw [r4, r5, r6, show 4 - (4 - pb) = pb by omega, show 4 + ms.length - (4 - pb) = pb + ms.length by omega]
        have := congrArg (List.drop (4 - pb)) r7
        rw [List.drop_take, show 4 + ms.length - (4 - pb) = pb + ms.length by omega] at this
        rw [this, List.drop_append, hcopy, List.length_take]
        have hb4 : 4 - pb - min 4 b.length = 0 := by omega
        rw [hb4, List.drop_zero]
        have e : cs.drop (pos - pb) = (cs.drop (pos - pb)).take pb ++ (ms ++ gs) := by
          rw [← r2]
          have := List.take_append_drop pb (cs.drop (pos - pb))
          rw [List.drop_drop, show pos - pb + pb = pos by omega] at this
          exact this.symm
        have hl2 : ((cs.drop (pos - pb)).take pb).length = pb := by
          rw [List.length_take, List.length_drop]; omega
        generalize (cs.drop (pos - pb)).take pb = X at *
        rw [e, List.take_append, hl2, List.take_of_length_le (by omega), show pb + ms.length - pb = ms.length by omega]
        simp
      · have := r9.ext
        simp only at this
        rw [this, ha.ext, r2]; simp

theorem acts_good [Inhabited β] {call : Nat → List α → Option (CallRes Unit α β)} {E : β → List α} {V : β → Prop}
    (D : Decodes call E V) (cs : List β) (n : Nat) : ∀ (as : List Act) (s : In α β) (pos far : Nat),
      Kept E V cs s pos far → s.ext.length + cs.length < n →
      acts call 1 n as s = .undefined ∨ ∃ rs, acts call 1 n as s = .done rs ∧ Cursor cs pos far as rs := by
  intro as
  induction as with
  | nil => intro s pos far _ _; exact .inr ⟨[], rfl, .nil _ _⟩
  | cons a as ih =>
    intro s pos far h hn
    have get_some : ∀ s' : In α β, Kept E V cs s' pos far → s'.g < s'.eg → s'.ext.length + cs.length < n →
        (∃ c, cs[pos]? = some c ∧ s'.buf.getD s'.g default = c) ∧
        (acts call 1 n as { s' with g := s'.g + 1 } = .undefined ∨ ∃ rs, acts call 1 n as { s' with g := s'.g + 1 } = .done rs ∧
          Cursor cs (pos + 1) (max far (pos + 1)) as rs) := by
      intro s' h' hg' hn'
      refine ⟨?_, ih _ _ _ (kept_move h' hg') hn'⟩
      have e := kept_get h' h'.lo hg'
      rw [show pos + s'.g - s'.g = pos by omega] at e
      have := h'.ahead
      refine ⟨cs[pos]'(by omega), by simp, ?_⟩
      rw [List.getD_eq_getElem?_getD, e]
      simp [List.getElem?_eq_getElem (show pos < cs.length by omega)]
    cases a with
    | get =>
      rw [acts, sbumpc]
      by_cases hg : s.g < s.eg
      · simp only [hg, if_true]
        obtain ⟨⟨c, hc1, hc2⟩, h2 | ⟨rs, h2, h3⟩⟩ := get_some s h hg hn
        · left; rw [h2]
        · right; rw [h2, hc2]; exact ⟨_, rfl, .next hc1 h3⟩
      · simp only [hg, if_false]
        have hge : s.g = s.eg := by have := h.hi; omega
        rcases kept_refill D h hge hn with h1 | ⟨s', h1, h2, h3⟩ | ⟨s', r, h1, h2, h3, h4⟩
        · left; rw [h1]
        · rw [h1]
          simp only
          have hx : s'.ext = [] := by
            have := h3.at'.ext
            simp only at this
            rw [this, List.drop_of_length_le (by omega)]; rfl
          rcases ih s' pos far h3 (by rw [hx]; simp; omega) with h4 | ⟨rs, h4, h5⟩
          · left; rw [h4]
          · right; rw [h4]; exact ⟨_, rfl, .last h2 h5⟩
        · rw [h1]
          simp only
          obtain ⟨⟨c, hc1, hc2⟩, h5 | ⟨rs, h5, h6⟩⟩ := get_some s' h3 h2 (by omega)
          · left; rw [h5]
          · right; rw [h5, hc2]; exact ⟨_, rfl, .next hc1 h6⟩
    | unget =>
      rw [acts]
      by_cases hg : s.eback < s.g
      · have hb := h.behind
        obtain ⟨p, rfl⟩ : ∃ p, pos = p + 1 := ⟨pos - 1, by omega⟩
        have hh := h.hi
        have e := kept_get h (i := s.g - 1) (by omega) (by omega)
        rw [show p + 1 + (s.g - 1) - s.g = p by omega] at e
        have ha := h.ahead
        have hc1 : cs[p]? = some (cs[p]'(by omega)) := by simp
        have hs1 : sungetc s = ({ s with g := s.g - 1 }, some (cs[p]'(by omega))) := by
          unfold sungetc
          rw [if_pos hg, List.getD_eq_getElem?_getD, e, hc1]; rfl
        rw [hs1]
        rcases ih { s with g := s.g - 1 } p far (kept_back h hg) hn with h4 | ⟨rs, h4, h5⟩
        · left; simp only [h4]
        · right; simp only [h4]; exact ⟨_, rfl, .back hc1 h5⟩
      · have hs1 : sungetc s = (s, none) := by unfold sungetc; rw [if_neg hg]
        rw [hs1]
        have h8 := h.room; have h9 := h.lo
        rcases ih s pos far h hn with h4 | ⟨rs, h4, h5⟩
        · left; simp only [h4]
        · right; simp only [h4]; exact ⟨_, rfl, .stop (by omega) h5⟩

theorem kept_start {E : β → List α} {V : β → Prop} (cs : List β) (h : ∀ c ∈ cs, V c) :
    Kept E V cs { ext := cs.flatMap E } 0 0 :=
  ⟨by simp, by simp, by simp, by simpa using at_start cs h, by simp, by simp, by simp, by simp, by simp, by simp⟩

/-! ## Writing -/

theorem convertOut_encodes {call : Unit → List β → Nat → CallRes Unit β α} {enc : β → List α} {big room : Nat}
    (h : Encodes call enc big) (hr : big ≤ room) : ∀ (n : Nat) (inp : List β), inp.length < n →
    convertOut (fun cap inp => some (call () inp cap)) room n inp = .done (inp.flatMap enc) := by
  intro n
  induction n with
  | zero => intro inp h; omega
  | succ n ih =>
    intro inp hl
    rw [convertOut]
    simp only
    have hs := h.split inp room
    cases hst : (call () inp room).status with
    | ok =>
      simp only
      rw [(h.ok inp room).mp hst] at hs
      rw [hs]; simp
    | incomplete =>
      simp only
      rcases h.progress inp room hr with h1 | h1
      · rw [hst] at h1; cases h1
      · rw [ih _ (by omega), hs]

theorem convertOut_decodes {call : Nat → List α → Option (CallRes Unit α β)} {E : β → List α} {V : β → Prop}
    (D : Decodes call E V) {room : Nat} : ∀ (n : Nat) (cs : List β), 0 < room → (∀ c ∈ cs, V c) → cs.length < n →
    convertOut call room n (cs.flatMap E) = .done cs := by
  intro n
  induction n with
  | zero => intro cs _ _ h; omega
  | succ n ih =>
    intro cs hr hV hn
    have := D.law cs [] [] room (by simpa using hV) (.inl rfl)
    simp only [List.append_nil] at this
    rw [convertOut, this]
    by_cases hc : cs.length ≤ room
    · simp [hc, List.take_of_length_le hc]
    · simp only [hc, false_and, if_false]
      rw [ih (cs.drop room) hr (fun c hm => hV c (List.mem_of_mem_drop hm)) (by rw [List.length_drop]; omega)]
      simp

theorem writeAll_good {call : Nat → List β → Option (CallRes Unit β α)} {enc : List β → List α} {maxLength n : Nat} {P : List β → Prop}
    (h0 : enc [] = [])
    (hc : ∀ cs, cs ≠ [] → P cs → cs.length < n → convertOut call (cs.length + maxLength) n cs = .done (enc cs)) :
    ∀ (ops : List (Op β)) (s : Out α β), (∀ p ∈ pieces ops s.pending, P p) → s.pending.length + (written ops).length < n →
      writeAll call maxLength n ops s = .done (s.ext ++ (pieces ops s.pending).flatMap enc) := by
  intro ops
  have hfl : ∀ s : Out α β, P s.pending → s.pending.length < n →
      flushOut call maxLength n s = .done { pending := [], ext := s.ext ++ enc s.pending } := by
    intro s hp hn
    unfold flushOut
    by_cases hz : s.pending = []
    · rw [if_pos (by rw [hz]; rfl)]; cases s; simp at hz; simp [hz, h0]
    · rw [if_neg (by simpa using hz), hc _ hz hp hn]
  induction ops with
  | nil =>
    intro s hP hn
    rw [writeAll, hfl s (hP _ (by simp [pieces])) (by omega)]
    simp [pieces]
  | cons op ops ih =>
    intro s hP hn
    cases op with
    | write cs =>
      rw [writeAll, ih _ (by simpa [pieces] using hP) (by simp [written] at hn ⊢; omega)]
      simp [pieces]
    | flush =>
      rw [writeAll, hfl s (hP _ (by simp [pieces])) (by omega)]
      simp only
      rw [ih _ (fun p hp => hP p (by simp [pieces]; right; exact hp)) (by simp [written] at hn ⊢; omega)]
      simp [pieces]

theorem pieces_flat : ∀ (ops : List (Op β)) (cur : List β), (pieces ops cur).flatten = cur ++ written ops
  | [], cur => by simp [pieces, written]
  | .write cs :: ops, cur => by simp [pieces, written, pieces_flat ops]
  | .flush :: ops, cur => by simp [pieces, written, pieces_flat ops]

theorem writeAll_encodes {call : Unit → List β → Nat → CallRes Unit β α} {enc : β → List α} {big maxLength n : Nat}
    (h : Encodes call enc big) (hb : big ≤ maxLength + 1) (ops : List (Op β)) (hn : (written ops).length < n) :
    writeAll (fun cap inp => some (call () inp cap)) maxLength n ops {} = .done ((written ops).flatMap enc) := by
  rw [writeAll_good (enc := fun cs => cs.flatMap enc) (P := fun _ => True) rfl (fun cs hc _ hl =>
    convertOut_encodes h (by have := List.length_pos_iff.mpr hc; omega) n cs hl) ops {} (by simp) (by simpa using hn)]
  have := pieces_flat ops ([] : List β)
  simp only [List.nil_append] at this ⊢
  rw [← this]
  congr 1
  generalize pieces ops ([] : List β) = ps
  induction ps with
  | nil => rfl
  | cons p ps ih => simp [ih]

/-! ## ISO-8859-1 to UTF-8 while reading -/

theorem iso_stuck (room : Nat) : ∀ inp : List UInt8, room ≤ (inp.flatMap fun c => Utf8.encodeChar c.toNat).length →
    inp ≠ [] → ∃ c cs out, isoToUtf8 () inp room = ⟨.incomplete, (), c :: cs, out⟩ ∧
      (out.length < room ∨ (out = [] ∧ room = 0)) ∧ room - out.length ≤ (Utf8.encodeChar c.toNat).length ∧ (c :: cs).length ≤ inp.length := by
  intro inp
  induction inp generalizing room with
  | nil => intro _ h; exact absurd rfl h
  | cons c cs ih =>
    intro hl _
    rw [isoToUtf8, encodeOne_eq]
    have hc := c.toNat_lt
    simp only [show c.toNat < 0x10000 by omega, if_true]
    by_cases h2 : room ≤ (Utf8.encodeChar c.toNat).length
    · rw [if_pos h2]
      exact ⟨c, cs, [], rfl, by simp; omega, by simpa using h2, by simp⟩
    · rw [if_neg h2]
      simp only [List.flatMap_cons, List.length_append] at hl
      have hne : cs ≠ [] := by rintro rfl; simp at hl; omega
      obtain ⟨d, ds, out, e, h3, h4, h5⟩ := ih (room - (Utf8.encodeChar c.toNat).length) (by omega) hne
      simp only [e]
      refine ⟨d, ds, _, rfl, .inl ?_, ?_, by simp at h5 ⊢; omega⟩
      · rw [List.length_append]
        rcases h3 with h3 | ⟨rfl, h3⟩
        · omega
        · simp; omega
      · rw [List.length_append]; omega

theorem iso_fits (room : Nat) : ∀ inp : List UInt8, (inp.flatMap fun c => Utf8.encodeChar c.toNat).length < room →
    isoToUtf8 () inp room = ⟨.ok, (), [], inp.flatMap fun c => Utf8.encodeChar c.toNat⟩ := by
  intro inp
  induction inp generalizing room with
  | nil => intro _; rfl
  | cons c cs ih =>
    intro hl
    simp only [List.flatMap_cons, List.length_append] at hl
    rw [isoToUtf8, encodeOne_eq]
    have hc := c.toNat_lt
    simp only [show c.toNat < 0x10000 by omega, if_true]
    rw [if_neg (by omega)]
    simp only
    rw [ih _ (by omega)]
    rfl

/-- `iso88591utf8codecvt::do_in`. -/
abbrev isoIn (cap : Nat) (inp : List UInt8) : Option (CallRes Unit UInt8 UInt8) := some (isoToUtf8 () inp cap)

theorem iso_flat_le : ∀ bs : List UInt8, bs.length ≤ (bs.flatMap fun c => Utf8.encodeChar c.toNat).length
  | [] => by simp
  | c :: bs => by
    have := iso_flat_le bs
    have h : 0 < (Utf8.encodeChar c.toNat).length := List.length_pos_iff.mpr (encodeChar_ne _)
    simp only [List.flatMap_cons, List.length_append, List.length_cons]; omega

theorem iso_long (wide n : Nat) (bs : List UInt8)
    (h : 1020 ≤ (bs.flatMap fun c => Utf8.encodeChar c.toNat).length) (hn : 2 < n) :
    readAll isoIn wide n { ext := bs } = .done [] ∨ readAll isoIn wide n { ext := bs } = .undefined := by
  have hne : bs ≠ [] := by rintro rfl; simp at h
  have hlen : 0 < bs.length := List.length_pos_iff.mpr hne
  have htk : bs.take 1024 ≠ [] := by
    intro h0; have := congrArg List.length h0
    rw [List.length_take, List.length_nil] at this; omega
  have hbig : 1020 ≤ ((bs.take 1024).flatMap fun c => Utf8.encodeChar c.toNat).length := by
    by_cases hb : bs.length ≤ 1024
    · rw [List.take_of_length_le hb]; exact h
    · have := iso_flat_le (bs.take 1024)
      rw [List.length_take] at this; omega
  obtain ⟨n, rfl⟩ : ∃ m, n = m + 3 := ⟨n - 3, by omega⟩
  have hgl : (growIn ([] : List UInt8)).length = 1028 := by rw [growIn_length]; rfl
  have hfill : (fill isoIn (n + 2) (bs.drop 1024) (bs.take 1024).length (bs.take 1024) (growIn []) 0 = .undefined) ∨
      ∃ x y z, fill isoIn (n + 2) (bs.drop 1024) (bs.take 1024).length (bs.take 1024) (growIn []) 0 = .done (x, y, z, 0) := by
    obtain ⟨c, cs, out, e, h3, h4, h5⟩ := iso_stuck 1020 (bs.take 1024) hbig htk
    have h3 : out.length < 1020 := by omega
    rw [fill, hgl]
    simp only [pbSize, isoIn, show 1028 - 4 - (4 + 0) = 1020 from rfl, e, Nat.zero_add,
      show ¬ 4 + out.length = 1028 - 4 by omega, if_false]
    split
    · exact .inl rfl
    · split
      · exact .inr ⟨_, _, _, rfl⟩
      · left
        rename_i h6 h7
        rw [fill, put_length' _ _ _ (by rw [hgl]; omega), hgl]
        have hc := c.toNat_lt
        have e2 : ∀ t, isoToUtf8 () ((c :: cs) ++ t) (1028 - 4 - (4 + out.length)) = ⟨.incomplete, (), (c :: cs) ++ t, []⟩ := by
          intro t
          rw [List.cons_append, isoToUtf8, encodeOne_eq]
          simp only [show c.toNat < 0x10000 by omega, if_true]
          rw [if_pos (by omega)]
        simp only [pbSize, e2, List.length_nil, Nat.add_zero, show ¬ 4 + out.length = 1028 - 4 by omega, if_false]
        rw [if_pos]
        simp only [List.length_append, List.length_cons]
        omega
  have hread : readIn isoIn wide (n + 2) { ext := bs } = .undefined ∨
      ∃ s', readIn isoIn wide (n + 2) { ext := bs } = .done (s', 0) := by
    have hcp : copyBack wide (growIn ([] : List UInt8)) 0 0 = some (growIn []) := by simp [copyBack]
    simp only [readIn, List.length_nil, if_true, hcp, Bool.false_eq_true, if_false, bufferSize, htk]
    rcases hfill with h1 | ⟨x, y, z, h1⟩
    · rw [h1]; exact .inl rfl
    · rw [h1]; exact .inr ⟨_, rfl⟩
  rw [readAll]
  simp only [sbumpc, Nat.lt_irrefl, if_false]
  rcases hread with h1 | ⟨s', h1⟩
  · right; rw [h1]
  · left; rw [h1]

theorem iso_short (n : Nat) (bs : List UInt8)
    (h : (bs.flatMap fun c => Utf8.encodeChar c.toNat).length < 1020) (hn : 1022 < n) :
    readAll isoIn 1 n { ext := bs } = .done (bs.flatMap fun c => Utf8.encodeChar c.toNat) := by
  have hgl : (growIn ([] : List UInt8)).length = 1028 := by rw [growIn_length]; rfl
  have hcp : copyBack 1 (growIn ([] : List UInt8)) 0 0 = some (growIn []) := by simp [copyBack]
  by_cases hne : bs = []
  · subst hne
    obtain ⟨n, rfl⟩ : ∃ m, n = m + 1 := ⟨n - 1, by omega⟩
    exact readAll_end (E := fun b : UInt8 => [b]) (V := fun _ => True)
      ⟨rfl, rfl, by simp, by simp, .inl ⟨rfl, rfl, rfl⟩, by simp⟩ hcp
  · have hle := iso_flat_le bs
    have hlen : 0 < bs.length := List.length_pos_iff.mpr hne
    generalize hout : (bs.flatMap fun c => Utf8.encodeChar c.toNat) = out at *
    obtain ⟨n, rfl⟩ : ∃ m, n = m + 2 := ⟨n - 2, by omega⟩
    have htk : bs.take 1024 = bs := List.take_of_length_le (by omega)
    have hdr : bs.drop 1024 = [] := List.drop_of_length_le (by omega)
    have hpl : (put (growIn []) 4 out).length = 1028 := by rw [put_length' _ _ _ (by omega), hgl]
    have hread : readIn isoIn 1 (n + 1) { ext := bs } =
        .done (⟨[], true, put (growIn []) 4 out, 4, 4, 4 + out.length⟩, bs.length) := by
      simp only [readIn, List.length_nil, if_true, hcp, Bool.false_eq_true, if_false, bufferSize, htk, hdr, hne]
      rw [fill, hgl]
      simp only [pbSize, isoIn, show 1028 - 4 - (4 + 0) = 1020 from rfl, iso_fits 1020 bs (by rw [hout]; omega), hout]
      simp
    have e1 : readAll isoIn 1 (n + 2) { ext := bs } = readAll isoIn 1 (n + 2)
        (⟨[], true, put (growIn []) 4 out, 4, 4, 4 + out.length⟩ : In UInt8 UInt8) := by
      obtain ⟨q, hq⟩ : ∃ q, bs.length = q + 1 := ⟨bs.length - 1, by omega⟩
      rw [hq] at hread
      rw [readAll, readAll]
      simp only [sbumpc, Nat.lt_irrefl, if_false, hread, show 4 < 4 + out.length by omega, if_true]
    have := drain isoIn 1 out.length (n + 2 - out.length)
      (⟨[], true, put (growIn []) 4 out, 4, 4, 4 + out.length⟩ : In UInt8 UInt8) rfl (by
        show 4 + out.length ≤ (put (growIn []) 4 out).length; omega)
    rw [show out.length + (n + 2 - out.length) = n + 2 by omega] at this
    rw [e1, this]
    obtain ⟨q, hq⟩ : ∃ q, n + 2 - out.length = q + 1 := ⟨n + 2 - out.length - 1, by omega⟩
    rw [hq]
    have hb : base (⟨[], true, put (growIn []) 4 out, 4, 4 + out.length, 4 + out.length⟩ : In UInt8 UInt8) =
        put (growIn []) 4 out := base_at (by show 1028 ≤ (put (growIn []) 4 out).length; omega)
    cases hc : copyBack 1 (put (growIn []) 4 out) 4 (4 + out.length) with
    | none => exact absurd ((first_none (by omega) (.inl rfl)).mp hc) (fun h => h)
    | some b =>
      rw [readAll_end (E := fun b : UInt8 => [b]) (V := fun _ => True) (b := b)
        ⟨rfl, rfl, by simp, by simp, .inr (by show 1028 ≤ (put (growIn []) 4 out).length; omega), by
          show 4 + out.length ≤ (put (growIn []) 4 out).length; omega⟩ (by rw [hb]; exact hc)]
      have := congrArg (List.drop 4) (put_take (growIn ([] : List UInt8)) 4 out (by omega))
      rw [List.drop_take, List.drop_append, List.drop_of_length_le (l := (growIn []).take 4) (by rw [List.length_take]; omega),
        List.length_take, show 4 + out.length - 4 = out.length by omega, show 4 - min 4 (growIn ([] : List UInt8)).length = 0 by omega] at this
      simp only [Res.after, List.append_nil]
      rw [this]; rfl

end Verif.ConvertAdaptor
