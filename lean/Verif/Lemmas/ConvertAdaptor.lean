import Verif.Model.ConvertAdaptor
import Verif.Lemmas.Unicode2
set_option autoImplicit false
set_option linter.unusedSimpArgs false
set_option linter.unusedVariables false
namespace Verif.ConvertAdaptor
open Verif.Codecvt Verif.Unicode Verif.Spec

variable {α β : Type}

/-- `t` is nothing, or the beginning of the first of these characters. -/
def Frag (E : β → List α) (t : List α) (es : List β) : Prop :=
  t = [] ∨ ∃ c es' u, es = c :: es' ∧ u ≠ [] ∧ E c = t ++ u

/-- What a decoder does with encoded characters, the last of them perhaps not whole. -/
structure Decodes (call : Nat → List α → Option (CallRes Unit α β)) (E : β → List α) (V : β → Prop) : Prop where
  law : ∀ (cs es : List β) (t : List α) (cap : Nat), (∀ c ∈ cs ++ es, V c) → Frag E t es →
    call cap (cs.flatMap E ++ t) =
      some ⟨if cs.length ≤ cap ∧ t = [] then .ok else .incomplete, (), (cs.drop cap).flatMap E ++ t, cs.take cap⟩
  ne : ∀ c, V c → E c ≠ []
  short : ∀ c, V c → (E c).length ≤ 4

theorem decodes_scan {one : List α → Option (Option (β × List α))} {E : β → List α} {V : β → Prop}
    (h1 : ∀ c t, V c → one (E c ++ t) = some (some (c, t)))
    (h2 : ∀ c t u, V c → E c = t ++ u → t ≠ [] → u ≠ [] → one t = some none)
    (h3 : ∀ c, V c → E c ≠ []) (h4 : ∀ c, V c → (E c).length ≤ 4) : Decodes (scan one) E V := by
  refine ⟨?_, h3, h4⟩
  intro cs
  induction cs with
  | nil =>
    intro es t cap hV ht
    simp only [List.flatMap_nil, List.nil_append, List.length_nil, Nat.zero_le, true_and, List.drop_nil, List.take_nil]
    cases t with
    | nil => simp [scan]
    | cons b t =>
      rcases ht with h | ⟨c, es', u, rfl, hu, he⟩
      · simp at h
      · cases cap with
        | zero => simp [scan]
        | succ cap =>
          rw [scan, h2 c (b :: t) u (hV c (by simp)) he (by simp) hu]
          simp
  | cons c cs ih =>
    intro es t cap hV ht
    have hc := hV c (by simp)
    cases cap with
    | zero =>
      obtain ⟨b, r, hb⟩ : ∃ b r, (c :: cs).flatMap E ++ t = b :: r := by
        cases he : E c with
        | nil => exact absurd he (h3 c hc)
        | cons b r => exact ⟨b, _, by rw [List.flatMap_cons, he]; rfl⟩
      simp only [List.length_cons, Nat.le_zero, Nat.add_eq_zero_iff, Nat.one_ne_zero, and_false, false_and, if_false,
        List.drop_zero, List.take_zero]
      rw [hb]
      simp [scan]
    | succ cap =>
      have e : (c :: cs).flatMap E ++ t = E c ++ (cs.flatMap E ++ t) := by simp
      obtain ⟨b, r, hb⟩ : ∃ b r, E c ++ (cs.flatMap E ++ t) = b :: r := by
        cases he : E c with
        | nil => exact absurd he (h3 c hc)
        | cons b r => exact ⟨b, _, rfl⟩
      have h := h1 c (cs.flatMap E ++ t) hc
      rw [e, hb, scan, ← hb, h]
      simp only
      rw [ih es t cap (fun x hx => hV x (List.mem_cons_of_mem _ hx)) ht]
      simp

theorem rot13_decodes : Decodes rot13 (fun b => [Utf8.rot13 b]) (fun _ => True) := by
  rw [rot13_scan]
  refine decodes_scan ?_ ?_ ?_ ?_
  · intro c t _
    simp [rot13One, rot13_table, rot13_invol]
  · intro c t u _ h ht hu
    have := congrArg List.length h
    cases t with
    | nil => exact absurd rfl ht
    | cons a t => cases u with
      | nil => exact absurd rfl hu
      | cons b u => simp at this
  · simp
  · simp

theorem utf16_decodes (be : Bool) : Decodes (utf16ToUcs2 be) (enc16 be) (fun c => c < 0x10000) := by
  rw [utf16_scan]
  have hl : ∀ c, (enc16 be c).length = 2 := by intro c; unfold enc16 Utf8.be16 Utf8.le16; cases be <;> simp
  refine decodes_scan ?_ ?_ ?_ ?_
  · intro c t hc
    simp only [enc16, Utf8.be16, Utf8.le16]
    rw [Nat.mod_eq_of_lt hc]
    cases be <;>
    · simp only [if_true, Bool.false_eq_true, if_false, List.cons_append, List.nil_append, utf16One,
        toNat_ofNat8 (c % 256) (by omega), toNat_ofNat8 (c / 256) (by omega), Nat.shiftLeft_eq]
      rw [show c / 256 * 2 ^ 8 + c % 256 = c by omega]
  · intro c t u _ h ht hu
    have h := congrArg List.length h
    rw [hl] at h
    match t, ht with
    | [a], _ => rfl
    | a :: b :: t, _ =>
      cases u with
      | nil => exact absurd rfl hu
      | cons x u => simp at h
  · intro c _ h; have := hl c; rw [h] at this; simp at this
  · intro c _; rw [hl]; omega

theorem utf8_stuck (c : Nat) (h : c < 0x10000) (t u : List UInt8) (he : Utf8.encodeChar c = t ++ u) (ht : t ≠ [])
    (hu : u ≠ []) : utf8One t = some none := by
  have hlen := congrArg List.length he
  cases t with
  | nil => exact absurd rfl ht
  | cons b t =>
    have hu' : 0 < u.length := by cases u <;> simp_all
    simp only [List.length_append, List.length_cons] at hlen
    unfold Utf8.encodeChar at he hlen
    simp only [utf8One]
    by_cases h1 : c < 0x80
    · simp [h1] at hlen; omega
    · by_cases h2 : c < 0x800
      · simp only [h1, h2, if_true, if_false, List.cons_append, List.cons.injEq] at he
        simp [h1, h2] at hlen
        rw [← he.1, toNat_ofNat8 (0xC0 + c / 64) (by omega), leadEntry_eq (0xC0 + c / 64) (by omega)]
        simp only [show ¬ (0xC0 + c / 64) < 128 by omega, show ¬ (0xC0 + c / 64) < 192 by omega,
          show (0xC0 + c / 64) < 224 by omega, if_true, if_false]
        rw [if_pos (by simp only [List.length_cons]; omega)]
      · simp only [h1, h2, h, if_true, if_false, List.cons_append, List.cons.injEq] at he
        simp [h1, h2, h] at hlen
        rw [← he.1, toNat_ofNat8 (0xE0 + c / 4096) (by omega), leadEntry_eq (0xE0 + c / 4096) (by omega)]
        simp only [show ¬ (0xE0 + c / 4096) < 128 by omega, show ¬ (0xE0 + c / 4096) < 192 by omega,
          show ¬ (0xE0 + c / 4096) < 224 by omega, show (0xE0 + c / 4096) < 240 by omega, if_true, if_false]
        rw [if_pos (by simp only [List.length_cons]; omega)]

theorem utf8_decodes : Decodes utf8ToUcs2 Utf8.encodeChar (fun c => c < 0x10000) := by
  rw [utf8_scan]
  refine decodes_scan ?_ ?_ ?_ ?_
  · intro c t hc
    rw [utf8One_encode c (by omega), if_pos hc]
  · intro c t u hc he ht hu
    exact utf8_stuck c hc t u he ht hu
  · intro c _; exact encodeChar_ne c
  · intro c _; exact encodeChar_length c

/-- Any place in encoded characters is between two of them or in one. -/
theorem split_at {E : β → List α} : ∀ (cs : List β) (k : Nat), ∃ ds es t, cs = ds ++ es ∧
    (cs.flatMap E).take k = ds.flatMap E ++ t ∧ Frag E t es ∧ es.flatMap E = t ++ (cs.flatMap E).drop k
  | [], k => ⟨[], [], [], by simp [Frag]⟩
  | c :: cs, k => by
    by_cases h : (E c).length ≤ k
    · obtain ⟨ds, es, t, h1, h2, h3, h4⟩ := split_at (E := E) cs (k - (E c).length)
      refine ⟨c :: ds, es, t, by simp [h1], ?_, h3, ?_⟩
      · rw [List.flatMap_cons, List.take_append, h2, List.take_of_length_le h]; simp
      · rw [List.flatMap_cons, List.drop_append, List.drop_of_length_le h, h4]; simp
    · refine ⟨[], c :: cs, (E c).take k, rfl, ?_, .inr ⟨c, cs, (E c).drop k, rfl, ?_, by simp⟩, ?_⟩
      · rw [List.flatMap_cons, List.take_append, show k - (E c).length = 0 by omega]; simp
      · intro h0; have := congrArg List.length h0; simp at this; omega
      · rw [List.flatMap_cons, List.drop_append, show k - (E c).length = 0 by omega]; simp [← List.append_assoc]

theorem frag_short {call : Nat → List α → Option (CallRes Unit α β)} {E : β → List α} {V : β → Prop} (D : Decodes call E V)
    {t : List α} {es : List β} (hV : ∀ c ∈ es, V c) (h : Frag E t es) (x : List α) (he : es.flatMap E = t ++ x) :
    t.length ≤ 3 ∧ (t ≠ [] → x ≠ []) := by
  rcases h with rfl | ⟨c, es', u, rfl, hu, hc⟩
  · simp
  · have := D.short c (hV c (by simp))
    rw [hc, List.length_append] at this
    have hu' : 0 < u.length := by cases u <;> simp_all
    refine ⟨by omega, fun _ hx => ?_⟩
    rw [List.flatMap_cons, hc, hx] at he
    have := congrArg List.length he
    simp at this; simp at hu; exact hu this.1

theorem put_length (buf : List β) (i : Nat) (xs : List β) : buf.length ≤ (put buf i xs).length := by
  unfold put; simp; omega

theorem put_length' (buf : List β) (i : Nat) (xs : List β) (h : i + xs.length ≤ buf.length) :
    (put buf i xs).length = buf.length := by
  unfold put; simp; omega

theorem put_take (buf : List β) (i : Nat) (xs : List β) (h : i ≤ buf.length) :
    (put buf i xs).take (i + xs.length) = buf.take i ++ xs := by
  unfold put
  rw [List.take_append, List.take_of_length_le (by simp; omega)]
  simp; omega

theorem growIn_length [Inhabited β] (buf : List β) :
    (growIn buf).length = (if buf.length = 0 then 1024 else 2 * buf.length) + 4 := by
  unfold growIn bufferSize pbSize
  rw [List.length_append, List.length_replicate]
  split <;> omega

theorem growIn_take [Inhabited β] (buf : List β) (k : Nat) (h : k ≤ buf.length) : (growIn buf).take k = buf.take k := by
  unfold growIn; rw [List.take_append, show k - buf.length = 0 by omega]; simp

theorem fill_good [Inhabited β] {call : Nat → List α → Option (CallRes Unit α β)} {E : β → List α} {V : β → Prop}
    (D : Decodes call E V) : ∀ (n : Nat) (ext : List α) (res : Nat) (buf : List β) (conv : Nat) (cs es : List β)
      (t : List α) (out : List β), (∀ c ∈ cs ++ es, V c) → Frag E t es → es.flatMap E = t ++ ext →
      conv + 8 < buf.length → buf.take (4 + conv) = out → (t ≠ [] → 2 * t.length ≤ res) → 0 < res →
      ext.length + (cs ++ es).length < n →
      ∃ buf' ms fs ext' res', fill call n ext res (cs.flatMap E ++ t) buf conv = .done (ext', buf', conv + ms.length, res') ∧
        0 < res' ∧ cs ++ es = ms ++ fs ∧ fs.flatMap E = ext' ∧ buf'.take (4 + conv + ms.length) = out ++ ms ∧
        buf.length ≤ buf'.length ∧ conv + ms.length + 8 ≤ buf'.length ∧ (t = [] → ms = cs) ∧
        (t ≠ [] → cs.length < ms.length) := by
  intro n
  induction n with
  | zero => intro ext res buf conv cs es t out _ _ _ _ _ _ _ h; omega
  | succ n ih =>
    intro ext res buf conv cs es t out hV ht he hb ho hr hr0 hn
    obtain ⟨ht3, hx⟩ := frag_short D (fun c hc => hV c (by simp [hc])) ht ext he
    obtain ⟨k, hk⟩ : ∃ k, buf.length - pbSize - (pbSize + conv) = k := ⟨_, rfl⟩
    rw [fill, hk, D.law cs es t k hV ht]
    simp only [pbSize] at hk ⊢
    have hout : ∀ xs : List β, (put buf (4 + conv) xs).take (4 + conv + xs.length) = out ++ xs := by
      intro xs; rw [put_take _ _ _ (by omega), ho]
    have hlen := put_length buf (4 + conv)
    by_cases hok : cs.length ≤ k ∧ t = []
    · obtain ⟨hc, rfl⟩ := hok
      simp only [hc, and_self, if_true, List.take_of_length_le hc]
      refine ⟨_, cs, es, _, _, rfl, hr0, rfl, by simpa using he, hout cs, hlen cs, ?_, fun _ => rfl, fun h => absurd rfl h⟩
      rw [put_length' _ _ _ (by omega)]; omega
    · rw [if_neg hok]
      simp only
      by_cases hfull : k ≤ cs.length
      · have hl : (cs.take k).length = k := by simp; omega
        simp only [show 4 + (conv + (cs.take k).length) = buf.length - 4 by rw [hl]; omega, if_true]
        have hpl : (put buf (4 + conv) (cs.take k)).length = buf.length :=
          put_length' _ _ _ (by rw [hl]; omega)
        have hgl := growIn_length (put buf (4 + conv) (cs.take k))
        rw [hpl, if_neg (by omega)] at hgl
        have hcs : cs = cs.take k ++ cs.drop k := by simp
        generalize hT : cs.take k = T at *
        generalize hR : cs.drop k = R at *
        obtain ⟨buf', ms, fs, ext', res', g1, g2, g3, g4, g5, g6, g7, g8, g9⟩ := ih ext res (growIn (put buf (4 + conv) T))
          (conv + T.length) R es t (out ++ T) (fun c hc => hV c (by
            rw [hcs]; simp at hc ⊢; rcases hc with hc | hc <;> simp [hc])) ht he (by omega)
          (by
            rw [growIn_take _ _ (by omega), ← Nat.add_assoc]
            exact hout T) hr hr0 (by
              have := congrArg List.length hcs
              simp at this hn ⊢; omega)
        refine ⟨buf', T ++ ms, fs, ext', res', ?_, g2, ?_, g4, ?_, by omega, by simp; omega, fun h => ?_, fun h => ?_⟩
        · rw [g1, List.length_append, Nat.add_assoc]
        · rw [hcs]; simp [g3]
        · rw [show 4 + conv + (T ++ ms).length = 4 + (conv + T.length) + ms.length by simp; omega, g5]; simp
        · rw [g8 h, ← hcs]
        · have := g9 h
          have hh := congrArg List.length hcs
          simp at hh ⊢; omega
      · have hd : cs.drop k = [] := List.drop_of_length_le (by omega)
        have hT : cs.take k = cs := List.take_of_length_le (by omega)
        rw [hd, hT]
        have htn : t ≠ [] := fun h => hok ⟨by omega, h⟩
        have hxn := hx htn
        simp only [List.flatMap_nil, List.nil_append]
        simp only [show ¬ 4 + (conv + cs.length) = buf.length - 4 by omega,
          show ¬ (0 < t.length ∧ res - t.length < t.length) by have := hr htn; omega, if_false]
        simp only [bufferSize]
        have hg : ext.take (1024 - t.length) ≠ [] := by
          intro h; have := congrArg List.length h
          have h0 : 0 < ext.length := by cases ext <;> simp_all
          rw [List.length_take, List.length_nil] at this; omega
        simp only [hg, if_false]
        obtain ⟨ds, es', t', s1, s2, s3, s4⟩ := split_at (E := E) es 1024
        have htk : t ++ ext.take (1024 - t.length) = ds.flatMap E ++ t' := by
          rw [← s2, he, List.take_append, List.take_of_length_le (l := t) (i := 1024) (by omega)]
        have hdr : (es.flatMap E).drop 1024 = ext.drop (1024 - t.length) := by
          rw [he, List.drop_append, List.drop_of_length_le (l := t) (i := 1024) (by omega)]; simp
        rw [hdr] at s4
        have hVd : ∀ c ∈ ds ++ es', V c := fun c hc => hV c (by rw [s1]; simp at hc ⊢; rcases hc with hc | hc <;> simp [hc])
        obtain ⟨ht3', hx'⟩ := frag_short D (fun c hc => hVd c (by simp [hc])) s3 _ s4
        have hext : 0 < ext.length := by cases ext <;> simp_all
        obtain ⟨buf', ms, fs, ext', res', g1, g2, g3, g4, g5, g6, g7, g8, g9⟩ := ih (ext.drop (1024 - t.length))
          ((ext.take (1024 - t.length)).length + t.length) (put buf (4 + conv) cs) (conv + cs.length) ds es' t' (out ++ cs)
          hVd s3 s4 (by rw [put_length' _ _ _ (by omega)]; omega) (by
            rw [← Nat.add_assoc]; exact hout cs)
          (fun h => by
            have h := hx' h
            have : 0 < (ext.drop (1024 - t.length)).length := List.length_pos_iff.mpr h
            simp at this ⊢; omega) (by simp; omega) (by
              rw [← s1]; simp at hn ⊢; omega)
        rw [htk, g1]
        have hds : 0 < ms.length := by
          have hl := congrArg List.length htk
          by_cases h' : t' = []
          · rw [g8 h']
            rw [h'] at htk
            cases ds with
            | nil => simp at htk; exact absurd htk.1 htn
            | cons => simp
          · have := g9 h'; omega
        refine ⟨buf', cs ++ ms, fs, ext', res', by rw [List.length_append, Nat.add_assoc], g2, ?_, g4, ?_, Nat.le_trans (hlen cs) g6, by simp; omega,
          fun h => absurd h htn, fun _ => by simp; omega⟩
        · rw [s1]; simp [g3]
        · rw [show 4 + conv + (cs ++ ms).length = 4 + (conv + cs.length) + ms.length by simp; omega, g5]; simp

end Verif.ConvertAdaptor
