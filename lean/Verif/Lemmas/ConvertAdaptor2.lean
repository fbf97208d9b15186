import Verif.Lemmas.ConvertAdaptor
set_option autoImplicit false
set_option linter.unusedSimpArgs false
set_option linter.unusedVariables false
namespace Verif.ConvertAdaptor
open Verif.Codecvt Verif.Unicode Verif.Spec

variable {α β : Type}

/-- All of the buffer has been read; these characters are still underneath. -/
structure At (E : β → List α) (V : β → Prop) (s : In α β) (fs : List β) : Prop where
  g : s.g = s.eg
  ext : s.ext = fs.flatMap E
  ok : ∀ c ∈ fs, V c
  eof : s.eof = true → s.ext = []
  buf : (s.buf = [] ∧ s.eback = 0 ∧ s.g = 0) ∨ 1028 ≤ s.buf.length
  le : s.eg ≤ s.buf.length

def base [Inhabited β] (s : In α β) : List β := if s.buf.length = 0 then growIn s.buf else s.buf

theorem copyBack_length {wide : Nat} {buf : List β} {eback g : Nat} {b : List β} (h : copyBack wide buf eback g = some b) :
    buf.length ≤ b.length := by
  unfold copyBack at h
  simp only at h
  split at h
  · cases h; exact Nat.le_refl _
  · split at h
    · cases h
    · split at h
      · cases h
      · split at h
        · cases h
        · cases h; exact put_length _ _ _

theorem base_length [Inhabited β] {E : β → List α} {V : β → Prop} {s : In α β} {fs : List β} (h : At E V s fs) :
    1028 ≤ (base s).length := by
  unfold base
  rcases h.buf with ⟨h0, _⟩ | h0
  · rw [h0]; simp [growIn_length]
  · rw [if_neg (by omega)]; exact h0

theorem readIn_undefined [Inhabited β] {call : Nat → List α → Option (CallRes Unit α β)} {wide n : Nat} {s : In α β}
    (h : copyBack wide (base s) s.eback s.g = none) : readIn call wide n s = .undefined := by
  unfold base at h
  simp only [readIn]
  rw [h]

theorem readIn_end [Inhabited β] {call : Nat → List α → Option (CallRes Unit α β)} {E : β → List α} {V : β → Prop}
    {wide n : Nat} {s : In α β} {b : List β} (ha : At E V s []) (h : copyBack wide (base s) s.eback s.g = some b) :
    ∃ s', readIn call wide n s = .done (s', 0) ∧ s'.buf = b ∧ s'.ext = [] ∧ s'.eback = 4 - min (s.g - s.eback) 4 ∧
      s'.g = 4 ∧ s'.eg = 4 := by
  unfold base at h
  have := ha.ext
  simp at this
  simp only [readIn]
  rw [h]
  simp [this, pbSize]

theorem flat_length {E : β → List α} (k : Nat) : ∀ fs : List β, (∀ c ∈ fs, (E c).length = k) → (fs.flatMap E).length = k * fs.length
  | [], _ => by simp
  | c :: fs, h => by
    rw [List.flatMap_cons, List.length_append, flat_length k fs (fun x hx => h x (by simp [hx])), h c (by simp),
      List.length_cons, Nat.mul_succ]; omega

theorem flat_ne {call : Nat → List α → Option (CallRes Unit α β)} {E : β → List α} {V : β → Prop} (D : Decodes call E V) :
    ∀ fs : List β, (∀ c ∈ fs, V c) → fs ≠ [] → fs.flatMap E ≠ []
  | [], _, h => absurd rfl h
  | c :: fs, h, _ => by simp; intro h0; exact absurd h0 (D.ne c (h c (by simp)))

theorem flat_le {call : Nat → List α → Option (CallRes Unit α β)} {E : β → List α} {V : β → Prop} (D : Decodes call E V) :
    ∀ fs : List β, (∀ c ∈ fs, V c) → fs.length ≤ (fs.flatMap E).length
  | [], _ => by simp
  | c :: fs, h => by
    have := flat_le D fs (fun x hx => h x (by simp [hx]))
    have h1 : 0 < (E c).length := List.length_pos_iff.mpr (D.ne c (h c (by simp)))
    simp only [List.flatMap_cons, List.length_cons, List.length_append]; omega

theorem readIn_block [Inhabited β] {call : Nat → List α → Option (CallRes Unit α β)} {E : β → List α} {V : β → Prop}
    (D : Decodes call E V) {wide n : Nat} {s : In α β} {fs b : List β} (ha : At E V s fs) (hf : fs ≠ [])
    (h : copyBack wide (base s) s.eback s.g = some b) (hn : s.ext.length + fs.length < n) :
    ∃ s' r ms gs, readIn call wide n s = .done (s', r + 1) ∧ fs = ms ++ gs ∧ ms ≠ [] ∧ s'.g = 4 ∧ s'.eg = 4 + ms.length ∧
      s'.eback = 4 - min (s.g - s.eback) 4 ∧ s'.buf.take (4 + ms.length) = b.take 4 ++ ms ∧ 1028 ≤ s'.buf.length ∧
      At E V { s' with g := s'.eg } gs ∧ (s.ext.length ≤ 1024 → ms = fs) ∧
      (∀ k m, (k = 1 ∧ m = 1024) ∨ (k = 2 ∧ m = 512) → (∀ c ∈ fs, (E c).length = k) → ms = fs.take m) := by
  have hbl := base_length ha
  have hcl := copyBack_length h
  unfold base at h
  have hext : s.ext ≠ [] := by rw [ha.ext]; exact flat_ne D fs ha.ok hf
  have hxl : 0 < s.ext.length := List.length_pos_iff.mpr hext
  have heof : s.eof = false := by
    cases he : s.eof with
    | false => rfl
    | true => exact absurd (ha.eof he) hext
  obtain ⟨ds, es, t, h1, h2, h3, h4⟩ := split_at (E := E) fs 1024
  rw [← ha.ext] at h2 h4
  obtain ⟨ht3, htx⟩ := frag_short D (fun c hc => ha.ok c (by rw [h1]; simp [hc])) h3 _ h4
  have htk : s.ext.take 1024 ≠ [] := by
    intro h0; have := congrArg List.length h0
    rw [List.length_take, List.length_nil] at this; omega
  have htd : t ≠ [] → (s.ext.take 1024).length = 1024 := by
    intro h0
    have : 0 < (s.ext.drop 1024).length := List.length_pos_iff.mpr (htx h0)
    rw [List.length_drop] at this
    rw [List.length_take]; omega
  obtain ⟨buf', ms, gs, ext', res', g1, g2, g3, g4, g5, g6, g7, g8, g9⟩ := fill_good D n (s.ext.drop 1024)
    (s.ext.take 1024).length b 0 ds es t (b.take 4) (fun c hc => ha.ok c (by rw [h1]; exact hc)) h3 h4 (by omega) (by simp)
    (fun h0 => by rw [htd h0]; omega) (List.length_pos_iff.mpr htk) (by rw [← h1, List.length_drop]; omega)
  obtain ⟨r, rfl⟩ : ∃ r, res' = r + 1 := ⟨res' - 1, by omega⟩
  have hms : ms ≠ [] := by
    by_cases h0 : t = []
    · rw [g8 h0]
      rintro rfl
      rw [h0] at h2
      exact htk h2
    · have := g9 h0
      rintro rfl
      simp at this
  refine ⟨⟨ext', decide (s.ext.drop 1024 = []), buf', 4 - min (s.g - s.eback) 4, 4, 4 + ms.length⟩, r, ms, gs, ?_, ?_, hms,
    rfl, rfl, rfl, by simpa using g5, by show 1028 ≤ buf'.length; omega, ⟨rfl, g4.symm, ?_, ?_, .inr (by show 1028 ≤ buf'.length; omega), by
      show 4 + ms.length ≤ buf'.length; omega⟩, ?_, ?_⟩
  · simp only [readIn]
    rw [h]
    simp only [heof, Bool.false_eq_true, if_false, bufferSize, pbSize, htk]
    rw [h2] at g1 ⊢
    rw [g1]
    simp
  · rw [h1, g3]
  · intro c hc; exact ha.ok c (by rw [h1, g3]; simp [hc])
  · intro he
    show ext' = []
    simp only [decide_eq_true_eq] at he
    have ht : t = [] := Classical.byContradiction fun h0 => htx h0 he
    rw [g8 ht] at g3
    have := List.append_cancel_left g3
    rw [← this] at g4
    rw [← g4, h4, ht, he]; rfl
  · intro hle
    have hd : s.ext.drop 1024 = [] := List.drop_of_length_le hle
    have ht : t = [] := Classical.byContradiction fun h0 => htx h0 hd
    have : es = [] := Classical.byContradiction fun h0 => by
      refine flat_ne D es (fun c hc => ha.ok c (by rw [h1]; simp [hc])) h0 ?_
      rw [h4, ht, hd]; rfl
    rw [g8 ht, h1, this]; simp
  · intro k m hkm hk
    have l1 := congrArg List.length h2
    have l0 : s.ext.length = k * fs.length := by rw [ha.ext]; exact flat_length k fs hk
    have l2 : (ds.flatMap E).length = k * ds.length := flat_length k ds (fun c hc => hk c (by rw [h1]; simp [hc]))
    have l3 := congrArg List.length h1
    rw [List.length_append, l2, List.length_take, l0] at l1
    rw [List.length_append] at l3
    have ht : t = [] := by
      refine Classical.byContradiction fun h0 => ?_
      have h5 := htd h0
      rw [List.length_take, l0] at h5
      have h6 : 0 < t.length := List.length_pos_iff.mpr h0
      have h7 : t.length < k := by
        rcases h3 with h3 | ⟨c, es', u, he, hu, hc⟩
        · exact absurd h3 h0
        · have := hk c (by rw [h1, he]; simp)
          rw [hc, List.length_append] at this
          have : 0 < u.length := List.length_pos_iff.mpr hu
          omega
      rcases hkm with ⟨rfl, rfl⟩ | ⟨rfl, rfl⟩ <;> omega
    rw [g8 ht]
    rw [ht] at l1
    have h9 : fs.take ds.length = ds := by rw [h1]; simp
    by_cases hc : fs.length ≤ m
    · have h8 : ds.length = fs.length := by
        rcases hkm with ⟨rfl, rfl⟩ | ⟨rfl, rfl⟩ <;> simp at l1 <;> omega
      rw [List.take_of_length_le hc]
      rw [h8, List.take_length] at h9
      exact h9.symm
    · have h8 : ds.length = m := by
        rcases hkm with ⟨rfl, rfl⟩ | ⟨rfl, rfl⟩ <;> simp at l1 <;> omega
      rw [← h8, h9]

/-- These characters, then the others. -/
def Res.after {γ : Type} (xs : List γ) : Res (List γ) → Res (List γ)
  | .done ys => .done (xs ++ ys)
  | .undefined => .undefined
  | .more => .more

theorem drain [Inhabited β] (call : Nat → List α → Option (CallRes Unit α β)) (wide : Nat) : ∀ (k n : Nat) (s : In α β),
    s.g + k = s.eg → s.eg ≤ s.buf.length →
    readAll call wide (k + n) s = Res.after ((s.buf.drop s.g).take k) (readAll call wide n { s with g := s.eg }) := by
  intro k
  induction k with
  | zero =>
    intro n s h1 h2
    rw [Nat.zero_add]
    have : s = { s with g := s.eg } := by cases s; simp at h1 ⊢; exact h1
    rw [← this]
    cases readAll call wide n s <;> simp [Res.after]
  | succ k ih =>
    intro n s h1 h2
    rw [show k + 1 + n = (k + n) + 1 by omega, readAll]
    simp only [sbumpc, show s.g < s.eg by omega, if_true]
    rw [ih n { s with g := s.g + 1 } (by show s.g + 1 + k = s.eg; omega) h2]
    have hd : s.buf.drop s.g = s.buf.getD s.g default :: s.buf.drop (s.g + 1) := by
      rw [List.drop_eq_getElem_cons (by omega)]
      simp [List.getD_eq_getElem?_getD, List.getElem?_eq_getElem (show s.g < s.buf.length by omega)]
    rw [hd, List.take_succ_cons]
    cases readAll call wide n { s with g := s.eg } <;> rfl

theorem readAll_undefined [Inhabited β] {call : Nat → List α → Option (CallRes Unit α β)} {wide n : Nat} {s : In α β}
    (hg : s.g = s.eg) (h : copyBack wide (base s) s.eback s.g = none) : readAll call wide (n + 1) s = .undefined := by
  rw [readAll]
  simp only [sbumpc, show ¬ s.g < s.eg by omega, if_false, readIn_undefined (call := call) (n := n) h]

theorem readAll_end [Inhabited β] {call : Nat → List α → Option (CallRes Unit α β)} {E : β → List α} {V : β → Prop}
    {wide n : Nat} {s : In α β} {b : List β} (ha : At E V s []) (h : copyBack wide (base s) s.eback s.g = some b) :
    readAll call wide (n + 1) s = .done [] := by
  obtain ⟨s', h', _⟩ := readIn_end (call := call) (n := n) ha h
  have := ha.g
  rw [readAll]
  simp only [sbumpc, show ¬ s.g < s.eg by omega, if_false, h']

theorem readAll_block [Inhabited β] {call : Nat → List α → Option (CallRes Unit α β)} {E : β → List α} {V : β → Prop}
    (D : Decodes call E V) {wide n : Nat} {s : In α β} {fs b : List β} (ha : At E V s fs) (hf : fs ≠ [])
    (h : copyBack wide (base s) s.eback s.g = some b) (hn : s.ext.length + fs.length + 1 < n) :
    ∃ s' ms gs, readAll call wide n s = Res.after ms (readAll call wide (n - ms.length) s') ∧
      fs = ms ++ gs ∧ ms ≠ [] ∧ s'.g = 4 + ms.length ∧ s'.eback = 4 - min (s.g - s.eback) 4 ∧ 1028 ≤ s'.buf.length ∧
      At E V s' gs ∧ (s.ext.length ≤ 1024 → ms = fs) ∧
      (∀ k m, (k = 1 ∧ m = 1024) ∨ (k = 2 ∧ m = 512) → (∀ c ∈ fs, (E c).length = k) → ms = fs.take m) := by
  obtain ⟨n, rfl⟩ : ∃ n', n = n' + 1 := ⟨n - 1, by omega⟩
  obtain ⟨s', r, ms, gs, h1, h2, h3, h4, h5, h6, h7, h8, h9, h10, h11⟩ := readIn_block D (n := n) ha hf h (by omega)
  refine ⟨{ s' with g := s'.eg }, ms, gs, ?_, h2, h3, h5, h6, h8, h9, h10, h11⟩
  have hm : 0 < ms.length := List.length_pos_iff.mpr h3
  have hml : ms.length ≤ fs.length := by rw [h2]; simp
  have hg := ha.g
  have e1 : readAll call wide (n + 1) s = readAll call wide (n + 1) s' := by
    rw [readAll, readAll]
    simp only [sbumpc, show ¬ s.g < s.eg by omega, if_false, h1, show s'.g < s'.eg by omega, if_true]
  rw [e1]
  have := drain call wide ms.length (n + 1 - ms.length) s' (by omega) h9.le
  rw [show ms.length + (n + 1 - ms.length) = n + 1 by omega] at this
  rw [this]
  congr 1
  have hb4 : (b.take 4).length = 4 := by
    have := copyBack_length h
    have := base_length ha
    rw [List.length_take]; omega
  have e2 := congrArg (List.drop 4) h7
  rw [List.drop_take, List.drop_append, hb4, List.drop_of_length_le (l := b.take 4) (i := 4) (by omega),
    show 4 + ms.length - 4 = ms.length by omega] at e2
  rw [h4, e2]
  simp

/-- Reading all of it is right, or undefined. -/
theorem readAll_good [Inhabited β] {call : Nat → List α → Option (CallRes Unit α β)} {E : β → List α} {V : β → Prop}
    (D : Decodes call E V) (wide : Nat) : ∀ (l : Nat) (fs : List β) (s : In α β) (n : Nat), fs.length ≤ l → At E V s fs →
      s.ext.length + 2 * fs.length + 1 < n → readAll call wide n s = .done fs ∨ readAll call wide n s = .undefined := by
  intro l
  induction l with
  | zero =>
    intro fs s n hl ha hn
    obtain ⟨n, rfl⟩ : ∃ n', n = n' + 1 := ⟨n - 1, by omega⟩
    have : fs = [] := List.length_eq_zero_iff.mp (by omega)
    subst this
    cases h : copyBack wide (base s) s.eback s.g with
    | none => right; exact readAll_undefined ha.g h
    | some b => left; exact readAll_end ha h
  | succ l ih =>
    intro fs s n hl ha hn
    cases h : copyBack wide (base s) s.eback s.g with
    | none =>
      obtain ⟨n, rfl⟩ : ∃ n', n = n' + 1 := ⟨n - 1, by omega⟩
      right; exact readAll_undefined ha.g h
    | some b =>
      by_cases hf : fs = []
      · subst hf
        obtain ⟨n, rfl⟩ : ∃ n', n = n' + 1 := ⟨n - 1, by omega⟩
        left; exact readAll_end ha h
      · obtain ⟨s', ms, gs, h1, h2, h3, h4, h5, h6, h7, _⟩ := readAll_block D (n := n) ha hf h (by omega)
        have hm : 0 < ms.length := List.length_pos_iff.mpr h3
        have hl2 := congrArg List.length h2
        rw [List.length_append] at hl2
        have hx : s'.ext.length ≤ s.ext.length := by rw [h7.ext, ha.ext, h2]; simp
        rw [h1]
        rcases ih gs s' (n - ms.length) (by omega) h7 (by omega) with h8 | h8
        · left; rw [h8, h2]; rfl
        · right; rw [h8]; rfl

/-- When the copy of the last characters is undefined. -/
theorem copyBack_none {wide : Nat} {buf : List β} {eback g : Nat} (hb : 1028 ≤ buf.length) (hw : wide ≤ 4) :
    copyBack wide buf eback g = none ↔ 0 < min (g - eback) 4 ∧ (g < min (g - eback) 4 * wide ∨
      (g - min (g - eback) 4 * wide < (4 - min (g - eback) 4) * wide + min (g - eback) 4 ∧
        (4 - min (g - eback) 4) * wide < g - min (g - eback) 4 * wide + min (g - eback) 4)) := by
  unfold copyBack pbSize
  dsimp only
  have hp : min (g - eback) 4 ≤ 4 := Nat.min_le_right _ _
  generalize min (g - eback) 4 = pb at *
  have hx : (4 - pb) * wide + pb ≤ 20 := by
    have := Nat.mul_le_mul (Nat.sub_le 4 pb) hw
    omega
  by_cases h0 : pb = 0
  · simp [h0]
  · rw [if_neg h0]
    by_cases h1 : g < pb * wide
    · simp [h1]; omega
    · rw [if_neg h1, if_neg (by omega)]
      by_cases h2 : g - pb * wide < (4 - pb) * wide + pb ∧ (4 - pb) * wide < g - pb * wide + pb
      · rw [if_pos h2]; simp only [true_iff]; exact ⟨by omega, .inr h2⟩
      · rw [if_neg h2]
        simp only [reduceCtorEq, false_iff]
        rintro ⟨_, h | h⟩
        · exact h1 h
        · exact h2 h

theorem base_at [Inhabited β] {s : In α β} (h : 1028 ≤ s.buf.length) : base s = s.buf := by
  unfold base; rw [if_neg (by omega)]

/-- From the second block on. -/
theorem readAll_later [Inhabited β] {call : Nat → List α → Option (CallRes Unit α β)} {E : β → List α} {V : β → Prop}
    (D : Decodes call E V) {wide k m : Nat} (h0 : 0 < wide) (hw : wide ≤ 4) (hkm : (k = 1 ∧ m = 1024) ∨ (k = 2 ∧ m = 512)) :
    ∀ (l : Nat) (fs : List β) (s : In α β) (n : Nat), fs.length ≤ l → At E V s fs → (∀ c ∈ fs, (E c).length = k) →
      min (s.g - s.eback) 4 = 4 → 4 + 4 * wide ≤ s.g → 1028 ≤ s.buf.length → s.ext.length + 2 * fs.length + 1 < n →
      readAll call wide n s = if 0 < fs.length % m ∧ fs.length % m < 4 * wide then .undefined else .done fs := by
  intro l
  induction l with
  | zero =>
    intro fs s n hl ha hk hp hg hb hn
    obtain ⟨n, rfl⟩ : ∃ n', n = n' + 1 := ⟨n - 1, by omega⟩
    have : fs = [] := List.length_eq_zero_iff.mp (by omega)
    subst this
    cases h : copyBack wide (base s) s.eback s.g with
    | none =>
      rw [base_at hb, copyBack_none hb hw, hp] at h
      omega
    | some b => rw [readAll_end ha h]; simp
  | succ l ih =>
    intro fs s n hl ha hk hp hg hb hn
    cases h : copyBack wide (base s) s.eback s.g with
    | none =>
      rw [base_at hb, copyBack_none hb hw, hp] at h
      omega
    | some b =>
      by_cases hf : fs = []
      · subst hf
        obtain ⟨n, rfl⟩ : ∃ n', n = n' + 1 := ⟨n - 1, by omega⟩
        rw [readAll_end ha h]; simp
      · obtain ⟨s', ms, gs, h1, h2, h3, h4, h5, h6, h7, _, h9⟩ := readAll_block D (n := n) ha hf h (by omega)
        have hm : 0 < ms.length := List.length_pos_iff.mpr h3
        have hl2 := congrArg List.length h2
        rw [List.length_append] at hl2
        have hx : s'.ext.length ≤ s.ext.length := by rw [h7.ext, ha.ext, h2]; simp
        have hms := congrArg List.length (h9 k m hkm hk)
        rw [List.length_take] at hms
        rw [hp] at h5
        rw [h1]
        by_cases hlt : m ≤ fs.length
        · have hml : ms.length = m := by omega
          have hm16 : 512 ≤ m := by omega
          rw [ih gs s' (n - ms.length) (by omega) h7 (fun c hc => hk c (by rw [h2]; simp [hc])) (by omega) (by omega) h6
            (by omega)]
          have : gs.length % m = fs.length % m := by
            rw [hl2, hml, Nat.add_mod_left]
          rw [this]
          split
          · rfl
          · rw [h2]; rfl
        · have hgs : gs = [] := List.length_eq_zero_iff.mp (by omega)
          subst hgs
          simp at hl2
          have hmod : fs.length % m = fs.length := Nat.mod_eq_of_lt (by omega)
          rw [hmod]
          by_cases hb2 : fs.length < 4 * wide
          · rw [if_pos ⟨by omega, hb2⟩]
            obtain ⟨q, hq⟩ : ∃ q, n - ms.length = q + 1 := ⟨n - ms.length - 1, by omega⟩
            have hnone : copyBack wide (base s') s'.eback s'.g = none := by
              rw [base_at h6, copyBack_none h6 hw, show min (s'.g - s'.eback) 4 = 4 by omega]
              omega
            rw [hq, readAll_undefined h7.g hnone]; rfl
          · rw [if_neg (by omega), ih [] s' (n - ms.length) (by simp) h7 (by simp) (by omega) (by omega) h6 (by
              simp; omega)]
            simp [Res.after, h2]

/-- The copy after a first block of `l` characters is undefined. -/
def Few : Nat → Nat → Prop
  | 1, _ => False
  | 2, l => 3 ≤ l ∧ l ≤ 7
  | _, l => 2 ≤ l ∧ l ≤ 15

theorem first_none {buf : List β} {wide l : Nat} (hb : 1028 ≤ buf.length) (hw : wide = 1 ∨ wide = 2 ∨ wide = 4) :
    copyBack wide buf 4 (4 + l) = none ↔ Few wide l := by
  rw [copyBack_none hb (by omega), show 4 + l - 4 = l by omega]
  have f1 : Few 1 l ↔ False := Iff.rfl
  have f2 : Few 2 l ↔ 3 ≤ l ∧ l ≤ 7 := Iff.rfl
  have f4 : Few 4 l ↔ 2 ≤ l ∧ l ≤ 15 := Iff.rfl
  by_cases h : l ≤ 3
  · rw [show min l 4 = l by omega]
    rcases hw with rfl | rfl | rfl
    · rw [f1, iff_false]; simp only [Nat.mul_one]; omega
    · rw [f2]; omega
    · rw [f4]; omega
  · rw [show min l 4 = 4 by omega]
    rcases hw with rfl | rfl | rfl
    · rw [f1, iff_false]; simp only [Nat.mul_one]; omega
    · rw [f2]; omega
    · rw [f4]; omega

theorem at_start {E : β → List α} {V : β → Prop} (fs : List β) (h : ∀ c ∈ fs, V c) :
    At E V { ext := fs.flatMap E } fs :=
  ⟨rfl, rfl, h, by simp, .inl ⟨rfl, rfl, rfl⟩, by simp⟩

theorem start_copy [Inhabited β] (wide : Nat) (ext : List α) :
    copyBack wide (base ({ ext := ext } : In α β)) 0 0 = some (base ({ ext := ext } : In α β)) := by
  simp [copyBack]

/-- Content of at most one block, or of characters of one size. -/
theorem readAll_first [Inhabited β] {call : Nat → List α → Option (CallRes Unit α β)} {E : β → List α} {V : β → Prop}
    (D : Decodes call E V) {wide : Nat} (hw : wide = 1 ∨ wide = 2 ∨ wide = 4) (fs : List β) (n : Nat)
    (hV : ∀ c ∈ fs, V c) (hl : (fs.flatMap E).length ≤ 1024) (hn : (fs.flatMap E).length + 2 * fs.length + 1 < n) :
    (Few wide fs.length → readAll call wide n { ext := fs.flatMap E } = .undefined) ∧
    (¬ Few wide fs.length → readAll call wide n { ext := fs.flatMap E } = .done fs) := by
  have ha := at_start (E := E) fs hV
  by_cases hf : fs = []
  · subst hf
    obtain ⟨n, rfl⟩ : ∃ n', n = n' + 1 := ⟨n - 1, by omega⟩
    refine ⟨fun h => ?_, fun _ => readAll_end ha (start_copy wide _)⟩
    rcases hw with rfl | rfl | rfl <;> simp [Few] at h
  · obtain ⟨s', ms, gs, h1, h2, h3, h4, h5, h6, h7, h8, _⟩ := readAll_block D (n := n) ha hf (start_copy wide _) (by
      show (fs.flatMap E).length + fs.length + 1 < n; omega)
    have h8 := h8 hl
    subst h8
    have : gs = [] := by simpa using h2
    subst this
    have hle := flat_le D ms hV
    obtain ⟨q, hq⟩ : ∃ q, n - ms.length = q + 1 := ⟨n - ms.length - 1, by omega⟩
    have h5 : s'.eback = 4 := by simpa using h5
    rw [h1, hq]
    refine ⟨fun h => ?_, fun h => ?_⟩
    · rw [readAll_undefined h7.g (by rw [base_at h6, h5, h4]; exact (first_none h6 hw).mpr h)]; rfl
    · cases hc : copyBack wide (base s') s'.eback s'.g with
      | none =>
        rw [base_at h6, h5, h4] at hc
        exact absurd ((first_none h6 hw).mp hc) h
      | some b => rw [readAll_end h7 hc]; simp [Res.after]

theorem readAll_fixed [Inhabited β] {call : Nat → List α → Option (CallRes Unit α β)} {E : β → List α} {V : β → Prop}
    (D : Decodes call E V) {wide k m : Nat} (hw : wide = 1 ∨ wide = 2 ∨ wide = 4)
    (hkm : (k = 1 ∧ m = 1024) ∨ (k = 2 ∧ m = 512)) (fs : List β) (n : Nat) (hV : ∀ c ∈ fs, V c)
    (hk : ∀ c ∈ fs, (E c).length = k) (hl : m < fs.length) (hn : (fs.flatMap E).length + 2 * fs.length + 1 < n) :
    readAll call wide n { ext := fs.flatMap E } =
      if 0 < fs.length % m ∧ fs.length % m < 4 * wide then .undefined else .done fs := by
  have ha := at_start (E := E) fs hV
  have hf : fs ≠ [] := by rintro rfl; simp at hl
  obtain ⟨s', ms, gs, h1, h2, h3, h4, h5, h6, h7, _, h9⟩ := readAll_block D (n := n) ha hf (start_copy wide _) (by
    show (fs.flatMap E).length + fs.length + 1 < n; omega)
  have hl2 := congrArg List.length h2
  rw [List.length_append] at hl2
  have hms := congrArg List.length (h9 k m hkm hk)
  rw [List.length_take] at hms
  have h5 : s'.eback = 4 := by simpa using h5
  have hx : s'.ext.length ≤ (fs.flatMap E).length := by rw [h7.ext, h2]; simp
  rw [h1, readAll_later D (by omega) (by omega) hkm gs.length gs s' (n - ms.length) (Nat.le_refl _) h7
    (fun c hc => hk c (by rw [h2]; simp [hc])) (by omega) (by omega) h6 (by omega)]
  have : gs.length % m = fs.length % m := by
    rw [hl2, show ms.length = m by omega, Nat.add_mod_left]
  rw [this]
  split
  · rfl
  · rw [h2]; rfl

end Verif.ConvertAdaptor
