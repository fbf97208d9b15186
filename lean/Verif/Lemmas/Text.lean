import Verif.Model.Text
import Verif.Spec.Text
set_option autoImplicit false
set_option linter.unusedSimpArgs false
set_option linter.unusedVariables false
namespace Verif.Text
open Verif.Spec

theorem isSpace_eq (c : Char) : isSpace c = Text.space c := by
  have h : ∀ (d : Char), ((c.toNat : Int) = (d.toNat : Int)) ↔ c = d := by
    intro d
    constructor
    · intro h
      have : c.toNat = d.toNat := by omega
      exact Char.toNat_inj.mp this
    · rintro rfl; rfl
  have h1 := h ' '; have h2 := h '\t'; have h3 := h '\n'; have h4 := h '\r'
  have e1 : ((' ').toNat : Int) = 0x20 := rfl
  have e2 : (('\t').toNat : Int) = 9 := rfl
  have e3 : (('\n').toNat : Int) = 10 := rfl
  have e4 : (('\r').toNat : Int) = 13 := rfl
  rw [e1] at h1; rw [e2] at h2; rw [e3] at h3; rw [e4] at h4
  unfold isSpace XmlChars.isSpace Text.space
  rw [Bool.eq_iff_iff]
  simp only [Bool.or_eq_true, beq_iff_eq, decide_eq_true_eq, h1, h2, h3, h4]
  constructor
  · rintro (((h | h) | h) | h) <;> simp [h]
  · rintro (((h | h) | h) | h) <;> simp [h]

/-! ## words -/

theorem pieces_ne : ∀ s, Text.pieces s ≠ []
  | [] => by simp [Text.pieces]
  | c :: cs => by
    unfold Text.pieces
    split
    · simp
    · split <;> simp

theorem words_skip (s : List Char) : Text.words (skipSpaces s) = Text.words s := by
  induction s with
  | nil => rfl
  | cons c cs ih =>
    unfold skipSpaces
    rw [isSpace_eq]
    split
    · rename_i h
      rw [ih]; simp [Text.words, Text.pieces, h]
    · rfl

theorem pieces_copy : ∀ s, ∃ ws, Text.pieces s = (copyWord s).1 :: ws ∧
    (ws.filter (fun w => !w.isEmpty)) = (match (copyWord s).2 with | [] => [] | _ :: r => Text.words r)
  | [] => ⟨[], by simp [Text.pieces, copyWord]⟩
  | c :: cs => by
    unfold copyWord Text.pieces
    rw [isSpace_eq]
    by_cases h : Text.space c = true
    · refine ⟨Text.pieces cs, ?_, ?_⟩ <;> simp [h, Text.words]
    · obtain ⟨ws, h1, h2⟩ := pieces_copy cs
      refine ⟨ws, ?_, ?_⟩
      · simp [h, h1]
      · simp [h, h2]

theorem copy_rest_space : ∀ s c r, (copyWord s).2 = c :: r → isSpace c = true
  | [], c, r, h => by simp [copyWord] at h
  | x :: xs, c, r, h => by
    unfold copyWord at h
    split at h
    · simp at h; rename_i hx; rw [← h.1]; exact hx
    · exact copy_rest_space xs c r (by simpa using h)

theorem skip_head : ∀ s c r, skipSpaces s = c :: r → isSpace c = false
  | [], c, r, h => by simp [skipSpaces] at h
  | x :: xs, c, r, h => by
    unfold skipSpaces at h
    split at h
    · exact skip_head xs c r h
    · rename_i hx; simp at h; rw [← h.1]; simpa using hx

theorem copyWord_ne (c : Char) (cs : List Char) (h : isSpace c = false) :
    (copyWord (c :: cs)).1 ≠ [] := by
  unfold copyWord; simp [h]

/-- words of a string that does not start with a space -/
theorem words_copy (c : Char) (cs : List Char) (h : isSpace c = false) :
    Text.words (c :: cs) = (copyWord (c :: cs)).1 :: Text.words (skipSpaces (copyWord (c :: cs)).2) := by
  obtain ⟨ws, h1, h2⟩ := pieces_copy (c :: cs)
  rw [words_skip]
  unfold Text.words
  rw [h1]
  have hne := copyWord_ne c cs h
  rw [List.filter_cons_of_pos (by simp [hne])]
  congr 1
  rw [h2]
  cases hr : (copyWord (c :: cs)).2 with
  | nil => simp [Text.pieces]
  | cons x r =>
    have := copy_rest_space _ _ _ hr
    rw [isSpace_eq] at this
    simp [Text.pieces, this, Text.words]

theorem words_nil_iff (s : List Char) : Text.words (skipSpaces s) = [] ↔ skipSpaces s = [] := by
  constructor
  · intro h
    cases hs : skipSpaces s with
    | nil => rfl
    | cons c cs =>
      rw [hs] at h
      rw [words_copy c cs (skip_head s c cs hs)] at h
      simp at h
  · intro h; rw [h]; rfl

theorem normalizeLoop_words : ∀ (n : Nat) (s : List Char), s.length ≤ n →
    (∀ c r, s = c :: r → isSpace c = false) →
    normalizeLoop s = Text.joinSpace (Text.words s)
  | _, [], _, _ => by simp [normalizeLoop]; rfl
  | 0, _ :: _, h, _ => by simp at h
  | n + 1, c :: cs, h, hs => by
    have h0 := hs c cs rfl
    rw [normalizeLoop, words_copy c cs h0]
    have hlt := step_length c cs
    have ih := normalizeLoop_words n (skipSpaces (copyWord (c :: cs)).2) (by omega)
      (fun d r hd => skip_head _ d r hd)
    cases hr : skipSpaces (copyWord (c :: cs)).2 with
    | nil =>
      have : Text.words [] = [] := rfl
      simp [hr, this, Text.joinSpace]
    | cons x r =>
      rw [hr] at ih
      simp only [List.isEmpty_cons, Bool.false_eq_true, if_false, ih]
      rw [words_copy x r (skip_head _ _ _ hr)]
      simp [Text.joinSpace]

theorem normalize_eq (s : List Char) :
    normalizeWhitespace s = Text.joinSpace (Text.words s) := by
  unfold normalizeWhitespace
  rw [normalizeLoop_words _ (skipSpaces s) (Nat.le_refl _) (fun c r h => skip_head s c r h), words_skip]

/-! words of joined words -/

theorem pieces_append_space (w t : List Char) (h : ∀ c ∈ w, Text.space c = false) :
    Text.pieces (w ++ ' ' :: t) = w :: Text.pieces t := by
  induction w with
  | nil => simp [Text.pieces, Text.space]
  | cons c w ih =>
    simp at h
    simp only [List.cons_append, Text.pieces, h.1]
    rw [ih h.2]; simp

theorem pieces_word (w : List Char) (h : ∀ c ∈ w, Text.space c = false) :
    Text.pieces w = [w] := by
  induction w with
  | nil => rfl
  | cons c w ih =>
    simp at h
    simp only [Text.pieces, h.1]
    rw [ih h.2]; simp

theorem words_join : ∀ (ws : List (List Char)), (∀ w ∈ ws, w ≠ [] ∧ ∀ c ∈ w, Text.space c = false) →
    Text.words (Text.joinSpace ws) = ws
  | [], _ => rfl
  | [w], h => by
    have := h w (by simp)
    unfold Text.words Text.joinSpace
    rw [pieces_word w this.2]; simp [this.1]
  | w :: w' :: ws, h => by
    have hw := h w (by simp)
    have ih := words_join (w' :: ws) (fun x hx => h x (List.mem_cons_of_mem _ hx))
    unfold Text.words at *
    rw [Text.joinSpace]
    · rw [pieces_append_space w _ hw.2, List.filter_cons_of_pos (by simp [hw.1]), ih]
    · simp

theorem pieces_nospace : ∀ s, ∀ w ∈ Text.pieces s, ∀ c ∈ w, Text.space c = false
  | [], w, hw, c, hc => by simp [Text.pieces] at hw; subst hw; simp at hc
  | x :: xs, w, hw, c, hc => by
    have ih := pieces_nospace xs
    unfold Text.pieces at hw
    split at hw
    · simp at hw
      rcases hw with hw | hw
      · subst hw; simp at hc
      · exact ih w hw c hc
    · rename_i hx
      split at hw
      · simp at hw; subst hw; simp at hc; subst hc; simpa using hx
      · rename_i w0 ws heq
        simp at hw
        rcases hw with hw | hw
        · subst hw
          simp at hc
          rcases hc with hc | hc
          · subst hc; simpa using hx
          · exact ih w0 (by rw [heq]; simp) c hc
        · exact ih w (by rw [heq]; simp [hw]) c hc

theorem words_good (s : List Char) : ∀ w ∈ Text.words s, w ≠ [] ∧ ∀ c ∈ w, Text.space c = false := by
  intro w hw
  unfold Text.words at hw
  simp at hw
  exact ⟨by simpa using hw.2, pieces_nospace s w hw.1⟩

/-! ## in place -/

theorem ipSkip_spec (buf : List Char) : ∀ (n i : Nat), buf.length - i = n → i ≤ buf.length →
    i ≤ ipSkip buf i ∧ ipSkip buf i ≤ buf.length ∧
    buf.drop (ipSkip buf i) = skipSpaces (buf.drop i) := by
  intro n
  induction n with
  | zero =>
    intro i hn hi
    have : ¬ i < buf.length := by omega
    rw [ipSkip, dif_neg this]
    refine ⟨Nat.le_refl _, hi, ?_⟩
    rw [List.drop_eq_nil_of_le (by omega)]; rfl
  | succ n ih =>
    intro i hn hi
    have hlt : i < buf.length := by omega
    rw [ipSkip, dif_pos hlt, List.drop_eq_getElem_cons hlt, skipSpaces]
    by_cases hs : isSpace buf[i] = true
    · rw [if_pos hs, if_pos hs]
      obtain ⟨h1, h2, h3⟩ := ih (i + 1) (by omega) (by omega)
      exact ⟨by omega, h2, h3⟩
    · rw [if_neg hs, if_neg hs, List.drop_eq_getElem_cons hlt]
      exact ⟨Nat.le_refl _, hi, rfl⟩

theorem ipCopy_spec : ∀ (n : Nat) (buf : List Char) (i p : Nat), buf.length - i = n →
    i ≤ buf.length → p ≤ i →
    let r := ipCopy buf i p
    let w := copyWord (buf.drop i)
    r.1.length = buf.length ∧ r.1.drop r.2.1 = w.2 ∧ r.1.take r.2.2 = buf.take p ++ w.1 ∧
    i ≤ r.2.1 ∧ r.2.1 ≤ buf.length ∧ r.2.2 + i = r.2.1 + p := by
  intro n
  induction n with
  | zero =>
    intro buf i p hn hi hp
    have : ¬ i < buf.length := by omega
    rw [ipCopy, dif_neg this]
    rw [List.drop_eq_nil_of_le (by omega)]
    simp [copyWord]; omega
  | succ n ih =>
    intro buf i p hn hi hp
    have hlt : i < buf.length := by omega
    rw [ipCopy, dif_pos hlt, List.drop_eq_getElem_cons hlt, copyWord]
    by_cases hs : isSpace buf[i] = true
    · simp only [hs, if_true]
      exact ⟨trivial, by rw [List.drop_eq_getElem_cons hlt], by simp, Nat.le_refl _, hi, by omega⟩
    · simp only [hs, if_false, Bool.false_eq_true]
      have := ih (buf.set p buf[i]) (i + 1) (p + 1) (by simp; omega) (by simp; omega) (by omega)
      obtain ⟨h1, h2, h3, h4, h5, h6⟩ := this
      have hd : (buf.set p buf[i]).drop (i + 1) = buf.drop (i + 1) := by
        rw [List.drop_set, if_pos (by omega)]
      have ht : (buf.set p buf[i]).take (p + 1) = buf.take p ++ [buf[i]] := by
        rw [List.take_succ]
        simp [List.getElem?_set, List.take_set_of_le, show p < buf.length by omega]
      rw [hd] at h2 h3
      rw [ht] at h3
      simp at h1 h5
      refine ⟨h1, h2, by rw [h3]; simp, by omega, by omega, by omega⟩

theorem ipLoop_spec : ∀ (n : Nat) (buf : List Char) (i p : Nat), buf.length - i ≤ n →
    i ≤ buf.length → p ≤ i → (∀ c r, buf.drop i = c :: r → isSpace c = false) →
    ∃ r, ipLoop n buf i p = some r ∧ r.1.take r.2 = buf.take p ++ normalizeLoop (buf.drop i) := by
  intro n
  induction n with
  | zero =>
    intro buf i p hn hi hp hs
    have : ¬ i < buf.length := by omega
    rw [ipLoop, if_neg this]
    rw [List.drop_eq_nil_of_le (by omega)]
    exact ⟨_, rfl, by simp [normalizeLoop]⟩
  | succ n ih =>
    intro buf i p hn hi hp hs
    rw [ipLoop]
    by_cases hlt : i < buf.length
    · rw [if_pos hlt]
      have hc := ipCopy_spec _ buf i p rfl hi hp
      rw [List.drop_eq_getElem_cons hlt] at hc hs ⊢
      rw [normalizeLoop]
      have hsp := hs _ _ rfl
      have hne := copyWord_ne _ (buf.drop (i+1)) hsp
      generalize hw : copyWord (buf[i] :: buf.drop (i + 1)) = w at *
      generalize hr : ipCopy buf i p = r at *
      obtain ⟨b, i1, p1⟩ := r
      simp only at hc ⊢
      obtain ⟨h1, h2, h3, h4, h5, h6⟩ := hc
      obtain ⟨k1, k2, k3⟩ := ipSkip_spec b _ i1 rfl (by omega)
      rw [h2] at k3
      have hlen : (b.take p1).length = (buf.take p ++ w.1).length := by rw [h3]
      simp at hlen
      have hw1 : 0 < w.1.length := List.length_pos_iff.mpr hne
      by_cases hend : ipSkip b i1 < b.length
      · rw [if_pos hend, if_pos (by omega)]
        have hd : (b.set p1 ' ').drop (ipSkip b i1) = b.drop (ipSkip b i1) ∨ ipSkip b i1 ≤ p1 := by
          by_cases h : p1 < ipSkip b i1
          · left; rw [List.drop_set, if_pos h]
          · right; omega
        -- the word was followed by at least one space
        have hgt : i1 < ipSkip b i1 := by
          cases hb : w.2 with
          | nil => rw [hb] at k3 h2; simp [skipSpaces] at k3; omega
          | cons c r =>
            have := copy_rest_space _ c r (by rw [hw]; exact hb)
            have hi1 : i1 < b.length := by
              have := congrArg List.length h2; rw [hb] at this; simp at this; omega
            have hget : b[i1] = c := by
              rw [List.drop_eq_getElem_cons hi1, hb] at h2; exact (List.cons.inj h2).1
            have := ipSkip_spec b _ (i1 + 1) rfl (by omega)
            rw [ipSkip, dif_pos hi1, hget, if_pos (by assumption)]
            omega
        have hd' : (b.set p1 ' ').drop (ipSkip b i1) = skipSpaces w.2 := by
          rw [← k3]; rcases hd with hd | hd
          · exact hd
          · omega
        have ht : (b.set p1 ' ').take (p1 + 1) = b.take p1 ++ [' '] := by
          rw [List.take_succ]
          simp [List.getElem?_set, List.take_set_of_le, show p1 < b.length by omega]
        obtain ⟨r, e1, e2⟩ := ih (b.set p1 ' ') (ipSkip b i1) (p1 + 1) (by simp; omega)
          (by simp; omega) (by omega) (by
            intro c r hcr; rw [hd'] at hcr; exact skip_head _ c r hcr)
        refine ⟨r, e1, ?_⟩
        rw [e2, hd', ht, h3]
        have : (skipSpaces w.2).isEmpty = false := by
          rw [← k3]
          cases hb : b.drop (ipSkip b i1) with
          | nil => have := congrArg List.length hb; simp at this; omega
          | cons => rfl
        simp [this]
      · rw [if_neg hend]
        refine ⟨_, rfl, ?_⟩
        have : skipSpaces w.2 = [] := by rw [← k3, List.drop_eq_nil_of_le (by omega)]
        simp [this, h3]
    · rw [if_neg hlt]
      rw [List.drop_eq_nil_of_le (by omega)]
      exact ⟨_, rfl, by simp [normalizeLoop]⟩

theorem inPlace_eq (s : List Char) : inPlace s = some (normalizeWhitespace s) := by
  obtain ⟨k1, k2, k3⟩ := ipSkip_spec s _ 0 rfl (by omega)
  obtain ⟨r, h1, h2⟩ := ipLoop_spec s.length s (ipSkip s 0) 0 (by omega) k2 (by omega) (by
    intro c r h; rw [k3] at h; exact skip_head _ c r h)
  unfold inPlace normalizeWhitespace
  rw [h1]
  simp [h2, k3]

/-! ## escaping -/

theorem isPrefix_append (p s : List Char) : p.isPrefixOf (p ++ s) = true := by
  simp

theorem readRef_lt (s : List Char) : Text.readRef ('&' :: 'l' :: 't' :: ';' :: s) = some ('<', s) := by
  simp [Text.readRef, Text.refs, List.isPrefixOf]
theorem readRef_gt (s : List Char) : Text.readRef ('&' :: 'g' :: 't' :: ';' :: s) = some ('>', s) := by
  simp [Text.readRef, Text.refs, List.isPrefixOf]
theorem readRef_amp (s : List Char) : Text.readRef ('&' :: 'a' :: 'm' :: 'p' :: ';' :: s) = some ('&', s) := by
  simp [Text.readRef, Text.refs, List.isPrefixOf]
theorem readRef_quot (s : List Char) :
    Text.readRef ('&' :: 'q' :: 'u' :: 'o' :: 't' :: ';' :: s) = some ('"', s) := by
  simp [Text.readRef, Text.refs, List.isPrefixOf]
theorem readRef_9 (s : List Char) :
    Text.readRef ('&' :: '#' :: 'x' :: '9' :: ';' :: s) = some ('\t', s) := by
  simp [Text.readRef, Text.refs, List.isPrefixOf]
theorem readRef_A (s : List Char) :
    Text.readRef ('&' :: '#' :: 'x' :: 'A' :: ';' :: s) = some ('\n', s) := by
  simp [Text.readRef, Text.refs, List.isPrefixOf]
theorem readRef_D (s : List Char) :
    Text.readRef ('&' :: '#' :: 'x' :: 'D' :: ';' :: s) = some ('\r', s) := by
  simp [Text.readRef, Text.refs, List.isPrefixOf]

theorem readRef_amp_only (s : List Char) (c : Char) (r : List Char) (h : Text.readRef s = some (c, r)) :
    s.head? = some '&' := by
  cases s with
  | nil => simp [Text.readRef, Text.refs, List.isPrefixOf] at h
  | cons x xs =>
    by_cases hx : x = '&'
    · simp [hx]
    · simp [Text.readRef, Text.refs, List.isPrefixOf, Ne.symm hx] at h

theorem text_reads (t : List Char) : Text.ReadsText (textEscape t) t := by
  induction t with
  | nil => exact .nil
  | cons c cs ih =>
    unfold textEscape textEscape1
    split
    · rename_i h; subst h; exact .ref _ _ _ _ (readRef_lt _) ih
    · split
      · rename_i h; subst h; exact .ref _ _ _ _ (readRef_gt _) ih
      · split
        · rename_i h; subst h; exact .ref _ _ _ _ (readRef_amp _) ih
        · rename_i h1 h2 h3
          exact .char c _ _ h1 h3 ih

theorem attr_reads (t : List Char) : Text.ReadsAttr (attributeEscape t) t := by
  induction t with
  | nil => exact .nil
  | cons c cs ih =>
    unfold attributeEscape attributeEscape1
    split
    · rename_i h; subst h; exact .ref _ _ _ _ (readRef_quot _) ih
    · split
      · rename_i h; subst h; exact .ref _ _ _ _ (readRef_9 _) ih
      · split
        · rename_i h; subst h; exact .ref _ _ _ _ (readRef_A _) ih
        · split
          · rename_i h; subst h; exact .ref _ _ _ _ (readRef_D _) ih
          · rename_i q1 q2 q3 q4
            unfold textEscape1
            split
            · rename_i h; subst h; exact .ref _ _ _ _ (readRef_lt _) ih
            · split
              · rename_i h; subst h; exact .ref _ _ _ _ (readRef_gt _) ih
              · split
                · rename_i h; subst h; exact .ref _ _ _ _ (readRef_amp _) ih
                · rename_i h1 h2 h3
                  exact .char c _ _ h1 h3 q1 q2 q3 q4 ih

/-- reading is a function -/
theorem readsText_unique : ∀ s t t', Text.ReadsText s t → Text.ReadsText s t' → t = t' := by
  intro s t t' h
  induction h generalizing t' with
  | nil =>
    intro h'; cases h' with
    | nil => rfl
    | ref c s r t hr h => exact absurd (readRef_amp_only _ _ _ hr) (by simp)
  | char c s t h1 h2 h3 ih =>
    intro h'; cases h' with
    | char _ _ t' _ _ h' => rw [ih t' h']
    | ref d _ r t' hr h' =>
      have := readRef_amp_only _ _ _ hr
      simp at this; exact absurd this h2
  | ref c s r t hr h ih =>
    intro h'; cases h' with
    | nil => exact absurd (readRef_amp_only _ _ _ hr) (by simp)
    | char d s' t' h1 h2 h' =>
      have := readRef_amp_only _ _ _ hr
      simp at this; exact absurd this h2
    | ref d _ r' t' hr' h' =>
      rw [hr] at hr'
      simp at hr'
      obtain ⟨rfl, rfl⟩ := hr'
      rw [ih t' h']

theorem readsAttr_unique : ∀ s t t', Text.ReadsAttr s t → Text.ReadsAttr s t' → t = t' := by
  intro s t t' h
  induction h generalizing t' with
  | nil =>
    intro h'; cases h' with
    | nil => rfl
    | ref c s r t hr h => exact absurd (readRef_amp_only _ _ _ hr) (by simp)
  | char c s t h1 h2 h3 h4 h5 h6 h7 ih =>
    intro h'; cases h' with
    | char _ _ t' _ _ _ _ _ _ h' => rw [ih t' h']
    | space _ _ t' hc h' => rcases hc with hc | hc | hc <;> contradiction
    | ref d _ r t' hr h' =>
      have := readRef_amp_only _ _ _ hr
      simp at this; exact absurd this h2
  | space c s t hc h ih =>
    intro h'; cases h' with
    | char _ _ t' _ _ _ _ _ _ h' => rcases hc with hc | hc | hc <;> contradiction
    | space _ _ t' hc h' => rw [ih t' h']
    | ref d _ r t' hr h' =>
      have := readRef_amp_only _ _ _ hr
      simp at this; subst this; rcases hc with hc | hc | hc <;> exact absurd hc (by decide)
  | ref c s r t hr h ih =>
    intro h'; cases h' with
    | nil => exact absurd (readRef_amp_only _ _ _ hr) (by simp)
    | char d s' t' h1 h2 _ _ _ _ h' =>
      have := readRef_amp_only _ _ _ hr
      simp at this; exact absurd this h2
    | space d s' t' hc h' =>
      have := readRef_amp_only _ _ _ hr
      simp at this; subst this; rcases hc with hc | hc | hc <;> exact absurd hc (by decide)
    | ref d _ r' t' hr' h' =>
      rw [hr] at hr'
      simp at hr'
      obtain ⟨rfl, rfl⟩ := hr'
      rw [ih t' h']

end Verif.Text
