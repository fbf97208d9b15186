import Verif.Lemmas.Text
set_option autoImplicit false
/-!
# C11, C12, C53: escaping and white space
-/
namespace Verif.Props.Text
open Verif.Text Verif.Spec

/-- C11: character data written through the text escaper is character data for the original text
and for no other text; it has no raw `<` or `>`. -/
theorem C11_text (t : List Char) :
    Text.ReadsText (textEscape t) t ∧ (∀ t', Text.ReadsText (textEscape t) t' → t' = t) ∧
    '<' ∉ textEscape t ∧ '>' ∉ textEscape t := by
  refine ⟨text_reads t, fun t' h => readsText_unique _ _ _ h (text_reads t), ?_, ?_⟩
  · induction t with
    | nil => simp [textEscape]
    | cons c cs ih =>
      unfold textEscape textEscape1
      repeat' split
      all_goals simp_all [eq_comm]
  · induction t with
    | nil => simp [textEscape]
    | cons c cs ih =>
      unfold textEscape textEscape1
      repeat' split
      all_goals simp_all [eq_comm]

/-- C11: an attribute value written through the attribute escaper is read back as exactly the
original value, white space and quotes included; it has no raw `<`, `"`, tab or line end. -/
theorem C11_attribute (t : List Char) :
    Text.ReadsAttr (attributeEscape t) t ∧ (∀ t', Text.ReadsAttr (attributeEscape t) t' → t' = t) ∧
    ∀ c ∈ attributeEscape t, c ≠ '<' ∧ c ≠ '"' ∧ c ≠ '\t' ∧ c ≠ '\n' ∧ c ≠ '\r' := by
  refine ⟨attr_reads t, fun t' h => readsAttr_unique _ _ _ h (attr_reads t), ?_⟩
  induction t with
  | nil => simp [attributeEscape]
  | cons c cs ih =>
    unfold attributeEscape attributeEscape1 textEscape1
    repeat' split
    all_goals
      intro d hd
      simp at hd
      rcases hd with hd | hd
      all_goals first
        | exact ih d hd
        | (subst hd; simp_all)
        | (rcases hd with rfl | rfl | rfl | rfl | rfl | hd <;> first | exact ih d hd | simp)
        | (rcases hd with rfl | rfl | rfl | rfl | hd <;> first | exact ih d hd | simp)
        | (rcases hd with rfl | rfl | rfl | hd <;> first | exact ih d hd | simp)

example : textEscape "a<b && \"c\" &amp;".toList = "a&lt;b &amp;&amp; \"c\" &amp;amp;".toList ∧
    attributeEscape "a\"b\n<".toList = "a&quot;b&#xA;&lt;".toList := by decide +kernel

/-- C11, both escapers are injective: different texts are written differently. -/
theorem C11_injective (t u : List Char) :
    (textEscape t = textEscape u → t = u) ∧ (attributeEscape t = attributeEscape u → t = u) :=
  ⟨fun h => readsText_unique (textEscape t) _ _ (text_reads t) (h ▸ text_reads u),
   fun h => readsAttr_unique (attributeEscape t) _ _ (attr_reads t) (h ▸ attr_reads u)⟩

theorem eol_id : ∀ (s : List Char), '\r' ∉ s → Text.eol s = s
  | [], _ => rfl
  | c :: s, h => by
    simp at h
    have := eol_id s h.2
    unfold Text.eol
    split
    · rename_i heq; simp at heq
    · rename_i heq; simp at heq; exact absurd heq.1.symm h.1
    · rename_i heq; simp at heq; exact absurd heq.1.symm h.1
    · rename_i heq; simp at heq; obtain ⟨rfl, rfl⟩ := heq; rw [this]

theorem textEscape_cr (t : List Char) : '\r' ∈ textEscape t ↔ '\r' ∈ t := by
  induction t with
  | nil => simp [textEscape]
  | cons c cs ih =>
    unfold textEscape textEscape1
    repeat' split
    all_goals simp_all

/-- C53 (partial): text without carriage returns survives a conforming reader, line end handling
included. Missing: text with carriage returns, for which it is false (`C53_violated`). -/
theorem C53_partial (t : List Char) (h : '\r' ∉ t) :
    Text.ReadsText (Text.eol (textEscape t)) t := by
  rw [eol_id _ (fun hc => h ((textEscape_cr t).mp hc))]
  exact text_reads t

/-- C53 for attribute values: every value survives, line end handling included. -/
theorem C53_attribute (t : List Char) :
    Text.ReadsAttr (Text.eol (attributeEscape t)) t := by
  rw [eol_id _ (fun hc => ((C11_attribute t).2.2 _ hc).2.2.2.2 rfl)]
  exact attr_reads t

/-- C53 is false of the code: a carriage return in text is written raw and read back as a line
feed. -/
theorem C53_violated : ¬ ∀ t, Text.ReadsText (Text.eol (textEscape t)) t := by
  intro h
  have h1 := h ['\r']
  have h2 : Text.ReadsText (Text.eol (textEscape ['\r'])) ['\n'] :=
    .char _ _ _ (by decide) (by decide) .nil
  exact absurd (readsText_unique _ _ _ h1 h2) (by decide)

/-- C12: `normalize_whitespace`, working in place, never writes outside its buffer and returns the
words of the string joined by single spaces. -/
theorem C12_words (s : List Char) : inPlace s = some (Text.joinSpace (Text.words s)) := by
  rw [inPlace_eq, normalize_eq]

/-- C12: the words are the maximal runs of non-space characters: none is empty, none has a space,
and they are all that is left of the string when its spaces are dropped. -/
theorem C12_words_spec (s : List Char) :
    (∀ w ∈ Text.words s, w ≠ [] ∧ ∀ c ∈ w, Text.space c = false) ∧
    (Text.words s).flatten = s.filter (fun c => !Text.space c) := by
  refine ⟨words_good s, ?_⟩
  have hp : ∀ s, (Text.pieces s).flatten = s.filter (fun c => !Text.space c) := by
    intro s
    induction s with
    | nil => rfl
    | cons c cs ih =>
      unfold Text.pieces
      split
      · rename_i h; simp [h, ih]
      · rename_i h
        split
        · rename_i heq; exact absurd heq (pieces_ne cs)
        · rename_i w ws heq
          rw [heq] at ih
          simp at h ih
          simp [h, ih]
  have hf : ∀ l : List (List Char), (l.filter (fun w => !w.isEmpty)).flatten = l.flatten := by
    intro l
    induction l with
    | nil => rfl
    | cons w ws ih =>
      cases w with
      | nil => simpa using ih
      | cons a b => simp [ih]
  unfold Text.words
  rw [hf, hp]

/-- C12: idempotence. -/
theorem C12_idempotent (s r : List Char) (h : inPlace s = some r) : inPlace r = some r := by
  rw [C12_words] at h
  cases h
  rw [C12_words, words_join _ (words_good s)]

/-- C12: the result neither begins nor ends with a space and has no two spaces in a row; in fact its
only white space character is `' '`. -/
theorem C12_trimmed (s r : List Char) (h : inPlace s = some r) :
    r.length ≤ s.length ∧ (∀ c ∈ r, Text.space c = true → c = ' ') ∧
    (∀ c, r.head? = some c → Text.space c = false) ∧
    (∀ c, r.getLast? = some c → Text.space c = false) := by
  rw [C12_words] at h
  cases h
  have hg := words_good s
  have hw : ∀ ws : List (List Char), (∀ w ∈ ws, w ≠ [] ∧ ∀ c ∈ w, Text.space c = false) →
      (∀ c ∈ Text.joinSpace ws, Text.space c = true → c = ' ') ∧
      (∀ c, (Text.joinSpace ws).head? = some c → Text.space c = false) ∧
      (∀ c, (Text.joinSpace ws).getLast? = some c → Text.space c = false) := by
    intro ws
    induction ws with
    | nil => simp [Text.joinSpace]
    | cons w ws ih =>
      intro hw
      have h1 := hw w (by simp)
      cases ws with
      | nil =>
        simp only [Text.joinSpace]
        refine ⟨fun c hc hs => ?_, fun c hc => h1.2 c (List.mem_of_mem_head? hc),
          fun c hc => h1.2 c (List.mem_of_mem_getLast? hc)⟩
        have := h1.2 c hc; simp_all
      | cons v vs =>
        have ih := ih (fun x hx => hw x (List.mem_cons_of_mem _ hx))
        rw [Text.joinSpace]
        · refine ⟨fun c hc hs => ?_, fun c hc => ?_, fun c hc => ?_⟩
          · simp at hc
            rcases hc with hc | hc | hc
            · have := h1.2 c hc; simp_all
            · exact hc
            · exact ih.1 c hc hs
          · obtain ⟨a, b, rfl⟩ := List.exists_cons_of_ne_nil h1.1
            simp at hc; subst hc; exact h1.2 a (by simp)
          · rw [List.getLast?_append] at hc
            rw [List.getLast?_cons] at hc
            simp at hc
            cases hl : (Text.joinSpace (v :: vs)).getLast? with
            | none =>
              have hv := hw v (by simp)
              have : Text.joinSpace (v :: vs) = [] := by simpa using hl
              cases vs with
              | nil => simp [Text.joinSpace] at this; exact absurd this hv.1
              | cons a b =>
                rw [Text.joinSpace] at this
                · simp at this
                · simp
            | some d =>
              rw [hl] at hc; simp at hc; subst hc
              exact ih.2.2 d hl
        · simp
  refine ⟨?_, hw _ hg⟩
  have hlen : ∀ s : List Char, (Text.pieces s).flatten.length + ((Text.pieces s).length - 1) = s.length := by
    intro s
    induction s with
    | nil => rfl
    | cons c cs ih =>
      have hne := pieces_ne cs
      have : 0 < (Text.pieces cs).length := List.length_pos_iff.mpr hne
      unfold Text.pieces
      split
      · simp only [List.flatten_cons, List.nil_append, List.length_cons]; omega
      · split
        · rename_i heq; exact absurd heq hne
        · rename_i w ws heq
          rw [heq] at ih
          simp at ih ⊢; omega
  have hj : ∀ ws : List (List Char), (Text.joinSpace ws).length = ws.flatten.length + (ws.length - 1) := by
    intro ws
    induction ws with
    | nil => rfl
    | cons w ws ih =>
      cases ws with
      | nil => simp [Text.joinSpace]
      | cons v vs =>
        rw [Text.joinSpace]
        · simp only [List.length_append, List.length_cons, ih, List.flatten_cons]; omega
        · simp
  have h1 := hlen s
  rw [hj, (C12_words_spec s).2]
  have h2 : (Text.words s).length ≤ (Text.pieces s).length := List.length_filter_le _ _
  have h3 : (Text.pieces s).flatten = s.filter (fun c => !Text.space c) := by
    have := (C12_words_spec s).2
    rw [← this]
    unfold Text.words
    generalize Text.pieces s = l
    induction l with
    | nil => rfl
    | cons w ws ih =>
      cases w with
      | nil => simpa using ih
      | cons a b => simp [ih]
  rw [h3] at h1
  omega

example : inPlace "  a \t bc\n\n d ".toList = some "a bc d".toList ∧ inPlace " \n ".toList = some [] := by
  decide +kernel

end Verif.Props.Text
