import Verif.Spec.XmlReader
import Verif.Model.Text
set_option autoImplicit false
set_option linter.unusedSimpArgs false
set_option linter.unusedVariables false
/-!
# Reading what the serialisers write
-/
namespace Verif.XmlReader
open Verif.Spec.Xml Verif.Text

theorem run_nil (m : Mode) : run m [] = (m, []) := rfl

theorem run_cons (m : Mode) (c : Char) (s : Str) :
    run m (c :: s) = ((run (step m c).1 s).1, (step m c).2 ++ (run (step m c).1 s).2) := rfl

theorem run_append (a : Str) : ∀ (m : Mode) (b : Str),
    run m (a ++ b) = ((run (run m a).1 b).1, (run m a).2 ++ (run (run m a).1 b).2) := by
  induction a with
  | nil => intro m b; rfl
  | cons c a ih =>
    intro m b
    rw [List.cons_append, run_cons, run_cons, ih]
    simp

/-- Going on after a piece whose reading is known. -/
theorem run_then {m m' : Mode} {a : Str} {t : List Tok} (h : run m a = (m', t)) (b : Str) :
    run m (a ++ b) = ((run m' b).1, t ++ (run m' b).2) := by
  rw [run_append, h]

theorem run_step {m m' : Mode} {c : Char} {t : List Tok} (h : step m c = (m', t)) (b : Str) :
    run m (c :: b) = ((run m' b).1, t ++ (run m' b).2) := by
  rw [run_cons, h]

theorem run_trans {m m' m'' : Mode} {a b : Str} {t u : List Tok} (h : run m a = (m', t))
    (h2 : run m' b = (m'', u)) : run m (a ++ b) = (m'', t ++ u) := by
  rw [run_then h, h2]

def chars (s : Str) : List Tok := s.map .char

theorem chars_append (a b : Str) : chars (a ++ b) = chars a ++ chars b := by simp [chars]

/-- A name. -/
def Name (n : Str) : Prop := n ≠ [] ∧ ∀ c ∈ n, nameChar c = true

theorem nameChar_ne {c : Char} (h : nameChar c = true) :
    isWhite c = false ∧ c ≠ '/' ∧ c ≠ '>' ∧ c ≠ '<' ∧ c ≠ '=' ∧ c ≠ '"' ∧ c ≠ '&' ∧ c ≠ ';' ∧ c ≠ '#' ∧
    c ≠ '!' ∧ c ≠ '?' := by
  unfold nameChar at h
  simp only [Bool.and_eq_true, Bool.not_eq_true', List.contains_eq_mem, List.mem_cons, List.not_mem_nil,
    or_false, decide_eq_false_iff_not, not_or] at h
  obtain ⟨h1, h2, h3, h4, h5, h6, h7, h8, h9, h10, h11, h12⟩ := h
  exact ⟨h1, h2, h3, h4, h5, h6, h8, h9, h10, h11, h12⟩

/-! ## Text -/

theorem run_textEscape1 (c : Char) : run .content (textEscape1 c) = (.content, [.char c]) := by
  unfold textEscape1
  by_cases h1 : c = '<'
  · subst h1; decide +kernel
  · by_cases h2 : c = '>'
    · subst h2; decide +kernel
    · by_cases h3 : c = '&'
      · subst h3; decide +kernel
      · simp [h1, h2, h3, run, step]

theorem run_text (s : Str) : run .content (textEscape s) = (.content, chars s) := by
  induction s with
  | nil => rfl
  | cons c s ih => rw [textEscape, run_trans (run_textEscape1 c) ih]; rfl

theorem run_white (s : Str) (h : ∀ c ∈ s, isWhite c = true) : run .content s = (.content, chars s) := by
  induction s with
  | nil => rfl
  | cons c s ih =>
    have hc := h c List.mem_cons_self
    have h1 : c ≠ '<' := by intro hc'; subst hc'; exact absurd hc (by decide)
    have h2 : c ≠ '&' := by intro hc'; subst hc'; exact absurd hc (by decide)
    rw [run_cons, step, if_neg h1, if_neg h2, ih (fun d hd => h d (List.mem_cons_of_mem _ hd))]
    rfl

/-! ## Tags -/

theorem run_tagName (s : Str) (h : ∀ c ∈ s, nameChar c = true) : ∀ n, run (.tag n) s = (.tag (n ++ s), []) := by
  induction s with
  | nil => intro n; simp [run]
  | cons c s ih =>
    intro n
    obtain ⟨h0, h1, h2, h3, h4, h5, h6, h7, h8, h9, h10⟩ := nameChar_ne (h c List.mem_cons_self)
    rw [run_cons, step, if_neg h2, if_neg h1, h0, if_neg (by simp), if_pos (h c List.mem_cons_self),
      ih (fun d hd => h d (List.mem_cons_of_mem _ hd))]
    simp

/-- `<name`. -/
theorem run_open (n : Str) (h : Name n) : run .content ('<' :: n) = (.tag n, []) := by
  obtain ⟨h0, h⟩ := h
  cases n with
  | nil => exact (h0 rfl).elim
  | cons c n =>
    obtain ⟨_, h1, h2, h3, h4, h5, h6, h7, h8, h9, h10⟩ := nameChar_ne (h c List.mem_cons_self)
    rw [run_cons, step, if_pos rfl, run_cons, step, if_neg h1, if_neg h9, if_neg h10,
      if_pos (h c List.mem_cons_self), run_tagName n (fun d hd => h d (List.mem_cons_of_mem _ hd))]
    rfl

theorem run_closeName (s : Str) (h : ∀ c ∈ s, nameChar c = true) :
    ∀ n, run (.close n) s = (.close (n ++ s), []) := by
  induction s with
  | nil => intro n; simp [run]
  | cons c s ih =>
    intro n
    obtain ⟨h0, h1, h2, h3, h4, h5, h6, h7, h8, h9, h10⟩ := nameChar_ne (h c List.mem_cons_self)
    rw [run_cons, step, if_neg h2, if_pos (h c List.mem_cons_self),
      ih (fun d hd => h d (List.mem_cons_of_mem _ hd))]
    simp

/-- `</name>`. -/
theorem run_close (n : Str) (h : Name n) : run .content ('<' :: '/' :: n ++ ['>']) = (.content, [.close n]) := by
  have h1 : run .content ['<', '/'] = (.close [], []) := by decide +kernel
  have h2 := run_closeName n h.2 []
  have h3 : run (.close n) ['>'] = (.content, [.close n]) := by
    rw [run_cons, step, if_pos rfl, if_neg h.1]; rfl
  have := run_trans (run_trans h1 h2) h3
  simpa using this

/-- Where the reader is in a start tag, after its name and attributes. -/
def inTag (n : Str) (as : List (Str × Str)) : Mode := if as = [] then .tag n else .atts n as

theorem inTag_gt (n : Str) (as : List (Str × Str)) :
    run (inTag n as) ['>'] = (.content, [.open' n as]) := by
  unfold inTag
  by_cases h : as = []
  · subst h; rfl
  · rw [if_neg h]; rfl

theorem inTag_slash (n : Str) (as : List (Str × Str)) :
    run (inTag n as) ['/', '>'] = (.content, [.open' n as, .close n]) := by
  unfold inTag
  by_cases h : as = []
  · subst h; rfl
  · rw [if_neg h]; rfl

theorem inTag_space (n : Str) (as : List (Str × Str)) :
    step (inTag n as) ' ' = (.attName n as [], []) := by
  unfold inTag
  by_cases h : as = []
  · subst h; rfl
  · rw [if_neg h]; rfl

theorem run_attName (s : Str) (h : ∀ c ∈ s, nameChar c = true) (n : Str) (as : List (Str × Str)) :
    ∀ a, run (.attName n as a) s = (.attName n as (a ++ s), []) := by
  induction s with
  | nil => intro a; simp [run]
  | cons c s ih =>
    intro a
    obtain ⟨h0, h1, h2, h3, h4, h5, h6, h7, h8, h9, h10⟩ := nameChar_ne (h c List.mem_cons_self)
    have hs : step (.attName n as a) c = (.attName n as (a ++ [c]), []) := by
      rw [step]
      by_cases ha : a = []
      · rw [if_pos ha, if_neg h2, if_neg h1, h0, if_neg (by simp), if_pos (h c List.mem_cons_self), ha]
        rfl
      · rw [if_neg ha, if_neg h4, if_pos (h c List.mem_cons_self)]
    rw [run_cons, hs, ih (fun d hd => h d (List.mem_cons_of_mem _ hd))]
    simp

theorem run_attRef (s : Str) (h : ∀ c ∈ s, (nameChar c || c = '#') = true) (n : Str) (as : List (Str × Str))
    (a v : Str) : ∀ r, run (.attRef n as a v r) s = (.attRef n as a v (r ++ s), []) := by
  induction s with
  | nil => intro r; simp [run]
  | cons c s ih =>
    intro r
    have hc := h c List.mem_cons_self
    have h1 : c ≠ ';' := by intro hc'; subst hc'; exact absurd hc (by decide)
    rw [run_cons, step, if_neg h1, if_pos hc, ih (fun d hd => h d (List.mem_cons_of_mem _ hd))]
    simp

theorem run_attEscaped (s : Str) (d : Char) (h : ∀ c ∈ s, (nameChar c || c = '#') = true)
    (hd : predefined s = some d) (n : Str) (as : List (Str × Str)) (a v : Str) :
    run (.attVal n as a v) ('&' :: s ++ [';']) = (.attVal n as a (v ++ [d]), []) := by
  have h1 : run (.attVal n as a v) ['&'] = (.attRef n as a v [], []) := by
    rw [run_cons, step]; rfl
  have h2 := run_attRef s h n as a v []
  have h3 : run (.attRef n as a v ([] ++ s)) [';'] = (.attVal n as a (v ++ [d]), []) := by
    rw [run_cons, step, if_pos rfl, List.nil_append, hd]; rfl
  have := run_trans (run_trans h1 h2) h3
  simpa using this

theorem run_attributeEscape1 (c : Char) (n : Str) (as : List (Str × Str)) (a v : Str) :
    run (.attVal n as a v) (attributeEscape1 c) = (.attVal n as a (v ++ [c]), []) := by
  unfold attributeEscape1 textEscape1
  by_cases h1 : c = '"'
  · subst h1
    exact run_attEscaped ['q', 'u', 'o', 't'] '"' (by decide +kernel) (by decide +kernel) n as a v
  by_cases h2 : c = '\t'
  · subst h2
    exact run_attEscaped ['#', 'x', '9'] '\t' (by decide +kernel) (by decide +kernel) n as a v
  by_cases h3 : c = '\n'
  · subst h3
    exact run_attEscaped ['#', 'x', 'A'] '\n' (by decide +kernel) (by decide +kernel) n as a v
  by_cases h4 : c = '\r'
  · subst h4
    exact run_attEscaped ['#', 'x', 'D'] '\r' (by decide +kernel) (by decide +kernel) n as a v
  by_cases h5 : c = '<'
  · subst h5
    exact run_attEscaped ['l', 't'] '<' (by decide +kernel) (by decide +kernel) n as a v
  by_cases h6 : c = '>'
  · subst h6
    exact run_attEscaped ['g', 't'] '>' (by decide +kernel) (by decide +kernel) n as a v
  by_cases h7 : c = '&'
  · subst h7
    exact run_attEscaped ['a', 'm', 'p'] '&' (by decide +kernel) (by decide +kernel) n as a v
  rw [if_neg h1, if_neg h2, if_neg h3, if_neg h4, if_neg h5, if_neg h6, if_neg h7]
  rw [run_cons, step, if_neg h1, if_neg h5, if_neg h7]
  by_cases h8 : isWhite c = true
  · have : c = ' ' := by
      simp only [isWhite, Bool.or_eq_true, decide_eq_true_eq, h2, h3, h4, or_false] at h8
      exact h8
    rw [if_pos h8, this]; rfl
  · rw [if_neg h8]; rfl

theorem run_attValue (s : Str) (n : Str) (as : List (Str × Str)) (a : Str) :
    ∀ v, run (.attVal n as a v) (attributeEscape s) = (.attVal n as a (v ++ s), []) := by
  induction s with
  | nil => intro v; simp [attributeEscape, run]
  | cons c s ih =>
    intro v
    rw [attributeEscape, run_trans (run_attributeEscape1 c n as a v) (ih _)]
    simp

/-- One attribute. -/
theorem run_attribute (n : Str) (as : List (Str × Str)) (a v : Str) (h : Name a) :
    run (inTag n as) (' ' :: a ++ '=' :: '"' :: attributeEscape v ++ ['"']) =
      (inTag n (as ++ [(a, v)]), []) := by
  have h1 : run (inTag n as) [' '] = (.attName n as [], []) := by
    rw [run_cons, inTag_space]; rfl
  have h2 := run_attName a h.2 n as []
  have h3 : run (.attName n as ([] ++ a)) ['=', '"'] = (.attVal n as a [], []) := by
    rw [run_cons, step, List.nil_append, if_neg h.1]; rfl
  have h4 := run_attValue v n as a []
  have h5 : run (.attVal n as a ([] ++ v)) ['"'] = (inTag n (as ++ [(a, v)]), []) := by
    rw [run_cons, step, if_pos rfl, List.nil_append]
    unfold inTag
    rw [if_neg (by simp)]
    rfl
  have := run_trans (run_trans (run_trans (run_trans h1 h2) h3) h4) h5
  simpa using this

/-! ## References -/

theorem run_refName (s : Str) (h : ∀ c ∈ s, nameChar c = true) : ∀ r, run (.ref r) s = (.ref (r ++ s), []) := by
  induction s with
  | nil => intro r; simp [run]
  | cons c s ih =>
    intro r
    have hc := h c List.mem_cons_self
    have hn := nameChar_ne hc
    have h1 : c ≠ ';' := hn.2.2.2.2.2.2.2.1
    rw [run_cons, step, if_neg h1, if_pos (by simp [hc]), ih (fun d hd => h d (List.mem_cons_of_mem _ hd))]
    simp

/-- `&name;`. -/
theorem run_entity (n : Str) (h : Name n) (hp : predefined n = none) :
    run .content ('&' :: n ++ [';']) = (.content, [.entity n]) := by
  have h1 : run .content ['&'] = (.ref [], []) := by decide +kernel
  have h2 := run_refName n h.2 []
  have h3 : run (.ref ([] ++ n)) [';'] = (.content, [.entity n]) := by
    have hh : ¬ (n = [] ∨ '#' ∈ n) := by
      rintro (hc | hc)
      · exact h.1 hc
      · exact absurd (h.2 _ hc) (by decide)
    rw [run_cons, step, if_pos rfl, List.nil_append, hp]
    simp only [if_neg hh]; rfl
  have := run_trans (run_trans h1 h2) h3
  simpa using this

/-! ## Comments, processing instructions, CDATA sections -/

theorem suffix_of_concat {a b : Str} {c d : Char} (h : a ++ [c] <:+ b ++ [d]) : a <:+ b ∧ c = d := by
  obtain ⟨t, ht⟩ := h
  rw [← List.append_assoc] at ht
  have := List.append_inj' ht rfl
  exact ⟨⟨t, this.1⟩, by simpa using this.2⟩

theorem run_commentText (s : Str) : ∀ acc,
    (∀ p, p <+: s → p ≠ s → ¬ commentOpen <:+ acc ++ p) → run (.comment acc) s = (.comment (acc ++ s), []) := by
  induction s with
  | nil => intro acc _; simp [run]
  | cons c s ih =>
    intro acc h2
    have h3 := h2 [] List.nil_prefix (by simp)
    rw [List.append_nil] at h3
    have h4 : ¬ commentOpen.isSuffixOf acc = true := fun hc => h3 (List.isSuffixOf_iff_suffix.mp hc)
    rw [run_cons, step, if_neg h4, ih (acc ++ [c])]
    · simp
    · intro p hp hne
      have := h2 (c :: p) (List.cons_prefix_cons.mpr ⟨rfl, hp⟩) (by simpa using hne)
      simpa using this

/-- A legal comment: no two hyphens, and none at the end. -/
def CommentText (s : Str) : Prop := ¬ commentOpen <:+: s ++ ['-']

/-- `<!--text-->`. -/
theorem run_comment (s : Str) (h : CommentText s) :
    run .content ('<' :: '!' :: '-' :: '-' :: s ++ ['-', '-', '>']) = (.content, [.comment s]) := by
  have h1 : run .content ['<', '!', '-', '-'] = (.comment [], []) := by decide +kernel
  have key : ∀ p, p <+: s ++ ['-'] → ¬ commentOpen <:+ p := by
    intro p hp hc
    exact h (hc.isInfix.trans hp.isInfix)
  have h2 : run (.comment []) (s ++ ['-']) = (.comment ([] ++ (s ++ ['-'])), []) :=
    run_commentText (s ++ ['-']) [] (fun p hp _ => by simpa using key p hp)
  rw [List.nil_append] at h2
  have h3 : run (.comment (s ++ ['-'])) ['-'] = (.comment (s ++ ['-', '-']), []) := by
    have : ¬ commentOpen.isSuffixOf (s ++ ['-']) = true :=
      fun hc => key _ List.prefix_rfl (List.isSuffixOf_iff_suffix.mp hc)
    rw [run_cons, step, if_neg this]
    simp [run]
  have h4 : run (.comment (s ++ ['-', '-'])) ['>'] = (.content, [.comment s]) := by
    have : commentOpen.isSuffixOf (s ++ ['-', '-']) = true := List.isSuffixOf_iff_suffix.mpr ⟨s, rfl⟩
    have hd : (s ++ ['-', '-']).dropLast.dropLast = s := by
      have : s ++ ['-', '-'] = (s ++ ['-']) ++ ['-'] := by simp
      rw [this, List.dropLast_concat, List.dropLast_concat]
    rw [run_cons, step, if_pos this, if_pos rfl, hd]
    rfl
  have := run_trans (run_trans (run_trans h1 h2) h3) h4
  simpa using this

theorem run_cdataText (s : Str) : ∀ acc, ¬ cdataClose <:+: acc ++ s →
    run (.cdata acc) s = (.cdata (acc ++ s), []) := by
  induction s with
  | nil => intro acc _; simp [run]
  | cons c s ih =>
    intro acc h1
    have h4 : ¬ cdataClose.isSuffixOf (acc ++ [c]) = true := by
      intro hc
      have := List.isSuffixOf_iff_suffix.mp hc
      have h2 : acc ++ [c] <:+: acc ++ c :: s := ⟨[], s, by simp⟩
      exact h1 (this.isInfix.trans h2)
    rw [run_cons, step, if_neg h4, ih (acc ++ [c]) (by simpa using h1)]
    simp

/-- The end of a CDATA section. -/
theorem run_cdataEnd (s : Str) (h : ¬ cdataClose <:+: s) :
    run (.cdata s) [']', ']', '>'] = (.content, .cdataStart :: chars s ++ [.cdataEnd]) := by
  have n1 : ¬ cdataClose.isSuffixOf (s ++ [']']) = true := by
    intro hc
    have := List.isSuffixOf_iff_suffix.mp hc
    exact absurd (suffix_of_concat (a := [']', ']']) this).2 (by decide)
  have n2 : ¬ cdataClose.isSuffixOf (s ++ [']'] ++ [']']) = true := by
    intro hc
    have := List.isSuffixOf_iff_suffix.mp hc
    exact absurd (suffix_of_concat (a := [']', ']']) this).2 (by decide)
  have n3 : cdataClose.isSuffixOf (s ++ [']'] ++ [']'] ++ ['>']) = true :=
    List.isSuffixOf_iff_suffix.mpr ⟨s, by simp [cdataClose]⟩
  rw [run_cons, step, if_neg n1, run_cons, step, if_neg n2, run_cons, step, if_pos n3]
  rw [List.dropLast_concat, List.dropLast_concat]
  simp [run, chars]

/-- `<![CDATA[`. -/
theorem run_cdataStart : run .content ['<', '!', '[', 'C', 'D', 'A', 'T', 'A', '['] = (.cdata [], []) := by
  decide +kernel

theorem run_piText (s : Str) : ∀ acc, ¬ piClose <:+: acc ++ s → run (.pi acc) s = (.pi (acc ++ s), []) := by
  induction s with
  | nil => intro acc _; simp [run]
  | cons c s ih =>
    intro acc h1
    have h4 : ¬ piClose.isSuffixOf (acc ++ [c]) = true := by
      intro hc
      have := List.isSuffixOf_iff_suffix.mp hc
      have h2 : acc ++ [c] <:+: acc ++ c :: s := ⟨[], s, by simp⟩
      exact h1 (this.isInfix.trans h2)
    rw [run_cons, step, if_neg h4, ih (acc ++ [c]) (by simpa using h1)]
    simp

/-- `<?text?>`. -/
theorem run_piRaw (s : Str) (h : ¬ piClose <:+: s) :
    run .content ('<' :: '?' :: s ++ ['?', '>']) = (.content, [.pi (splitPi s).1 (splitPi s).2]) := by
  have h1 : run .content ['<', '?'] = (.pi [], []) := by decide +kernel
  have h2 := run_piText s [] (by simpa using h)
  have n1 : ¬ piClose.isSuffixOf (s ++ ['?']) = true := by
    intro hc
    have := List.isSuffixOf_iff_suffix.mp hc
    exact absurd (suffix_of_concat (a := ['?']) this).2 (by decide)
  have n2 : piClose.isSuffixOf (s ++ ['?'] ++ ['>']) = true :=
    List.isSuffixOf_iff_suffix.mpr ⟨s, by simp [piClose]⟩
  have h3 : run (.pi ([] ++ s)) ['?', '>'] = (.content, [.pi (splitPi s).1 (splitPi s).2]) := by
    rw [List.nil_append, run_cons, step, if_neg n1, run_cons, step, if_pos n2, List.dropLast_concat]
    rfl
  have := run_trans (run_trans h1 h2) h3
  simpa using this

theorem splitPi_name (t : Str) (h : ∀ c ∈ t, isWhite c = false) : splitPi t = (t, []) := by
  induction t with
  | nil => rfl
  | cons c t ih =>
    rw [splitPi, h c List.mem_cons_self, if_neg (by simp), ih (fun d hd => h d (List.mem_cons_of_mem _ hd))]

theorem splitPi_data (t d : Str) (h : ∀ c ∈ t, isWhite c = false) :
    splitPi (t ++ ' ' :: d) = (t, d.dropWhile isWhite) := by
  induction t with
  | nil => rfl
  | cons c t ih =>
    rw [List.cons_append, splitPi, h c List.mem_cons_self, if_neg (by simp),
      ih (fun d hd => h d (List.mem_cons_of_mem _ hd))]

/-- The data of a processing instruction: no `?>`, no white space in front. -/
def PiData (d : Str) : Prop := ¬ piClose <:+: d ∧ ∀ c, d.head? = some c → isWhite c = false

theorem piClose_infix (t d : Str) (h : '?' ∉ t) (hd : ¬ piClose <:+: d) : ¬ piClose <:+: t ++ d := by
  induction t with
  | nil => exact hd
  | cons c t ih =>
    simp only [List.mem_cons, not_or] at h
    rw [List.cons_append, List.infix_cons_iff]
    rintro (hc | hc)
    · have := List.cons_prefix_cons.mp hc
      exact h.1 this.1
    · exact ih h.2 hc

theorem run_pi (t d : Str) (ht : Name t) (hd : PiData d) :
    run .content ('<' :: '?' :: t ++ (if d.isEmpty then [] else ' ' :: d) ++ ['?', '>']) =
      (.content, [.pi t d]) := by
  have hq : '?' ∉ t := fun hc => (nameChar_ne (ht.2 _ hc)).2.2.2.2.2.2.2.2.2.2 rfl
  have hw : ∀ c ∈ t, isWhite c = false := fun c hc => (nameChar_ne (ht.2 _ hc)).1
  cases d with
  | nil =>
    have := run_piRaw t (by simpa using piClose_infix t [] hq (by decide))
    rw [splitPi_name t hw] at this
    simpa using this
  | cons c d =>
    have hd1 : ¬ piClose <:+: ' ' :: c :: d := by
      rw [List.infix_cons_iff]
      rintro (hc | hc)
      · exact absurd (List.cons_prefix_cons.mp hc).1 (by decide)
      · exact hd.1 hc
    have := run_piRaw (t ++ ' ' :: c :: d) (piClose_infix t _ hq hd1)
    rw [splitPi_data t _ hw, List.dropWhile_cons, hd.2 c rfl, if_neg (by simp)] at this
    simpa using this

end Verif.XmlReader
