import Verif.Lemmas.XsltCompile6
/- Checks for concrete documents. -/
set_option autoImplicit false
set_option linter.unusedSimpArgs false
set_option linter.unusedVariables false

namespace Verif.Lemmas.XsltCompile

open Verif.XsltCompile
open Verif.Spec.XsltCompile (Src events eventsAll xsltNs xmlNs Tag tag Att attr only white nothing
  Regular TextWhole Plain Careful AllPlain AllCareful nodes nodesAll PlainDocument CarefulDocument Covered)

/-- The attributes are in no namespace and have different names. -/
def regularB (el : El) : Bool :=
  decide (∀ a ∈ el.atts, a.uri = [] ∧ a.qn = a.loc ∧ a.loc ≠ []) &&
  decide (el.atts.Pairwise (fun a b => a.loc ≠ b.loc))

theorem regular_of {el : El} (h : regularB el = true) : Regular el := by
  unfold regularB at h
  simp only [Bool.and_eq_true, decide_eq_true_eq] at h
  obtain ⟨h1, h2⟩ := h
  refine ⟨fun a ha _ => (h1 a ha).2, fun a ha hu => absurd (h1 a ha).1 hu, fun a ha hu => ?_,
    h2.imp (fun hab _ _ => hab)⟩
  rw [(h1 a ha).1] at hu
  exact absurd hu (by decide)

def textsOf : List Src → List (List Str)
  | [] => []
  | .text ps :: ks => ps :: textsOf ks
  | .elem _ _ :: ks => textsOf ks

theorem mem_textsOf {ps : List Str} {ks : List Src} (h : Src.text ps ∈ ks) : ps ∈ textsOf ks := by
  induction ks with
  | nil => cases h
  | cons k ks ih =>
    cases h with
    | head => exact List.mem_cons_self
    | tail _ h =>
      cases k with
      | text qs => exact List.mem_cons_of_mem _ (ih h)
      | elem _ _ => exact ih h

instance (ps : List Str) : Decidable (TextWhole ps) := inferInstanceAs (Decidable (_ ∨ _))

def plainB (x : El × List Src) : Bool :=
  (if x.1.uri = xsltNs then
    regularB x.1 && decide (attr x.1 .namespace ≠ some []) && decide (attr x.1 .useAttributeSets = none) &&
    decide (attr x.1 .lang = none)
   else decide (∀ a ∈ x.1.atts, ¬ "xmlns:".toList <+: a.qn)) &&
  decide (tag x.1 ≠ some .fallback ∧ tag x.1 ≠ some .number) &&
  decide (∀ ps ∈ textsOf x.2, TextWhole ps)

theorem plain_of {el : El} {kids : List Src} (h : plainB (el, kids) = true) : Plain el kids := by
  unfold plainB at h
  simp only [Bool.and_eq_true, decide_eq_true_eq] at h
  obtain ⟨⟨h1, h2⟩, h3⟩ := h
  refine ⟨fun hu => ?_, fun hu _ => ?_, h2, fun hu => ?_, fun hu => ?_, fun hu => ?_, fun hu => ?_,
    fun _ ps hps => h3 ps (mem_textsOf hps)⟩
  all_goals first
    | rw [if_pos hu] at h1
      simp only [Bool.and_eq_true, decide_eq_true_eq] at h1
      first
        | exact regular_of h1.1.1.1
        | exact h1.1.1.2
        | exact h1.1.2
        | exact h1.2
        | (have := h1.1.1.1
           unfold regularB at this
           simp only [Bool.and_eq_true, decide_eq_true_eq] at this
           exact fun a ha => (this.1 a ha).1)
    | rw [if_neg hu] at h1
      exact of_decide_eq_true h1

theorem allPlain_of {k : Src} (h : (nodes k).all plainB = true) : AllPlain k := by
  intro x hx
  exact plain_of (List.all_eq_true.mp h x hx)

def noElems : List Src → Bool
  | [] => true
  | .text _ :: ks => noElems ks
  | .elem _ _ :: _ => false

theorem noElems_mem {ks : List Src} (h : noElems ks = true) (e : El) (k : List Src) : Src.elem e k ∉ ks := by
  induction ks with
  | nil => intro h; cases h
  | cons x ks ih =>
    intro hm
    cases x with
    | text ps =>
      cases hm with
      | tail _ hm => exact ih h hm
    | elem _ _ => cases h

def carefulB (x : El × List Src) : Bool :=
  decide (∀ n ∈ [Att.select, .mode, .name, .match], attr x.1 n ≠ some []) &&
  (decide (tag x.1 ≠ some .callTemplate ∧ tag x.1 ≠ some .forEach) ||
    decide (∀ ps ∈ textsOf x.2, white ps.flatten)) &&
  (decide (tag x.1 ≠ some .variable ∧ tag x.1 ≠ some .param ∧ tag x.1 ≠ some .withParam) ||
    (attr x.1 .select).isNone || noElems x.2)

theorem careful_of {el : El} {kids : List Src} (h : carefulB (el, kids) = true) : Careful el kids := by
  unfold carefulB at h
  simp only [Bool.and_eq_true, Bool.or_eq_true, decide_eq_true_eq] at h
  obtain ⟨⟨h1, h2⟩, h3⟩ := h
  refine ⟨fun _ => h1, fun ht ps hps => ?_, fun ht hs e k hm => ?_, fun ht pre s k post ps hks _ hps => ?_⟩
  · rcases h2 with h2 | h2
    · exact absurd ht h2.1
    · exact h2 ps (mem_textsOf hps)
  · rcases h3 with (h3 | h3) | h3
    · rcases ht with h | h | h
      · exact h3.1 h
      · exact h3.2.1 h
      · exact h3.2.2 h
    · rw [Option.isNone_iff_eq_none] at h3; exact hs h3
    · exact noElems_mem h3 e k hm
  · rcases h2 with h2 | h2
    · exact absurd ht h2.2
    · refine h2 ps (mem_textsOf ?_)
      rw [hks]; exact List.mem_append_left _ hps

theorem allCareful_of {k : Src} (h : (nodes k).all carefulB = true) : AllCareful k := by
  intro x hx
  exact careful_of (List.all_eq_true.mp h x hx)

def coveredB (el : El) : Bool :=
  decide (∀ t ∈ [Tag.output, .namespaceAlias, .import, .include, .attributeSet, .decimalFormat,
    .preserveSpace, .stripSpace], tag el ≠ some t)

def kidPlainB : Src → Bool
  | .text _ => true
  | .elem e k => decide (e.uri ≠ xsltNs) || ((nodes (.elem e k)).all plainB && coveredB e)

def kidCarefulB : Src → Bool
  | .text _ => true
  | .elem e k => decide (e.uri ≠ xsltNs) || (nodes (.elem e k)).all carefulB

/-- The check for a document. -/
def docB : Src → Bool
  | .text _ => false
  | .elem el kids =>
    decide (el.uri = xsltNs) && regularB el && decide (attr el .version = some "1.0".toList) &&
    decide (attr el .extensionElementPrefixes = none) && kids.all kidPlainB

theorem plainDocument_of {d : Src} (h : docB d = true) : PlainDocument d := by
  cases d with
  | text _ => cases h
  | elem el kids =>
    unfold docB at h
    simp only [Bool.and_eq_true, decide_eq_true_eq] at h
    obtain ⟨⟨⟨⟨h1, h2⟩, h3⟩, h4⟩, h5⟩ := h
    refine .stylesheet el kids h1 (regular_of h2) h3 (Or.inl h4) (fun e k hk hu => ?_)
    have := List.all_eq_true.mp h5 _ hk
    unfold kidPlainB at this
    simp only [Bool.or_eq_true, Bool.and_eq_true, decide_eq_true_eq] at this
    rcases this with h | h
    · exact absurd hu h
    · refine ⟨allPlain_of h.1, ?_⟩
      have h2 := h.2
      unfold coveredB at h2
      rw [decide_eq_true_eq] at h2
      exact h2

theorem carefulDocument_of {el : El} {kids : List Src} (hu : el.uri = xsltNs) (h : kids.all kidCarefulB = true) :
    CarefulDocument (.elem el kids) := by
  refine .stylesheet el kids hu (fun e k hk hu => ?_)
  have := List.all_eq_true.mp h _ hk
  unfold kidCarefulB at this
  simp only [Bool.or_eq_true, decide_eq_true_eq] at this
  rcases this with h | h
  · exact absurd hu h
  · exact allCareful_of h

def patternFirstB : List Src → Bool
  | [] => true
  | .text _ :: ks => patternFirstB ks
  | .elem el _ :: ks =>
    if el.uri = xsltNs then
      decide (tag el = some .key) || (decide (tag el = some .template) && decide (attr el .match ≠ none))
    else patternFirstB ks

theorem patternFirst_of {ks : List Src} (h : patternFirstB ks = true) :
    Verif.Spec.XsltCompile.PatternFirst ks := by
  induction ks with
  | nil => trivial
  | cons k ks ih =>
    cases k with
    | text ps => exact ih h
    | elem el kids =>
      unfold patternFirstB at h
      unfold Verif.Spec.XsltCompile.PatternFirst
      by_cases hu : el.uri = xsltNs
      · rw [if_pos hu] at h ⊢
        simpa only [Bool.or_eq_true, Bool.and_eq_true, decide_eq_true_eq] using h
      · rw [if_neg hu] at h ⊢
        exact ih h

end Verif.Lemmas.XsltCompile
