import Verif.Lemmas.Writer
set_option autoImplicit false
set_option linter.unusedSimpArgs false
/-!
# C31: the SAX writer
-/
namespace Verif.Props.Writer
open Verif.SaxWriter
open Verif.SaxFilter (Ev)
open Verif.Spec.Xml Verif.Spec.Writer

theorem init_good (indent : Nat) (encoding : Str) (he : '>' ∉ encoding) (es : List Ev)
    (hn : WellNested [] none es) (hl : ∀ e ∈ es, Legal e) :
    Good encoding (W.init indent encoding) .content [] [] es :=
  writer_good encoding he es _ _ _ [] none [] (.content _ rfl rfl) ⟨rfl, by intro a ha; cases ha⟩
    (fun _ => rfl) rfl hn hl

theorem nested_unspaced (ts : List Tok) : ∀ st, nested (unspaced ts) st = nested ts st := by
  induction ts with
  | nil => intro st; rfl
  | cons t ts ih =>
    intro st
    cases t with
    | char c =>
      have : nested (.char c :: ts) st = nested ts st := by simp [nested]
      rw [this, ← ih]
      unfold unspaced
      rw [List.filter_cons]
      by_cases h : isWhite c
      · simp [h]
      · simp [h, nested]
    | «open'» n as => exact ih _
    | close n => cases st with
      | nil => rfl
      | cons m st =>
        show (decide (n = m) && nested (unspaced ts) st) = (decide (n = m) && nested ts st)
        rw [ih]
    | _ => exact ih _

theorem nested_chars (s : Str) (ts : List Tok) (st : List Str) :
    nested (s.map Tok.char ++ ts) st = nested ts st := by
  induction s with
  | nil => rfl
  | cons c s ih => simpa [nested] using ih

theorem expected_nested (encoding : Str) (es : List Ev) : ∀ (st : List Str) (cd : Option Str)
    (decls : List (Str × Str)), WellNested st cd es → nested (expected encoding decls es) st = true := by
  induction es with
  | nil => intro st cd decls h; rw [h.1]; rfl
  | cons e es ih =>
    intro st cd decls h
    cases e with
    | dtd a b => cases cd <;> exact h.elim
    | startDocument => cases cd with
      | none => exact ih _ _ _ h
      | some t => exact h.elim
    | endDocument => cases cd with
      | none => exact ih _ _ _ h
      | some t => exact h.elim
    | startPrefixMapping p u => cases cd with
      | none => exact ih _ _ _ h
      | some t => exact h.elim
    | endPrefixMapping p => cases cd with
      | none => exact ih _ _ _ h
      | some t => exact h.elim
    | startElement u l q atts => cases cd with
      | none => exact ih _ _ _ h
      | some t => exact h.elim
    | endElement u l q => cases cd with
      | some t => exact h.elim
      | none => cases st with
        | nil => exact h.elim
        | cons n st =>
          obtain ⟨h1, h2⟩ := h
          show (decide (tagName q l = n) && nested (expected encoding decls es) st) = true
          rw [ih _ _ _ h2, h1]; simp
    | characters s => cases cd with
      | none =>
        show nested (s.map Tok.char ++ expected encoding decls es) st = true
        rw [nested_chars]; exact ih _ _ _ h
      | some t =>
        show nested (s.map Tok.char ++ expected encoding decls es) st = true
        rw [nested_chars]; exact ih _ _ _ h.2
    | ignorableWhitespace s => cases cd with
      | none =>
        show nested (s.map Tok.char ++ expected encoding decls es) st = true
        rw [nested_chars]; exact ih _ _ _ h
      | some t => exact h.elim
    | processingInstruction t d => cases cd with
      | none => exact ih _ _ _ h
      | some t => exact h.elim
    | skippedEntity n => cases cd with
      | none =>
        rw [expected]
        by_cases hd : n = ['[', 'd', 't', 'd', ']']
        · simp only [hd, if_true]; exact ih _ _ _ h
        · simp only [hd, if_false]; exact ih _ _ _ h
      | some t => exact h.elim
    | startEntity n => cases cd with
      | none => exact ih _ _ _ h
      | some t => exact h.elim
    | endEntity n => cases cd with
      | none => exact ih _ _ _ h
      | some t => exact h.elim
    | startCDATA => cases cd with
      | none => exact ih _ _ _ h
      | some t => exact h.elim
    | endCDATA => cases cd with
      | none => exact h.elim
      | some t => exact ih _ _ _ h
    | comment t => cases cd with
      | none => exact ih _ _ _ h
      | some t => exact h.elim

/-- C31 without indentation: what a reader finds in the text written for a well nested stream is exactly
the events, namespace declarations as attributes, and the tags nest.  Missing: indentation (below),
document type events, and strings XML cannot carry, see the violations. -/
theorem C31_partial (encoding : Str) (he : '>' ∉ encoding) (es : List Ev)
    (hn : WellNested [] none es) (hl : ∀ e ∈ es, Legal e) :
    readXml (writeAll (W.init 0 encoding) es) = some (expected encoding [] es) ∧
    nested (expected encoding [] es) [] = true := by
  obtain ⟨toks, h1, h2⟩ := init_good 0 encoding he es hn hl
  have h2' : toks = expected encoding [] es := by simpa [Same, W.init] using h2
  refine ⟨?_, expected_nested encoding es [] none [] hn⟩
  unfold readXml
  rw [h1, h2']
  rfl

/-- C31 with any indentation: the same, but for white space in character data. -/
theorem C31_indented_partial (indent : Nat) (encoding : Str) (he : '>' ∉ encoding) (es : List Ev)
    (hn : WellNested [] none es) (hl : ∀ e ∈ es, Legal e) :
    ∃ toks, readXml (writeAll (W.init indent encoding) es) = some toks ∧
      unspaced toks = unspaced (expected encoding [] es) ∧ nested toks [] = true := by
  obtain ⟨toks, h1, h2⟩ := init_good indent encoding he es hn hl
  have h3 : unspaced toks = unspaced (expected encoding [] es) := by
    unfold Same at h2
    by_cases h : (W.init indent encoding).indent = 0
    · rw [if_pos h] at h2; rw [h2]; rfl
    · rw [if_neg h] at h2; exact h2
  refine ⟨toks, ?_, h3, ?_⟩
  · unfold readXml
    rw [h1]; rfl
  · rw [← nested_unspaced, h3, nested_unspaced]
    exact expected_nested encoding es [] none [] hn

/-- A document with namespaces, attributes, mixed content, a CDATA section, a comment, a processing
instruction and a skipped entity. -/
def doc : List Ev :=
  [.startDocument, .startPrefixMapping ['p'] ['u', '&'],
   .startElement ['u', '&'] ['a'] ['p', ':', 'a'] [⟨[], ['x'], ['x'], [], ['<', '"', '\n']⟩],
   .characters ['1', '<', '2'], .startElement [] ['b'] [] [], .endElement [] ['b'] [],
   .startCDATA, .characters ['<', ']'], .characters [']', '&'], .endCDATA,
   .comment ['-', 'c'], .processingInstruction ['t'] ['d', '?'], .skippedEntity ['e'],
   .endElement ['u', '&'] ['a'] ['p', ':', 'a'], .endPrefixMapping ['p'], .endDocument]

theorem doc_wellNested : WellNested [] none doc := by
  simp only [doc, WellNested, tagName]
  refine ⟨by decide, by decide, by decide, ?_⟩
  simp [WellNested]

theorem name_of (n : Str) (h : decide (n ≠ []) && n.all nameChar = true) : Verif.Spec.Writer.Name n := by
  simp only [Bool.and_eq_true, decide_eq_true_eq, List.all_eq_true] at h
  exact h

theorem doc_legal : ∀ e ∈ doc, Legal e := by
  intro e he
  simp only [doc, List.mem_cons, List.not_mem_nil, or_false] at he
  rcases he with rfl | rfl | rfl | rfl | rfl | rfl | rfl | rfl | rfl | rfl | rfl | rfl | rfl | rfl | rfl | rfl <;>
    first
    | trivial
    | exact name_of _ (by decide +kernel)
    | exact ⟨name_of _ (by decide +kernel), by
        intro a ha
        first
        | cases ha; done
        | (rw [List.mem_singleton] at ha; subst ha; exact name_of _ (by decide +kernel))⟩
    | exact .inr ⟨name_of _ (by decide +kernel), by decide +kernel⟩
    | exact ⟨name_of _ (by decide +kernel), by decide, by simp; decide +kernel⟩
    | (simp only [Legal]; decide +kernel)

example : readXml (writeAll (W.init 0 []) doc) = some (expected [] [] doc) :=
  (C31_partial [] (by decide) doc doc_wellNested doc_legal).1

/-- C31 fails with the default indentation: `<a>x<b/>y</a>` is written with a line break in front of `b`
and one behind it, so the text read back is not that of the events. -/
theorem C31_violated_indent :
    writeAll (W.init 2 []) [.startElement [] ['a'] ['a'] [], .characters ['x'], .startElement [] ['b'] ['b'] [],
      .endElement [] ['b'] ['b'], .characters ['y'], .endElement [] ['a'] ['a']] =
      "\n<a>x\n  <b/>\ny</a>\n".toList := by decide +kernel

/-- C31 fails for a CDATA section with `]]>` in it: the rest is read as text. -/
theorem C31_violated_cdata :
    readXml (writeAll (W.init 0 []) [.startElement [] ['a'] ['a'] [], .startCDATA, .characters [']', ']', '>'],
      .endCDATA, .endElement [] ['a'] ['a']]) =
    some [.open' ['a'] [], .cdataStart, .cdataEnd, .char ']', .char ']', .char '>', .close ['a']] := by
  decide +kernel

/-- C31 fails for a comment with `-->` in it: a comment can put an element into the document. -/
theorem C31_violated_comment :
    readXml (writeAll (W.init 0 []) [.startElement [] ['a'] ['a'] [],
      .comment ['-', '-', '>', '<', 'b', '/', '>', '<', '!', '-', '-'], .endElement [] ['a'] ['a']]) =
    some [.open' ['a'] [], .comment [], .open' ['b'] [], .close ['b'], .comment [], .close ['a']] := by
  decide +kernel

end Verif.Props.Writer
