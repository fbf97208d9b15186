import Verif.Spec.Writer
import Verif.Model.Writer
import Verif.Lemmas.XmlReader
set_option autoImplicit false
set_option linter.unusedSimpArgs false
set_option linter.unusedVariables false
/-!
# Reading the output of the writer
-/
namespace Verif.SaxWriter
open Verif.SaxFilter (Ev)
open Verif.Sax (Attr)
open Verif.XmlReader hiding Name
open Verif.Spec.Xml Verif.Spec.Writer

/-- Equal, or equal but for white space if the writer indents. -/
def Same (indent : Nat) (a b : List Tok) : Prop :=
  if indent = 0 then a = b else unspaced a = unspaced b

theorem Same.refl (k : Nat) (a : List Tok) : Same k a a := by
  unfold Same; by_cases h : k = 0 <;> simp [h]

theorem Same.append {k : Nat} {a b c d : List Tok} (h1 : Same k a b) (h2 : Same k c d) :
    Same k (a ++ c) (b ++ d) := by
  unfold Same at *
  by_cases h : k = 0
  · simp only [h, if_true] at *; rw [h1, h2]
  · simp only [h, if_false] at *; simp only [unspaced, List.filter_append] at *; rw [h1, h2]

theorem unspaced_chars (s : Str) (h : ∀ c ∈ s, isWhite c = true) : unspaced (chars s) = [] := by
  unfold unspaced chars
  rw [List.filter_eq_nil_iff]
  intro t ht
  obtain ⟨c, hc, rfl⟩ := List.mem_map.mp ht
  simp [h c hc]

/-- White space the writer adds. -/
theorem same_white {k : Nat} {s : Str} (h : ∀ c ∈ s, isWhite c = true) (h0 : k = 0 → s = []) :
    Same k (chars s) [] := by
  unfold Same
  by_cases hk : k = 0
  · rw [if_pos hk, h0 hk]; rfl
  · rw [if_neg hk, unspaced_chars s h]; rfl

theorem Same.trans {k : Nat} {a b c : List Tok} (h1 : Same k a b) (h2 : Same k b c) : Same k a c := by
  unfold Same at *
  by_cases h : k = 0
  · simp only [h, if_true] at *; rw [h1, h2]
  · simp only [h, if_false] at *; rw [h1, h2]

theorem nameOf_eq (q l : Str) : nameOf q l = tagName q l := by
  unfold nameOf tagName
  cases q <;> simp

theorem run_attributes (n : Str) (atts : List Attr) (h : ∀ a ∈ atts, Name (tagName a.qName a.localName)) :
    ∀ as, run (inTag n as) (writeAttributes atts) = (inTag n (as ++ attrs atts), []) := by
  induction atts with
  | nil => intro as; simp [writeAttributes, attrs, run]
  | cons a atts ih =>
    intro as
    have h1 := run_attribute n as (tagName a.qName a.localName) a.value (h a List.mem_cons_self)
    have h2 := ih (fun b hb => h b (List.mem_cons_of_mem _ hb)) (as ++ [(tagName a.qName a.localName, a.value)])
    have := run_trans h1 h2
    rw [writeAttributes, nameOf_eq]
    simpa [attrs] using this

theorem declaration_eq (encoding : Str) :
    declaration encoding = '<' :: '?' :: (['x', 'm', 'l', ' '] ++ declData encoding) ++ ['?', '>'] ++ ['\n'] := by
  unfold declaration declData
  cases encoding <;> simp

theorem run_declaration (encoding : Str) (h : '>' ∉ encoding) :
    run .content (declaration encoding) =
      (.content, [.pi ['x', 'm', 'l'] (declData encoding), .char '\n']) := by
  have hgt : ∀ s : Str, '>' ∉ s → ¬ piClose <:+: s := fun s hs hc => hs (hc.mem (by decide))
  have h1 : '>' ∉ ['x', 'm', 'l', ' '] ++ declData encoding := by
    unfold declData
    cases encoding with
    | nil => decide
    | cons c e => simp at h ⊢; exact h
  have h2 := run_piRaw _ (hgt _ h1)
  have h3 : splitPi (['x', 'm', 'l', ' '] ++ declData encoding) = (['x', 'm', 'l'], declData encoding) := by
    unfold declData
    rfl
  rw [h3] at h2
  have h4 : run .content ['\n'] = (.content, [.char '\n']) := by decide +kernel
  rw [declaration_eq]
  exact run_trans h2 h4

/-- Where the reader is when it has read what the writer wrote: `held` is what has been written and is
not complete, `st` the open elements. -/
inductive Rel (w : W) : Mode → List Tok → List Str → Option Str → Prop
  | content (st : List Str) : w.inStartTag = false → w.inCDATA = false → Rel w .content [] st none
  | tag (n : Str) (as : List (Str × Str)) (st : List Str) : w.inStartTag = true → w.inCDATA = false →
      Rel w (inTag n as) [.open' n as] (n :: st) none
  | cdata (t : Str) (st : List Str) : w.inStartTag = false → w.inCDATA = true → ¬ cdataClose <:+: t →
      Rel w (.cdata t) (.cdataStart :: chars t) st (some t)

/-- `startElementClose`. -/
theorem rel_close {w : W} {m : Mode} {held : List Tok} {st : List Str} (h : Rel w m held st none) :
    run m (startElementClose w).2 = (.content, held) ∧
    Rel (startElementClose w).1 .content [] st none ∧
    (startElementClose w).1 = { w with inStartTag := false } := by
  unfold startElementClose
  cases h with
  | content _ h1 h2 =>
    rw [if_neg (by simp [h1])]
    exact ⟨rfl, .content _ h1 h2, by rw [← h1]⟩
  | tag n as st h1 h2 =>
    rw [if_pos h1]
    exact ⟨inTag_gt n as, .content _ rfl h2, rfl⟩

/-- The namespace declarations waiting. -/
def Maps (w : W) (decls : List (Str × Str)) : Prop :=
  attrs w.mappings = decls ∧ ∀ a ∈ w.mappings, Name (tagName a.qName a.localName)

theorem maps_add (w : W) (decls : List (Str × Str)) (p u : Str) (h : Maps w decls)
    (hp : ∀ c ∈ p, nameChar c = true) :
    Maps { w with mappings := w.mappings ++ [mappingAttr p u] } (decls ++ [declAttr p u]) := by
  have h1 : (tagName (mappingAttr p u).qName (mappingAttr p u).localName, (mappingAttr p u).value) =
      declAttr p u := by
    unfold mappingAttr declAttr tagName xmlns
    cases p <;> simp
  have h2 : Name (tagName (mappingAttr p u).qName (mappingAttr p u).localName) := by
    have : tagName (mappingAttr p u).qName (mappingAttr p u).localName = (declAttr p u).1 := by rw [← h1]
    rw [this]
    unfold declAttr
    cases p with
    | nil => exact ⟨by simp, by simp only [if_true]; decide +kernel⟩
    | cons c p =>
      refine ⟨by simp, ?_⟩
      intro d hd
      simp only [List.cons_ne_nil, if_false, List.mem_append] at hd
      rcases hd with hd | hd
      · revert d; decide +kernel
      · exact hp d hd
  refine ⟨?_, ?_⟩
  · simp only [attrs, List.map_append, List.map_cons, List.map_nil] at h ⊢
    rw [h1]
    have := h.1
    simp only [attrs] at this
    rw [this]
  · intro a ha
    simp only [List.mem_append, List.mem_singleton] at ha
    rcases ha with ha | ha
    · exact h.2 a ha
    · exact ha ▸ h2

/-- The writer does not indent if it is not to. -/
def Flat (w : W) : Prop := w.indent = 0 → w.depth = 0

theorem doIndent_white (w : W) : ∀ c ∈ doIndent w, isWhite c = true := by
  intro c hc
  unfold doIndent at hc
  rw [List.mem_replicate] at hc
  rw [hc.2]; decide

theorem doIndent_flat (w : W) (h : Flat w) (h0 : w.indent = 0) : doIndent w = [] := by
  unfold doIndent
  rw [h h0]; rfl

/-- The goal of the induction. -/
def Good (encoding : Str) (w : W) (m : Mode) (held : List Tok) (decls : List (Str × Str)) (es : List Ev) : Prop :=
  ∃ toks, run m (writeAll w es) = (.content, toks) ∧ Same w.indent toks (held ++ expected encoding decls es)

/-- An event that writes `o` (white space aside), closes the start tag and leaves the reader in content. -/
theorem good_step {encoding : Str} {w w' : W} {m m' : Mode} {held held' new : List Tok}
    {decls decls' : List (Str × Str)} {e : Ev} {es : List Ev} {o : Str}
    (hw : write w e = (w', o)) (hi : w'.indent = w.indent)
    (hr : ∃ t, run m o = (m', t) ∧ Same w.indent (t ++ held') (held ++ new))
    (he : expected encoding decls (e :: es) = new ++ expected encoding decls' es)
    (hg : Good encoding w' m' held' decls' es) : Good encoding w m held decls (e :: es) := by
  obtain ⟨toks, h1, h2⟩ := hg
  obtain ⟨t, h3, h4⟩ := hr
  rw [hi] at h2
  refine ⟨t ++ toks, ?_, ?_⟩
  · rw [writeAll, hw]
    exact run_trans h3 h1
  · rw [he, ← List.append_assoc]
    have a1 : Same w.indent (t ++ toks) (t ++ (held' ++ expected encoding decls' es)) :=
      Same.append (Same.refl _ t) h2
    rw [← List.append_assoc] at a1
    exact a1.trans (Same.append h4 (Same.refl _ _))

theorem same_held {k : Nat} {t : List Tok} (a : List Tok) : Same k (a ++ t ++ []) (a ++ t) := by
  rw [List.append_nil]; exact Same.refl _ _

theorem writer_good (encoding : Str) (henc : '>' ∉ encoding) (es : List Ev) :
    ∀ (w : W) (m : Mode) (held : List Tok) (st : List Str) (cd : Option Str) (decls : List (Str × Str)),
    Rel w m held st cd → Maps w decls → Flat w → w.encoding = encoding → WellNested st cd es →
    (∀ e ∈ es, Legal e) → Good encoding w m held decls es := by
  induction es with
  | nil =>
    intro w m held st cd decls hr hm hf he hn hl
    obtain ⟨h1, h2⟩ := hn
    subst h1; subst h2
    cases hr with
    | content _ h1 h2 => exact ⟨[], rfl, Same.refl _ _⟩
  | cons e es ih =>
    intro w m held st cd decls hr hm hf he hn hl
    have hle := hl e List.mem_cons_self
    have hls : ∀ x ∈ es, Legal x := fun x hx => hl x (List.mem_cons_of_mem _ hx)
    cases e with
    | dtd a b => cases cd <;> exact hn.elim
    | startDocument =>
      cases cd with
      | some t => exact hn.elim
      | none =>
        obtain ⟨h1, h2, h3⟩ := rel_close hr
        refine good_step (w' := { (startElementClose w).1 with depth := 0, inCDATA := false, lastTag := .docTag })
          (new := [.pi ['x', 'm', 'l'] (declData encoding), .char '\n']) rfl (by rw [h3])
          ⟨_, run_trans h1 (he ▸ run_declaration encoding henc), same_held _⟩ rfl
          (ih _ .content [] st none decls ?_ ?_ ?_ ?_ hn hls)
        · rw [h3]; exact .content _ rfl rfl
        · rw [h3]; exact hm
        · intro _; rfl
        · rw [h3]; exact he
    | endDocument =>
      cases cd with
      | some t => exact hn.elim
      | none =>
        obtain ⟨h1, h2, h3⟩ := rel_close hr
        have h4 : w.inCDATA = false := by cases hr <;> assumption
        refine good_step (w' := { (startElementClose w).1 with lastTag := .endTag })
          (new := []) rfl (by rw [h3])
          ⟨_, h1, Same.refl _ _⟩ rfl
          (ih _ .content [] st none decls ?_ ?_ ?_ ?_ hn hls)
        · rw [h3]; exact .content _ rfl h4
        · rw [h3]; exact hm
        · rw [h3]; exact hf
        · rw [h3]; exact he
    | startPrefixMapping p u =>
      cases cd with
      | some t => exact hn.elim
      | none =>
        refine good_step (w' := { w with mappings := w.mappings ++ [mappingAttr p u] })
          (new := []) (held' := held) rfl rfl
          ⟨[], rfl, by rw [List.nil_append, List.append_nil]; exact Same.refl _ _⟩ rfl
          (ih _ m held st none (decls ++ [declAttr p u]) ?_ (maps_add w decls p u hm hle) hf he hn hls)
        cases hr with
        | content _ h1 h2 => exact .content _ h1 h2
        | tag n as st h1 h2 => exact .tag n as st h1 h2
    | endPrefixMapping p =>
      cases cd with
      | some t => exact hn.elim
      | none =>
        exact good_step (w' := w) (new := []) (held' := held) rfl rfl
          ⟨[], rfl, by rw [List.nil_append, List.append_nil]; exact Same.refl _ _⟩ rfl
          (ih _ m held st none decls hr hm hf he hn hls)
    | startElement u l q atts =>
      cases cd with
      | some t => exact hn.elim
      | none =>
        obtain ⟨h1, h2, h3⟩ := rel_close hr
        have h4 : w.inCDATA = false := by cases hr <;> assumption
        obtain ⟨hn1, hn2⟩ := hle
        have hm' : Maps (startElementClose w).1 decls := by rw [h3]; exact hm
        have hf' : Flat (startElementClose w).1 := by rw [h3]; exact hf
        have hi' : (startElementClose w).1.indent = w.indent := by rw [h3]
        have hlf : ∀ c ∈ (if (startElementClose w).1.lastTag = .startTag ∧ (startElementClose w).1.indent > 0
            then ['\n'] else [] : Str) ++ doIndent (startElementClose w).1, isWhite c = true := by
          intro c hc
          rcases List.mem_append.mp hc with hc | hc
          · by_cases hh : (startElementClose w).1.lastTag = .startTag ∧ (startElementClose w).1.indent > 0
            · rw [if_pos hh] at hc; rw [List.mem_singleton.mp hc]; decide
            · rw [if_neg hh] at hc; cases hc
          · exact doIndent_white _ c hc
        have hl0 : w.indent = 0 → (if (startElementClose w).1.lastTag = .startTag ∧ (startElementClose w).1.indent > 0
            then ['\n'] else [] : Str) ++ doIndent (startElementClose w).1 = [] := by
          intro h0
          rw [doIndent_flat _ hf' (by rw [hi']; exact h0), if_neg (by rw [hi', h0]; simp)]
          rfl
        have r1 := run_white _ hlf
        have r2 := run_open (tagName q l) hn1
        have r3 := run_attributes (tagName q l) (startElementClose w).1.mappings hm'.2 []
        have r4 := run_attributes (tagName q l) atts hn2 ([] ++ attrs (startElementClose w).1.mappings)
        rw [hm'.1, List.nil_append] at r4
        rw [hm'.1, List.nil_append] at r3
        have r := run_trans h1 (run_trans (run_trans (run_trans r1 r2) r3) r4)
        refine good_step (w' := (startElementOpen (startElementClose w).1 l q atts).1)
          (o := (startElementClose w).2 ++ (startElementOpen (startElementClose w).1 l q atts).2)
          (new := [.open' (tagName q l) (decls ++ attrs atts)]) (decls' := [])
          (held' := [.open' (tagName q l) (decls ++ attrs atts)]) rfl hi'
          ⟨held ++ chars ((if (startElementClose w).1.lastTag = .startTag ∧ (startElementClose w).1.indent > 0
            then ['\n'] else [] : Str) ++ doIndent (startElementClose w).1), ?_, ?_⟩ rfl
          (ih _ (inTag (tagName q l) (decls ++ attrs atts)) _ (tagName q l :: st) none [] ?_ ?_ ?_ ?_ hn hls)
        · have : (startElementOpen (startElementClose w).1 l q atts).2 =
            ((if (startElementClose w).1.lastTag = .startTag ∧ (startElementClose w).1.indent > 0
            then ['\n'] else [] : Str) ++ doIndent (startElementClose w).1 ++ '<' :: tagName q l ++
              writeAttributes (startElementClose w).1.mappings) ++ writeAttributes atts := by
            rw [← nameOf_eq]; rfl
          rw [this]
          simpa using r
        · have := same_white (k := w.indent) hlf hl0
          have h5 := Same.append (Same.append (Same.refl w.indent held) this)
            (Same.refl w.indent [Tok.open' (tagName q l) (decls ++ attrs atts)])
          rw [List.append_nil] at h5
          exact h5
        · exact .tag _ _ _ rfl (by show (startElementClose w).1.inCDATA = false; rw [h3]; exact h4)
        · exact ⟨rfl, by intro a ha; cases ha⟩
        · intro h0
          show (startElementClose w).1.depth + (startElementClose w).1.indent = 0
          have h0' : (startElementClose w).1.indent = 0 := h0
          rw [hf' h0', h0']; rfl
        · show (startElementClose w).1.encoding = encoding
          rw [h3]; exact he
    | endElement u l q =>
      cases cd with
      | some t => exact hn.elim
      | none =>
        cases st with
        | nil => exact hn.elim
        | cons n st =>
          obtain ⟨hnn, hn⟩ := hn
          subst hnn
          have h4 : w.inCDATA = false := by cases hr <;> assumption
          have hlf : ∀ c ∈ (if w.indent ≠ 0 then ['\n'] else [] : Str), isWhite c = true := by
            intro c hc
            by_cases hh : w.indent ≠ 0
            · rw [if_pos hh] at hc; rw [List.mem_singleton.mp hc]; decide
            · rw [if_neg hh] at hc; cases hc
          have hl0 : w.indent = 0 → (if w.indent ≠ 0 then ['\n'] else [] : Str) = [] := by
            intro h0; rw [if_neg (by simp [h0])]
          have hf' : ∀ (b : Bool) (t : LastTag), Flat { w with depth := w.depth - w.indent, inStartTag := b, lastTag := t } := by
            intro b t h0
            have h0' : w.indent = 0 := h0
            show w.depth - w.indent = 0
            rw [hf h0', h0']; rfl
          have hcont : ∀ (o : Str) (t : List Tok), run m o = (.content, t) →
              write w (.endElement u l q) = ({ w with depth := w.depth - w.indent, inStartTag := false, lastTag := .endTag }, o) →
              Same w.indent t (held ++ [.close (tagName q l)]) →
              Good encoding w m held decls (.endElement u l q :: es) := by
            intro o t h1 h2 h3
            exact good_step (new := [.close (tagName q l)]) (decls' := decls) (held' := []) h2 rfl
              ⟨t, h1, by rw [List.append_nil]; exact h3⟩ rfl
              (ih _ .content [] st none decls (.content _ rfl h4) hm (hf' _ _) he hn hls)
          cases hr with
          | content _ h1 h2 =>
            refine hcont ((if w.lastTag = .endTag then doIndent { w with depth := w.depth - w.indent } else []) ++
                ('<' :: '/' :: tagName q l ++ ['>']) ++ (if w.indent ≠ 0 then ['\n'] else []))
              _ (run_trans (run_trans (run_white _ ?_) (run_close _ hle)) (run_white _ hlf)) ?_ ?_
            · intro c hc
              by_cases hh : w.lastTag = .endTag
              · rw [if_pos hh] at hc; exact doIndent_white _ c hc
              · rw [if_neg hh] at hc; cases hc
            · show endElement w l q = _
              unfold endElement
              simp only [h1, nameOf_eq]
              simp
            · have a1 : Same w.indent (chars (if w.lastTag = .endTag then
                  doIndent { w with depth := w.depth - w.indent } else [])) [] := by
                refine same_white ?_ ?_
                · intro c hc
                  by_cases hh : w.lastTag = .endTag
                  · rw [if_pos hh] at hc; exact doIndent_white _ c hc
                  · rw [if_neg hh] at hc; cases hc
                · intro h0
                  rw [doIndent_flat _ (hf' w.inStartTag w.lastTag) h0]
                  simp
              have a2 := Same.append (Same.append a1 (Same.refl w.indent [Tok.close (tagName q l)])) (same_white hlf hl0)
              simpa using a2
          | tag _ as _ h1 h2 =>
            refine hcont (['/', '>'] ++ (if w.indent ≠ 0 then ['\n'] else []))
              _ (run_trans (inTag_slash _ as) (run_white _ hlf)) ?_ ?_
            · show endElement w l q = _
              unfold endElement
              simp only [h1, if_true]
              rfl
            · have a2 := Same.append (Same.refl w.indent [Tok.open' (tagName q l) as, Tok.close (tagName q l)]) (same_white hlf hl0)
              simpa using a2
    | characters s =>
      cases cd with
      | some t =>
        obtain ⟨hn1, hn2⟩ := hn
        cases hr with
        | cdata _ _ h1 h2 h3 =>
          have hc : startElementClose w = (w, []) := by unfold startElementClose; rw [if_neg (by simp [h1])]
          refine good_step (w' := w) (o := s) (new := chars s) (held' := .cdataStart :: chars (t ++ s)) ?_ rfl
            ⟨_, run_cdataText s t hn1, ?_⟩ rfl
            (ih w (.cdata (t ++ s)) _ st _ decls (.cdata _ _ h1 h2 hn1) hm hf he hn2 hls)
          · rw [write, hc]
            simp [h2]
          · rw [chars_append]
            exact Same.refl _ _
      | none =>
        obtain ⟨h1, h2, h3⟩ := rel_close hr
        have h4 : w.inCDATA = false := by cases hr <;> assumption
        refine good_step (w' := (startElementClose w).1) (o := (startElementClose w).2 ++ Text.textEscape s)
          (new := chars s) (held' := []) ?_ (by rw [h3])
          ⟨_, run_trans h1 (run_text s), same_held _⟩ rfl
          (ih _ .content [] st none decls h2 (by rw [h3]; exact hm) (by rw [h3]; exact hf) (by rw [h3]; exact he) hn hls)
        have h5 : (startElementClose w).1.inCDATA = false := by rw [h3]; exact h4
        rw [write]
        simp [h5]
    | ignorableWhitespace s =>
      cases cd with
      | some t => exact hn.elim
      | none =>
        obtain ⟨h1, h2, h3⟩ := rel_close hr
        exact good_step (w' := (startElementClose w).1) (o := (startElementClose w).2 ++ s)
          (new := chars s) (held' := []) rfl (by rw [h3])
          ⟨_, run_trans h1 (run_white s hle), same_held _⟩ rfl
          (ih _ .content [] st none decls h2 (by rw [h3]; exact hm) (by rw [h3]; exact hf) (by rw [h3]; exact he) hn hls)
    | processingInstruction t d =>
      cases cd with
      | some t => exact hn.elim
      | none =>
        obtain ⟨h1, h2, h3⟩ := rel_close hr
        refine good_step (w' := (startElementClose w).1)
          (o := (startElementClose w).2 ++ ('<' :: '?' :: t ++ (if d.isEmpty then [] else ' ' :: d) ++ ['?', '>']))
          (new := [.pi t d]) (held' := []) ?_ (by rw [h3])
          ⟨_, run_trans h1 (run_pi t d hle.1 hle.2), same_held _⟩ rfl
          (ih _ .content [] st none decls h2 (by rw [h3]; exact hm) (by rw [h3]; exact hf) (by rw [h3]; exact he) hn hls)
        rw [write]
        simp
    | skippedEntity n =>
      cases cd with
      | some t => exact hn.elim
      | none =>
        obtain ⟨h1, h2, h3⟩ := rel_close hr
        have hg := ih _ .content [] st none decls h2 (by rw [h3]; exact hm) (by rw [h3]; exact hf) (by rw [h3]; exact he) hn hls
        by_cases hd : n = ['[', 'd', 't', 'd', ']']
        · refine good_step (w' := (startElementClose w).1) (o := (startElementClose w).2)
            (new := []) (held' := []) ?_ (by rw [h3]) ⟨_, h1, Same.refl _ _⟩ ?_ hg
          · rw [write]; simp [isDtd, hd]
          · rw [expected]; simp [hd]
        · obtain ⟨hn1, hn2⟩ := hle.resolve_left hd
          refine good_step (w' := (startElementClose w).1)
            (o := (startElementClose w).2 ++ ('&' :: n ++ [';']))
            (new := [.entity n]) (held' := []) ?_ (by rw [h3])
            ⟨_, run_trans h1 (run_entity n hn1 hn2), same_held _⟩ ?_ hg
          · rw [write]; simp [isDtd, hd]
          · rw [expected]; simp [hd]
    | startEntity n =>
      cases cd with
      | some t => exact hn.elim
      | none =>
        obtain ⟨h1, h2, h3⟩ := rel_close hr
        have h4 : w.inCDATA = false := by cases hr <;> assumption
        by_cases hd : isDtd n = true
        · refine good_step (w' := { (startElementClose w).1 with internalSubset := false }) (new := []) ?_
            (by rw [h3]) ⟨_, h1, Same.refl _ _⟩ rfl
            (ih _ .content [] st none decls ?_ (by rw [h3]; exact hm) (by rw [h3]; exact hf) (by rw [h3]; exact he) hn hls)
          · rw [write]; simp [hd]
          · rw [h3]; exact .content _ rfl h4
        · refine good_step (w' := (startElementClose w).1) (new := []) ?_
            (by rw [h3]) ⟨_, h1, Same.refl _ _⟩ rfl
            (ih _ .content [] st none decls h2 (by rw [h3]; exact hm) (by rw [h3]; exact hf) (by rw [h3]; exact he) hn hls)
          rw [write]; simp [hd]
    | endEntity n =>
      cases cd with
      | some t => exact hn.elim
      | none =>
        obtain ⟨h1, h2, h3⟩ := rel_close hr
        have h4 : w.inCDATA = false := by cases hr <;> assumption
        by_cases hd : isDtd n = true
        · refine good_step (w' := { (startElementClose w).1 with internalSubset := true }) (new := []) ?_
            (by rw [h3]) ⟨_, h1, Same.refl _ _⟩ rfl
            (ih _ .content [] st none decls ?_ (by rw [h3]; exact hm) (by rw [h3]; exact hf) (by rw [h3]; exact he) hn hls)
          · rw [write]; simp [hd]
          · rw [h3]; exact .content _ rfl h4
        · refine good_step (w' := (startElementClose w).1) (new := []) ?_
            (by rw [h3]) ⟨_, h1, Same.refl _ _⟩ rfl
            (ih _ .content [] st none decls h2 (by rw [h3]; exact hm) (by rw [h3]; exact hf) (by rw [h3]; exact he) hn hls)
          rw [write]; simp [hd]
    | startCDATA =>
      cases cd with
      | some t => exact hn.elim
      | none =>
        obtain ⟨h1, h2, h3⟩ := rel_close hr
        refine good_step (w' := { (startElementClose w).1 with inCDATA := true })
          (new := [.cdataStart]) (held' := [.cdataStart]) rfl (by rw [h3])
          ⟨_, run_trans h1 run_cdataStart, by rw [List.append_nil]; exact Same.refl _ _⟩ rfl
          (ih _ (.cdata []) _ st (some []) decls ?_ (by rw [h3]; exact hm) (by rw [h3]; exact hf) (by rw [h3]; exact he) hn hls)
        rw [h3]
        exact .cdata [] st rfl rfl (by decide)
    | endCDATA =>
      cases cd with
      | none => exact hn.elim
      | some t =>
        cases hr with
        | cdata _ _ h1 h2 h3 =>
          have hc : startElementClose w = (w, []) := by unfold startElementClose; rw [if_neg (by simp [h1])]
          refine good_step (w' := { w with inCDATA := false }) (o := [']', ']', '>']) (new := [.cdataEnd]) (held' := []) ?_ rfl
            ⟨_, run_cdataEnd t h3, by rw [List.append_nil]; exact Same.refl _ _⟩ rfl
            (ih _ .content [] st none decls (.content _ h1 rfl) hm hf he hn hls)
          rw [write, hc]; rfl
    | comment t =>
      cases cd with
      | some t => exact hn.elim
      | none =>
        obtain ⟨h1, h2, h3⟩ := rel_close hr
        refine good_step (w' := (startElementClose w).1)
          (o := (startElementClose w).2 ++ ('<' :: '!' :: '-' :: '-' :: t ++ ['-', '-', '>']))
          (new := [.comment t]) (held' := []) ?_ (by rw [h3])
          ⟨_, run_trans h1 (run_comment t hle), same_held _⟩ rfl
          (ih _ .content [] st none decls h2 (by rw [h3]; exact hm) (by rw [h3]; exact hf) (by rw [h3]; exact he) hn hls)
        rw [write]
        simp

end Verif.SaxWriter
