import Verif.Lemmas.SaxFilter
import Verif.Props.Text
import Verif.Props.Sax
set_option autoImplicit false
set_option linter.unusedSimpArgs false
/-!
# C30, C60, C61, C62: filters on SAX events
-/
namespace Verif.Props.SaxFilter
open Verif.SaxFilter Verif.Spec Verif.Spec.SaxFilter

/-! ## C30: the text coalescer -/

/-- C30, for every stream of events: the events that are not character data go through unchanged and in
their order; what is delivered of the text and what is still held make up the text that came in; and no
text event delivered is empty or next to another. -/
theorem C30_every_stream (es : List Ev) :
    others (run coalesce [] es).2 = others es ∧
    text (run coalesce [] es).2 ++ (run coalesce [] es).1 = text es ∧
    Coalesced (run coalesce [] es).2 :=
  ⟨coalesce_others es [], by simpa using coalesce_text es [], coalesce_coalesced es []⟩

/-- C30: if every run of text is closed by an element, comment, processing instruction, CDATA or entity
boundary, what is delivered is exactly the stream with each run of text made one event, and nothing is
held back. Missing: other events directly after text, see the violations. -/
theorem C30_partial (es : List Ev) (h : Closed false es) :
    run coalesce [] es = ([], canon es) := by
  rw [coalesce_canon es [] h, prepend_nil]

/-- `<a>` with the text `x`, `y` and white space, and an element `b`. -/
def doc : List Ev :=
  [.startDocument, .startElement [] ['a'] ['a'] [], .characters ['x'], .characters [], .characters ['y'],
   .ignorableWhitespace [' '], .startElement [] ['b'] ['b'] [], .endElement [] ['b'] ['b'],
   .characters ['z'], .endElement [] ['a'] ['a'], .endDocument]

example : Closed false doc := by simp [doc, Closed, textOf, delimits]

example : run coalesce [] doc = ([], [.startDocument, .startElement [] ['a'] ['a'] [],
    .characters ['x', 'y', ' '], .startElement [] ['b'] ['b'] [], .endElement [] ['b'] ['b'],
    .characters ['z'], .endElement [] ['a'] ['a'], .endDocument]) := by decide +kernel

/-- C30 fails for text in front of an element that declares a namespace: the mapping is delivered before
the text that precedes it. -/
theorem C30_violated_mapping :
    (run coalesce [] [.startElement [] ['a'] ['a'] [], .characters ['x'], .startPrefixMapping ['p'] ['u'],
      .startElement ['u'] ['b'] ['p', ':', 'b'] []]).2 =
    [.startElement [] ['a'] ['a'] [], .startPrefixMapping ['p'] ['u'], .characters ['x'],
      .startElement ['u'] ['b'] ['p', ':', 'b'] []] := by decide +kernel

/-- C30 fails for text in front of a skipped entity: `x&e;y` is delivered with the entity in front. -/
theorem C30_violated_entity :
    (run coalesce [] [.startElement [] ['a'] ['a'] [], .characters ['x'], .skippedEntity ['e'],
      .characters ['y'], .endElement [] ['a'] ['a']]).2 =
    [.startElement [] ['a'] ['a'] [], .skippedEntity ['e'], .characters ['x', 'y'],
      .endElement [] ['a'] ['a']] := by decide +kernel

/-! ## C60: PYX -/

/-- Strings PYX can carry: names without line feeds or spaces, text and attribute values without a
backslash followed by `n`, processing instruction data without line feeds. -/
def PyxOk : Ev → Prop
  | .startElement _ l _ atts => '\n' ∉ l ∧ ∀ a ∈ atts, '\n' ∉ a.localName ∧ ' ' ∉ a.localName ∧
      ¬ ['\\', 'n'] <:+: a.value
  | .endElement _ l _ => '\n' ∉ l
  | .characters s => ¬ ['\\', 'n'] <:+: s
  | .processingInstruction t d => '\n' ∉ t ∧ ' ' ∉ t ∧ '\n' ∉ d
  | _ => True

theorem pyx_atts (atts : List Verif.Sax.Attr) (h : ∀ a ∈ atts, '\n' ∉ a.localName ∧ ' ' ∉ a.localName ∧
    ¬ ['\\', 'n'] <:+: a.value) (rest : Str) (ls : List Line) (hr : readPyx [] rest = some ls) :
    readPyx [] ((atts.flatMap fun a =>
      'A' :: a.localName ++ ' ' :: pyxEscape a.value ++ ['\n']) ++ rest) =
      some (atts.map (fun a => Line.attr a.localName a.value) ++ ls) := by
  induction atts with
  | nil => exact hr
  | cons a atts ih =>
    have ha := h a List.mem_cons_self
    have ih := ih (fun b hb => h b (List.mem_cons_of_mem _ hb))
    simp only [List.flatMap_cons, List.append_assoc, List.cons_append, List.nil_append]
    have := readPyx_line ('A' :: a.localName ++ ' ' :: pyxEscape a.value)
      (by simp [ha.1, pyxEscape_nolf]) []
      ((atts.flatMap fun a => 'A' :: a.localName ++ ' ' :: pyxEscape a.value ++ ['\n']) ++ rest)
    simp only [List.append_assoc, List.cons_append, List.nil_append] at this ih
    rw [this, ih]
    simp [readLine, cutSpace_append _ _ ha.2.1, pyxEscape_unescape _ ha.2.2]

/-- C60: reading the lines the PYX writer writes gives the elements, attributes, text and processing
instructions of the stream. -/
theorem C60_partial (es : List Ev) (h : ∀ e ∈ es, PyxOk e) :
    readPyx [] (es.flatMap pyx) = some (es.flatMap linesOf) := by
  induction es with
  | nil => rfl
  | cons e es ih =>
    have he := h e List.mem_cons_self
    have ih := ih (fun b hb => h b (List.mem_cons_of_mem _ hb))
    rw [List.flatMap_cons, List.flatMap_cons]
    cases e with
    | startElement u l q atts =>
      have := readPyx_line ('(' :: l) (by simp [he.1]) []
        ((atts.flatMap fun a => 'A' :: a.localName ++ ' ' :: pyxEscape a.value ++ ['\n']) ++ es.flatMap pyx)
      simp only [pyx, linesOf, List.append_assoc, List.cons_append, List.nil_append] at this ⊢
      rw [this]
      have ha := pyx_atts atts he.2 _ _ ih
      simp only [List.append_assoc, List.cons_append, List.nil_append] at ha
      rw [ha]
      simp [readLine]
    | endElement u l q =>
      have := readPyx_line (')' :: l) (by have h1 : '\n' ∉ l := he; simp [h1]) [] (es.flatMap pyx)
      simp only [pyx, linesOf, List.append_assoc, List.cons_append, List.nil_append] at this ⊢
      rw [this, ih]
      simp [readLine]
    | characters s =>
      have := readPyx_line ('-' :: pyxEscape s) (by simp [pyxEscape_nolf]) [] (es.flatMap pyx)
      simp only [pyx, linesOf, List.append_assoc, List.cons_append, List.nil_append] at this ⊢
      rw [this, ih]
      simp [readLine, pyxEscape_unescape s he]
    | processingInstruction t d =>
      have := readPyx_line ('?' :: t ++ ' ' :: d) (by simp [he.1, he.2.2]) [] (es.flatMap pyx)
      simp only [pyx, linesOf, List.append_assoc, List.cons_append, List.nil_append] at this ⊢
      rw [this, ih]
      simp [readLine, cutSpace_append _ _ he.2.1]
    | _ => simpa [pyx, linesOf] using ih

example : (∀ e ∈ doc, PyxOk e) ∧ readPyx [] (doc.flatMap pyx) = some (doc.flatMap linesOf) := by
  have h : ∀ e ∈ doc, PyxOk e := by
    intro e he
    simp only [doc, List.mem_cons, List.not_mem_nil, or_false] at he
    rcases he with rfl | rfl | rfl | rfl | rfl | rfl | rfl | rfl | rfl | rfl | rfl <;>
      simp only [PyxOk] <;> decide +kernel
  exact ⟨h, C60_partial doc h⟩

/-- C60 fails: a line feed and a backslash followed by `n` are written the same. -/
theorem C60_violated_backslash : pyx (.characters ['\n']) = pyx (.characters ['\\', 'n']) := by
  decide +kernel

/-- C60 fails: a line feed in the data of a processing instruction starts a line of its own, which reads
as the start of an element. -/
theorem C60_violated_instruction :
    readPyx [] (pyx (.processingInstruction ['t'] ['d', '\n', '(', 'e'])) =
      some [.pi ['t'] ['d'], .startTag ['e']] := by decide +kernel

/-! ## C61: the white space filter -/

/-- What C61 asks of a stream in which each run of text is one event: each text is reduced to its words
with single spaces between, the other events are unchanged. -/
def collapsed : Ev → Ev
  | .characters s => .characters (Text.joinSpace (Text.words s))
  | e => e

/-- C61, one event: text is reduced to its words, white space reported as ignorable is dropped, the rest
is unchanged. -/
theorem C61_event (e : Ev) :
    (∀ s, e = .characters s → (strip () e).2 = [.characters (Text.joinSpace (Text.words s))]) ∧
    (∀ s, e = .ignorableWhitespace s → (strip () e).2 = []) ∧
    (textOf e = none → (strip () e).2 = [e]) := by
  refine ⟨?_, ?_, ?_⟩
  · rintro s rfl
    rw [strip, Props.Text.C12_words]
    rfl
  · rintro s rfl; rfl
  · intro h; cases e <;> first | rfl | simp [textOf] at h

theorem strip_canon (es : List Ev) : (run strip () (canon es)).2 = (canon es).map collapsed := by
  have key : ∀ e ∈ canon es, ∀ s, e ≠ .ignorableWhitespace s := by
    induction es with
    | nil => simp [canon]
    | cons e es ih =>
      rw [canon]
      intro x hx s hs
      subst hs
      split at hx
      · rename_i h
        rcases List.mem_cons.mp hx with hx | hx
        · rw [← hx] at h; simp [textOf] at h
        · exact ih _ hx s rfl
      · rename_i h
        rw [h] at ih
        rcases List.mem_cons.mp hx with hx | hx
        · cases hx
        · exact ih _ (List.mem_cons_of_mem _ hx) s rfl
      · rename_i s' _ _
        by_cases h : s' = []
        · rw [if_pos h] at hx; exact ih _ hx s rfl
        · rw [if_neg h] at hx
          rcases List.mem_cons.mp hx with hx | hx
          · cases hx
          · exact ih _ hx s rfl
  rw [strip_run]
  generalize canon es = l at key
  induction l with
  | nil => rfl
  | cons e l ih =>
    rw [List.flatMap_cons, List.map_cons, ih (fun x hx => key x (List.mem_cons_of_mem _ hx))]
    have h := C61_event e
    cases ht : textOf e with
    | none =>
      rw [h.2.2 ht]
      cases e <;> first | rfl | simp [textOf] at ht
    | some s =>
      cases e <;> simp [textOf] at ht
      · rw [h.1 _ rfl]; rfl
      · exact (key _ List.mem_cons_self _ rfl).elim

/-- C61 behind a text coalescer: what is delivered depends only on the text between two events, not on
how the parser cut it up, and is its words with single spaces between. Missing: without the coalescer,
see the violation. -/
theorem C61_partial (es : List Ev) (h : Closed false es) :
    (run strip () (run coalesce [] es).2).2 = (canon es).map collapsed := by
  rw [C30_partial es h]
  exact strip_canon es

example : Closed false doc ∧ (run strip () (run coalesce [] doc).2).2 =
    [.startDocument, .startElement [] ['a'] ['a'] [], .characters ['x', 'y'],
     .startElement [] ['b'] ['b'] [], .endElement [] ['b'] ['b'], .characters ['z'],
     .endElement [] ['a'] ['a'], .endDocument] :=
  ⟨by simp [doc, Closed, textOf, delimits], by decide +kernel⟩

/-- C61 fails without a coalescer: the words `a` and `b` run together if the parser cuts the text after
the space. -/
theorem C61_violated :
    text (run strip () [.characters ['a', ' ', 'b']]).2 = ['a', ' ', 'b'] ∧
    text (run strip () [.characters ['a', ' '], .characters ['b']]).2 = ['a', 'b'] ∧
    canon [.characters ['a', ' ', 'b']] = canon [.characters ['a', ' '], .characters ['b']] := by
  decide +kernel

/-! ## C62: the namespace tracker -/

/-- C62: after every stream of events in which no element ends that has not started, the tracker gives a
prefix the URI of the innermost open element that maps it, the last mapping announced for that element
counting; and its map of the namespaces in scope has exactly the mapped prefixes and the empty one. -/
theorem C62_tracker (es : List Ev) (pending : List (Str × Str)) (sc : Sax.Scopes)
    (h : scopes es [] Sax.initial = some (pending, sc)) :
    ∃ t, trackAll es Tracker.init = some t ∧
      (∀ p, t.getURI p = (Sax.lookup p sc).getD []) ∧
      (∀ p u, (p, u) ∈ t.inScope ↔
        u = (Sax.lookup p sc).getD [] ∧ (p = [] ∨ (Sax.lookup p sc).isSome)) ∧
      t.inScope.Pairwise (fun a b => a.1 < b.1) := by
  obtain ⟨t, h1, h2⟩ := track_rep es Tracker.init [] Sax.initial _ trep_init h
  have hl : ∀ p, Verif.Sax.nsFind p t.namespaces = Sax.lookup p sc :=
    fun p => Verif.Sax.rep_lookup p _ _ h2.1
  have hu : ∀ p, t.getURI p = (Sax.lookup p sc).getD [] := by
    intro p
    unfold Tracker.getURI Verif.Sax.getURI
    rw [hl p]
  refine ⟨t, h1, hu, ?_, inScope_sorted t⟩
  intro p u
  rw [inScope_spec, hu, hl]

/-- A stream that maps `p` in `a`, again in `b` inside it, and undoes the default namespace there. -/
def mapped : List Ev :=
  [.startPrefixMapping ['p'] ['u'], .startPrefixMapping [] ['d'], .startElement ['d'] ['a'] ['a'] [],
   .startPrefixMapping ['p'] ['v'], .startPrefixMapping [] [], .startElement [] ['b'] ['b'] []]

example : ((scopes mapped [] Sax.initial).map fun r => (Sax.lookup ['p'] r.2, Sax.lookup [] r.2)) =
    some (some ['v'], some []) ∧
  ((trackAll (mapped ++ [.endElement [] ['b'] ['b']]) Tracker.init).map fun t =>
    (t.getURI ['p'], t.getURI [])) = some (['u'], ['d']) := by decide +kernel

end Verif.Props.SaxFilter
