import Verif.Lemmas.XsltSink5
import Verif.Props.XsltOutput
import Verif.Props.DomStream
set_option autoImplicit false
/-!
# C73, C74: the text a transformation writes to a stream
-/
namespace Verif.Props.XsltSink
open Verif.Xslt (Str QN Event Instr Instrs Out execs transform)
open Verif.Spec.Xml (Tok readXml isWhite piClose)
open Verif.Spec.XsltOutput (Res readEvent readEvents results Consistents Plains sections)
open Verif.Spec.DomStream (NCName)
open Verif.Spec.XsltSink
open Verif.XsltSink

/-! ## from events -/

theorem comment_text {c : Str} (h : ¬ ∃ x y, c = x ++ '-' :: '-' :: y) (hl : c.getLast? ≠ some '-') :
    Verif.XmlReader.CommentText c := by
  rintro ⟨x, y, e⟩
  rcases List.eq_nil_or_concat y with rfl | ⟨y', d, rfl⟩
  · have e' : (x ++ ['-']) ++ ['-'] = c ++ ['-'] := by simpa [Verif.Spec.Xml.commentOpen] using e
    have := (List.append_inj' e' rfl).1
    exact hl (by rw [← this]; simp)
  · have e' : (x ++ '-' :: '-' :: y') ++ [d] = c ++ ['-'] := by simpa [Verif.Spec.Xml.commentOpen] using e
    exact h ⟨x, y', (List.append_inj' e' rfl).1.symm⟩

theorem good_events {cdata : List (Str × Str)} {is : Instrs} (hp : Plains is) (hq : PrefixedAll is) :
    ∀ e ∈ transform cdata is, GoodEvent e := by
  intro e he
  obtain ⟨h1, h2⟩ := Verif.Props.XsltOutput.C49_output cdata is hp
  have h3 := (transform_inv cdata is hq hp).1 e he
  cases e with
  | startElement q u atts => exact h3
  | comment c => exact comment_text (h1 c he).1 (h1 c he).2
  | pi t d =>
    rintro ⟨x, y, e⟩
    exact h2 t d he ⟨x, y, by simpa [piClose] using e.symm⟩
  | _ => trivial

/-- The first event stands for the first part of the result. -/
theorem first_result {cdata : List (Str × Str)} {e : Event} {es : List Event} {rs : List Res} {z : List (Str × Str) × Bool}
    {o : Verif.Spec.XsltOutput.Open} (h1 : Follows (e :: es)) (h2 : sections cdata ([], false) (e :: es) = some z)
    (h3 : readEvents [] (e :: es) = some (rs, o)) :
    e ≠ .endCDATA ∧ ∃ r rs', rs = r :: rs' ∧ ∀ u l as, r = .start u l as → ∃ q u' atts, e = .startElement q u' atts := by
  obtain ⟨r, o1, r2, g1, g2, rfl⟩ := read_cons h3
  cases e with
  | startElement q u atts =>
    obtain ⟨v, as, d, rfl, -⟩ := readStart g1
    exact ⟨by simp, _, _, rfl, fun u' l as' _ => ⟨q, u, atts, rfl⟩⟩
  | endElement q u => cases g1
  | characters t => cases g1; exact ⟨by simp, _, _, rfl, fun _ _ _ h => by cases h⟩
  | startCDATA =>
    cases es with
    | nil => cases h1
    | cons x es =>
      cases x with
      | characters t => cases h2
      | _ => cases h1
  | endCDATA => cases h2
  | comment t => cases g1; exact ⟨by simp, _, _, rfl, fun _ _ _ h => by cases h⟩
  | pi t d => cases g1; exact ⟨by simp, _, _, rfl, fun _ _ _ h => by cases h⟩

mutual
theorem consistent_plain (ns : Str → Str) (i : Instr) (h : Verif.Spec.XsltOutput.Consistent ns i) :
    Verif.Spec.XsltOutput.Plain i := by
  match i with
  | .text _ => trivial
  | .element p l u b => rw [Verif.Spec.XsltOutput.Consistent] at h; exact consistents_plain ns b h.2
  | .attr p l u b => rw [Verif.Spec.XsltOutput.Consistent] at h; exact consistents_plain ns b h.2
  | .copyAttribute _ _ _ _ => exact h
  | .comment b => rw [Verif.Spec.XsltOutput.Consistent] at h; exact consistents_plain ns b h
  | .pi _ b => rw [Verif.Spec.XsltOutput.Consistent] at h; exact consistents_plain ns b h
theorem consistents_plain (ns : Str → Str) (is : Instrs) (h : Consistents ns is) : Plains is := by
  match is with
  | .nil => trivial
  | .cons i rest =>
    rw [Consistents] at h
    exact ⟨consistent_plain ns i h.1, consistents_plain ns rest h.2⟩
end

/-! ## C73 -/

/-- What is written for the nodes. -/
theorem core (st : Settings) (cdata : List (Str × Str)) (ns : Str → Str) (is : Instrs) (ht : st.text = false)
    (ho : st.omitDeclaration = true) (hc : Consistents ns is) (hp : PrefixedAll is) (hw : ∀ r ∈ results is, Written r)
    (hsec : Sectioned cdata [] [] (results is)) :
    ∃ toks rs, Verif.Spec.Xml.run .content (write st (transform cdata is)) = (.content, toks) ∧
      readEvents [] (toks.map eventOf) = some (rs, []) ∧ Padded (singles (results is)) rs ∧
      (st.indent = false → rs = singles (results is) ∧ sectionsIn cdata ([], false) toks = some ([], false)) := by
  have hpl := consistents_plain ns is hc
  have hrel : Rel (start st) [] false [] [] := ⟨ht, ht, .inr ho, rfl, .content _ rfl rfl⟩
  obtain ⟨acc, toks, rs, h1, h2, h3, h4⟩ := steps (transform cdata is) (start st) [] false [] [] [] [] (results is) hrel
    (Verif.Props.XsltOutput.C48_partial ns is hc cdata) (Verif.Props.XsltOutput.C56_cdata cdata is hpl)
    (Verif.Props.XsltOutput.C55_nodes cdata is hpl) .nil (by simp) (good_events hpl hp) hw hsec (List.suffix_refl _)
  refine ⟨toks, rs, ?_, h2, h3, ?_⟩
  · have := h1.reading
    rw [List.nil_append] at this
    cases this with
    | tag q d o' as T ho' => cases ho'
    | content T he h => exact h
  · intro hi
    have q : Quiet (start st) := by
      refine ⟨?_, rfl⟩
      simp [start, hi]
    exact (h4 q).2

/-- The text before the nodes. -/
theorem output_split (st : Settings) (cdata : List (Str × Str)) (ns : Str → Str) (is : Instrs) (ht : st.text = false)
    (ho : st.omitDeclaration = false) (hc : Consistents ns is) (hp : PrefixedAll is) :
    (results is = [] → transform cdata is = []) ∧ ∀ r rs, results is = r :: rs →
      ∃ e es, transform cdata is = e :: es ∧
        output st cdata is = declText st ++ doctypeText (eventName e) st ++ output (bareSettings st) cdata is ∧
        ∀ u l as, r = .start u l as → ∃ q u' atts, e = .startElement q u' atts := by
  have hpl := consistents_plain ns is hc
  have h1 := (transform_inv cdata is hp hpl).2
  have h2 := Verif.Props.XsltOutput.C56_cdata cdata is hpl
  have h3 := Verif.Props.XsltOutput.C48_partial ns is hc cdata
  have e1 : output st cdata is = write st (transform cdata is) := by rw [output, ht]; rfl
  have e2 : output (bareSettings st) cdata is = write (bareSettings st) (transform cdata is) := by
    rw [output, show (bareSettings st).text = false from ht]; rfl
  cases he : transform cdata is with
  | nil =>
    rw [he] at h3
    have : results is = [] := by
      have := (Prod.mk.inj (Option.some.inj h3)).1
      exact this.symm
    refine ⟨fun _ => rfl, fun r rs h => ?_⟩
    rw [this] at h
    cases h
  | cons e es =>
    rw [he] at h1 h2 h3
    obtain ⟨g1, r, rs, g2, g3⟩ := first_result h1 h2 h3
    refine ⟨fun h => (by rw [h] at g2; cases g2), fun r' rs' h => ⟨e, es, rfl, ?_, ?_⟩⟩
    · rw [e1, e2, he]
      exact write_cons st ht ho e es g1
    · rw [h] at g2
      cases g2
      exact g3

/-- The text written for a transformation, read as XML and for its namespaces, gives the result: after the XML
declaration, unless it is left out or there is no result, the same nodes with the same expanded names, and
with `indent="yes"` more white space; otherwise nothing more, and the text that is in a CDATA section is that of
the elements listed. The stylesheet is as for C48, names and processing instructions are such that they can be
written, and the text in CDATA sections is without the cases the next theorems give. -/
theorem C73_partial (st : Settings) (cdata : List (Str × Str)) (ns : Str → Str) (is : Instrs) (ht : st.text = false)
    (hd : st.omitDeclaration = true ∨ st.doctypeSystem = []) (hv : ¬ piClose <:+: st.version)
    (hs : ¬ piClose <:+: st.standalone) (hc : Consistents ns is) (hp : PrefixedAll is) (hw : ∀ r ∈ results is, Written r)
    (hsec : Sectioned cdata [] [] (results is)) :
    ∃ toks rs, readXml (output st cdata is) = some toks ∧ readEvents [] (toks.map eventOf) = some (rs, []) ∧
      Padded ((if st.omitDeclaration = true ∨ results is = [] then [] else declaration st.version st.standalone) ++
        singles (results is)) rs ∧
      (st.indent = false → rs = (if st.omitDeclaration = true ∨ results is = [] then []
        else declaration st.version st.standalone) ++ singles (results is) ∧
        sectionsIn cdata ([], false) toks = some ([], false)) := by
  have e1 : output st cdata is = write st (transform cdata is) := by rw [output, ht]; rfl
  by_cases ho : st.omitDeclaration = true
  · obtain ⟨toks, rs, h1, h2, h3, h4⟩ := core st cdata ns is ht ho hc hp hw hsec
    rw [if_pos (.inl ho)]
    exact ⟨toks, rs, by rw [e1, readXml, h1]; rfl, h2, h3, h4⟩
  · have ho' : st.omitDeclaration = false := by simpa using ho
    obtain ⟨s1, s2⟩ := output_split st cdata ns is ht ho' hc hp
    cases hr : results is with
    | nil =>
      rw [if_pos (.inr rfl)]
      refine ⟨[], [], ?_, rfl, .nil, fun _ => ⟨rfl, rfl⟩⟩
      rw [e1, s1 hr]
      rfl
    | cons r rs' =>
      obtain ⟨e, es, t1, t2, -⟩ := s2 r rs' hr
      obtain ⟨toks, rs, h1, h2, h3, h4⟩ := core (bareSettings st) cdata ns is ht rfl hc hp hw hsec
      obtain ⟨d, d1, d2⟩ := run_decl st hv hs
      rw [if_neg (by simp [ho]), d1]
      rw [hr] at h3 h4
      have e2 : output (bareSettings st) cdata is = write (bareSettings st) (transform cdata is) := by
        rw [output, show (bareSettings st).text = false from ht]; rfl
      have e3 : doctypeText (eventName e) st = [] := by
        rw [doctypeText, if_pos]
        simp [hd.resolve_left ho]
      refine ⟨[.pi "xml".toList d, .char '\n'] ++ toks, [.pi "xml".toList d, .text ['\n']] ++ rs, ?_, ?_, ?_, ?_⟩
      · rw [t2, e3, List.append_nil, e2, readXml, Verif.XmlReader.run_trans d2 h1]
        rfl
      · exact read_toks (a := [.pi "xml".toList d, .char '\n']) rfl h2
      · exact padded_append (padded_refl _) h3
      · intro hi
        obtain ⟨i1, i2⟩ := h4 hi
        exact ⟨by rw [i1], i2⟩

open Verif.Props.XsltOutput (exNs u1 u2 a b p seq not_auto)

theorem straddles_nil (s : Str) : ¬ Straddles [] s := by
  rintro ⟨x, y, h, -, -, h1, -⟩
  exact h (List.suffix_nil.1 h1)

/-- An element with a prefix and an attribute that needs a made up prefix, and a text with `]]>` in an element listed
for CDATA sections; after it a processing instruction. -/
def exSink : Instrs := seq [
  .element p a u1 (seq [.attr [] b u2 (seq [.text ['<', '"']]), .text ['x', '<'],
    .element [] b ['d'] (seq [.text ['x', '<', ']', ']', '>', 'y']])]), .pi a (seq [.text ['?', '>']])]

theorem exSink_consistent : Consistents exNs exSink := by
  have hx : u1 ≠ Verif.Spec.XsltOutput.xmlUri ∧ u2 ≠ Verif.Spec.XsltOutput.xmlUri ∧ ['d'] ≠ Verif.Spec.XsltOutput.xmlUri := by decide +kernel
  have hp : Verif.Spec.XsltOutput.Bound exNs p u1 := ⟨by decide, by decide, not_auto _ (by decide),
    ⟨fun h => absurd h (by decide), fun h => absurd h hx.1⟩⟩
  have hd : Verif.Spec.XsltOutput.Bound exNs [] ['d'] := ⟨by decide, by decide, not_auto _ (by decide),
    ⟨fun h => absurd h (by decide), fun h => absurd h hx.2.2⟩⟩
  have e1 : u1 ≠ [] := by decide
  have e2 : u2 ≠ [] := by decide
  simp only [exSink, seq, Consistents, Verif.Spec.XsltOutput.Consistent, if_neg e1, if_neg e2, if_pos, and_true, true_and]
  exact ⟨hp, hx.2.1, by simpa using hd⟩

def exCdata : List (Str × Str) := [(['d'], b)]

theorem exSink_results : results exSink = [.start u1 a [(u2, b, ['<', '"'])], .text ['x', '<'], .start ['d'] b [],
    .text ['x', '<', ']', ']', '>', 'y'], .finish, .finish, .pi a ['?', ' ', '>']] := by decide

theorem exSink_prefixed : PrefixedAll exSink := by
  have hp : NCName p := ⟨by decide, by decide +kernel⟩
  simp [exSink, seq, PrefixedAll, Prefixed, hp]

theorem exSink_written : ∀ r ∈ results exSink, Written r := by
  have ha : NCName a := ⟨by decide, by decide +kernel⟩
  have hb : NCName b := ⟨by decide, by decide +kernel⟩
  have hq : isWhite '?' = false := by decide +kernel
  rw [exSink_results]
  simp [Written, ha, hb, hq]
  rintro _ _ _ - rfl -
  exact hb

theorem exSink_sectioned : Sectioned exCdata [] [] (results exSink) := by
  rw [exSink_results]
  refine ⟨fun h => absurd h (by decide +kernel), fun _ => ⟨?_, straddles_nil _⟩, trivial⟩
  exact Verif.Props.DomStream.once_of_check _ (by decide +kernel)

example (st : Settings) (ht : st.text = false) (hd : st.doctypeSystem = []) (hi : st.indent = false)
    (hv : st.version = []) (hs : st.standalone = []) (ho : st.omitDeclaration = false) :
    ∃ toks, readXml (output st exCdata exSink) = some toks ∧
      readEvents [] (toks.map eventOf) = some (declaration [] [] ++ singles (results exSink), []) ∧
      sectionsIn exCdata ([], false) toks = some ([], false) := by
  have hn : ¬ piClose <:+: ([] : Str) := by rintro ⟨x, y, e⟩; simp [piClose] at e
  obtain ⟨toks, rs, h1, h2, -, h3⟩ := C73_partial st exCdata exNs exSink ht (.inr hd) (by rw [hv]; exact hn)
    (by rw [hs]; exact hn) exSink_consistent exSink_prefixed exSink_written exSink_sectioned
  obtain ⟨e, h4⟩ := h3 hi
  rw [if_neg (by rw [ho, exSink_results]; simp), hv, hs] at e
  exact ⟨toks, h1, by rw [h2, e], h4⟩

/-- What is written for it. -/
example : output {} exCdata exSink = ("<?xml version=\"1.0\"?>\n<p:a auto-ns1:b=\"&lt;&quot;\" xmlns:auto-ns1=\"u2\"".toList ++
    " xmlns:p=\"u1\">x&lt;<b xmlns=\"d\"><![CDATA[x<]]]]><![CDATA[>y]]></b></p:a><?a ? >?>".toList) := by
  decide +kernel

/-- C73 is violated: with `]]>` twice in a text, some of it is written twice and outside the section, and the text reads
as another; and with `]]` at the end of a text and `>` at the start of the next the section ends too early and `]]>` is
left outside it, which XML does not allow. -/
theorem C73_violated_cdata :
    output { omitDeclaration := true } [([], a)] (seq [.element [] a [] (seq [.text "x]]>y]]>z".toList])]) =
      "<a><![CDATA[x]]]]><![CDATA[>y]]>z]]><![CDATA[>z]]></a>".toList ∧
    ((readXml (output { omitDeclaration := true } [([], a)]
        (seq [.element [] a [] (seq [.text "x]]>y]]>z".toList])]))).bind fun toks =>
      (readEvents [] (toks.map eventOf)).map fun r => textOf r.1) = some "x]]>yz]]>>z".toList ∧
    output { omitDeclaration := true } [([], a)] (seq [.element [] a [] (seq [.text "]]".toList, .text ">".toList])]) =
      "<a><![CDATA[]]>]]></a>".toList ∧
    ((readXml (output { omitDeclaration := true } [([], a)]
        (seq [.element [] a [] (seq [.text "]]".toList, .text ">".toList])]))).bind
      (sectionsIn [([], a)] ([], false))) = none := by
  refine ⟨by decide +kernel, by decide +kernel, by decide +kernel, by decide +kernel⟩

/-- C73 is violated: the document type declaration is lost if the XML declaration is left out, and if anything comes
before the document element. -/
theorem C73_violated_doctype :
    output { omitDeclaration := true, doctypeSystem := b } [] (seq [.element [] a [] .nil]) = "<a/>".toList ∧
    output { doctypeSystem := b } [] (seq [.comment .nil, .element [] a [] .nil]) =
      "<?xml version=\"1.0\"?>\n<!----><a/>".toList := by
  decide +kernel

/-- Without the declaration the document type plays no part. -/
theorem write_bare (st : Settings) (x : Str) (es : List Event) :
    write (bareSettings { st with doctypeSystem := x }) es = write (bareSettings st) es := by
  have h1 := shift_events [] st es (start (bareSettings st)) rfl
  have h2 := shift_events [] st es (start (bareSettings { st with doctypeSystem := x })) rfl
  have h3 : shift [] st (start (bareSettings st)) = shift [] st (start (bareSettings { st with doctypeSystem := x })) := rfl
  rw [h3, h2] at h1
  have := congrArg Sink.out h1
  simpa [shift, write] using this

theorem doctype_eq {name : Str} {st : Settings} (h : name ≠ []) (hd : st.doctypeSystem ≠ []) :
    doctypeText name st = doctype name st.doctypePublic st.doctypeSystem := by
  have h1 : ¬ (name.isEmpty || st.doctypeSystem.isEmpty) = true := by simp [h, hd]
  by_cases hp : st.doctypePublic = []
  · have h2 : st.doctypePublic.isEmpty = true := by simp [hp]
    unfold doctypeText doctype
    rewrite [if_neg h1, if_pos hp, if_pos h2]
    exact Eq.refl _
  · have h2 : ¬ st.doctypePublic.isEmpty = true := by simpa using hp
    unfold doctypeText doctype
    rewrite [if_neg h1, if_neg hp, if_neg h2]
    exact Eq.refl _

/-- With a document type and the declaration, if the first node of the result is an element, the document type
declaration comes between the XML declaration and the rest, and its name is that of the start tag. -/
theorem C73_doctype (st : Settings) (cdata : List (Str × Str)) (ns : Str → Str) (is : Instrs) (ht : st.text = false)
    (ho : st.omitDeclaration = false) (hd : st.doctypeSystem ≠ []) (hc : Consistents ns is) (hp : PrefixedAll is)
    (hw : ∀ r ∈ results is, Written r) (hsec : Sectioned cdata [] [] (results is)) (u l : Str)
    (as : List (Str × Str × Str)) (rs : List Res) (hr : results is = .start u l as :: rs) :
    ∃ front name body, output { st with doctypeSystem := [] } cdata is = front ++ body ∧
      output st cdata is = front ++ doctype name st.doctypePublic st.doctypeSystem ++ body ∧
      (splitName name).2 = l ∧ ∃ atts toks, readXml body = some (.open' name atts :: toks) := by
  have hpl := consistents_plain ns is hc
  obtain ⟨e, es, t1, t2, t3⟩ := (output_split st cdata ns is ht ho hc hp).2 _ _ hr
  obtain ⟨e', es', u1, u2, -⟩ := (output_split { st with doctypeSystem := [] } cdata ns is ht ho hc hp).2 _ _ hr
  obtain ⟨q, u', atts, rfl⟩ := t3 _ _ _ rfl
  have e2 : ∀ st' : Settings, st'.text = false →
      output (bareSettings st') cdata is = write (bareSettings st') (transform cdata is) := by
    intro st' h
    rw [output, show (bareSettings st').text = false from h]; rfl
  have hgood := good_events (cdata := cdata) hpl hp
  have hread := Verif.Props.XsltOutput.C48_partial ns is hc cdata
  have hsect := Verif.Props.XsltOutput.C56_cdata cdata is hpl
  have htags := Verif.Props.XsltOutput.C55_nodes cdata is hpl
  rw [t1] at hread hsect htags hgood
  rw [hr] at hread htags hw hsec
  obtain ⟨r, o1, r2, g1, g2, g3⟩ := read_cons hread
  obtain ⟨v, as', d, rfl, rfl, x1, x2⟩ := readStart g1
  rw [List.singleton_append] at g3
  cases g3
  obtain ⟨y, z1, z2⟩ := sections_cons hsect
  cases z1
  rw [Verif.Spec.XsltOutput.readTags] at htags
  obtain ⟨⟨ts, tq⟩, w1, w2⟩ := Option.map_eq_some_iff.1 htags
  simp [Verif.Spec.XsltOutput.bare] at w2
  obtain ⟨⟨rfl, rfl⟩, rfl⟩ := w2
  have hge := hgood _ (List.mem_cons_self)
  have kw := hw _ (List.mem_cons_self)
  have hq : GoodName q := ⟨hge.1, kw.1⟩
  have ha : ∀ a ∈ atts, GoodName a.qName := by
    intro a ha
    refine ⟨(hge.2 a ha).1, ?_⟩
    cases hd : Verif.Spec.XsltOutput.declaration a with
    | some x => exact (hge.2 a ha).2 (by simp [hd])
    | none =>
      obtain ⟨b, hb, e⟩ := x2 a ha hd
      rw [← e]
      exact kw.2 b hb
  have hname := qn_name hq
  have hst : (event (start (bareSettings st)) (.startElement q u' atts)).out = '<' :: qn q ++ atts.flatMap attText ∧
      Rel (event (start (bareSettings st)) (.startElement q u' atts)) [(q, d)] false []
        ([] ++ [.open' (qn q) (atts.map fun a => (qn a.qName, a.value))]) := by
    have hp0 : prolog (qn q) (start (bareSettings st)) = start (bareSettings st) := prolog_ready _ (.inr rfl)
    have hout : (event (start (bareSettings st)) (.startElement q u' atts)).out = '<' :: qn q ++ atts.flatMap attText := by
      simp only [event, startElement, hp0]
      rw [if_neg (by simp [start]), indent]
      cases hi : st.indent <;> simp [start, bareSettings, hi, put]
    obtain ⟨w, v1, v2, v3, v4, v5, v6, v7, v8⟩ := indent_spec (start (bareSettings st))
    refine ⟨hout, ?_⟩
    have hrun := Verif.XmlReader.run_trans (Verif.XmlReader.run_open (qn q) hname) (run_atts (qn q) atts ha [])
    refine ⟨?_, ?_, ?_, ?_, .tag q d [] _ [] rfl rfl ?_⟩
    · simp only [event, startElement, hp0]
      rw [if_neg (by simp [start])]
      show (indent _).set.text = false
      rw [v3]
      exact ht
    · simp only [event, startElement, hp0]
      rw [if_neg (by simp [start])]
      show (indent _).disabled = false
      rw [v4]
      exact ht
    · simp only [event, startElement, hp0]
      rw [if_neg (by simp [start])]
      show (indent _).seenRoot = true ∨ (indent _).set.omitDeclaration = true
      rw [v3]
      exact .inr rfl
    · simp only [event, startElement, hp0]
      rw [if_neg (by simp [start])]
      show (indent _).inCdata = false
      rw [v5]
      rfl
    · rw [hout]
      exact hrun
  obtain ⟨acc, toks, rs', h1, -⟩ := steps es _ _ _ _ [] _ _ _ hst.2 g2 z2 w1 (.cons x1 .nil)
    (by simpa using hq) (fun e he => hgood e (by simp [he])) (fun r hr => hw r (by simp [hr])) hsec (List.suffix_refl _)
  refine ⟨declText st, qn q, output (bareSettings st) cdata is, ?_, ?_, ?_, ?_⟩
  · rw [u2, show declText { st with doctypeSystem := [] } = declText st from rfl, doctypeText, if_pos (by simp),
      List.append_nil, e2 { st with doctypeSystem := [] } ht, e2 st ht, write_bare]
  · rw [t2, eventName, doctype_eq hname.1 hd]
  · rw [splitName_qn hq]
  · refine ⟨atts.map fun a => (qn a.qName, a.value), toks, ?_⟩
    rw [e2 _ ht, t1, readXml, write, List.foldl_cons]
    have hread := h1.reading
    generalize hT : ([] ++ [Tok.open' (qn q) (atts.map fun a => (qn a.qName, a.value))]) ++ toks = T at hread
    cases hread with
    | tag q d o' as T ho' => cases ho'
    | content T he h => rw [h, ← hT]; rfl

example : ∃ front name body, output {} exCdata exSink = front ++ body ∧
    output { doctypePublic := a, doctypeSystem := b } exCdata exSink = front ++ doctype name a b ++ body ∧
    (splitName name).2 = a ∧ ∃ atts toks, readXml body = some (.open' name atts :: toks) :=
  C73_doctype { doctypePublic := a, doctypeSystem := b } exCdata exNs exSink rfl rfl (by decide) exSink_consistent
    exSink_prefixed exSink_written exSink_sectioned _ _ _ _ exSink_results

/-! ## C74 -/

/-- With the `text` method all that is written is the text of the result, in order and as it is, if none of its elements is
one of those listed for CDATA sections. -/
theorem C74_partial (st : Settings) (cdata : List (Str × Str)) (is : Instrs) (ht : st.text = true) (hp : Plains is)
    (hu : Unlisted cdata (results is)) : output st cdata is = textOf (results is) := by
  obtain ⟨-, -, ts, h1, h2⟩ := tm_execs is hp { cdata := cdata, textMode := st.text } ⟨rfl, rfl, ht, by simp⟩ hu
  rw [output, h1, ← h2]
  exact write_text st ht ts

example : output { text := true } [(['d'], a)] exSink = ['x', '<', 'x', '<', ']', ']', '>', 'y'] := by
  have hu : Unlisted [(['d'], a)] (results exSink) := by
    rw [exSink_results]
    intro u l as h
    simp at h
    rcases h with ⟨rfl, rfl, -⟩ | ⟨rfl, rfl, -⟩ <;> decide
  rw [C74_partial _ _ _ rfl (consistents_plain exNs _ exSink_consistent) hu, exSink_results]
  rfl

/-- C74 is violated: the text of the elements listed for CDATA sections has the marks of the sections around it. -/
theorem C74_violated : output { text := true } [([], a)] (seq [.element [] a [] (seq [.text b])]) =
    "<![CDATA[b]]>".toList := by
  decide +kernel

end Verif.Props.XsltSink
