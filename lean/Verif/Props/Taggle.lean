import Verif.Lemmas.HtmlDemo
set_option autoImplicit false
set_option linter.unusedSimpArgs false
/-!
# C50, C65–C68: the HTML parser

`parse cfg fuel S seen ts` is a parse in which the scanner makes the calls `ts`; `parseHtml cfg fuel n
full S seen input` is a parse of a string of bytes with the HTML scanner.  `cfg` are the features,
`seen` whether an earlier parse has seen a document type, `full` says when the scanner's buffer counts
as full, `fuel` bounds the loop of `rectify` and `n` the scanner's loop: the result is `diverges` if one
of them does not end within the bound.
-/
namespace Verif.Props.Taggle
open Verif.Taggle Verif.Taggle.Spec

/-! ### The facts about the HTML schema -/

/-- All names `parent` is called with are known, so no call throws. -/
theorem html_parents_known : ∀ p ∈ parentRows,
    (typeIndex htmlSchema.types p.1.toList).isSome = true ∧
    (typeIndex htmlSchema.types p.2.toList).isSome = true := by
  have h := html_checked
  simp only [Bool.and_eq_true, List.all_eq_true] at h
  intro p hp
  exact h.1.1.2 p hp

/-- All elements `attribute` is called with are known, so no call throws. -/
theorem html_attributes_known : ∀ p ∈ attributeRows,
    (typeIndex htmlSchema.types p.1.toList).isSome = true := by
  have h := html_checked
  simp only [Bool.and_eq_true, List.all_eq_true] at h
  intro p hp
  exact h.1.2 p hp

private theorem html_ok : schemaOk htmlSchema 6 = true := by
  have h := html_checked
  simp only [Bool.and_eq_true] at h
  exact h.1.1.1.1.1.1

private theorem html_textFacts : ∃ r pc body html, TextFacts htmlSchema r pc body html := by
  have h := html_checked
  simp only [Bool.and_eq_true] at h
  have h2 := h.1.1.1.1.1.2
  unfold textOk at h2
  cases hr : htmlSchema.getType "<root>".toList with
  | none => rw [hr] at h2; simp at h2
  | some r =>
    cases hp : htmlSchema.getType "<pcdata>".toList with
    | none => rw [hr, hp] at h2; simp at h2
    | some pc =>
      rw [hr, hp] at h2
      simp only [] at h2
      cases hb : pc.parent.bind (htmlSchema.types[·]?) with
      | none => rw [hb] at h2; simp at h2
      | some b =>
        rw [hb] at h2
        simp only [] at h2
        cases hh : b.2.parent.bind (htmlSchema.types[·]?) with
        | none => rw [hh] at h2; simp at h2
        | some hm =>
          rw [hh] at h2
          simp only [Bool.and_eq_true, beq_iff_eq, bne_iff_ne, Bool.not_eq_true'] at h2
          obtain ⟨⟨⟨⟨⟨⟨⟨⟨⟨a1, a2⟩, a3⟩, a4⟩, a5⟩, a6⟩, a7⟩, a8⟩, a9⟩, a10⟩ := h2
          obtain ⟨i, hi, hi2⟩ := Option.bind_eq_some_iff.1 hb
          obtain ⟨j, hj, hj2⟩ := Option.bind_eq_some_iff.1 hh
          exact ⟨r, pc, b.2, hm.2, ⟨hr, hp, a1, a2, ⟨i, b.1, hi, hi2⟩, a3, ⟨j, hm.1, hj, hj2⟩, a4, a5, a6,
            ⟨a7, a8⟩, ⟨a9, a10⟩⟩⟩

/-! ### C50: events are balanced -/

/-- **C50**, for every schema and every sequence of calls of the scanner: a parse that ends delivers
the events of a document. -/
theorem C50 (cfg : Cfg) (fuel : Nat) (S : Schema) (seen : Bool) (ts : List Tok) (t : St)
    (h : parse cfg fuel S seen ts = .ok t) : Document S.uri S.prefix' t.out := by
  unfold parse at h
  cases hh : handleAll cfg fuel (start cfg S seen) ts with
  | ok s =>
    rw [hh] at h
    refine eof_doc (inv_all_doc rfl ts _ s (inv_start S seen ?_) hh) h
    intro e he; simp at he
  | throws => rw [hh] at h; exact absurd h (by simp)
  | ub => rw [hh] at h; exact absurd h (by simp)
  | diverges => rw [hh] at h; exact absurd h (by simp)

/-- A small schema: `r` is the document element, `b` restarts, text goes into `p`. -/
def tiny : Schema :=
  { types := [("<pcdata>".toList, ⟨"<pcdata>".toList, [], "<pcdata>".toList, 0, 1, 0, [], some 3⟩),
              ("<root>".toList, ⟨"<root>".toList, [], "<root>".toList, 0x80000000, 0, 0, [], none⟩),
              ("r".toList, ⟨"r".toList, [], "r".toList, 2, 0x80000000, 0, [], some 1⟩),
              ("p".toList, ⟨"p".toList, [], "p".toList, 5, 2, 0, [], some 2⟩),
              ("b".toList, ⟨"b".toList, [], "b".toList, 5, 4, 1, [], some 3⟩)],
    root := 2, uri := [], prefix' := [], entity := fun _ => 0 }

/-- `<b>x<p>y</b>` and an end tag too many: `b` is restarted in the second `p`. -/
def tinyRun : List Tok :=
  [.gi "b".toList, .stagc [], .pcdata "x".toList, .gi "p".toList, .stagc [], .pcdata "y".toList,
   .etag "b".toList, .etag "b".toList]

/-- The start and end tags of a list of events. -/
def tags (e : List Ev) : List (Bool × Str) :=
  e.filterMap fun e => match e with
    | .startElement _ _ q _ => some (true, q)
    | .endElement _ _ q => some (false, q)
    | _ => none

example : ∃ t, parse defaults 9 tiny false tinyRun = .ok t ∧ tags t.out =
    [(true, "r".toList), (true, "p".toList), (true, "b".toList), (false, "b".toList),
     (false, "p".toList), (true, "p".toList), (true, "b".toList), (false, "b".toList),
     (false, "p".toList), (false, "r".toList)] := by
  have h : (events (parse defaults 9 tiny false tinyRun)).map tags = some
    [(true, "r".toList), (true, "p".toList), (true, "b".toList), (false, "b".toList),
     (false, "p".toList), (true, "p".toList), (true, "b".toList), (false, "b".toList),
     (false, "p".toList), (false, "r".toList)] := by decide +kernel
  cases hp : parse defaults 9 tiny false tinyRun with
  | ok t => rw [hp] at h; exact ⟨t, rfl, by simpa [events] using h⟩
  | throws => rw [hp] at h; exact absurd h (by simp [events])
  | ub => rw [hp] at h; exact absurd h (by simp [events])
  | diverges => rw [hp] at h; exact absurd h (by simp [events])

/-- If the schema has types for the root and for text, and no text can stand outside the document
element, then there is exactly one document element and no text outside it. -/
theorem C50_element (cfg : Cfg) (fuel : Nat) (S : Schema) (root pc : EType) (hR : Roots S root pc)
    (hN : NoTextOutside S root) (seen : Bool) (ts : List Tok) (t : St)
    (h : parse cfg fuel S seen ts = .ok t) : WellFormed S.uri S.prefix' t.out := by
  unfold parse at h
  cases hh : handleAll cfg fuel (start cfg S seen) ts with
  | ok s =>
    rw [hh] at h
    exact eof_wf (root := newElem cfg root) hR hN
      (inv2_all (root := newElem cfg root) rfl hR hN ts _ s (inv2_start seen hR) hh) h
  | throws => rw [hh] at h; exact absurd h (by simp)
  | ub => rw [hh] at h; exact absurd h (by simp)
  | diverges => rw [hh] at h; exact absurd h (by simp)

private theorem tiny_ok : schemaOk tiny 2 = true := by decide +kernel

example : ∃ root pc, Roots tiny root pc ∧ NoTextOutside tiny root := by
  obtain ⟨r, pc, h⟩ := schema_facts tiny_ok
  exact ⟨r, pc, h.roots, h.notext⟩

/-! ### C65: parsing HTML always succeeds -/

/-- For every schema that gives every element a place: whatever the scanner calls, the parser comes
back from every call, without exception and without following a null pointer. -/
theorem C65_schema (S : Schema) (root pc : EType) (hR : Roots S root pc) (hN : NoTextOutside S root)
    (hS : Sound S root) :
    ∃ f0, ∀ (cfg : Cfg) (fuel : Nat), f0 ≤ fuel → ∀ (seen : Bool) (ts : List Tok),
      ∃ t, parse cfg fuel S seen ts = .ok t := by
  obtain ⟨N, hB⟩ := sound_bounded hS
  refine ⟨N + 2, fun cfg fuel hf seen ts => ?_⟩
  obtain ⟨s, h1, h2⟩ := handleAll_ok (cfg := cfg) (root := newElem cfg root) (fuel := fuel) rfl hR hN
    (bogons_any hS) hB (by omega) ts _ (inv3_start seen hR)
  unfold parse
  rw [h1]
  exact eof_ok (root := newElem cfg root) hR (bogons_any hS) hB (by omega) h2

example : ∃ root pc, Roots tiny root pc ∧ NoTextOutside tiny root ∧ Sound tiny root := by
  obtain ⟨r, pc, h⟩ := schema_facts tiny_ok
  exact ⟨r, pc, h.roots, h.notext, h.sound⟩

private theorem html_parse (cfg : Cfg) (fuel n : Nat) (full : Nat → Bool) (seen : Bool) (input : Str)
    (hf : 8 ≤ fuel) (hb : ∀ c ∈ input, c.toNat < 256) (hn : 2 * input.length + 4 ≤ n) :
    ∃ q s t, scanLoop cfg fuel full n (newScanner input, start cfg htmlSchema seen) = .ok (q, s) ∧
      eof cfg fuel s = .ok t ∧ parseHtml cfg fuel n full htmlSchema seen input = .ok t ∧
      Reached cfg fuel (start cfg htmlSchema seen) s ∧
      WellFormed htmlSchema.uri htmlSchema.prefix' t.out ∧ ∀ e ∈ t.out, Writable e := by
  obtain ⟨r, pc, hF⟩ := schema_facts html_ok
  have hT : Total cfg fuel (start cfg htmlSchema seen) := by
    intro ts
    obtain ⟨s, h1, _⟩ := handleAll_ok (cfg := cfg) (root := newElem cfg r) (fuel := fuel) rfl hF.roots
      hF.notext (bogons_any hF.sound) hF.bounded (by omega) ts _ (inv3_start seen hF.roots)
    exact ⟨s, h1⟩
  obtain ⟨⟨q, s⟩, h1, h2⟩ := scan_ends (full := full) hT input hb n hn
  obtain ⟨ts, h3, h4⟩ := h2
  have h3' : handleAll cfg fuel (start cfg htmlSchema seen) ts = .ok s := h3
  obtain ⟨s', g1, g2⟩ := handleAll_ok (cfg := cfg) (root := newElem cfg r) (fuel := fuel) rfl hF.roots
    hF.notext (bogons_any hF.sound) hF.bounded (by omega) ts _ (inv3_start seen hF.roots)
  rw [h3'] at g1
  simp only [Out.ok.injEq] at g1
  subst g1
  obtain ⟨t, ht⟩ := eof_ok (cfg := cfg) (fuel := fuel) (root := newElem cfg r) hF.roots (bogons_any hF.sound) hF.bounded (by omega) g2
  refine ⟨q, s, t, h1, ht, ?_, ⟨ts, h3, h4⟩, eof_wf (root := newElem cfg r) hF.roots hF.notext g2.inv ht, ?_⟩
  · unfold parseHtml
    rw [h1]
    exact ht
  · exact (fine_eof (fine_all ts _ s (fine_start hF.roots hF.unplaced hF.names seen) h4 h3') ht).out

/-- **C65**: every string of bytes, with every combination of features, is parsed to its end, and gives
one document element with no text outside it. -/
theorem C65 (cfg : Cfg) (fuel n : Nat) (full : Nat → Bool) (seen : Bool) (input : Str)
    (hf : 8 ≤ fuel) (hb : ∀ c ∈ input, c.toNat < 256) (hn : 2 * input.length + 4 ≤ n) :
    ∃ t, parseHtml cfg fuel n full htmlSchema seen input = .ok t ∧
      WellFormed htmlSchema.uri htmlSchema.prefix' t.out := by
  obtain ⟨_, _, t, _, _, h, _, hw, _⟩ := html_parse cfg fuel n full seen input hf hb hn
  exact ⟨t, h, hw⟩

private theorem events_ok {s : String} {α : Type} {f : List Ev → α} {a : α}
    (h : (events (parseDefault s)).map f = some a) : ∃ t, parseDefault s = .ok t ∧ f t.out = a := by
  cases hp : parseDefault s with
  | ok t => rw [hp] at h; exact ⟨t, rfl, by simpa [events] using h⟩
  | throws => rw [hp] at h; exact absurd h (by simp [events])
  | ub => rw [hp] at h; exact absurd h (by simp [events])
  | diverges => rw [hp] at h; exact absurd h (by simp [events])

example : ∃ t, parseDefault "<b><p>x</b>y</p" = .ok t ∧ starts t.out =
    [("html".toList, []), ("body".toList, []), ("b".toList, []), ("p".toList, []), ("b".toList, [])] := by
  have h := demo_checked
  simp only [Bool.and_eq_true, beq_iff_eq] at h
  exact events_ok h.2

/-! ### C66: the events can be written as XML -/

/-- **C66**, as far as names, comments and processing instructions go: for every string of bytes the
names of elements and attributes are qualified names, no element has an attribute twice or one for a
namespace declaration, comments do not contain `--` or end with `-`, and the targets and data of
processing instructions are such that they can be written. -/
theorem C66_partial (cfg : Cfg) (fuel n : Nat) (full : Nat → Bool) (seen : Bool) (input : Str)
    (hf : 8 ≤ fuel) (hb : ∀ c ∈ input, c.toNat < 256) (hn : 2 * input.length + 4 ≤ n) :
    ∃ t, parseHtml cfg fuel n full htmlSchema seen input = .ok t ∧ ∀ e ∈ t.out, Writable e := by
  obtain ⟨_, _, t, _, _, h, _, _, hw⟩ := html_parse cfg fuel n full seen input hf hb hn
  exact ⟨t, h, hw⟩

/-- Any characters make a qualified name. -/
theorem C66_names (cfg : Cfg) (s : Str) : QName (makeName cfg s) := makeName_qname s

example : makeName defaults "1:x:%y".toList = "_1:xy".toList := by decide +kernel

/-- It is false that the attribute values could be written: `<i b='&#1;'>` has one that contains the
character 1, which XML does not allow. -/
theorem C66_violated_value : ∃ t, parseDefault "<i b='&#1;'>" = .ok t ∧ starts t.out =
    [("html".toList, []), ("body".toList, []), ("i".toList, [[Char.ofNat 1]])] := by
  have h := demo_checked
  simp only [Bool.and_eq_true, beq_iff_eq] at h
  exact events_ok h.1.2

/-- It is false that a prefix is declared once for an element: `<p:x p:y=1>` declares `p` twice. -/
theorem C66_violated_prefix : ∃ t, parseDefault "<p:x p:y=1>" = .ok t ∧ mappings t.out =
    [.startPrefix "html".toList "http://www.w3.org/1999/xhtml".toList,
     .startPrefix "p".toList "urn:x-prefix:p".toList, .startPrefix "p".toList "urn:x-prefix:p".toList] := by
  have h := demo_checked
  simp only [Bool.and_eq_true, beq_iff_eq] at h
  exact events_ok h.1.1.2

/-! ### C67: the text of an HTML document -/

/-- For every schema and every sequence of calls: the text reported is the text of the calls of
`pcdata`, in order, without some that are white space, and with the end tags that are no end tags. -/
theorem C67_calls (cfg : Cfg) (fuel : Nat) (S : Schema) (seen : Bool) (ts : List Tok) (t : St)
    (h : parse cfg fuel S seen ts = .ok t) : Kept ts (text t.out) := by
  unfold parse at h
  cases hh : handleAll cfg fuel (start cfg S seen) ts with
  | ok s =>
    rw [hh] at h
    obtain ⟨r, h1, h2⟩ := kept_handleAll ts _ s hh
    rw [text_eof h, h2, text_start]
    exact h1
  | throws => rw [hh] at h; exact absurd h (by simp)
  | ub => rw [hh] at h; exact absurd h (by simp)
  | diverges => rw [hh] at h; exact absurd h (by simp)

example : (events (parse defaults 9 tiny false tinyRun)).map text = some "xy".toList := by
  decide +kernel

/-- **C67** for text without markup, in which characters that can be printed may be written as
references: all the text is reported, but for white space at its start. -/
theorem C67_partial (cfg : Cfg) (fuel n : Nat) (full : Nat → Bool) (seen : Bool) (src v : Str)
    (h : PlainText src v) (hf : 8 ≤ fuel) (hn : 2 * src.length + 4 ≤ n) :
    ∃ t, parseHtml cfg fuel n full htmlSchema seen src = .ok t ∧
      ∃ w, Blank w ∧ v = w ++ text t.out := by
  obtain ⟨q, s, t, h1, h2, h3, _⟩ := html_parse cfg fuel n full seen src hf (plain_bytes h) hn
  refine ⟨t, h3, ?_⟩
  obtain ⟨r, pc, body, html, hF⟩ := html_textFacts
  have h0 : InText htmlSchema r pc (newScanner src, start cfg htmlSchema seen) src [] := by
    refine ⟨rfl, rfl, rfl, [], ⟨rfl, ?_, rfl, .inl ⟨?_, text_start _ _, by intro c hc; simp at hc⟩⟩, rfl⟩
    · show (newElem cfg ((htmlSchema.getType "<pcdata>".toList).getD nullType)).ty = pc
      rw [hF.pcdata]; rfl
    · show ([newElem cfg ((htmlSchema.getType "<root>".toList).getD nullType)].map (·.ty)) = [r]
      rw [hF.root]; rfl
  obtain ⟨⟨q', s'⟩, ⟨k, hk⟩, hd, hT⟩ := text_leads (cfg := cfg) (fuel := fuel) (full := full) hF rfl (by omega) h
    _ _ h0
  have hk0 := hk n
  rw [scanLoop_more n _ _ h1 k] at hk0
  have hdone : scanLoop cfg fuel full n (q', s') = .ok (q', s') := by
    cases n with
    | zero => rw [scanLoop, if_pos hd]
    | succ n => rw [scanLoop, if_pos hd]
  rw [hdone] at hk0
  simp only [Out.ok.injEq, Prod.mk.injEq] at hk0
  obtain ⟨_, rfl⟩ := hk0
  rw [text_eof h2]
  rcases hT.cases with ⟨_, ht, hb⟩ | ⟨_, w, hb, hw⟩
  · exact ⟨v, by simpa using hb, by rw [ht]; simp⟩
  · exact ⟨w, hb, by simpa using hw⟩

/-- If the text starts with something else than white space, all of it is reported. -/
theorem C67_all_partial (cfg : Cfg) (fuel n : Nat) (full : Nat → Bool) (seen : Bool) (src : Str) (c : Char)
    (v : Str) (h : PlainText src (c :: v)) (hc : ¬ Blank [c]) (hf : 8 ≤ fuel)
    (hn : 2 * src.length + 4 ≤ n) :
    ∃ t, parseHtml cfg fuel n full htmlSchema seen src = .ok t ∧ text t.out = c :: v := by
  obtain ⟨t, h1, w, h2, h3⟩ := C67_partial cfg fuel n full seen src (c :: v) h hf hn
  refine ⟨t, h1, ?_⟩
  cases w with
  | nil => exact h3.symm
  | cons x w =>
    simp at h3
    exact absurd (fun y hy => by simp at hy; rw [hy, h3.1]; exact h2 x (by simp)) hc

example : PlainText "1 &lt; &#50;".toList "1 < 2".toList ∧ ¬ Blank ['1'] := by
  refine ⟨?_, fun h => by have := h '1' (by simp); revert this; decide⟩
  refine .char '1' _ _ (by decide) (by decide) (by decide) (by decide) ?_
  refine .char ' ' _ _ (by decide) (by decide) (by decide) (by decide) ?_
  refine .ref "lt".toList '<' " &#50;".toList _ .lt ?_
  refine .char ' ' _ _ (by decide) (by decide) (by decide) (by decide) ?_
  exact .ref "#50".toList '2' [] [] (.dec "50".toList 50 '2'
    (.more "5".toList 5 '0' 0 (.one '5' 5 ⟨by decide, rfl⟩) ⟨by decide, rfl⟩) rfl (by decide) (by decide))
    .nil

/-- It is false that references to other characters are reported: `&eacute;` disappears, so does
`&#10;`, and `&#321;` becomes an `A`. -/
theorem C67_violated_reference :
    (∃ t, parseDefault "a&eacute;b" = .ok t ∧ text t.out = "ab".toList) ∧
    (∃ t, parseDefault "a&#10;b" = .ok t ∧ text t.out = "ab".toList) ∧
    (∃ t, parseDefault "a&#321;b" = .ok t ∧ text t.out = "aAb".toList) := by
  have h := demo_checked
  simp only [Bool.and_eq_true, beq_iff_eq] at h
  exact ⟨events_ok h.1.1.1.1.1.1.1.1, events_ok h.1.1.1.1.1.1.1.2, events_ok h.1.1.1.1.1.1.2⟩

/-- It is false that the text of a CDATA section is reported: after `]]]>` the section goes on, and
without another end its text and all that follows is lost. -/
theorem C67_violated_cdata :
    ∃ t, parseDefault "a<![CDATA[b]]]>c" = .ok t ∧ text t.out = "a".toList := by
  have h := demo_checked
  simp only [Bool.and_eq_true, beq_iff_eq] at h
  exact events_ok h.1.1.1.1.1.2

/-! ### C68: the document type is reported -/

/-- **C68** for a declaration without identifiers: its words are `DOCTYPE` and a name without
quotes. -/
theorem C68_partial (cfg : Cfg) (fuel : Nat) (s : St) (b name : Str)
    (hw : Verif.Spec.Text.words b = ["DOCTYPE".toList, name]) (hq : ∀ c ∈ name, c ≠ '\'' ∧ c ≠ '"')
    (hs : s.doctypeIsPresent = false) :
    ∃ t, handle cfg fuel s (.decl b) = .ok t ∧ t.out = s.out ++ [.startDTD name [] [], .endDTD] := by
  have hn : name ≠ [] := (Verif.Text.words_good b name (by rw [hw]; simp)).1
  simp only [handle, decl]
  rw [split_doctype hw hq]
  simp only []
  rw [if_pos (by rfl), if_neg (by rw [hs]; simp)]
  have e : declWords ["DOCTYPE".toList, name] = (name, [], []) := rfl
  rw [e, if_pos hn]
  exact ⟨_, rfl, rfl⟩

example : Verif.Spec.Text.words "DOCTYPE  html ".toList = ["DOCTYPE".toList, "html".toList] := by
  decide +kernel

/-- It is false that the identifiers are reported: those of `<!DOCTYPE html PUBLIC "p" "s">` are
not, and the name reported is `html PUBLIC `. -/
theorem C68_violated_identifiers :
    ∃ t, parseDefault "<!DOCTYPE html PUBLIC \"p\" \"s\">" = .ok t ∧
      instructions t.out = [.startDTD "html PUBLIC ".toList [] []] := by
  have h := demo_checked
  simp only [Bool.and_eq_true, beq_iff_eq] at h
  exact events_ok h.1.1.1.2

/-- It is false that the document type of every document is reported: a parser reports none after
the first, in whatever document. -/
theorem C68_violated_second (cfg : Cfg) (fuel : Nat) (s t : St) (b : Str)
    (hs : s.doctypeIsPresent = true) (h : handle cfg fuel s (.decl b) = .ok t) : t.out = s.out := by
  simp only [handle, decl] at h
  cases hv : split b with
  | none => rw [hv] at h; exact absurd h (by simp)
  | some v =>
    rw [hv] at h
    simp only [hs, if_true] at h
    split at h <;> (simp only [Out.ok.injEq] at h; rw [← h])

example : (start defaults htmlSchema true).doctypeIsPresent = true := rfl

end Verif.Props.Taggle
