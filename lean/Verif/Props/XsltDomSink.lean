import Verif.Lemmas.XsltDomShape
import Verif.Props.XsltOutput
set_option autoImplicit false
/-!
# C81: a transformation into a DOM
-/
namespace Verif.Props.XsltDomSink
open Verif.XsltDomSink
open Verif.XTree (Tree)
open Verif.Xslt (Instrs)
open Verif.Spec.XsltOutput (Consistents results Res)
open Verif.Spec.XsltDomSink
open Verif.Props.XsltOutput (seq exOk exNs exOk_consistent u1 u2 a b p)

/-- C81 in full: running instructions into a sink for a DOM leaves a document fragment whose nodes, read in
document order, are the result the instructions stand for, text joined to one node and no text empty, with
text in CDATA sections exactly in the elements listed. -/
def GivesTree (C : Chars) (cdata : List (Str × Str)) (is : Instrs) : Prop :=
  ∃ t, transform C cdata false is = .done (some t) ∧ t.kind = .fragment ∧ nodes t = joined (results is) ∧
    Sectioned cdata t

theorem gives {C : Chars} {ns : Str → Str} (hC : CharsOk C) (hns : ∀ p, p ≠ [] → ns p ≠ [] → Nm C p)
    (cd : List (Str × Str)) (is : Instrs) (h : Consistents ns is) (hr : ∀ r ∈ results is, ResOk C r)
    (h1 : results is ≠ []) (h2 : .text [] ∉ results is) : GivesTree C cd is := by
  obtain ⟨top, g1, g2, g3⟩ := (transform_good hC hns cd is h hr).2 h1
  refine ⟨_, g1, rfl, ?_, ?_⟩
  · simp only [nodes]
    rw [g2]
    exact joined_same _ h2 []
  · simpa [Sectioned] using g3

/-- C81, partial, for wide strings: for stylesheets in which a prefix always means the same, if the names of
the result can be names, something is written and no text written is empty.
Missing: the empty result and empty texts (`C81_violated_nothing`, `C81_violated_empty`), copied attributes,
prefixes with several meanings (`C81_violated_attributes`), and indentation. -/
theorem C81_partial (ns : Str → Str) (cdata : List (Str × Str)) (is : Instrs) (h : Consistents ns is)
    (hp : Prefixes ns) (hr : ∀ r ∈ results is, Nameable r) (h1 : results is ≠ []) (h2 : .text [] ∉ results is) :
    GivesTree wide cdata is :=
  gives wide_ok (fun p h1 h2 => nc_wide (hp p h1 h2)) cdata is h (fun r hm => res_wide (hr r hm)) h1 h2

/-- C81, partial, for strings of bytes: the same if names, prefixes and the data of processing instructions
are in ASCII; see `C81_violated_bytes`. -/
theorem C81_bytes_partial (ns : Str → Str) (cdata : List (Str × Str)) (is : Instrs) (h : Consistents ns is)
    (hp : Prefixes ns) (ha : ∀ p, ns p ≠ [] → Ascii p) (hr : ∀ r ∈ results is, Nameable r ∧ Seven r)
    (h1 : results is ≠ []) (h2 : .text [] ∉ results is) : GivesTree bytes cdata is :=
  gives bytes_ok (fun p h1 h2 => nc_bytes (hp p h1 h2) (ha p h2)) cdata is h
    (fun r hm => res_bytes (hr r hm).1 (hr r hm).2) h1 h2

/-- C81, partial: with empty texts among the result the tree is right but for nodes of empty text: an empty
text with no text in front of it is a node. -/
theorem C81_empty_partial (ns : Str → Str) (cdata : List (Str × Str)) (is : Instrs) (h : Consistents ns is)
    (hp : Prefixes ns) (hr : ∀ r ∈ results is, Nameable r) (h1 : results is ≠ []) :
    ∃ t, transform wide cdata false is = .done (some t) ∧ nodes t = joinedEmpty (results is) := by
  obtain ⟨top, g1, g2, g3⟩ := (transform_good wide_ok (fun p h1 h2 => nc_wide (hp p h1 h2)) cdata is h
    (fun r hm => res_wide (hr r hm))).2 h1
  exact ⟨_, g1, by simpa [nodes] using g2⟩

/-- C81, partial: the fragment is a tree as the theorems about XPath want it (C35, C42): attributes only on
elements, children only where the DOM allows them, no text next to text; also with CDATA sections. -/
theorem C81_tree_partial (ns : Str → Str) (cdata : List (Str × Str)) (is : Instrs) (h : Consistents ns is)
    (hp : Prefixes ns) (hr : ∀ r ∈ results is, Nameable r) (t : Tree) (ht : transform wide cdata false is = .done (some t)) :
    t.kind = .fragment ∧ Verif.Spec.XPathAxes.DomTree t ∧ Verif.Spec.XPathAxes.Expanded t ∧
      Verif.Spec.XPathAxes.Normalized t := by
  obtain ⟨top, rfl, g⟩ := transform_shape wide_ok (fun p h1 h2 => nc_wide (hp p h1 h2)) cdata is h
    (fun r hm => res_wide (hr r hm)) ht
  exact ⟨rfl, shape_dom rfl g⟩

/-- Nothing written: there is no fragment at all, but a null node. -/
theorem C81_nothing (ns : Str → Str) (cdata : List (Str × Str)) (is : Instrs) (h : Consistents ns is)
    (hp : Prefixes ns) (h1 : results is = []) : transform wide cdata false is = .done none :=
  (transform_good wide_ok (fun p h1 h2 => nc_wide (hp p h1 h2)) cdata is h
    (fun r hm => by rw [h1] at hm; cases hm)).1 h1

theorem letter (c : Char) (h : XmlChars.isLetter c.toNat = true) : Verif.Spec.DomNames.NCName [c] :=
  ⟨_, _, rfl, .inl ((Verif.Names.letter_iff _).mp h), by simp⟩

theorem exNs_prefixes : Prefixes exNs := by
  intro q h1 h2
  unfold exNs at h2
  split at h2
  · rename_i h; rw [h]; exact letter 'p' (by decide +kernel)
  · exact absurd rfl h2

theorem exOk_names : ∀ r ∈ results exOk, Nameable r ∧ Seven r := by
  have e : results exOk = [.start u1 a [(u2, b, ['b', 'b']), (u1, b, ['b'])],
    .comment ['-', ' ', '-', ' '], .start ['d'] b [], .text b, .start u1 b [], .finish, .finish, .finish] := by decide
  have ha : Verif.Spec.DomNames.NCName a := letter 'a' (by decide +kernel)
  have hb : Verif.Spec.DomNames.NCName b := letter 'b' (by decide +kernel)
  have ha' : Ascii a := by simp [Ascii, a]
  have hb' : Ascii b := by simp [Ascii, b]
  rw [e]
  intro r hr
  simp only [List.mem_cons, List.not_mem_nil, or_false] at hr
  rcases hr with rfl | rfl | rfl | rfl | rfl | rfl | rfl | rfl
  · refine ⟨⟨ha, fun x hx => ?_⟩, ⟨ha', fun x hx => ?_⟩⟩ <;>
      · simp only [List.mem_cons, List.not_mem_nil, or_false] at hx
        rcases hx with rfl | rfl <;> assumption
  all_goals simp [Nameable, Seven, hb, hb']

/-- `exOk` has attributes with and without a made up prefix, a comment and a default namespace. -/
example : GivesTree wide [(['d'], b)] exOk := by
  exact C81_partial exNs _ _ exOk_consistent exNs_prefixes (fun r hr => (exOk_names r hr).1) (by decide) (by decide)

example : ∃ t, transform wide [(['d'], b)] false exOk = .done (some t) ∧ Verif.Spec.XPathAxes.Normalized t := by
  obtain ⟨t, h, _⟩ := C81_partial exNs [(['d'], b)] exOk exOk_consistent exNs_prefixes
    (fun r hr => (exOk_names r hr).1) (by decide) (by decide)
  exact ⟨t, h, (C81_tree_partial exNs _ _ exOk_consistent exNs_prefixes (fun r hr => (exOk_names r hr).1) t h).2.2.2⟩

/-- The same with strings of bytes. -/
example : GivesTree bytes [] exOk := by
  refine C81_bytes_partial exNs _ _ exOk_consistent exNs_prefixes ?_ exOk_names (by decide) (by decide)
  intro q h2
  unfold exNs at h2
  split at h2
  · rename_i h; rw [h]; simp [Ascii, p]
  · split at h2
    · rename_i h; rw [h]; simp [Ascii]
    · exact absurd rfl h2

/-- What `nodes` reads in a tree. -/
example : nodes (.node { kind := .element, loc := a } [.node { kind := .attribute, loc := b, value := a } [] []]
    [.node { kind := .cdata, value := b } [] []]) = [.start [] a [([], b, a)], .text b, .finish] ∧
    joined [.text a, .text [], .text b, .finish, .text []] = [.text ['a', 'b'], .finish] := by decide

/-- C81 is violated by the empty result: the node is null, not an empty fragment. -/
theorem C81_violated_nothing : Consistents (fun _ => []) .nil ∧ ¬ GivesTree wide [] .nil := by
  refine ⟨by simp [Consistents], ?_⟩
  rintro ⟨t, h, _⟩
  have : transform wide [] false .nil = .done none := rfl
  rw [this] at h
  cases h

/-- C81 is violated by an empty text, such as `xsl:value-of` of an empty string gives: it leaves a text node
without text in the element. -/
theorem C81_violated_empty : ¬ GivesTree wide [] (seq [.element [] a [] (seq [.text []])]) ∧
    ∃ t, transform wide [] false (seq [.element [] a [] (seq [.text []])]) = .done (some t) ∧
      nodes t = [.start [] a [], .text [], .finish] ∧
      joined (results (seq [.element [] a [] (seq [.text []])])) = [.start [] a [], .finish] := by
  have h : ∃ t, transform wide [] false (seq [.element [] a [] (seq [.text []])]) = .done (some t) ∧
      nodes t = [.start [] a [], .text [], .finish] := by
    refine ⟨.node { kind := .fragment, name := "#document-fragment".toList } []
      [.node { kind := .element, name := a, loc := a } [] [textNode []]], ?_, by decide⟩
    rfl
  obtain ⟨t, h1, h2⟩ := h
  have h3 : joined (results (seq [.element [] a [] (seq [.text []])])) = [.start [] a [], .finish] := by decide
  refine ⟨?_, t, h1, h2, h3⟩
  rintro ⟨t', g1, _, g2, _⟩
  rw [h1] at g1
  cases g1
  rw [h2, h3] at g2
  exact absurd g2 (by decide)

/-- C81 is violated with strings of bytes by names, and by data of processing instructions, that are not
ASCII: the DOM throws.  `C3 A4` is `ä`. -/
theorem C81_violated_bytes :
    transform bytes [] false (seq [.element [] [Char.ofNat 0xC3, Char.ofNat 0xA4] [] .nil]) = .throws ∧
    transform bytes [] false (seq [.pi a (seq [.text [Char.ofNat 0xC3, Char.ofNat 0xA4]])]) = .throws ∧
    (∃ t, transform wide [] false (seq [.pi a (seq [.text [Char.ofNat 0xE4]])]) = .done (some t)) := by
  refine ⟨by rfl, by rfl, _, rfl⟩

/-- C81 is violated by two attributes of one element with one local name and one prefix for two namespaces:
both values go to the first. -/
theorem C81_violated_attributes :
    ∃ t, transform wide [] false (seq [.element [] a [] (seq [.attr p b u1 (seq [.text a]), .attr p b u2 (seq [.text b])])])
        = .done (some t) ∧
      nodes t = [.start [] a [(u1, b, b), (u2, b, [])], .finish] ∧
      results (seq [.element [] a [] (seq [.attr p b u1 (seq [.text a]), .attr p b u2 (seq [.text b])])])
        = [.start [] a [(u1, b, a), (u2, b, b)], .finish] := by
  refine ⟨_, rfl, by rfl, by decide⟩

end Verif.Props.XsltDomSink
