import Verif.Lemmas.Sax2Dom5
import Verif.Lemmas.Clone11
import Verif.Lemmas.Clone9
set_option autoImplicit false
set_option linter.unusedSimpArgs false
/-!
# C33: building a DOM from SAX events
-/
namespace Verif.Props.Sax2Dom
open Verif.Sax2Dom
open Verif.Clone (St Chars Tree Reach Shows ShowsAll node)
open Verif.Dom (Id Str Kind Err)
open Verif.DomNames (NsName plain)
open Verif.SaxFilter (Ev)

/-- C33, in part: after every history of the DOM, and with a parser that knows no entities yet, parsing a source
of which the reader gives the events of any well formed document succeeds.  The parser's document is then a new one
that shows the tree of that document: its elements and their attributes with names and values, its texts (as one
wherever nothing but text is reported between two other things), CDATA sections, comments, processing instructions,
and document type, nested and in order as in the stream, with the value of an internal entity for each reference.
All of its nodes are given explicitly, and all other nodes are as they were.

Missing: comments, processing instructions and parameter entities in the document type, references in entities,
empty CDATA sections, and parsers that have seen entities before, for which it is false; internal entities with
markup, external entities with text, skipped entities, default attributes and ID attributes, which are not
covered. -/
theorem C33_partial {C : Chars} {s : St} (h : Reach C s) {b : Parser} (hb : b.declared = []) {doc : Doc} (hd : DocOk C doc)
    {fuel : Nat} (hf : 3 ≤ fuel) :
    ∃ s' b' d, parse C fuel s b (docEvents doc) = .ok s' b' ∧ b'.document = some d ∧ Shows s' (docTree doc) d ∧
      d = s.base.size ∧ s'.base.doc d = some d ∧ (∀ i, d ≤ i → i < s'.base.size → s'.specified i = true) ∧
      (∀ i, i < s.base.size → node s' i = node s i) ∧ (∀ x y, y ∈ s'.base.kids x → s'.base.parent y = some x) := by
  obtain ⟨s', b', e1, e2, e3, e4, e5⟩ := parsed hf (Clone.reach_good h) hb hd
  exact ⟨s', b', s.base.size, e1, e2, e5, rfl, e3.doc, e4, e3.low, fun x y hy => e3.good.dom.inv.child_parent hy⟩

/-! ## a document -/

def C0 : Chars := ⟨fun c => c != ' ' && c != '%', fun c => decide (32 ≤ c.toNat)⟩

/-- `<!--c--><!DOCTYPE r SYSTEM "s" [<!ENTITY e "hi">]><p:r xmlns:p="u" a="v">x<![CDATA[y]]>&e;<?t d?><q/>z</p:r>` -/
def sample : Doc where
  before := [.comment ['c']]
  dtd := some ⟨['r'], [], ['s'], [.other 9 [], .internal ['e'] ['h', 'i']], some [.external ['f'] [] ['w']]⟩
  content := [.element [(['p'], ['u'])] ['u'] ['p'] ['r']
    [⟨[], ['x', 'm', 'l', 'n', 's'], ['p'], [], ['u'], false⟩, ⟨[], [], ['a'], [], ['v'], true⟩]
    [.text [(true, ['x']), (false, [' '])], .cdata [(true, ['y'])], .ref ['e'] [(true, ['h', 'i'])], .pi ['t'] ['d'],
      .element [] [] [] ['q'] [] [], .text [(true, ['z'])]]]

theorem sample_ok : DocOk C0 sample := by
  refine ⟨?_, ?_, ?_, by decide, by decide⟩
  · simp [sample, ItemsOk, ItemOk]
  · simp only [sample, ItemsOk, ItemOk, and_true]
    refine ⟨?_, ?_, ?_, ?_, ?_⟩
    · exact ⟨by decide, by decide, by decide, by decide, by decide, fun _ => by decide, fun h => absurd h (by decide)⟩
    · exact fun _ => by decide
    · intro a ha
      rcases List.mem_cons.mp ha with rfl | ha
      · exact ⟨⟨by decide, by decide, by decide, by decide, by decide, fun _ => by decide, fun h => absurd h (by decide)⟩,
          fun _ => by decide, fun _ => rfl, fun h => absurd h (by decide)⟩
      · cases List.mem_singleton.mp ha
        exact ⟨⟨by decide, by decide, by decide, by decide, by decide, fun h => absurd rfl h, fun h => absurd h (by decide)⟩,
          fun h => absurd rfl h, fun h => absurd (by decide) h, fun _ => rfl⟩
    · exact by decide
    · refine ⟨trivial, by decide, ⟨by decide, ['h', 'i'], by decide⟩, by decide, ⟨?_, fun h => absurd rfl h, nofun, List.Pairwise.nil⟩⟩
      exact ⟨by decide, by decide, by decide, by decide, by decide, fun h => absurd rfl h, fun h => absurd h (by decide)⟩
  · intro t ht
    cases ht
    refine ⟨?_, by decide⟩
    intro d hd
    rcases List.mem_cons.mp hd with rfl | hd
    · exact ⟨by decide, by decide, by decide, by decide⟩
    rcases List.mem_cons.mp hd with rfl | hd
    · show '<' ∉ _; decide
    · cases List.mem_singleton.mp hd; trivial

def sampleTree : Tree :=
  .node .document (plain []) [] [] []
    [leaf .comment ['c'],
     .node .doctype (plain ['r']) [] [[], ['s']] [] [],
     .node .element ⟨['p', ':', 'r'], true, ['u'], ['p'], ['r']⟩ [] []
      [.node .attr ⟨"xmlns:p".toList, true, "http://www.w3.org/2000/xmlns/".toList, "xmlns".toList, ['p']⟩ [] [] []
         [leaf .text ['u']],
       .node .attr ⟨['a'], false, [], [], ['a']⟩ [] [] [] [leaf .text ['v']]]
      [leaf .text ['x', ' '], leaf .cdata ['y'], leaf .text ['h', 'i'], .node .pi (plain ['t']) ['d'] [] [] [],
       .node .element ⟨['q'], false, [], [], ['q']⟩ [] [] [] [], leaf .text ['z']]]

example : docTree sample = sampleTree := by rfl

/-- The sample, by a new parser when there are no other documents. -/
example : ∃ s' b' d, parse C0 3 Clone.empty Parser.init (docEvents sample) = .ok s' b' ∧ b'.document = some d ∧ Shows s' (docTree sample) d := by
  obtain ⟨s', b', d, h1, h2, h3, _⟩ := C33_partial .empty rfl sample_ok (Nat.le_refl 3) (b := Parser.init)
  exact ⟨s', b', d, h1, h2, h3⟩

/-! ## what is not built as the events say -/

def gives (x : Res) (P : St → Parser → Bool) : Bool :=
  match x with
  | .ok s b => P s b
  | _ => false

theorem gives_iff {x : Res} {P : St → Parser → Bool} (h : gives x P = true) : ∃ s b, x = .ok s b ∧ P s b = true := by
  cases x with
  | ok s b => exact ⟨s, b, rfl, h⟩
  | _ => cases h

/-- The document built by a new parser shows a tree. -/
def Builds (es : List Ev) (t : Tree) : Prop :=
  ∃ s b d, parse C0 9 Clone.empty Parser.init es = .ok s b ∧ b.document = some d ∧ Shows s t d

theorem builds {es : List Ev} {t : Tree}
    (h : gives (parse C0 9 Clone.empty Parser.init es) (fun s b => b.document.any fun d => decide (Shows s t d)) = true) : Builds es t := by
  obtain ⟨s, b, e1, e2⟩ := gives_iff h
  cases hd : b.document with
  | none => rw [hd] at e2; cases e2
  | some d =>
    rw [hd] at e2
    exact ⟨s, b, d, e1, hd, by simpa using e2⟩

def documentTree (ts : List Tree) : Tree := .node .document (plain []) [] [] [] ts
def doctypeR : Tree := .node .doctype (plain ['r']) [] [[], []] [] []
def elementR (ts : List Tree) : Tree := .node .element ⟨['r'], false, [], [], ['r']⟩ [] [] [] ts
def startR : Ev := .startElement [] ['r'] ['r'] []
def endR : Ev := .endElement [] ['r'] ['r']
def startType : Ev := .dtd cStartDTD [['r'], [], []]
def endType : Ev := .dtd cEndDTD []

/-- C33 is violated: a comment in the document type becomes a child of the document. -/
theorem C33_violated_comment :
    Builds [.startDocument, startType, .comment ['c'], endType, startR, endR, .endDocument]
      (documentTree [doctypeR, leaf .comment ['c'], elementR []]) := builds (by decide +kernel)

/-- C33 is violated: an empty CDATA section is lost. -/
theorem C33_violated_cdata :
    Builds [.startDocument, startR, .startCDATA, .endCDATA, endR, .endDocument] (documentTree [elementR []]) :=
  builds (by decide +kernel)

/-- C33 is violated: with `<!ENTITY a "&b;">` and `<!ENTITY b "x">`, `<r>&a;</r>` gives the text `x` and then
the unexpanded `&b;`. -/
theorem C33_violated_nested :
    Builds [.startDocument, startType, .dtd cInternal [['a'], ['&', 'b', ';']], .dtd cInternal [['b'], ['x']], endType,
        startR, .startEntity ['a'], .startEntity ['b'], .characters ['x'], .endEntity ['b'], .endEntity ['a'], endR, .endDocument]
      (documentTree [doctypeR, elementR [leaf .text ['x'], leaf .text ['&', 'b', ';']]]) := builds (by decide +kernel)

/-- C33 is violated: the text of an entity referred to in an external entity is there twice. -/
theorem C33_violated_twice :
    Builds [.startDocument, startType, .dtd cExternal [['a'], [], ['s']], .dtd cInternal [['b'], ['x']], endType,
        startR, .startEntity ['a'], .startEntity ['b'], .characters ['x'], .endEntity ['b'], .endEntity ['a'], endR, .endDocument]
      (documentTree [doctypeR, elementR [leaf .text ['x'], leaf .text ['x']]]) := builds (by decide +kernel)

/-- C33 is violated: after a reference in an entity the text of later references is there twice, too. -/
theorem C33_violated_later :
    Builds [.startDocument, startType, .dtd cInternal [['a'], ['&', 'b', ';']], .dtd cInternal [['b'], ['x']], endType,
        startR, .startEntity ['a'], .startEntity ['b'], .characters ['x'], .endEntity ['b'], .endEntity ['a'],
        .comment [], .startEntity ['b'], .characters ['x'], .endEntity ['b'], endR, .endDocument]
      (documentTree [doctypeR, elementR [leaf .text ['x'], leaf .text ['&', 'b', ';'], leaf .comment [],
        leaf .text ['x'], leaf .text ['x']]]) := builds (by decide +kernel)

def fails (x : Res) : Option (Option Err) :=
  match x with
  | .failed e => some (some e)
  | .ub => some none
  | _ => none

theorem fails_err {x : Res} {e : Err} (h : fails x = some (some e)) : x = .failed e := by
  cases x with
  | failed e' => simp only [fails, Option.some.injEq] at h; rw [h]
  | _ => simp [fails] at h

theorem fails_ub {x : Res} (h : fails x = some none) : x = .ub := by
  cases x with
  | ub => rfl
  | _ => simp [fails] at h

/-- C33 is violated: a parameter entity, reported as LexicalHandler asks with `%` before its name, makes the
parse fail. -/
theorem C33_violated_parameter :
    parse C0 9 Clone.empty Parser.init
      [.startDocument, startType, .startEntity ['%', 'p'], .endEntity ['%', 'p'], endType, startR, endR, .endDocument] =
      .failed .invalidChar := fails_err (by decide +kernel)

/-- A document with an entity and a reference to it. -/
def refers : List Ev :=
  [.startDocument, startType, .dtd cInternal [['e'], ['x']], endType, startR, .startEntity ['e'], .characters ['x'],
    .endEntity ['e'], endR, .endDocument]

/-- C33 is violated: a parser that parses a document with an entity once more, with all documents still there,
uses the entity of the first document, and the second parse fails. -/
theorem C33_violated_reuse : ∃ s b, parse C0 9 Clone.empty Parser.init refers = .ok s b ∧ parse C0 9 s b refers = .failed .wrongDoc := by
  obtain ⟨s, b, e1, e2⟩ := gives_iff (x := parse C0 9 Clone.empty Parser.init refers)
    (P := fun s b => decide (fails (parse C0 9 s b refers) = some (some .wrongDoc))) (by decide +kernel)
  exact ⟨s, b, e1, fails_err (by simpa using e2)⟩

/-- C33 is violated: after an element with a prefix but without namespace, as a reader reports it that does not
process namespaces, the parser has neither a document nor a current node, and uses the null node at the end of
the next entity. -/
theorem C33_violated_null :
    parse C0 9 Clone.empty Parser.init
      [.startDocument, .startElement [] [] ['p', ':', 'r'] [], .startEntity ['e'], .endEntity ['e'], .endElement [] [] ['p', ':', 'r'],
        .endDocument] = .ub := fails_ub (by decide +kernel)

end Verif.Props.Sax2Dom
