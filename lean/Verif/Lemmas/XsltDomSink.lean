import Verif.Lemmas.XsltOutput5
import Verif.Model.XsltDomSink
import Verif.Spec.XsltDomSink
import Verif.Props.DomNames
set_option autoImplicit false
set_option linter.unusedSimpArgs false
set_option linter.unusedVariables false
/-! Lemmas about the sink that builds a DOM. -/
namespace Verif.XsltDomSink
open Verif.Xslt (QN OAttr Event)
open Verif.Xslt (Last feed feed1 tell told NamesOk PfxOk erase autoPrefix)
open Verif.XTree (Tree Data Kind)
open Verif.Spec.XsltOutput (Res readTags sections section1 listed)
open Verif.Spec.XsltDomSink

/-- What the characters used by the processor itself are to the DOM. -/
structure CharsOk (C : Chars) : Prop where
  colon : C.name ':' = true
  auto : ∀ i, ∀ c ∈ autoPrefix i, C.name c = true
  xml : ∀ c ∈ Verif.Spec.XsltOutput.xml, C.name c = true

/-- A name without a colon. -/
structure Nm (C : Chars) (s : Str) : Prop where
  ne : s ≠ []
  colon : ':' ∉ s
  all : ∀ c ∈ s, C.name c = true

theorem checkName_of {C : Chars} {s : Str} (h1 : s ≠ []) (h2 : ∀ c ∈ s, C.name c = true) :
    DomNames.checkName C.name s = true := by
  simp only [DomNames.checkName, Bool.and_eq_true, Bool.not_eq_true', List.isEmpty_eq_false_iff, List.all_eq_true]
  exact ⟨h1, h2⟩

/-- The prefix of a good name is a name itself. -/
theorem pfx_name {C : Chars} {ns : Str → Str} (hC : CharsOk C) (hns : ∀ p, p ≠ [] → ns p ≠ [] → Nm C p) {p u : Str}
    (h : PfxOk ns p u) (hp : p ≠ []) : ':' ∉ p ∧ ∀ c ∈ p, C.name c = true := by
  rcases h with h | ⟨h, _⟩ | ⟨hu, _, _, h⟩
  · exact absurd h hp
  · subst h; exact ⟨by decide, hC.xml⟩
  · rcases h with ⟨i, hi⟩ | h
    · subst hi
      refine ⟨?_, hC.auto i⟩
      intro hm
      unfold autoPrefix at hm
      rcases List.mem_append.mp hm with hm | hm
      · exact absurd hm (by decide)
      · have := Nat.isDigit_of_mem_toDigits (by omega) (by omega) hm
        exact absurd this (by decide)
    · have := hns p hp (by rw [h]; exact hu)
      exact ⟨this.colon, this.all⟩

theorem qText_check {C : Chars} {ns : Str → Str} (hC : CharsOk C) (hns : ∀ p, p ≠ [] → ns p ≠ [] → Nm C p)
    {q : QN} {u : Str} (h : PfxOk ns q.1 u) (hl : Nm C q.2) : DomNames.checkName C.name (qText q) = true := by
  unfold qText
  by_cases hp : q.1 = []
  · rw [if_pos hp]; exact checkName_of hl.ne hl.all
  · rw [if_neg hp]
    refine checkName_of (by simp) ?_
    intro c hc
    rcases List.mem_append.mp hc with hc | hc
    · exact (pfx_name hC hns h hp).2 c hc
    · rcases List.mem_cons.mp hc with rfl | hc
      · exact hC.colon
      · exact hl.all c hc

theorem xmlUri_eq : Verif.Spec.XsltOutput.xmlUri = DomNames.xmlURI := rfl
theorem xml_eq : Verif.Spec.XsltOutput.xml = DomNames.xml := rfl
theorem xmlns_eq : Verif.Spec.XsltOutput.xmlns = DomNames.xmlns := rfl

theorem element_name {C : Chars} {ns : Str → Str} (hC : CharsOk C) (hns : ∀ p, p ≠ [] → ns p ≠ [] → Nm C p)
    {q : QN} {u : Str} (h : PfxOk ns q.1 u) (hl : Nm C q.2) :
    ∃ n, DomNames.createElementNS C.name u (qText q) = .ok n ∧ n.uri = u ∧ n.localName = q.2 := by
  rw [DomNames.createElementNS, if_pos (qText_check hC hns h hl), DomNames.elementNS]
  unfold qText
  by_cases hp : q.1 = []
  · rw [if_pos hp, Props.DomNames.cut_none _ hl.colon]
    refine ⟨_, rfl, rfl, rfl⟩
  · obtain ⟨hc, _⟩ := pfx_name hC hns h hp
    rw [if_neg hp, Props.DomNames.cut_some _ _ hc]
    rcases h with h | ⟨h, hu⟩ | ⟨hu, h1, h2, _⟩
    · exact absurd h hp
    · rw [h, hu, xmlUri_eq, xml_eq]
      refine ⟨_, rfl, rfl, rfl⟩
    · rw [xml_eq] at h2
      have he : u.isEmpty = false := by simpa using hu
      simp only [DomNames.checkPrefixAndNamespace, Bool.not_true, Bool.false_eq_true, if_false, hc, h2,
        Bool.false_and, he, Bool.not_false, Bool.or_self]
      exact ⟨_, rfl, rfl, rfl⟩

theorem attr_name {C : Chars} {ns : Str → Str} (hC : CharsOk C) (hns : ∀ p, p ≠ [] → ns p ≠ [] → Nm C p)
    {q : QN} {u : Str} (h : PfxOk ns q.1 u) (hl : Nm C q.2)
    (hx : if u = [] then q.1 = [] ∧ q.2 ≠ Verif.Spec.XsltOutput.xmlns else q.1 ≠ []) :
    ∃ n, DomNames.attrNS u (qText q) = .ok n ∧ n.uri = u ∧ n.localName = q.2 := by
  rw [DomNames.attrNS]
  unfold qText
  by_cases hp : q.1 = []
  · have hx : q.2 ≠ DomNames.xmlns := by
      by_cases hu : u = []
      · rw [if_pos hu] at hx; exact hx.2
      · rw [if_neg hu] at hx; exact absurd hp hx
    rw [if_pos hp, Props.DomNames.cut_none _ hl.colon]
    simp only [hx, decide_false, if_false, DomNames.checkPrefixAndNamespace, Bool.not_false, if_true]
    refine ⟨_, rfl, rfl, rfl⟩
  · obtain ⟨hc, _⟩ := pfx_name hC hns h hp
    rw [if_neg hp, Props.DomNames.cut_some _ _ hc]
    rcases h with h | ⟨h, hu⟩ | ⟨hu, h1, h2, _⟩
    · exact absurd h hp
    · rw [h, hu, xmlUri_eq, xml_eq]
      refine ⟨_, rfl, rfl, rfl⟩
    · rw [xml_eq] at h2
      rw [xmlns_eq] at h1
      have he : u.isEmpty = false := by simpa using hu
      simp only [DomNames.checkPrefixAndNamespace, Bool.not_true, Bool.false_eq_true, if_false, hc, h2, h1,
        decide_false, Bool.and_false, he, Bool.not_false, Bool.or_self]
      exact ⟨_, rfl, rfl, rfl⟩

/-! The attributes. -/

def three (a : Tree) : Str × Str × Str := (a.data.uri, a.data.loc, a.data.value)

theorem putNode_new (a : Tree) (as : List Tree)
    (h : (a.data.uri, a.data.loc) ∉ as.map fun b => (b.data.uri, b.data.loc)) : putNode a as = as ++ [a] := by
  induction as with
  | nil => rfl
  | cons b bs ih =>
    simp only [List.map_cons, List.mem_cons, not_or, Prod.mk.injEq] at h
    rw [putNode, if_neg (by rintro ⟨h1, h2⟩; exact h.1 ⟨h1.symm, h2.symm⟩), ih h.2]
    rfl

theorem setAttributes_ok {C : Chars} {ns : Str → Str} (hC : CharsOk C)
    (hns : ∀ p, p ≠ [] → ns p ≠ [] → Nm C p) (atts : List OAttr) (as : List Tree)
    (h1 : ∀ a ∈ atts, a.qName.2 = a.localName ∧ PfxOk ns a.qName.1 a.uri ∧
      (if a.uri = [] then a.qName.1 = [] ∧ a.localName ≠ Verif.Spec.XsltOutput.xmlns else a.qName.1 ≠ []))
    (h2 : ∀ a ∈ atts, Nm C a.localName)
    (h3 : ((as.map fun b => (b.data.uri, b.data.loc)) ++ atts.map fun a => (a.uri, a.localName)).Nodup) :
    ∃ bs, setAttributes C atts as = .done bs ∧ bs.map three = as.map three ++ atts.map erase := by
  induction atts generalizing as with
  | nil => exact ⟨as, rfl, by simp⟩
  | cons a more ih =>
    obtain ⟨g1, g2, g3⟩ := h1 a (by simp)
    have hl := h2 a (by simp)
    rw [← g1] at hl g3
    obtain ⟨n, hn, hu, hloc⟩ := attr_name hC hns g2 hl g3
    have hset : setAttribute C a as = .done (as ++ [.node (named .attribute n a.value) [] [textNode a.value]]) := by
      rw [setAttribute, qText_check hC hns g2 hl]
      simp only [Bool.not_true, Bool.false_eq_true, if_false, hn]
      rw [putNode_new]
      simp only [Tree.data, named, hu, hloc, g1]
      rw [List.map_cons] at h3
      intro hm
      rw [List.nodup_append] at h3
      exact h3.2.2 _ hm _ (by simp) rfl
    rw [setAttributes, hset]
    obtain ⟨bs, hb, hm⟩ := ih (as ++ [.node (named .attribute n a.value) [] [textNode a.value]])
      (fun x hx => h1 x (List.mem_cons_of_mem _ hx)) (fun x hx => h2 x (List.mem_cons_of_mem _ hx)) (by
        simpa [Tree.data, named, hu, hloc, g1] using h3)
    refine ⟨bs, hb, ?_⟩
    rw [hm]
    simp [three, Tree.data, named, hu, hloc, g1, erase]

/-! Trees. -/

theorem nodesAll_append (a b : List Tree) : nodesAll (a ++ b) = nodesAll a ++ nodesAll b := by
  induction a with
  | nil => simp [nodesAll]
  | cons t ts ih => simp [nodesAll, ih]

theorem sectionedAll_append (cd : List (Str × Str)) (x : Bool) (a b : List Tree) :
    SectionedAll cd x (a ++ b) ↔ SectionedAll cd x a ∧ SectionedAll cd x b := by
  induction a with
  | nil => simp [SectionedAll]
  | cons t ts ih => simp [SectionedAll, ih, and_assoc]

/-- The children of where the sink is. -/
def kidsAt (fs : List Frame) (top : List Tree) : List Tree :=
  match fs with
  | [] => top
  | f :: _ => f.kids

/-- Other children where the sink is. -/
def withKids (fs : List Frame) (top ts : List Tree) : List Frame × List Tree :=
  match fs with
  | [] => ([], ts)
  | f :: fs => ({ f with kids := ts } :: fs, top)

/-- The nodes written. -/
def lin : List Frame → List Tree → List Res
  | [], top => nodesAll top
  | f :: fs, top => lin fs top ++ .start f.data.uri f.data.loc (f.attrs.map three) :: nodesAll f.kids

/-- The nodes written before the children of where the sink is. -/
def lead : List Frame → List Tree → List Res
  | [], _ => []
  | f :: fs, top => lin fs top ++ [.start f.data.uri f.data.loc (f.attrs.map three)]

theorem lin_lead (fs : List Frame) (top : List Tree) : lin fs top = lead fs top ++ nodesAll (kidsAt fs top) := by
  cases fs <;> simp [lin, lead, kidsAt]

theorem lin_with (fs : List Frame) (top ts : List Tree) :
    lin (withKids fs top ts).1 (withKids fs top ts).2 = lead fs top ++ nodesAll ts := by
  cases fs <;> simp [lin, lead, withKids]

/-- The children of where the sink is, by what is last. -/
def Level (cd : List (Str × Str)) (b : Bool) (ks : List Tree) : Last → Prop
  | .other => SectionedAll cd b ks ∧
      (ks = [] ∨ ∃ k' t, ks = k' ++ [t] ∧ (t.kind = .element ∨ t.kind = .comment ∨ t.kind = .pi))
  | .text => ∃ k' s, ks = k' ++ [textNode s] ∧ SectionedAll cd b k'
  | .cdata => ∃ k' s, ks = k' ++ [cdataNode s] ∧ SectionedAll cd b k' ∧ b = true

/-- Levels that are not being written to. -/
def Outer (cd : List (Str × Str)) : List Frame → List Tree → Prop
  | [], top => SectionedAll cd false top
  | f :: fs, top => f.data.kind = .element ∧ SectionedAll cd (decide ((f.data.uri, f.data.loc) ∈ cd)) f.kids ∧ Outer cd fs top

/-- All levels. -/
def Inner (cd : List (Str × Str)) (y : Last) : List Frame → List Tree → Prop
  | [], top => Level cd false top y
  | f :: fs, top => f.data.kind = .element ∧ Level cd (decide ((f.data.uri, f.data.loc) ∈ cd)) f.kids y ∧ Outer cd fs top

def names (fs : List Frame) : List (Str × Str) := fs.map fun f => (f.data.uri, f.data.loc)

theorem level_done {cd : List (Str × Str)} {b : Bool} {ks : List Tree} {y : Last} (h : Level cd b ks y)
    (hy : y = .text → b = false) : SectionedAll cd b ks := by
  cases y with
  | other => exact h.1
  | text =>
    obtain ⟨k', s, rfl, h⟩ := h
    rw [sectionedAll_append]
    refine ⟨h, ?_⟩
    simp [SectionedAll, Sectioned, textNode, Tree.kind, Tree.data, hy rfl]
  | cdata =>
    obtain ⟨k', s, rfl, h, hb⟩ := h
    rw [sectionedAll_append]
    refine ⟨h, ?_⟩
    simp [SectionedAll, Sectioned, cdataNode, Tree.kind, Tree.data, hb]

theorem inner_done {cd : List (Str × Str)} {fs : List Frame} {top : List Tree} {y : Last} (h : Inner cd y fs top)
    (hy : y = .text → listed cd (names fs) = false) : Outer cd fs top := by
  cases fs with
  | nil => exact level_done h (fun _ => rfl)
  | cons f fs => exact ⟨h.1, level_done h.2.1 hy, h.2.2⟩

/-- A node that is not text, put at the end. -/
theorem outer_append {cd : List (Str × Str)} {fs : List Frame} {top : List Tree} (h : Outer cd fs top) (t : Tree)
    (hk : t.kind = .element ∨ t.kind = .comment ∨ t.kind = .pi) (ht : Sectioned cd t) :
    Inner cd .other (withKids fs top (kidsAt fs top ++ [t])).1 (withKids fs top (kidsAt fs top ++ [t])).2 := by
  have hs : ∀ b, SectionedAll cd b [t] := by
    intro b
    refine ⟨fun e => ?_, fun e => ?_, ht, trivial⟩ <;> rw [e] at hk <;> simp at hk
  cases fs with
  | nil =>
    refine ⟨?_, Or.inr ⟨_, t, rfl, hk⟩⟩
    show SectionedAll cd false (top ++ [t])
    rw [sectionedAll_append]
    exact ⟨h, hs _⟩
  | cons f fs =>
    refine ⟨h.1, ⟨?_, Or.inr ⟨_, t, rfl, hk⟩⟩, h.2.2⟩
    rw [sectionedAll_append]
    exact ⟨h.2.1, hs _⟩

/-- Text at the end. -/
theorem inner_text {cd : List (Str × Str)} {fs : List Frame} {top : List Tree} (ks : List Tree) (s : Str) {y : Last}
    (h : Inner cd y fs top) (hk : ∀ b, Level cd b (kidsAt fs top) y → SectionedAll cd b ks) :
    Inner cd .text (withKids fs top (ks ++ [textNode s])).1 (withKids fs top (ks ++ [textNode s])).2 := by
  cases fs with
  | nil => exact ⟨ks, s, rfl, hk _ h⟩
  | cons f fs => exact ⟨h.1, ⟨ks, s, rfl, hk _ h.2.1⟩, h.2.2⟩

/-! One event. -/

/-- Where the sink stands. -/
structure Good (cd : List (Str × Str)) (k : Sink) (fs : List Frame) (top : List Tree) (x : List (Str × Str) × Bool)
    (y : Last) (acc : List Res) : Prop where
  flat : k.indent = -1
  cur : ∃ oa, current k = { frag := some top, path := some fs, indent := -1, outAgain := oa }
  wrote : k.path = some fs ∧ k.frag = some top ∨ fs = [] ∧ k.frag = none ∧ acc = []
  lin : lin fs top = acc
  names : names fs = x.1
  inner : Inner cd y fs top
  section' : y = .text → x.2 = listed cd x.1

theorem set_at (fs : List Frame) (top ts : List Tree) (oa : Bool) :
    setKids { frag := some top, path := some fs, indent := -1, outAgain := oa } ts =
      { frag := some (withKids fs top ts).2, path := some (withKids fs top ts).1, indent := -1, outAgain := oa } := by
  cases fs <;> rfl

theorem kids_at (fs : List Frame) (top : List Tree) (oa : Bool) :
    kids { frag := some top, path := some fs, indent := -1, outAgain := oa } = kidsAt fs top := by
  cases fs <;> rfl

theorem names_with (fs : List Frame) (top ts : List Tree) : names (withKids fs top ts).1 = names fs := by
  cases fs <;> rfl

theorem length_with (fs : List Frame) (top ts : List Tree) : (withKids fs top ts).1.length = fs.length := by
  cases fs <;> rfl

/-- A sink with a place. -/
theorem good_mk {cd : List (Str × Str)} {fs : List Frame} {top : List Tree} {x : List (Str × Str) × Bool}
    {y : Last} {acc : List Res} (oa : Bool) (h1 : XsltDomSink.lin fs top = acc) (h2 : XsltDomSink.names fs = x.1)
    (h3 : Inner cd y fs top) (h4 : y = .text → x.2 = listed cd x.1) :
    Good cd { frag := some top, path := some fs, indent := -1, outAgain := oa } fs top x y acc :=
  ⟨rfl, ⟨oa, rfl⟩, Or.inl ⟨rfl, rfl⟩, h1, h2, h3, h4⟩

theorem lead_last (fs : List Frame) (top : List Tree) (s : Str) : (lead fs top).getLast? ≠ some (.text s) := by
  cases fs <;> simp [lead]

theorem level_last {cd : List (Str × Str)} {fs : List Frame} {top : List Tree} {b : Bool}
    (h : Level cd b (kidsAt fs top) .other) (s : Str) : (lin fs top).getLast? ≠ some (.text s) := by
  rw [lin_lead]
  rcases h.2 with h | ⟨k', t, h, hk⟩
  · rw [h]; simpa [nodesAll] using lead_last fs top s
  · rw [h, nodesAll_append]
    obtain ⟨d, as, ks⟩ := t
    simp only [Tree.kind, Tree.data] at hk
    rcases hk with hk | hk | hk <;> simp [nodesAll, nodes, hk, List.getLast?_append, List.getLast?_cons]

theorem level_of_inner {cd : List (Str × Str)} {fs : List Frame} {top : List Tree} {y : Last} (h : Inner cd y fs top) :
    Level cd (listed cd (names fs)) (kidsAt fs top) y := by
  cases fs with
  | nil => exact h
  | cons f fs => exact h.2.1

theorem chars_good {cd : List (Str × Str)} {k : Sink} {fs : List Frame} {top : List Tree}
    {x : List (Str × Str) × Bool} {y : Last} {acc : List Res} (h : Good cd k fs top x y acc) (s : Str)
    (hy : y ≠ .cdata) (hx : x.2 = listed cd x.1) :
    ∃ fs' top', Good cd (characters s k) fs' top' x .text (put true acc (.text s)) ∧ fs'.length = fs.length := by
  obtain ⟨oa, hc⟩ := h.cur
  have hlev := level_of_inner h.inner
  cases y with
  | cdata => exact absurd rfl hy
  | other =>
    have hl := fun t => level_last hlev t
    have hch : characters s k = setKids { frag := some top, path := some fs, indent := -1, outAgain := oa }
        (kidsAt fs top ++ [textNode s]) := by
      rw [characters]
      simp only [hc, kids_at]
      rcases hlev.2 with he | ⟨k', t, he, hk⟩
      · simp [he]
      · obtain ⟨d, as, ks⟩ := t
        simp only [Tree.kind, Tree.data] at hk
        have hne : d.kind ≠ .text := by intro e; rw [e] at hk; simp at hk
        simp [he, hne]
    rw [hch, set_at]
    refine ⟨_, _, good_mk oa ?_ ((names_with _ _ _).trans h.names) ?_ (fun _ => hx), length_with _ _ _⟩
    · rw [lin_with, nodesAll_append, ← List.append_assoc, ← lin_lead, h.lin]
      have := h.lin
      rw [this] at hl
      rw [put]
      split
      · rename_i t ht; exact absurd ht (hl t)
      · simp [nodesAll, nodes, textNode]
    · exact inner_text _ s h.inner (fun b hb => hb.1)
  | text =>
    obtain ⟨k', v, he, hk⟩ := hlev
    have hch : characters s k = setKids { frag := some top, path := some fs, indent := -1, outAgain := oa }
        (k' ++ [textNode (v ++ s)]) := by
      rw [characters]
      simp only [hc, kids_at, he]
      simp [textNode]
    rw [hch, set_at]
    refine ⟨_, _, good_mk oa ?_ ((names_with _ _ _).trans h.names) ?_ (fun _ => hx), length_with _ _ _⟩
    · rw [lin_with, ← h.lin, lin_lead, he]
      simp [nodesAll_append, nodesAll, nodes, textNode, put, List.getLast?_append, List.dropLast_append, ← List.append_assoc]
    · refine inner_text _ _ h.inner ?_
      intro b hb
      obtain ⟨k2, v2, he2, hk2⟩ := hb
      rw [he] at he2
      have := List.append_inj_left' he2 rfl
      rw [this]; exact hk2

theorem append_good {cd : List (Str × Str)} {k : Sink} {fs : List Frame} {top : List Tree}
    {x : List (Str × Str) × Bool} {y : Last} {acc : List Res} (h : Good cd k fs top x y acc) (hx : x.2 = false) (t : Tree)
    (hk : t.kind = .element ∨ t.kind = .comment ∨ t.kind = .pi) (ht : Sectioned cd t) :
    ∃ fs' top', Good cd (append k t) fs' top' x .other (acc ++ nodes t) ∧ fs'.length = fs.length := by
  obtain ⟨oa, hc⟩ := h.cur
  have ho : Outer cd fs top := inner_done h.inner (fun hy => by rw [h.names, ← h.section' hy, hx])
  rw [append, hc, kids_at, set_at]
  refine ⟨_, _, good_mk oa ?_ ((names_with _ _ _).trans h.names) (outer_append ho t hk ht) (fun e => by cases e),
    length_with _ _ _⟩
  rw [lin_with, nodesAll_append, ← List.append_assoc, ← lin_lead, h.lin]
  simp [nodesAll]

theorem indent_off {k : Sink} (h : k.indent = -1) : indent k = k := by rw [indent, if_pos h]
theorem outdent_off {k : Sink} (h : k.indent = -1) : outdent k = k := by rw [outdent, if_pos h]

/-- What an event may carry. -/
def Fine (C : Chars) (ns : Str → Str) (e : Event) : Prop :=
  NamesOk ns e ∧
  match e with
  | .startElement q _ as => Nm C q.2 ∧ ∀ a ∈ as, Nm C a.localName
  | .pi t s => DomNames.checkName C.name t = true ∧ s.all C.char = true
  | _ => True

/-- The depth after an event. -/
def deep (n : Nat) : Event → Option Nat
  | .startElement _ _ _ => some (n + 1)
  | .endElement _ _ => if n = 0 then none else some (n - 1)
  | _ => some n

theorem step_good {C : Chars} {ns : Str → Str} (hC : CharsOk C) (hns : ∀ p, p ≠ [] → ns p ≠ [] → Nm C p)
    {cd : List (Str × Str)} {k : Sink} {fs : List Frame} {top : List Tree} {x x' : List (Str × Str) × Bool} {y y' : Last}
    {acc : List Res} (h : Good cd k fs top x y acc) (e : Event) (he : Fine C ns e)
    (hx : section1 cd x e = some x') (hy : feed1 y e = some y') (n : Nat) (hn : deep fs.length e = some n) :
    ∃ k' fs' top', step C k e = .done k' ∧ Good cd k' fs' top' x' y' ((tell e).foldl (put true) acc) ∧
      fs'.length = n := by
  match e with
  | .characters s =>
    simp only [section1] at hx
    split at hx <;> simp only [Option.some.injEq, reduceCtorEq] at hx
    rename_i h1
    simp only [feed1] at hy
    split at hy <;> simp only [Option.some.injEq, reduceCtorEq] at hy
    rename_i h2
    subst hx hy
    obtain ⟨fs', top', g, hl⟩ := chars_good h s h2 h1
    simp only [deep, Option.some.injEq] at hn
    exact ⟨_, fs', top', rfl, by simpa [tell] using g, by omega⟩
  | .startCDATA =>
    simp only [section1] at hx
    split at hx <;> simp only [Option.some.injEq, reduceCtorEq] at hx
    simp only [feed1] at hy
    split at hy <;> simp only [Option.some.injEq, reduceCtorEq] at hy
    rename_i h2
    subst hx hy h2
    simp only [deep, Option.some.injEq] at hn
    exact ⟨k, fs, top, rfl, ⟨h.flat, h.cur, h.wrote, h.lin, h.names, h.inner, fun e => by cases e⟩, hn⟩
  | .endCDATA =>
    simp only [section1] at hx
    split at hx <;> simp only [Option.some.injEq, reduceCtorEq] at hx
    rename_i h1
    simp only [feed1] at hy
    split at hy <;> simp only [Option.some.injEq, reduceCtorEq] at hy
    rename_i h2
    subst hx hy h2
    simp only [deep, Option.some.injEq] at hn
    obtain ⟨oa, hc⟩ := h.cur
    obtain ⟨k', v, hk, hs⟩ := level_of_inner h.inner
    have hli : listed cd (names fs) = true := by rw [h.names, ← h.section' rfl, h1]
    refine ⟨{ frag := some (withKids fs top (k' ++ [cdataNode v])).2,
              path := some (withKids fs top (k' ++ [cdataNode v])).1, indent := -1, outAgain := oa },
      (withKids fs top (k' ++ [cdataNode v])).1, (withKids fs top (k' ++ [cdataNode v])).2, ?_, ?_, ?_⟩
    · simp only [step, endCDATA, hc, kids_at, hk, List.getLast?_append, List.getLast?_singleton, Option.some_or, textNode,
        if_true, List.dropLast_append, List.dropLast_singleton, List.append_nil]
      rw [set_at]
      simp
    · refine good_mk oa ?_ ((names_with _ _ _).trans h.names) ?_ (fun e => by cases e)
      · rw [lin_with, ← h.lin, lin_lead, hk]
        simp [nodesAll_append, nodesAll, nodes, textNode, cdataNode, tell]
      · cases fs with
        | nil => simp [names, listed] at hli
        | cons f fs =>
          obtain ⟨h1, h2, h3⟩ := h.inner
          refine ⟨h1, ⟨k', v, rfl, ?_, by simpa [names, listed] using hli⟩, h3⟩
          simpa [names, listed] using hs
    · rw [length_with]; exact hn
  | .comment s =>
    simp only [section1] at hx
    split at hx <;> simp only [Option.some.injEq, reduceCtorEq] at hx
    rename_i h1
    simp only [feed1, Option.some.injEq] at hy
    subst hx hy
    simp only [deep, Option.some.injEq] at hn
    obtain ⟨fs', top', g, hl⟩ := append_good h (by simpa using h1) (commentNode s) (Or.inr (Or.inl rfl))
      (by simp [commentNode, Sectioned, SectionedAll])
    exact ⟨_, fs', top', rfl, by simpa [tell, put, nodes, commentNode, comment] using g, by omega⟩
  | .pi t s =>
    simp only [section1] at hx
    split at hx <;> simp only [Option.some.injEq, reduceCtorEq] at hx
    rename_i h1
    simp only [feed1, Option.some.injEq] at hy
    subst hx hy
    simp only [deep, Option.some.injEq] at hn
    obtain ⟨fs', top', g, hl⟩ := append_good h (by simpa using h1) (.node { kind := .pi, name := t, value := s } [] [])
      (Or.inr (Or.inr rfl)) (by simp [Sectioned, SectionedAll])
    have e1 : DomNames.checkName C.name t = true := he.2.1
    have e2 : s.all C.char = true := he.2.2
    refine ⟨_, fs', top', ?_, by simpa [tell, put, nodes] using g, by omega⟩
    simp [step, processingInstruction, e1, e2]
  | .startElement q u as =>
    simp only [section1] at hx
    split at hx <;> simp only [Option.some.injEq, reduceCtorEq] at hx
    rename_i h1
    simp only [feed1, Option.some.injEq] at hy
    subst hx hy
    simp only [deep, Option.some.injEq] at hn
    obtain ⟨⟨n1, n2, n3⟩, n4, n5⟩ := he
    obtain ⟨m, hm, hu, hl⟩ := element_name hC hns n1 n4
    obtain ⟨bs, hb, hbm⟩ := setAttributes_ok hC hns as [] n2 n5 (by simpa using n3)
    obtain ⟨oa, hc⟩ := h.cur
    refine ⟨{ frag := some top, path := some (⟨named .element m [], bs, []⟩ :: fs), indent := -1, outAgain := oa },
      ⟨named .element m [], bs, []⟩ :: fs, top, ?_, ?_, ?_⟩
    · rw [step, startElement, indent_off h.flat]
      simp only [hm, hb, hc, Option.getD_some]
    · refine good_mk oa ?_ ?_ ?_ (fun e => by cases e)
      · rw [lin, h.lin]
        simp [tell, put, nodesAll, named, hu, hl, hbm]
      · have := h.names
        simp only [names] at this ⊢
        simp [this, named, hu, hl]
      · exact ⟨rfl, ⟨trivial, Or.inl rfl⟩,
          inner_done h.inner (fun hy => by rw [h.names, ← h.section' hy]; simpa using h1)⟩
    · simpa using hn
  | .endElement q u =>
    simp only [section1] at hx
    split at hx <;> simp only [Option.some.injEq, reduceCtorEq] at hx
    rename_i h1
    simp only [feed1, Option.some.injEq] at hy
    subst hx hy
    simp only [deep] at hn
    split at hn <;> simp only [Option.some.injEq, reduceCtorEq] at hn
    rename_i h2
    have ho := inner_done h.inner (fun hy => by rw [h.names, ← h.section' hy]; simpa using h1)
    cases fs with
    | nil => simp at h2
    | cons f fs =>
      have hp : k.path = some (f :: fs) ∧ k.frag = some top := by
        rcases h.wrote with h | ⟨h, _⟩
        · exact h
        · cases h
      obtain ⟨oa, hc⟩ := h.cur
      have hk : k = { frag := some top, path := some (f :: fs), indent := -1, outAgain := oa } := by
        rw [← hc, current, hp.1]
      have hd := ho.1
      refine ⟨{ frag := some (withKids fs top (kidsAt fs top ++ [.node f.data f.attrs f.kids])).2,
                path := some (withKids fs top (kidsAt fs top ++ [.node f.data f.attrs f.kids])).1,
                indent := -1, outAgain := oa },
        (withKids fs top (kidsAt fs top ++ [.node f.data f.attrs f.kids])).1,
        (withKids fs top (kidsAt fs top ++ [.node f.data f.attrs f.kids])).2, ?_, ?_, ?_⟩
      · rw [step, endElement, outdent_off h.flat]
        simp only [hp.1]
        rw [hk]
        simp only [append, current, kids_at, set_at]
      · refine good_mk oa ?_ ?_ (outer_append ho.2.2 _ (Or.inl hd) ?_) (fun e => by cases e)
        · rw [lin_with, nodesAll_append, ← List.append_assoc, ← lin_lead, ← h.lin]
          simp only [nodesAll, nodes, hd, tell, put, List.foldl, lin, List.append_nil]
          simp [three]
        · rw [names_with]
          have := h.names
          simp only [names, List.map_cons] at this ⊢
          rw [← this, List.tail_cons]
        · simp only [Sectioned, hd]
          simpa using ho.2.1
      · rw [length_with]; simp at hn; exact hn

theorem deep_tags {o : List QN} {e : Event} {es : List Event} {rs : List Res} {m : Nat} (ho : o.length = m)
    (ht : readTags o (e :: es) = some (rs, [])) :
    ∃ n o' rs', deep m e = some n ∧ o'.length = n ∧ readTags o' es = some (rs', []) := by
  cases e with
  | startElement q u as =>
    simp only [readTags, Option.map_eq_some_iff] at ht
    obtain ⟨r, h1, h2⟩ := ht
    exact ⟨_, q :: o, r.1, rfl, by simp [ho], by rw [h1]; simp only [Prod.mk.injEq] at h2; rw [← h2.2]⟩
  | endElement q u =>
    cases o with
    | nil => simp [readTags] at ht
    | cons t o =>
      simp only [readTags] at ht
      split at ht
      · simp only [Option.map_eq_some_iff] at ht
        obtain ⟨r, h1, h2⟩ := ht
        simp only [List.length_cons] at ho
        refine ⟨m - 1, o, r.1, ?_, by omega, by rw [h1]; simp only [Prod.mk.injEq] at h2; rw [← h2.2]⟩
        rw [deep, if_neg (by omega)]
      · simp at ht
  | characters s =>
    simp only [readTags, Option.map_eq_some_iff] at ht
    obtain ⟨r, h1, h2⟩ := ht
    exact ⟨_, o, r.1, rfl, ho, by rw [h1]; simp only [Prod.mk.injEq] at h2; rw [← h2.2]⟩
  | comment s =>
    simp only [readTags, Option.map_eq_some_iff] at ht
    obtain ⟨r, h1, h2⟩ := ht
    exact ⟨_, o, r.1, rfl, ho, by rw [h1]; simp only [Prod.mk.injEq] at h2; rw [← h2.2]⟩
  | pi t s =>
    simp only [readTags, Option.map_eq_some_iff] at ht
    obtain ⟨r, h1, h2⟩ := ht
    exact ⟨_, o, r.1, rfl, ho, by rw [h1]; simp only [Prod.mk.injEq] at h2; rw [← h2.2]⟩
  | startCDATA => simp only [readTags] at ht; exact ⟨_, o, rs, rfl, ho, ht⟩
  | endCDATA => simp only [readTags] at ht; exact ⟨_, o, rs, rfl, ho, ht⟩

theorem run_good {C : Chars} {ns : Str → Str} (hC : CharsOk C) (hns : ∀ p, p ≠ [] → ns p ≠ [] → Nm C p)
    {cd : List (Str × Str)} (evs : List Event) {k : Sink} {fs : List Frame} {top : List Tree}
    {x x' : List (Str × Str) × Bool} {y y' : Last} {acc : List Res} (h : Good cd k fs top x y acc)
    (he : ∀ e ∈ evs, Fine C ns e) (hx : sections cd x evs = some x') (hy : feed y evs = some y')
    (o : List QN) (ho : o.length = fs.length) (rs : List Res) (ht : readTags o evs = some (rs, [])) :
    ∃ k' top', run C k evs = .done k' ∧ Good cd k' [] top' x' y' ((told evs).foldl (put true) acc) := by
  induction evs generalizing k fs top x y acc o rs with
  | nil =>
    simp only [sections, Option.some.injEq] at hx
    simp only [feed, Option.some.injEq] at hy
    simp only [readTags, Option.some.injEq, Prod.mk.injEq] at ht
    obtain ⟨_, rfl⟩ := ht
    subst hx hy
    have : fs = [] := List.length_eq_zero_iff.mp ho.symm
    subst this
    exact ⟨k, top, rfl, h⟩
  | cons e es ih =>
    rw [sections] at hx
    rw [feed] at hy
    cases hx1 : section1 cd x e with
    | none => simp [hx1] at hx
    | some x1 =>
      cases hy1 : feed1 y e with
      | none => simp [hy1] at hy
      | some y1 =>
        simp only [hx1] at hx
        simp only [hy1] at hy
        obtain ⟨n, o', rs', hd, hn, ht'⟩ := deep_tags ho ht
        obtain ⟨k', fs', top', hs, hg, hl⟩ := step_good hC hns h e (he e (by simp)) hx1 hy1 n hd
        obtain ⟨k2, t2, hr, hg2⟩ := ih hg (fun e he' => he e (List.mem_cons_of_mem _ he')) hx hy o' (by omega) rs' ht'
        refine ⟨k2, t2, ?_, ?_⟩
        · rw [run, hs]; exact hr
        · simpa [told, List.foldl_append] using hg2

end Verif.XsltDomSink
