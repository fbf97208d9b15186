import Verif.Lemmas.XPathMatchChain
import Verif.Props.XPathPath
set_option autoImplicit false
set_option linter.unusedSimpArgs false
set_option linter.unusedVariables false
namespace Verif.XPathMatch
open Verif.XPathParse (Expr Str Exs flat flats meaning meanings testMeaning Op Test)
open Verif.XTree (World XN Pred PathStep Ref Holds sub Data at_iff axes xnode_anc xnode_some xnode_of_cnode)
open Verif.Spec.XPathAxes Verif.Spec.XPathPath Verif.Spec.XPathMatch Verif.Spec.XPathNodeSet

variable {ns : Str → Option Str} {w : World} {ev : Expr → Pred} {fnNum : Str → Str → Bool}

/-- The steps after the first. -/
def tailSteps (ns : Str → Option Str) (ev : Expr → Pred) : PatRel → List PathStep
  | .one _ => []
  | .cons _ deep r => deepSteps deep ++ r.steps ns ev

theorem steps_eq (r : PatRel) : r.steps ns ev = r.first.step ns ev :: tailSteps ns ev r := by cases r <;> rfl

theorem step_tree {s : PathStep} {x y : XN} (h : StepSelects w s x y) : y.1 = x.1 := by
  obtain ⟨axisNodes, pass, kept, h1, h2, _, h3, h4⟩ := h
  obtain ⟨r, _, h7⟩ := List.mem_map.1 (Verif.XTree.filteredBy_mem h3 h4)
  rw [← h7]

theorem path_tree {l : List PathStep} {x y : XN} (h : PathSelects w l x y) : y.1 = x.1 := by
  induction l generalizing x with
  | nil => rw [PathSelects] at h; rw [h]
  | cons s l ih =>
    obtain ⟨m, h1, h2⟩ := h
    rw [ih h2, step_tree h1]

theorem local_admits {s : PatStep} {y : XN} (hd : DomTree (w.tree y.1)) (h : Local ns w ev s y) :
    ∃ n, sub (w.tree y.1) y.2 = some n ∧ s.Admits ns n.data := by
  obtain ⟨st, up, e, h⟩ := h
  obtain ⟨axisNodes, pass, kept, h1, h2, h2', h3, h4⟩ := h
  obtain ⟨r, h6, h7⟩ := List.mem_map.1 (Verif.XTree.filteredBy_mem h3 h4)
  obtain ⟨n, hn, hp⟩ := (h2' r (h2.subset h6)).1 h6
  have h8 := ((h1.1 r).1 (h2.subset h6)).2
  obtain ⟨k, r'⟩ := y
  cases h7
  simp only at *
  refine ⟨n, hn, hp, ?_⟩
  simp only [PatStep.step] at h8
  cases ha : s.attr with
  | true =>
    rw [ha] at h8
    obtain ⟨i, rfl⟩ := h8
    have : n.data.kind = .attribute := hd.attrs _ _ _ hn
    simpa using this
  | false =>
    rw [ha] at h8
    obtain ⟨i, rfl⟩ := h8
    have : n.data.kind ≠ .attribute := (hd.kids _ _ _ hn).1
    simpa using this

theorem dos_iff {x y : XN} (ht : Whole (w.tree x.1)) (hx : XNode (w.tree x.1) x.2) :
    StepSelects w ⟨.descendantOrSelf, .any, []⟩ x y ↔
      y.1 = x.1 ∧ XNode (w.tree x.1) y.2 ∧ OnAxis x.2 y.2 .descendantOrSelf := by
  obtain ⟨f, l, _, hl⟩ := axes ht.dom ht.expanded hx .descendantOrSelf (by simp) (by simp) (by simp)
  rw [Verif.XTree.stepSelects_steady (s := ⟨.descendantOrSelf, .any, []⟩) (by simp) hl]
  constructor
  · rintro ⟨h1, h2, h3, _⟩; exact ⟨h1, h2, h3⟩
  · rintro ⟨h1, h2, h3⟩
    refine ⟨h1, h2, h3, ?_, by simp⟩
    obtain ⟨n, hn⟩ := Option.isSome_iff_exists.1 (xnode_some h2)
    exact at_iff.2 ⟨n, hn, trivial⟩

theorem above_node {t : Verif.XTree.Tree} (ht : Whole t) {st : Verif.XTree.Step} {up : Ref} (h : XNode t (st :: up)) :
    XNode t up ∧ ¬ IsAttr up := by
  have hc := xnode_anc ht.dom ht.expanded h ⟨[st], by simp, rfl⟩
  have hx := xnode_of_cnode ht.expanded hc
  exact ((Verif.XTree.xnode_iff ht.expanded up).2 hc)

theorem rel_iff {r : PatRel} {l : List MStep} (hc : CodeRel ns fnNum r l)
    (hev : ∀ e e', flat e = flat e' → ev e = ev e') (hs : r.Plain ns ev fnNum) {x m : XN} (ht : Whole (w.tree x.1))
    (hx : XNode (w.tree x.1) x.2) :
    PathSelects w (l.map (MStep.step w ev)) x m ↔
      m.1 = x.1 ∧ XNode (w.tree x.1) m.2 ∧ Local ns w ev r.first m ∧ PathSelects w (tailSteps ns ev r) m x := by
  induction hc generalizing m with
  | one s l h =>
    rw [code_iff h hev hs (.inl rfl) ht hx]
    simp only [OnAxis, PatRel.first, tailSteps, PathSelects]
    constructor
    · rintro ⟨h1, h2, h3, h4⟩
      exact ⟨h1, h2, h4, Prod.ext h1.symm h3.symm⟩
    · rintro ⟨h1, h2, h4, rfl⟩
      exact ⟨h1, h2, rfl, h4⟩
  | cons s deep r l l' hr h ih =>
    obtain ⟨hs1, hs2, hs3⟩ := hs
    rw [List.map_append, pathSelects_append]
    have key : ∀ m', (PathSelects w (l'.map (MStep.step w ev)) x m' ∧ PathSelects w (l.map (MStep.step w ev)) m' m) ↔
        (m'.1 = x.1 ∧ XNode (w.tree x.1) m'.2 ∧ Local ns w ev r.first m' ∧ PathSelects w (tailSteps ns ev r) m' x) ∧
          m.1 = m'.1 ∧ XNode (w.tree x.1) m.2 ∧ OnAxis m'.2 m.2 (if deep then .ancestorOrSelf else .parent) ∧
            Local ns w ev s m := by
      intro m'
      constructor
      · rintro ⟨h1, h2⟩
        have h3 := (ih hs3).1 h1
        have ht' : Whole (w.tree m'.1) := by rw [h3.1]; exact ht
        have h4 := (code_iff h hev hs1 (by cases deep <;> simp) ht' (by rw [h3.1]; exact h3.2.1)).1 h2
        refine ⟨h3, h4.1, ?_, h4.2.2⟩
        rw [← h3.1]; exact h4.2.1
      · rintro ⟨h3, h4⟩
        have ht' : Whole (w.tree m'.1) := by rw [h3.1]; exact ht
        refine ⟨(ih hs3).2 h3, (code_iff h hev hs1 (by cases deep <;> simp) ht' (by rw [h3.1]; exact h3.2.1)).2 ?_⟩
        refine ⟨h4.1, ?_, h4.2.2⟩
        rw [h3.1]; exact h4.2.1
    simp only [key, PatRel.first, tailSteps, steps_eq r]
    cases deep with
    | false =>
      simp only [deepSteps, Bool.false_eq_true, if_false, List.nil_append, PathSelects, OnAxis]
      constructor
      · rintro ⟨m', ⟨h1, h2, ⟨st, up, h3, h4⟩, h5⟩, h6, h7, ⟨st', h8⟩, h9⟩
        rw [h3] at h8
        cases h8
        refine ⟨h6.trans h1, h7, h9, m', ?_, h5⟩
        rw [← h6] at h4
        exact h4
      · rintro ⟨h1, h2, h3, m', h4, h5⟩
        obtain ⟨h6, ⟨st, h7⟩, h8⟩ := step_above h4
        rw [h1] at h8
        exact ⟨m', ⟨h6.trans h1, h8, local_above h4, h5⟩, h6.symm, h2, ⟨st, h7⟩, h3⟩
    | true =>
      simp only [deepSteps, if_true, List.cons_append, List.nil_append, PathSelects, OnAxis]
      constructor
      · rintro ⟨m', ⟨h1, h2, h3, h5⟩, h6, h7, h8, h9⟩
        have ht' : Whole (w.tree m.1) := by rw [h6, h1]; exact ht
        have h7' : XNode (w.tree m.1) m.2 := by rw [h6, h1]; exact h7
        rcases h8 with h8 | ⟨p, hp, h8⟩
        · exfalso
          have e : m = m' := Prod.ext h6 h8
          subst e
          obtain ⟨n, hn, ha⟩ := local_admits ht'.dom h9
          obtain ⟨n', hn', ha'⟩ := local_admits ht'.dom h3
          rw [hn] at hn'
          cases hn'
          exact hs2 rfl _ ⟨ha, ha'⟩
        · obtain ⟨st, up, h10, h11⟩ := h3
          rw [h10] at h8 h2
          obtain ⟨u1, u2⟩ := above_node ht h2
          have hon : OnAxis m.2 up .descendantOrSelf := by
            cases p with
            | nil => exact absurd rfl hp
            | cons a p =>
              injection h8 with _ h8
              by_cases hp' : p = []
              · subst hp'; exact .inl h8
              · exact .inr ⟨⟨p, hp', h8⟩, u2⟩
          refine ⟨h6.trans h1, h7, h9, (m'.1, up), (dos_iff ht' h7').2 ⟨h6.symm, ?_, hon⟩, m', h11, h5⟩
          rw [h6, h1]; exact u1
      · rintro ⟨h1, h2, h3, c, h4, m', h5, h6⟩
        have ht' : Whole (w.tree m.1) := by rw [h1]; exact ht
        obtain ⟨h7, h8, h9⟩ := (dos_iff ht' (by rw [h1]; exact h2)).1 h4
        obtain ⟨h10, ⟨st, h11⟩, h12⟩ := step_above h5
        rw [h7, h1] at h12
        refine ⟨m', ⟨h10.trans (h7.trans h1), h12, local_above h5, h6⟩, (h10.trans h7).symm, h2, .inr ?_, h3⟩
        rcases h9 with h9 | ⟨⟨p, _, h9⟩, _⟩
        · exact ⟨[st], by simp, by rw [h11, h9]; rfl⟩
        · exact ⟨st :: p, by simp, by rw [h11, h9]; rfl⟩

/-! ## alternatives -/

/-- Compiled steps for an alternative. -/
def CodeAlt (ns : Str → Option Str) (fnNum : Str → Str → Bool) : Alternative → List MStep → Prop
  | .root, l => l = [⟨.self, .root, []⟩]
  | .rel r, l => CodeRel ns fnNum r l ∨ ∃ s, r = .one s ∧ s.preds = .nil ∧
      l = [kindStep s, ⟨.self, nodeTestOf (patTest ns s), []⟩]
  | .abs deep r, l => ∃ l', CodeRel ns fnNum r l' ∧ l = l' ++ if deep then [] else [⟨.parent, .root, []⟩]

theorem self_iff {test : Verif.XTree.NodeTest} {x y : XN} (hx : XNode (w.tree x.1) x.2) :
    StepSelects w ((⟨.self, test, []⟩ : MStep).step w ev) x y ↔ y = x ∧ test.at (w.tree x.1) x.2 = true := by
  rw [Verif.XTree.stepSelects_steady (s := (⟨.self, test, []⟩ : MStep).step w ev) (l := [x.2])
    (by intro p hp; simp [MStep.step, values] at hp) (self_axis hx)]
  obtain ⟨k, r⟩ := y
  obtain ⟨k', r'⟩ := x
  simp only [MStep.step, OnAxis, values, List.not_mem_nil, false_imp_iff, implies_true, and_true,
    Prod.mk.injEq]
  constructor
  · rintro ⟨rfl, _, rfl, h⟩; exact ⟨⟨rfl, rfl⟩, h⟩
  · rintro ⟨⟨rfl, rfl⟩, h⟩; exact ⟨rfl, hx, rfl, h⟩

theorem root_iff {t : Verif.XTree.Tree} (ht : Whole t) {r : Ref} (hx : XNode t r) :
    Verif.XTree.NodeTest.at .root t r = true ↔ r = [] := by
  rw [at_iff]
  constructor
  · rintro ⟨n, hn, h⟩
    cases r with
    | nil => rfl
    | cons st up =>
      exfalso
      have h : n.kind = .document ∨ n.kind = .fragment := h
      cases st with
      | child i =>
        have := (ht.dom.kids _ _ _ hn).2
        rcases h with h | h
        · exact this.1 h
        · exact this.2 h
      | attr i =>
        have := ht.dom.attrs _ _ _ hn
        rw [this] at h
        simp at h
  · rintro rfl
    exact ⟨t, rfl, ht.root⟩

theorem parent_iff {x y : XN} (ht : Whole (w.tree x.1)) (hx : XNode (w.tree x.1) x.2) :
    StepSelects w ((⟨.parent, .root, []⟩ : MStep).step w ev) x y ↔ y = (x.1, []) ∧ ∃ st, x.2 = [st] := by
  obtain ⟨f, l, _, hl⟩ := axes ht.dom ht.expanded hx .parent (by simp) (by simp) (by simp)
  rw [Verif.XTree.stepSelects_steady (s := (⟨.parent, .root, []⟩ : MStep).step w ev)
    (by intro p hp; simp [MStep.step, values] at hp) hl]
  obtain ⟨k, r⟩ := y
  simp only [MStep.step, values, OnAxis, List.not_mem_nil, false_imp_iff, implies_true, and_true, Prod.mk.injEq]
  constructor
  · rintro ⟨rfl, h1, ⟨st, h2⟩, h3⟩
    have := (root_iff ht h1).1 h3
    subst this
    exact ⟨⟨rfl, rfl⟩, st, h2⟩
  · rintro ⟨⟨rfl, rfl⟩, st, h2⟩
    exact ⟨rfl, trivial, ⟨st, h2⟩, (root_iff ht (r := []) trivial).2 rfl⟩

theorem alt_iff {a : Alternative} {l : List MStep} (hc : CodeAlt ns fnNum a l)
    (hev : ∀ e e', flat e = flat e' → ev e = ev e') (hs : a.Plain ns ev fnNum) {x : XN} (ht : Whole (w.tree x.1))
    (hx : XNode (w.tree x.1) x.2) :
    (∃ m, PathSelects w (l.map (MStep.step w ev)) x m) ↔ Matches ns ev w x a := by
  cases a with
  | root =>
    cases hc
    simp only [List.map_cons, List.map_nil, PathSelects, self_iff hx, Matches]
    constructor
    · rintro ⟨m, m', ⟨_, h⟩, _⟩; exact (root_iff ht hx).1 h
    · intro h; exact ⟨x, x, ⟨rfl, (root_iff ht hx).2 h⟩, rfl⟩
  | rel r =>
    have main : ∀ l, CodeRel ns fnNum r l →
        ((∃ m, PathSelects w (l.map (MStep.step w ev)) x m) ↔ Matches ns ev w x (.rel r)) := by
      intro l hl
      simp only [rel_iff hl hev hs ht hx, Matches, steps_eq, PathSelects]
      constructor
      · rintro ⟨m, h1, h2, ⟨st, up, h3, h4⟩, h5⟩
        refine ⟨(m.1, up), ?_, m, h4, h5⟩
        rw [h3] at h2
        rw [h1]
        exact (above_node ht h2).1
      · rintro ⟨c, h1, m, h2, h3⟩
        have h4 := path_tree h3
        have h5 := step_above h2
        refine ⟨m, h4.symm, ?_, local_above h2, h3⟩
        rw [h4, h5.1]
        exact h5.2.2
    rcases hc with hc | ⟨s, rfl, hp, rfl⟩
    · exact main l hc
    · rw [← main [codeStep ns fnNum s [] .self, kindStep s] (.one _ _ ⟨[], by rw [hp]; rfl, rfl⟩)]
      have e : codeStep ns fnNum s [] .self = ⟨.self, nodeTestOf (patTest ns s), []⟩ := rfl
      rw [e]
      simp only [List.map_cons, List.map_nil, PathSelects, kindStep, self_iff hx]
      constructor
      · rintro ⟨m, m1, ⟨rfl, h1⟩, m2, h2, rfl⟩
        obtain ⟨rfl, h2⟩ := (self_iff hx).1 h2
        exact ⟨_, _, ⟨rfl, h2⟩, _, (self_iff hx).2 ⟨rfl, h1⟩, rfl⟩
      · rintro ⟨m, m1, ⟨rfl, h1⟩, m2, h2, rfl⟩
        obtain ⟨rfl, h2⟩ := (self_iff hx).1 h2
        exact ⟨_, _, ⟨rfl, h2⟩, _, (self_iff hx).2 ⟨rfl, h1⟩, rfl⟩
  | abs deep r =>
    obtain ⟨l', hl, rfl⟩ := hc
    cases deep with
    | true =>
      simp only [if_true, List.append_nil, rel_iff hl hev hs ht hx, Matches, deepSteps, List.cons_append,
        List.nil_append, PathSelects, steps_eq]
      constructor
      · rintro ⟨m, h1, h2, ⟨st, up, h3, h4⟩, h5⟩
        rw [h3] at h2
        obtain ⟨u1, u2⟩ := above_node ht h2
        refine ⟨(m.1, up), (dos_iff (x := (x.1, [])) ht trivial).2 ⟨h1, u1, ?_⟩, m, h4, h5⟩
        by_cases e : up = []
        · exact .inl e
        · exact .inr ⟨⟨up, e, by simp⟩, u2⟩
      · rintro ⟨c, h1, m, h2, h3⟩
        have h4 := path_tree h3
        have h5 := step_above h2
        refine ⟨m, h4.symm, ?_, local_above h2, h3⟩
        rw [h4, h5.1]
        exact h5.2.2
    | false =>
      simp only [Bool.false_eq_true, if_false, List.map_append, pathSelects_append, rel_iff hl hev hs ht hx, Matches,
        deepSteps, List.nil_append, PathSelects, steps_eq, List.map_cons, List.map_nil]
      constructor
      · rintro ⟨y, m, ⟨h1, h2, ⟨st, up, h3, h4⟩, h5⟩, m', h6, rfl⟩
        have h7 := (parent_iff (x := m) (by rw [h1]; exact ht) (by rw [h1]; exact h2)).1 h6
        obtain ⟨_, st', h8⟩ := h7
        rw [h3] at h8
        cases h8
        rw [h1] at h4
        exact ⟨m, h4, h5⟩
      · rintro ⟨m, h2, h3⟩
        have h5 := step_above h2
        obtain ⟨h6, ⟨st, h7⟩, h8⟩ := h5
        have h6 : m.1 = x.1 := h6
        refine ⟨(m.1, []), m, ⟨h6, h8, local_above h2, h3⟩, (m.1, []), ?_, rfl⟩
        exact (parent_iff (x := m) (by rw [h6]; exact ht) (by rw [h6]; exact h8)).2 ⟨rfl, st, h7⟩

/-! ## evaluation -/

theorem codeRel_axes {r : PatRel} {l : List MStep} (hc : CodeRel ns fnNum r l) :
    ∀ s ∈ l, s.axis = .self ∨ s.axis = .parent ∨ s.axis = .ancestorOrSelf := by
  have base : ∀ (s : PatStep) a l, CodeOf ns fnNum s a l → (a = .self ∨ a = .parent ∨ a = .ancestorOrSelf) →
      ∀ s ∈ l, s.axis = .self ∨ s.axis = .parent ∨ s.axis = .ancestorOrSelf := by
    rintro s a l ⟨xs, _, rfl⟩ ha t ht
    rcases List.mem_cons.1 ht with rfl | ht
    · exact ha
    · rcases List.mem_cons.1 ht with rfl | ht
      · exact .inl rfl
      · cases ht
  induction hc with
  | one s l h => exact base s _ l h (.inl rfl)
  | cons s deep r l l' hr h ih =>
    intro t ht
    rcases List.mem_append.1 ht with ht | ht
    · exact ih t ht
    · exact base s _ l h (by cases deep <;> simp) t ht

theorem codeAlt_axes {a : Alternative} {l : List MStep} (hc : CodeAlt ns fnNum a l) :
    ∀ s ∈ l, s.axis = .self ∨ s.axis = .parent ∨ s.axis = .ancestorOrSelf := by
  cases a with
  | root => cases hc; simp
  | rel r =>
    rcases hc with hc | ⟨s, rfl, hp, rfl⟩
    · exact codeRel_axes hc
    · simp [kindStep]
  | abs deep r =>
    obtain ⟨l', hl, rfl⟩ := hc
    intro s hs
    rcases List.mem_append.1 hs with h | h
    · exact codeRel_axes hl s h
    · cases deep <;> simp at h
      simp [h]

theorem evaluate_spec {a : Alternative} {l : List MStep} (hc : CodeAlt ns fnNum a l) (q : Rat)
    (hev : ∀ e e', flat e = flat e' → ev e = ev e') (hs : a.Plain ns ev fnNum) {x : XN} (hw : Forest w)
    (ht : Whole (w.tree x.1)) (hsm : Small (w.tree x.1)) (hx : XNode (w.tree x.1) x.2) (srt : List XN → List XN)
    (hsrt : StdSort (Verif.XTree.nodesLessThan w) srt) :
    ∃ fuel b, (∀ f, fuel ≤ f → MatchExpr.evaluate w ev srt f ⟨l, q⟩ x = .done b) ∧
      (b = true ↔ Matches ns ev w x a) := by
  have hreg : Regular w (l.map (MStep.step w ev)) x := by
    intro pre s post e
    have hs : s ∈ l.map (MStep.step w ev) := by rw [e]; simp
    obtain ⟨t, ht, rfl⟩ := List.mem_map.1 hs
    have := codeAlt_axes hc t ht
    simp only [MStep.step]
    rcases this with h | h | h <;> rw [h] <;> simp
  obtain ⟨fuel, res, h1, h2, _⟩ :=
    Verif.Props.XPathPath.C42_partial w hw x ht.dom ht.expanded hsm hx _ hreg srt hsrt
  refine ⟨fuel, !res.nodes.isEmpty, ?_, ?_⟩
  · intro f hf
    rw [MatchExpr.evaluate]
    simp only
    rw [h1 f hf]
  · rw [← alt_iff hc hev hs ht hx]
    cases hn : res.nodes with
    | nil =>
      rw [hn] at h2
      simp only [List.isEmpty_nil, Bool.not_true, Bool.false_eq_true, false_iff]
      rintro ⟨m, hm⟩
      exact absurd ((h2 m).2 hm) (by simp)
    | cons m l =>
      simp only [List.isEmpty_cons, Bool.not_false, true_iff]
      exact ⟨m, (h2 m).1 (by rw [hn]; simp)⟩

end Verif.XPathMatch
