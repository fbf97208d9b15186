import Verif.Lemmas.XPathMatchParse
import Verif.Props.XPathParse
set_option autoImplicit false
/-!
# C71 and C72: match patterns and their default priorities
-/
namespace Verif.Props.XPathMatch
open Verif.XPathParse Verif.XPathMatch Verif.Spec.XPathMatch
open Verif.XTree (World XN Pred Outcome sortLt sortLt_spec nodesLessThan)
open Verif.Spec.XPathAxes (DomTree Expanded XNode IsAttr OnAxis)
open Verif.Spec.XPathNodeSet (Forest Small StdSort)
open Verif.Spec.XPathPath (PathSelects StepSelects)
open Verif.Props.XPathParse (readToks_reads noNs nm nm_ok nameB_ok not_type)
open Verif.Props.XPathAxes (ex ex_dom ex_expanded)
open Verif.Props.XPathNodeSet (exWorld exWorld_forest)
open Verif.Props.XPathPath (exWorld_trees C42_partial C42_regular)

/-! ## C71 -/

/-- C71: a pattern, written with any white space between its tokens, is compiled to one matcher for each
alternative, which matches a node exactly if the alternative, taken as an expression, selects the node from some
context node.

Partial: without `id()` and `key()`, which alone are not modelled and at the start of a path not compiled
(`C71_violated_id`); without white space where tokens are marked tight
(`C71_violated_space`, `C71_violated_node`); for `Plain` patterns (`C71_violated_deep`, `C71_violated_variable`,
`C71_violated_position`, `C71_violated_attribute`, `C71_violated_target`); in documents and fragments
(`C71_violated_detached`), as in C42. -/
theorem C71_partial (ns : Str → Option Str) (fnNum : Str → Str → Bool) (p : List Alternative) (hne : p ≠ [])
    (hok : ∀ a ∈ p, a.Ok ns) (s r : Str) (h : Reads (patternTokens p) s r) (hr : r.all isWhite = true) :
    ∃ ms, compileMatch ns fnNum s = .ok ms ∧ ms.length = p.length ∧
      ∀ (i : Nat) (a : Alternative) (m : MatchExpr), p[i]? = some a → ms[i]? = some m →
        ∀ (w : World) (ev : Expr → Pred), (∀ e e', flat e = flat e' → ev e = ev e') → a.Plain ns ev fnNum →
          ∀ x : XN, Forest w → DomTree (w.tree x.1) → Expanded (w.tree x.1) →
            (w.tree x.1).kind = .document ∨ (w.tree x.1).kind = .fragment → Small (w.tree x.1) →
            XNode (w.tree x.1) x.2 → ∀ srt, StdSort (nodesLessThan w) srt →
              ∃ fuel b, (∀ f, fuel ≤ f → m.evaluate w ev srt f x = .done b) ∧ (b = true ↔ Matches ns ev w x a) := by
  obtain ⟨ms, e1, e2⟩ := compile_pattern (fnNum := fnNum) hne hok h hr
  refine ⟨ms, e1, ?_, ?_⟩
  · clear e1 h hok hne
    induction e2 with
    | nil => rfl
    | cons a m as ms h hp hr ih => simp [ih]
  · intro i a m h1 h2
    have hc : CodeAlt ns fnNum a m.steps := by
      clear e1 h hok hne
      induction e2 generalizing i with
      | nil => cases h1
      | cons a' m' as ms h hp hr ih =>
        cases i with
        | zero => cases h1; cases h2; exact h
        | succ i => exact ih i h1 h2
    intro w ev hev hpl x hw hd he hk hs hx srt hsrt
    exact evaluate_spec hc m.priority hev hpl hw ⟨hd, he, hk⟩ hs hx srt hsrt

/-- Values for the examples: numbers are themselves, `$n` is 2, `last()` is the size, `not(position()=1)` is that; all
else is true. -/
def exEv (e : Expr) : Pred := fun _ i n =>
  match flat e with
  | .number t => if t = "1".toList then .num (.fin 1) else .num (.fin 0)
  | .var _ _ => .num (.fin 2)
  | .call _ f _ => if f = "last".toList then .num (.fin n) else .bool (i != 1)
  | _ => .bool true

theorem exEv_flat (e e' : Expr) (h : flat e = flat e') : exEv e = exEv e' := by
  funext x i n
  simp only [exEv, h]

/-- The core functions with numbers as values. -/
def numFn (u f : Str) : Bool := u.isEmpty && (f == "position".toList || f == "last".toList || f == "count".toList)

def exSort : List XN → List XN := sortLt (nodesLessThan exWorld)

def step (t : NodeTest) (ps : Exs := .nil) (ax : PatAxis := .none) : PatStep := ⟨ax, t, ps⟩

def one : Exs := .cons (.num "1".toList) .nil

def numberOne : Num "1".toList := ⟨"1".toList, [], by decide, by decide, .inl ⟨rfl, by decide⟩⟩

/-- The pattern that `exText` is. -/
def exPat : List Alternative :=
  [.rel (.cons (step (.name (nm "a"))) false (.one (step .any one .child))),
    .abs true (.cons (step (.name (nm "a"))) true (.one (step (.name (nm "c")) (.cons (.rel (.one .self)) .nil)))),
    .rel (.one (step (.name (nm "x")) .nil .atSign)), .root, .rel (.one (step (.type .text)))]

def exText : Str := "a /child::*[ 1 ] |//a// c[.] | @ x|/|text ()".toList

theorem exPat_reads : Reads (patternTokens exPat) exText [] := readToks_reads _ _ _ (by decide +kernel)

theorem exPat_ok : ∀ a ∈ exPat, a.Ok noNs := by
  intro a ha
  simp only [exPat, List.mem_cons, List.not_mem_nil, or_false] at ha
  rcases ha with rfl | rfl | rfl | rfl | rfl
  · exact ⟨⟨nm_ok (by decide), by simp [step, Exs.Ok]⟩, trivial, by simp only [step, one, Exs.Ok, Ex.Ok]; exact ⟨numberOne, trivial⟩⟩
  · exact ⟨⟨nm_ok (by decide), by simp [step, Exs.Ok]⟩, nm_ok (by decide), by
      simp only [step, Exs.Ok, Ex.Ok, Rel.Ok, St.Ok]; exact ⟨trivial, trivial⟩⟩
  · exact ⟨nm_ok (by decide), by simp [step, Exs.Ok]⟩
  · trivial
  · exact ⟨trivial, by simp [step, Exs.Ok]⟩

theorem exPat_plain : ∀ a ∈ exPat, a.Plain noNs exEv numFn := by
  have hnil : ∀ t ax, (∀ q, t ≠ .target q []) → (step t .nil ax).Plain noNs exEv numFn := by
    intro t ax h
    exact ⟨by intro e he; simp [step, meanings] at he, h⟩
  intro a ha
  simp only [exPat, List.mem_cons, List.not_mem_nil, or_false] at ha
  rcases ha with rfl | rfl | rfl | rfl | rfl
  · refine ⟨hnil _ _ (by simp), by simp, ⟨?_, by simp [step]⟩⟩
    intro e he
    simp only [step, one, meanings, List.mem_cons, List.not_mem_nil, or_false] at he
    subst he
    exact ⟨by simp [PatStep.attr, step], fun _ => .inr (.inl trivial)⟩
  · refine ⟨hnil _ _ (by simp), ?_, ⟨?_, by simp [step]⟩⟩
    · rintro _ d ⟨⟨h1, _⟩, h2, _⟩
      have h1 := h1.2.1
      have h2 := h2.2.1
      rw [h1] at h2
      cases h2
    · intro e he
      simp only [step, meanings, List.mem_cons, List.not_mem_nil, or_false] at he
      subst he
      refine ⟨by simp [PatStep.attr, step], fun _ => .inl ?_⟩
      intro x i n j m
      exact ⟨rfl, by intro v h; cases h⟩
  · exact hnil _ _ (by simp)
  · trivial
  · exact hnil _ _ (by simp)

/-- `C71_partial` of the pattern, for the document of `C35`. -/
example : ∃ ms, compileMatch noNs numFn exText = .ok ms ∧ ms.length = 5 ∧
    ∀ (i : Nat) (a : Alternative) (m : MatchExpr), exPat[i]? = some a → ms[i]? = some m → ∀ x : XN, x.1 = 3 → XNode ex x.2 →
      ∃ fuel b, (∀ f, fuel ≤ f → m.evaluate exWorld exEv exSort f x = .done b) ∧
        (b = true ↔ Matches noNs exEv exWorld x a) := by
  obtain ⟨ms, h1, h2, h3⟩ := C71_partial noNs numFn exPat (by simp [exPat]) exPat_ok exText [] exPat_reads rfl
  refine ⟨ms, h1, h2, ?_⟩
  rintro i a m e1 e2 ⟨_, r⟩ rfl hx
  exact h3 i a m e1 e2 exWorld exEv exEv_flat (exPat_plain a (List.mem_of_getElem? e1)) (3, r) exWorld_forest ex_dom
    ex_expanded (.inl rfl) (exWorld_trees.small 3 (.inl rfl)) hx exSort (sortLt_spec _)

/-- Whether a node matches, for each alternative. -/
def verdicts (s : String) (w : World) (x : XN) : Option (List (Outcome Bool)) :=
  match compileMatch noNs numFn s.toList with
  | .ok ms => some (ms.map fun m => m.evaluate w exEv (sortLt (nodesLessThan w)) 50 x)
  | .error _ => none

/-- The first and the second child element of `a`, the element in `b`, an attribute and the root. -/
example : verdicts "a /child::*[ 1 ] |//a// c[.] | @ x|/|text ()" exWorld (3, [.child 0, .child 1]) =
      some [.done true, .done false, .done false, .done false, .done false] ∧
    verdicts "a /child::*[ 1 ] |//a// c[.] | @ x|/|text ()" exWorld (3, [.child 2, .child 1]) =
      some [.done false, .done false, .done false, .done false, .done false] ∧
    verdicts "a /child::*[ 1 ] |//a// c[.] | @ x|/|text ()" exWorld (3, [.child 2, .child 0, .child 1]) =
      some [.done false, .done true, .done false, .done false, .done false] ∧
    verdicts "a /child::*[ 1 ] |//a// c[.] | @ x|/|text ()" exWorld (3, [.attr 0, .child 1]) =
      some [.done false, .done false, .done true, .done false, .done false] ∧
    verdicts "a /child::*[ 1 ] |//a// c[.] | @ x|/|text ()" exWorld (3, []) =
      some [.done false, .done false, .done false, .done true, .done false] := by decide +kernel

/-! ## where the code is wrong -/

/-- The tokens with white space allowed before each, as XSLT has it; `node()` is three. -/
def loose (ts : List Tok) : List Tok :=
  ts.flatMap fun t =>
    if t.text = "node()".toList then [sym "node", sym "(", sym ")"] else [{ t with tight := false }]

/-- For the pattern `s` the code says of the node `x` what it should not: the pattern, taken as an
expression, selects it from some node, and it does not match, or the other way round. -/
def Wrong (s : String) (a : Alternative) (w : World) (x : XN) : Prop :=
  a.Ok noNs ∧ Reads (loose (altTokens a)) s.toList [] ∧ XNode (w.tree x.1) x.2 ∧
    ((verdicts s w x = some [.done true] ∧ ¬ Matches noNs exEv w x a) ∨
      (verdicts s w x = some [.done false] ∧ Matches noNs exEv w x a))

/-- What a step gives is below a node. -/
theorem not_root {w : World} {r : PatRel} {x : XN} (hx : x.2 = []) : ¬ Matches noNs exEv w x (.rel r) := by
  rintro ⟨c, _, h⟩
  have key : ∀ (r : PatRel) (c : XN), ¬ PathSelects w (r.steps noNs exEv) c x := by
    intro r
    induction r with
    | one s =>
      rintro c ⟨m, h1, h2⟩
      obtain ⟨_, ⟨st, e⟩, _⟩ := step_above h1
      cases h2
      rw [hx] at e
      cases e
    | cons s deep r ih =>
      rintro c ⟨m, _, h2⟩
      obtain ⟨m', _, h3⟩ := pathSelects_append.1 h2
      exact ih m' h3
  exact key r c h

theorem ex_xnode {r : Verif.XTree.Ref} (i : Nat) (up : Verif.XTree.Ref) (e : r = .child i :: up)
    (h1 : Verif.Spec.XPathAxes.AllChild up) (n : Verif.XTree.Tree) (h2 : Verif.XTree.sub ex r = some n)
    (h3 : n.kind = .element) : XNode ex r := by
  subst e
  refine ⟨h1, ⟨n, h2, by rw [h3]; simp, by rw [h3]; simp⟩, ?_⟩
  rintro ⟨⟨m, h4, h5⟩, _⟩
  rw [h2] at h4
  cases h4
  rw [h3] at h5
  simp at h5

theorem a_xnode : XNode ex [.child 1] := ex_xnode 1 [] rfl (by simp [Verif.Spec.XPathAxes.AllChild]) _ rfl rfl

theorem d_xnode : XNode ex [.child 2, .child 1] :=
  ex_xnode 2 [.child 1] rfl (by simp [Verif.Spec.XPathAxes.AllChild]) _ rfl rfl

theorem relativePath_mono {w : World} {s : Verif.XTree.PathStep} {c : XN} {srt : List XN → List XN} {f g : Nat}
    {ns : Verif.XTree.NodeSet} (h : Verif.XTree.relativePath w srt f [s] c = .done ns) (hg : f ≤ g) :
    Verif.XTree.relativePath w srt g [s] c = .done ns := by
  rw [Verif.XTree.relativePath, Verif.XTree.overSteps] at h ⊢
  cases he : Verif.XTree.overNodes w s f {} (Verif.XTree.NodeSet.push {} c).nodes with
  | done r => rw [he] at h; rw [Verif.XTree.overNodes_mono he hg]; exact h
  | crash => rw [he] at h; cases h
  | more => rw [he] at h; cases h

/-- The nodes one step gives. -/
def given (w : World) (f : Nat) (s : Verif.XTree.PathStep) (c : XN) : Option (List XN) :=
  match Verif.XTree.relativePath w (sortLt (nodesLessThan w)) f [s] c with
  | .done ns => some ns.nodes
  | _ => none

theorem given_done {f : Nat} {s : Verif.XTree.PathStep} {c : XN} {l : List XN} (h : given exWorld f s c = some l) :
    ∃ ns, Verif.XTree.relativePath exWorld exSort f [s] c = .done ns ∧ ns.nodes = l := by
  rw [given] at h
  cases he : Verif.XTree.relativePath exWorld (sortLt (nodesLessThan exWorld)) f [s] c with
  | done r => rw [he] at h; cases h; exact ⟨r, he, rfl⟩
  | crash => rw [he] at h; cases h
  | more => rw [he] at h; cases h

/-- One step: what the path gives for a node. -/
theorem matches_one {s : PatStep} {r : Verif.XTree.Ref} (hx : XNode ex r) (ha : ¬ IsAttr r) {f : Nat} {y : XN}
    (h : given exWorld f (s.step noNs exEv) (3, r) = some [y]) : Matches noNs exEv exWorld y (.rel (.one s)) := by
  have hax : (s.step noNs exEv).axis = .attribute ∨ (s.step noNs exEv).axis = .child := by
    rw [PatStep.step]
    cases s.attr
    · exact .inr rfl
    · exact .inl rfl
  obtain ⟨g, ns', h1, h2, _⟩ := C42_partial exWorld exWorld_forest (3, r) ex_dom ex_expanded
    (exWorld_trees.small 3 (.inl rfl)) hx [s.step noNs exEv]
    (C42_regular exWorld (3, r) hx ha _ (by
      simp only [List.mem_singleton, forall_eq]
      rcases hax with e | e <;> rw [e] <;> simp) (by simp)) exSort (sortLt_spec _)
  obtain ⟨ns, e1, e2⟩ := given_done h
  have h3 := h1 (max f g) (Nat.le_max_right _ _)
  rw [relativePath_mono e1 (Nat.le_max_left _ _)] at h3
  cases h3
  exact ⟨(3, r), hx, (h2 y).1 (by rw [e2]; simp)⟩

/-- C71 is false of `//` between steps that both pass for one node: `a//a` matches an `a` that is in no other. -/
theorem C71_violated_deep :
    Wrong "a//a" (.rel (.cons (step (.name (nm "a"))) true (.one (step (.name (nm "a")))))) exWorld (3, [.child 1]) := by
  refine ⟨⟨⟨nm_ok (by decide), by simp [step, Exs.Ok]⟩, nm_ok (by decide), by simp [step, Exs.Ok]⟩,
    readToks_reads _ _ _ (by decide +kernel), ex_xnode 1 [] rfl (by simp [Verif.Spec.XPathAxes.AllChild]) _ rfl rfl,
    .inl ⟨by decide +kernel, ?_⟩⟩
  rintro ⟨c, _, m, h1, h2⟩
  obtain ⟨m', h2, h3⟩ := pathSelects_append.1 h2
  obtain ⟨y, h3, h4⟩ := h3
  cases h4
  obtain ⟨e1, ⟨st, e2⟩, _⟩ := step_above h3
  obtain ⟨f1, ⟨st', f2⟩, _⟩ := step_above h1
  obtain ⟨m'', ⟨l, _, _, g1, g2, _, g3, g4⟩, g5⟩ := h2
  cases g5
  have g3 : _ = _ := g3
  rw [g3] at g4
  obtain ⟨r, g4, g5⟩ := List.mem_map.1 g4
  have := (g1.1 r).1 (g2.subset g4)
  have g6 := this.2
  have e3 : m'.2 = [] := by
    have : [Verif.XTree.Step.child 1] = st :: m'.2 := e2
    simpa using (List.cons.inj this).2.symm
  have e4 : r = [] := by rw [← g5] at e3; exact e3
  subst e4
  rcases g6 with g6 | g6
  · rw [f2] at g6
    cases g6
  · rw [f2] at g6
    obtain ⟨s, _, g6⟩ := g6.1
    simp at g6

/-- C71 is false of a predicate whose value is a number, but that does not look like one: `*[$n]` does not match the
second child element of `a`, though `$n` is 2. -/
theorem C71_violated_variable :
    Wrong "*[$n]" (.rel (.one (step .any (.cons (.var (nm "n")) .nil)))) exWorld (3, [.child 2, .child 1]) :=
  ⟨⟨trivial, by simp only [step, Exs.Ok, Ex.Ok]; exact ⟨nm_ok (by decide), trivial⟩⟩,
    readToks_reads _ _ _ (by decide +kernel), d_xnode,
    .inr ⟨by decide +kernel, matches_one (r := [.child 1]) (f := 50) a_xnode (fun h => h) (by decide +kernel)⟩⟩

/-- C71 is false of a predicate with `position()` within a function: `*[not(position()=1)]` does not match the second
child element of `a`. -/
theorem C71_violated_position :
    Wrong "*[not(position()=1)]" (.rel (.one (step .any (.cons (.call (nm "not") (.cons
      (.bin .eq (.call (nm "position") .nil) (.num "1".toList)) .nil)) .nil)))) exWorld (3, [.child 2, .child 1]) := by
  refine ⟨⟨trivial, ?_⟩, readToks_reads _ _ _ (by decide +kernel), d_xnode,
    .inr ⟨by decide +kernel, matches_one (r := [.child 1]) (f := 50) a_xnode (fun h => h) (by decide +kernel)⟩⟩
  simp only [step, Exs.Ok, Ex.Ok]
  have h1 : ¬ isType (nm "not") := not_type (by intro t; cases t <;> decide)
  have h2 : ¬ isType (nm "position") := not_type (by intro t; cases t <;> decide)
  exact ⟨⟨nm_ok (by decide), h1, ⟨⟨⟨nm_ok (by decide), h2, trivial, trivial⟩, numberOne, by decide, by decide, by decide⟩,
    trivial⟩, by decide, trivial⟩, trivial⟩

/-- C71 is false of an attribute with a position: `@x[1]` does not match the first attribute of `a`. -/
theorem C71_violated_attribute :
    Wrong "@x[1]" (.rel (.one (step (.name (nm "x")) one .atSign))) exWorld (3, [.attr 0, .child 1]) := by
  refine ⟨⟨nm_ok (by decide), by simp only [step, one, Exs.Ok, Ex.Ok]; exact ⟨numberOne, trivial⟩⟩,
    readToks_reads _ _ _ (by decide +kernel), ?_,
    .inr ⟨by decide +kernel, matches_one (r := [.child 1]) (f := 50) a_xnode (fun h => h) (by decide +kernel)⟩⟩
  exact ⟨by simp [Verif.Spec.XPathAxes.AllChild], _, rfl, by decide⟩

/-- C71 is false of `node` and `()` with white space between, and of `node()` with white space before it after an
axis: these match the root, which is no child of any node. -/
theorem C71_violated_node :
    Wrong "node ()" (.rel (.one (step (.type .node)))) exWorld (3, []) ∧
      Wrong "child:: node()" (.rel (.one (step (.type .node) .nil .child))) exWorld (3, []) :=
  ⟨⟨⟨trivial, by simp [step, Exs.Ok]⟩, readToks_reads _ _ _ (by decide +kernel), trivial,
      .inl ⟨by decide +kernel, not_root rfl⟩⟩,
    ⟨⟨trivial, by simp [step, Exs.Ok]⟩, readToks_reads _ _ _ (by decide +kernel), trivial,
      .inl ⟨by decide +kernel, not_root rfl⟩⟩⟩

/-- A document with a processing instruction, and an element that is in no document. -/
def exWorld2 : World where
  tree k := if k = 1 then .node { kind := .element, name := ['a'], loc := ['a'] } [] []
    else .node { kind := .document } [] [.node { kind := .pi, name := ['t'], value := ['v'] } [] []]
  home _ := 0

/-- C71 is false of an element without a parent: it matches its name, though it is no child of any node. -/
theorem C71_violated_detached : Wrong "a" (.rel (.one (step (.name (nm "a"))))) exWorld2 (1, []) :=
  ⟨⟨nm_ok (by decide), by simp [step, Exs.Ok]⟩, readToks_reads _ _ _ (by decide +kernel), trivial,
    .inl ⟨by decide +kernel, not_root rfl⟩⟩

/-- C71 is false of `processing-instruction('')`: it matches all processing instructions, though none has an
empty name. -/
theorem C71_violated_target :
    Wrong "processing-instruction('')" (.rel (.one (step (.target '\'' [])))) exWorld2 (0, [.child 0]) := by
  refine ⟨⟨⟨.inr rfl, by decide⟩, by simp [step, Exs.Ok]⟩, readToks_reads _ _ _ (by decide +kernel),
    ⟨by simp [Verif.Spec.XPathAxes.AllChild], ⟨_, rfl, by decide, by decide⟩, ?_⟩, .inl ⟨by decide +kernel, ?_⟩⟩
  · rintro ⟨_, j, h, _⟩
    cases h
  · rintro ⟨c, _, m, ⟨l, ps, kept, h1, h2, h3, h4, h5⟩, h6⟩
    cases h6
    have h4 : kept = ps.map fun r => (c.1, r) := h4
    rw [h4] at h5
    obtain ⟨r, h5, _⟩ := List.mem_map.1 h5
    obtain ⟨n, _, h7⟩ := (h3 r (h2.subset h5)).1 h5
    exact h7

/-- How a pattern is refused. -/
def refused (s : String) : Option Err :=
  match compileMatch noNs numFn s.toList with
  | .ok _ => none
  | .error e => some e

/-- C71 is false of white space after `node()` and before `@` in a path: the patterns are refused. -/
theorem C71_violated_space :
    (Reads (loose (altTokens (.rel (.cons (step (.type .node)) false (.one (step (.name (nm "a")))))))) "node() / a".toList []
      ∧ refused "node() / a" = some .syntax) ∧
    (Reads (loose (altTokens (.abs false (.one (step (.name (nm "a")) .nil .atSign))))) "/ @a".toList []
      ∧ refused "/ @a" = some .syntax) ∧
    (Reads (loose (altTokens (.rel (.one (step (.type .node) one))))) "node() [1]".toList []
      ∧ refused "node() [1]" = some .unsupported) :=
  ⟨⟨readToks_reads _ _ _ (by decide +kernel), by decide +kernel⟩, ⟨readToks_reads _ _ _ (by decide +kernel), by decide +kernel⟩,
    readToks_reads _ _ _ (by decide +kernel), by decide +kernel⟩

/-- C71 is false of paths that begin with `id()` or `key()`, which are patterns of XSLT: they are refused. -/
theorem C71_violated_id : refused "id('x')/a" = some .unsupported ∧ refused "key('k','x')//a" = some .unsupported := by
  decide +kernel

/-! ## C72 -/

/-- C72: the default priorities of the alternatives are those of XSLT.

Partial: an alternative of one step without predicates is written without white space in it or after it
(`C72_violated_space`); one of a step with one predicate has no prefix and no target (`C72_violated_predicate`). -/
theorem C72_partial (ns : Str → Option Str) (fnNum : Str → Str → Bool) (p : List Alternative) (hne : p ≠ [])
    (hok : ∀ a ∈ p, a.Ok ns) (hrank : ∀ a ∈ p, a.Ranked) (s r : Str) (h : Reads (closeTokens p) s r)
    (hr : r.all isWhite = true) (he : endsBare p = true → r = []) :
    ∃ ms, compileMatch ns fnNum s = .ok ms ∧ ms.map (·.priority) = p.map Alternative.priority := by
  obtain ⟨ms, e1, e2⟩ := compile_close (fnNum := fnNum) hne hok h hr he
  refine ⟨ms, e1, ?_⟩
  clear e1 h hok hne he
  induction e2 with
  | nil => rfl
  | cons a m as ms h hp hr ih =>
    rw [List.map_cons, List.map_cons, hp (hrank a (by simp)) (fun _ => trivial), ih fun b hb => hrank b (by simp [hb])]

/-- A pattern with all priorities. -/
def rankPat : List Alternative :=
  [.rel (.one (step (.name (nm "a")))), .rel (.one (step (.anyIn "p".toList) .nil .attribute)),
    .rel (.one (step .any .nil .atSign)), .rel (.one (step (.name (nm "a")) one)), .root, .rel (.one (step (.type .text)))]

example : ∃ ms, compileMatch noNs numFn " a| attribute::p:*| @*| a [ 1] | / |text()".toList = .ok ms ∧
    ms.map (·.priority) = [0, -1 / 4, -1 / 2, 1 / 2, 1 / 2, -1 / 2] := by
  refine C72_partial noNs numFn rankPat (by simp [rankPat]) ?_ ?_ _ [] (readToks_reads _ _ _ (by decide +kernel)) rfl
    (fun _ => rfl)
  · intro a ha
    simp only [rankPat, List.mem_cons, List.not_mem_nil, or_false] at ha
    rcases ha with rfl | rfl | rfl | rfl | rfl | rfl
    · exact ⟨nm_ok (by decide), by simp [step, Exs.Ok]⟩
    · exact ⟨⟨nameB_ok (by decide), by decide⟩, by simp [step, Exs.Ok]⟩
    · exact ⟨trivial, by simp [step, Exs.Ok]⟩
    · exact ⟨nm_ok (by decide), by simp only [step, one, Exs.Ok, Ex.Ok]; exact ⟨numberOne, trivial⟩⟩
    · trivial
    · exact ⟨trivial, by simp [step, Exs.Ok]⟩
  · intro a ha
    simp only [rankPat, List.mem_cons, List.not_mem_nil, or_false] at ha
    rcases ha with rfl | rfl | rfl | rfl | rfl | rfl <;> trivial

/-- The priorities a pattern is given. -/
def priorities (s : String) : Option (List Rat) :=
  match compileMatch noNs numFn s.toList with
  | .ok ms => some (ms.map (·.priority))
  | .error _ => none

/-- C72 is false of white space after a name: in `a | b` the first alternative has the priority of `*`. -/
theorem C72_violated_space :
    Reads (patternTokens [.rel (.one (step (.name (nm "a")))), .rel (.one (step (.name (nm "b"))))]) "a | b".toList [] ∧
      priorities "a | b" = some [-1 / 2, 0] ∧
      (Alternative.rel (.one (step (.name (nm "a"))))).priority = 0 :=
  ⟨readToks_reads _ _ _ (by decide +kernel), by decide +kernel, rfl⟩

/-- C72 is false of a step with a predicate and a prefix or a target, which has the priority it would have without
the predicate. -/
theorem C72_violated_predicate :
    priorities "p:a[1]" = some [0] ∧ priorities "p:*[1]" = some [-1 / 4] ∧
      priorities "processing-instruction('x')[1]" = some [0] ∧
      ∀ t, (Alternative.rel (.one (step t one))).priority = 1 / 2 :=
  ⟨by decide +kernel, by decide +kernel, by decide +kernel, fun _ => rfl⟩

end Verif.Props.XPathMatch
