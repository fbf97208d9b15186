import Verif.Lemmas.XPathPath
import Verif.Props.XPathNodeSet
set_option autoImplicit false
/-!
# C38, C41 and C42: string values, predicates and location paths
-/
namespace Verif.Props.XPathPath
open Verif.XTree Verif.Spec.XPathAxes Verif.Spec.XPathNodeSet Verif.Spec.XPathPath
open Verif.Props.XPathAxes (el tx ex doc ex' ex_dom ex_expanded)
open Verif.Props.XPathNodeSet (exWorld exWorld_forest frag)

/-! ## C38 -/

/-- The string value of a document, fragment or element is all text in it in document order, however it is
divided into text and CDATA nodes, and whatever else is in it. -/
theorem C38 (t : Tree) (hd : DomTree t) (r : Ref) (hr : AllChild r) (n : Tree) (hn : sub t r = some n)
    (hk : n.kind = .document ∨ n.kind = .fragment ∨ n.kind = .element) :
    ∃ fuel, ∀ f, fuel ≤ f → nodeStringValue t r f = .done (some (textInAll n.kids)) :=
  stringValue_inner hd hr hn hk

/-- `<!--c--><a …><b>s<![CDATA[t]]><c/></b>u<d z="3"/></a>` -/
example : DomTree ex ∧ nodeStringValue ex [] 50 = .done (some ['s', 't', 'u']) ∧
    nodeStringValue ex [.child 0, .child 1] 50 = .done (some ['s', 't']) := ⟨ex_dom, by decide +kernel⟩

/-- The text does not depend on its division: a piece can be cut in two (of any kind), or left out if it is
empty, anywhere in the tree. -/
theorem C38_divide (before after : List Tree) (s s' : Str) (d d1 d2 : Data)
    (hd : d.kind = .text ∨ d.kind = .cdata) (hd1 : d1.kind = .text ∨ d1.kind = .cdata)
    (hd2 : d2.kind = .text ∨ d2.kind = .cdata) :
    textInAll (before ++ .node { d with value := s ++ s' } [] [] :: after) =
      textInAll (before ++ .node { d1 with value := s } [] [] :: .node { d2 with value := s' } [] [] :: after) := by
  have app : ∀ l l' : List Tree, textInAll (l ++ l') = textInAll l ++ textInAll l' := by
    intro l l'
    induction l with
    | nil => simp [textInAll]
    | cons a l ih => simp [textInAll, ih]
  simp [app, textInAll, textIn, hd, hd1, hd2]

/-- The value of a text node is the text from it up to the next node that is not text. -/
theorem C38_text (t : Tree) (i : Nat) (up : Ref) (n : Tree) (hn : sub t (.child i :: up) = some n)
    (hk : n.kind = .text ∨ n.kind = .cdata) (f : Nat) :
    nodeStringValue t (.child i :: up) f = .done (some (leadingText ((kidsOf t up).drop i))) :=
  stringValue_text hn hk f

example : nodeStringValue ex [.child 0, .child 0, .child 1] 0 = .done (some ['s', 't']) := by decide +kernel

/-- The value of an attribute, a processing instruction or a comment is its DOM value. -/
theorem C38_value (t : Tree) (r : Ref) (n : Tree) (hn : sub t r = some n)
    (hk : n.kind = .attribute ∨ n.kind = .pi ∨ n.kind = .comment) (f : Nat) :
    nodeStringValue t r f = .done (some n.data.value) :=
  stringValue_value hn hk f

example : nodeStringValue ex [.attr 2, .child 1] 0 = .done (some ['2']) := by decide +kernel

/-! ## C41 -/

/-- Predicates one after the other, each with the positions 1 to n of the nodes the ones before it have kept,
in their order, and n as the size. -/
theorem C41 (ps : List Pred) (ns : NodeSet) : FilteredBy ps ns.nodes (applyPredicates ps ns).nodes :=
  applyPredicates_spec ps ns

/-- There is no other list like this. -/
theorem C41_unique (ps : List Pred) (l a b : List XN) (ha : FilteredBy ps l a) (hb : FilteredBy ps l b) : a = b :=
  filteredBy_unique ha hb

/-- `[position() != 2][last()]` -/
example : (applyPredicates [fun _ i _ => .bool (i ≠ 2), fun _ _ n => .num (.fin n)]
    { nodes := [(0, []), (1, []), (2, []), (3, [])] }).nodes = [(3, [])] := by decide +kernel

/-- A number keeps exactly the node at that position. -/
theorem C41_number (k : Nat) (ns : NodeSet) :
    (applyPredicates [fun _ _ _ => .num (.fin (k + 1 : Nat))] ns).nodes = (ns.nodes[k]?).toList := by
  refine filteredBy_unique (applyPredicates_spec _ ns) ⟨_, ?_, rfl⟩
  cases h : ns.nodes[k]? with
  | none =>
    refine ⟨[], by simp, by simp, ?_⟩
    intro i x hx
    simp only [List.not_mem_nil, Keeps, false_iff, Verif.XPath.Num.fin.injEq]
    intro e
    have : k + 1 = i + 1 := by exact_mod_cast e
    have : k = i := by omega
    subst this
    rw [hx] at h; cases h
  | some x =>
    refine ⟨[k], by simp, by simp [h], ?_⟩
    intro i y hy
    simp only [List.mem_singleton, Keeps, Verif.XPath.Num.fin.injEq]
    constructor
    · rintro rfl; rfl
    · intro e
      have : k + 1 = i + 1 := by exact_mod_cast e
      omega

/-- A number that is no position keeps none. -/
theorem C41_other_number (q : Verif.XPath.Num) (hq : ∀ k : Nat, q ≠ .fin ((k + 1 : Nat) : Rat)) (ns : NodeSet) :
    (applyPredicates [fun _ _ _ => .num q] ns).nodes = [] := by
  refine filteredBy_unique (applyPredicates_spec _ ns) ⟨_, ?_, rfl⟩
  refine ⟨[], by simp, by simp, ?_⟩
  intro i x hx
  simpa [Keeps] using hq i

example : (applyPredicates [fun _ _ _ => .num (.fin (3 / 2))] { nodes := [(0, []), (1, [])] }).nodes = [] :=
  C41_other_number _ (fun k h => by
    simp only [Verif.XPath.Num.fin.injEq] at h
    have h2 : (3 : Rat) = 2 * ((k + 1 : Nat) : Rat) := by rw [← h]; decide +kernel
    have h3 : 3 = 2 * (k + 1) := by exact_mod_cast h2
    omega) _

/-- `last()` as a predicate keeps the last node. -/
theorem C41_last (ns : NodeSet) : (applyPredicates [fun _ _ n => .num (.fin n)] ns).nodes = ns.nodes.getLast?.toList := by
  refine filteredBy_unique (applyPredicates_spec _ ns) ⟨_, ?_, rfl⟩
  rcases List.eq_nil_or_concat ns.nodes with e | ⟨l, x, e⟩
  · rw [e]; exact filtered_nil _
  · rw [e]
    refine ⟨[l.length], by simp, by simp, ?_⟩
    intro i y hy
    simp only [List.concat_eq_append, List.length_append, List.length_cons, List.length_nil, Nat.zero_add,
      List.mem_singleton, Keeps, Verif.XPath.Num.fin.injEq]
    constructor
    · rintro rfl; rfl
    · intro h
      have : l.length + 1 = i + 1 := by exact_mod_cast h
      omega

/-- A step: the nodes of the axis that pass the test, in the order of the axis (see C35), filtered by its
predicates, are added to the result. -/
theorem C41_step (w : World) (s : PathStep) (fuel : Nat) (results : NodeSet) (x : XN) (l : List Ref)
    (hl : enumerate (w.tree x.1) x.2 s.axis fuel = .done l) :
    ∃ kept ns, enumerateOver w s fuel results x = .done ns ∧ ns.nodes = results.nodes ++ kept ∧
      FilteredBy s.preds ((l.filter (s.test.at (w.tree x.1))).map fun r => (x.1, r)) kept := by
  have hs : ∀ (ns : NodeSet) (b : Bool), (ns.setForward b).nodes = ns.nodes := by
    intro ns b; rw [NodeSet.setForward]; split <;> rfl
  rw [enumerateOver, hl]
  simp only
  by_cases hp : s.preds = []
  · rw [if_pos (by simp [hp])]
    exact ⟨_, _, rfl, by rw [foldl_push_nodes, hs], by rw [hp]; rfl⟩
  · rw [if_neg (by simpa using hp)]
    refine ⟨(applyPredicates s.preds (((l.filter (s.test.at (w.tree x.1))).map fun r => (x.1, r)).foldl
        NodeSet.push { forward := s.axis.forward })).nodes, _, rfl, ?_, ?_⟩
    · simp [NodeSet.insert, hs]
    · have := applyPredicates_spec s.preds (((l.filter (s.test.at (w.tree x.1))).map fun r => (x.1, r)).foldl
        NodeSet.push { forward := s.axis.forward })
      rw [foldl_push_nodes] at this
      exact this

/-- `ancestor::*[1]` is the nearest. -/
example : enumerateOver exWorld ⟨.ancestor, .star, [fun _ _ _ => .num (.fin 1)]⟩ 20 {} (3, [.child 2, .child 0, .child 1]) =
    .done ⟨[(3, [.child 0, .child 1])], false, false⟩ := by decide +kernel

/-- What the tests ask for. -/
theorem C41_test (test : NodeTest) (d : Data) : test.holds d = true ↔ Passes d test := holds_iff test d

/-- A filter expression: the positions are in document order, whatever the order of the node-set. -/
theorem C41_filter (w : World) (hw : Forest w) (S : XN → Prop) (hS : Usual w S)
    (srt : List XN → List XN) (hsrt : StdSort (nodesLessThan w) srt) (b : Bool) (ops : List Op)
    (hops : ∀ x ∈ added ops, S x) (ns : NodeSet) (hns : ns = NodeSet.run srt { forward := b } ops)
    (ps : List Pred) (hps : ps ≠ []) :
    ∃ l, InOrder w l ∧ (∀ x, x ∈ l ↔ x ∈ added ops) ∧ FilteredBy ps l (filterExpression srt ps ns).nodes := by
  subst hns
  obtain ⟨h1, h2⟩ := inv_run hw hS hsrt (ns := { forward := b }) ⟨by simp, by simp⟩ ops hops
  simp only [List.not_mem_nil, false_or] at h2
  obtain ⟨_, _, d3, d4⟩ := docOrder_spec hw hS hsrt h1
  refine ⟨_, d3, fun x => (d4 x).trans (h2 x), ?_⟩
  rw [filterExpression, if_neg (by simpa using hps)]
  exact applyPredicates_spec ps _

/-- `(ancestor::*)[1]` is the outermost. -/
example : (filterExpression (sortLt (nodesLessThan exWorld)) [fun _ _ _ => .num (.fin 1)]
    (NodeSet.run (sortLt (nodesLessThan exWorld)) { forward := false }
      [.push (3, [.child 0, .child 1]), .push (3, [.child 1]), .sort])).nodes = [(3, [.child 1])] := by decide +kernel

/-! ## C42 -/

/-- A path selects exactly the nodes reachable by its steps, each once, in document order, or in reverse if
its last step goes backwards.

Partial: not always in document order (`C42_violated_reverse`); for the axes as in C35 (`Regular`), for the trees
as in C36. -/
theorem C42_partial (w : World) (hw : Forest w) (x : XN) (hd : DomTree (w.tree x.1)) (he : Expanded (w.tree x.1))
    (hs : Small (w.tree x.1)) (hx : XNode (w.tree x.1) x.2) (steps : List PathStep) (hr : Regular w steps x)
    (srt : List XN → List XN) (hsrt : StdSort (nodesLessThan w) srt) :
    ∃ fuel ns, (∀ f, fuel ≤ f → relativePath w srt f steps x = .done ns) ∧
      (∀ y, y ∈ ns.nodes ↔ PathSelects w steps x y) ∧
      (¬ Backward steps → InOrder w ns.nodes) ∧ (Backward steps → InOrder w ns.nodes.reverse) := by
  have hK : Trees w (· = x.1) :=
    ⟨fun k h => h ▸ hd, fun k h => h ▸ he, fun k h => h ▸ hs, fun j k hj hk _ hne => absurd (hj.trans hk.symm) hne⟩
  have hns : NSInv w (NodesOf w (· = x.1)) (NodeSet.push {} x) :=
    ⟨by simp [NodeSet.push, NodesOf, hx], by simp [NodeSet.push]⟩
  obtain ⟨fuel, ns, h1, h2, h3, h4, h5⟩ := overSteps_spec hw hK hsrt steps hns (by simpa [NodeSet.push] using hr)
  obtain ⟨s1, s2, s3, s4⟩ := sort_spec hw (usual_nodes hK) hsrt h2
  refine ⟨fuel, ns.sort srt, fun f hf => by rw [relativePath, h1 f hf], fun y => ?_, ?_⟩
  · rw [s4, h5]; simp [NodeSet.push]
  · by_cases hne : ns.nodes = []
    · have : (ns.sort srt).nodes = [] := List.eq_nil_iff_forall_not_mem.2 fun y hy => by
        have := (s4 y).1 hy; rw [hne] at this; simp at this
      rw [this]
      exact ⟨fun _ => List.Pairwise.nil, fun _ => List.Pairwise.nil⟩
    · cases hl : steps.getLast? with
      | none =>
        have : steps = [] := by simpa using hl
        have hf : ns.forward = true := by rw [h4 this]; rfl
        rw [hf] at s3
        exact ⟨fun _ => s3, fun ⟨s, h, _⟩ => by rw [hl] at h; cases h⟩
      | some s =>
        have hf := h3 s hl hne
        rw [hf] at s3
        constructor
        · intro hb
          have : s.axis.forward = true := by
            cases ha : s.axis <;> first | rfl | exact absurd ⟨s, hl, by simp [ha, Reverse]⟩ hb
          rw [this] at s3
          exact s3
        · rintro ⟨s', h, hb⟩
          rw [hl] at h; cases h
          have : s.axis.forward = false := by
            revert hb
            cases ha : s.axis <;> simp [Reverse, Axis.forward]
          rw [this] at s3
          exact ordered_reverse.2 s3

/-- `Regular` holds for paths from a node that is no attribute, without the following and preceding axes,
and with the attribute axis only in the last step. -/
theorem C42_regular (w : World) (x : XN) (hx : XNode (w.tree x.1) x.2) (ha : ¬ IsAttr x.2) (steps : List PathStep)
    (hf : ∀ s ∈ steps, s.axis ≠ .following ∧ s.axis ≠ .preceding)
    (hattr : ∀ s ∈ steps.dropLast, s.axis ≠ .attribute) : Regular w steps x := by
  intro pre s post he
  have hs : s ∈ steps := by rw [he]; simp
  refine ⟨fun _ m hm => ?_, fun h => absurd h (hf s hs).1, fun h => absurd h (hf s hs).2⟩
  have hpre : ∀ s' ∈ pre, s'.axis ≠ .attribute := by
    intro s' hs'
    refine hattr s' ?_
    rw [he, List.dropLast_append_of_ne_nil (by simp)]
    simp [hs']
  clear hattr hf he hs
  induction pre generalizing x with
  | nil => rw [PathSelects] at hm; rw [hm]; exact ha
  | cons s' pre ih =>
    obtain ⟨y, hy, hm⟩ := hm
    have hn := stepSelects_node (K := fun _ => True) (s := s') ⟨trivial, hx⟩ hy
    refine ih y hn.1.2 ?_ hm fun s hs => hpre s (by simp [hs])
    obtain ⟨l, p, k, h1, h2, h3, h4, h5⟩ := hy
    obtain ⟨r, hr, rfl⟩ := List.mem_map.1 (filteredBy_mem h4 h5)
    have hon := ((h1.1 r).1 (h2.subset hr)).2
    have hax := hpre s' (by simp)
    have gen : ∀ c : Ref, XNode (w.tree x.1) c → ¬ IsAttr c → AllChild c := by
      intro c hc hca
      cases c with
      | nil => simp [AllChild]
      | cons st up =>
        cases st with
        | child i =>
          intro z hz
          rcases List.mem_cons.1 hz with e | e
          · exact ⟨i, e⟩
          · exact hc.1 z e
        | attr i => exact absurd trivial hca
    have hall : AllChild x.2 := gen x.2 hx ha
    have hsub : ∀ s : Ref, x.2 = s ++ r → ¬ IsAttr r := by
      intro s hs hat
      match r, hat with
      | .attr i :: up, _ =>
        obtain ⟨j, hj⟩ := hall (.attr i) (by rw [hs]; simp)
        cases hj
    revert hon
    cases hsa : s'.axis <;> simp only [OnAxis]
    case self => rintro rfl; exact ha
    case parent => rintro ⟨s, hs⟩; exact hsub [s] hs
    case ancestor => rintro ⟨s, _, hs⟩; exact hsub s hs
    case ancestorOrSelf =>
      rintro (rfl | ⟨s, _, hs⟩)
      · exact ha
      · exact hsub s hs
    case child => rintro ⟨i, rfl⟩; simp [IsAttr]
    case «attribute» => exact absurd hsa hax
    case descendant => exact fun h => h.2
    case descendantOrSelf =>
      rintro (rfl | h)
      · exact ha
      · exact h.2
    case following => exact fun h => h.2.2
    case preceding => exact fun h => h.2.2
    case followingSibling => rintro ⟨i, j, up, _, rfl, _⟩; simp [IsAttr]
    case precedingSibling => rintro ⟨i, j, up, _, rfl, _⟩; simp [IsAttr]

theorem exWorld_trees : Trees exWorld (fun k => k = 3 ∨ k = 5) where
  dom k h := by rcases h with rfl | rfl <;> exact domTree_of_check (by decide +kernel)
  expanded k h := by rcases h with rfl | rfl <;> exact expanded_of_check (by decide +kernel)
  small k h := by rcases h with rfl | rfl <;> exact small_of_check (by decide +kernel)
  one j k hj hk _ hne := by
    rcases hj with rfl | rfl <;> rcases hk with rfl | rfl <;>
      first | (exact absurd rfl hne) | (exact .inl (by decide)) | (exact .inr (by decide))

/-- `//*/ancestor-or-self::*/@*`: the steps reach elements several times. -/
def exPath : List PathStep :=
  [⟨.descendantOrSelf, .any, []⟩, ⟨.child, .star, []⟩, ⟨.ancestorOrSelf, .star, []⟩, ⟨.attribute, .attributeNode, []⟩]

example : DomTree (exWorld.tree 3) ∧ Expanded (exWorld.tree 3) ∧ Small (exWorld.tree 3) ∧ XNode (exWorld.tree 3) [] ∧
    Regular exWorld exPath (3, []) ∧ ¬ Backward exPath ∧
    relativePath exWorld (sortLt (nodesLessThan exWorld)) 50 exPath (3, []) =
      .done ⟨[(3, [.attr 0, .child 1]), (3, [.attr 2, .child 1]), (3, [.attr 0, .child 2, .child 1])], true, true⟩ := by
  refine ⟨ex_dom, ex_expanded, exWorld_trees.small 3 (.inl rfl), trivial, ?_, ?_, by decide +kernel⟩
  · refine C42_regular exWorld (3, []) trivial (by simp [IsAttr]) _ ?_ ?_ <;> simp [exPath]
  · rintro ⟨s, h, h'⟩
    simp [exPath] at h
    subst h
    simp [Reverse] at h'

/-- An absolute path starts at the root of the document the node is in.

Partial: as `C42_partial`, and only for documents and for the root of a fragment (`C42_violated_absolute`). -/
theorem C42_absolute_partial (w : World) (hw : Forest w) (x : XN) (hd : DomTree (w.tree x.1)) (he : Expanded (w.tree x.1))
    (hs : Small (w.tree x.1)) (hx : (w.tree x.1).kind = .document ∨ ((w.tree x.1).kind = .fragment ∧ x.2 = []))
    (steps : List PathStep) (hr : Regular w steps (x.1, []))
    (srt : List XN → List XN) (hsrt : StdSort (nodesLessThan w) srt) :
    ∃ fuel ns, (∀ f, fuel ≤ f → absolutePath w srt f steps x = .done ns) ∧
      (∀ y, y ∈ ns.nodes ↔ PathSelects w steps (x.1, []) y) ∧
      (¬ Backward steps → InOrder w ns.nodes) ∧ (Backward steps → InOrder w ns.nodes.reverse) := by
  have key : ∀ f, absolutePath w srt f steps x = relativePath w srt f steps (x.1, []) := by
    intro f
    rw [absolutePath]
    obtain ⟨k, r⟩ := x
    rcases hx with hk | ⟨hk, rfl⟩
    · by_cases hr' : r = []
      · subst hr'
        rw [if_pos (by simpa [kindOf, sub] using .inl hk)]
      · rw [if_neg ?_, hw.doc k hk]
        match r, hr' with
        | st :: up, _ =>
          cases hn : sub (w.tree k) (st :: up) with
          | none =>
            have : kindOf (w.tree k) (st :: up) = none := by rw [kindOf, hn]
            simp [this]
          | some n =>
            have : kindOf (w.tree k) (st :: up) = some n.kind := by rw [kindOf, hn]
            cases st with
            | child i => have h := hd.kids up i n hn; simp [this, h.2.1, h.2.2]
            | attr i => have h := hd.attrs up i n hn; simp [this, h]
    · rw [if_pos (by simpa [kindOf, sub] using .inr hk)]
  simp only [key]
  exact C42_partial w hw (x.1, []) hd he hs trivial steps hr srt hsrt

/-- The same path from a node inside the document. -/
example : absolutePath exWorld (sortLt (nodesLessThan exWorld)) 50 exPath (3, [.attr 0, .child 1]) =
    .done ⟨[(3, [.attr 0, .child 1]), (3, [.attr 2, .child 1]), (3, [.attr 0, .child 2, .child 1])], true, true⟩ := by
  decide +kernel

/-- A filter expression followed by steps: the nodes reachable from those the predicates keep.

Partial: as `C42_partial`, and with two or more predicates and no steps the nodes are in reverse document order
(`C42_violated_filter`). -/
theorem C42_filter_partial (w : World) (hw : Forest w) (K : Nat → Prop) (hK : Trees w K)
    (srt : List XN → List XN) (hsrt : StdSort (nodesLessThan w) srt) (b : Bool) (ops : List Op)
    (hops : ∀ x ∈ added ops, K x.1 ∧ XNode (w.tree x.1) x.2) (ns : NodeSet)
    (hns : ns = NodeSet.run srt { forward := b } ops) (ps : List Pred) (hps : ps ≠ []) (steps : List PathStep)
    (hr : ∀ x ∈ added ops, Regular w steps x) :
    ∃ l kept fuel res, InOrder w l ∧ (∀ x, x ∈ l ↔ x ∈ added ops) ∧ FilteredBy ps l kept ∧
      (∀ f, fuel ≤ f → filteredPath w srt f ps steps ns = .done res) ∧
      (∀ y, y ∈ res.nodes ↔ ∃ x ∈ kept, PathSelects w steps x y) ∧
      ((steps ≠ [] ∨ ps.length = 1) → ¬ Backward steps → InOrder w res.nodes) ∧
      (Backward steps → InOrder w res.nodes.reverse) := by
  have hS := usual_nodes hK
  subst hns
  obtain ⟨h1, h2⟩ := inv_run hw hS hsrt (ns := { forward := b }) ⟨by simp, by simp⟩ ops hops
  simp only [List.not_mem_nil, false_or] at h2
  obtain ⟨d1, d2, d3, d4⟩ := docOrder_spec hw hS hsrt h1
  generalize hm : NodeSet.toDocumentOrder srt (NodeSet.run srt { forward := b } ops) = m at *
  have hfe : filterExpression srt ps (NodeSet.run srt { forward := b } ops) = applyPredicates ps m := by
    rw [filterExpression, if_neg (by simpa using hps), hm]
  have hk := applyPredicates_spec ps m
  have hinv : NSInv w (NodesOf w K) (applyPredicates ps m) := by
    refine ⟨fun y hy => hops y ((h2 y).1 ((d4 y).1 (filteredBy_mem hk hy))), ?_⟩
    intro hsorted
    match ps, hps with
    | p :: ps, _ =>
      rw [applyPredicates] at hsorted ⊢
      by_cases e : m.nodes = []
      · rw [if_pos (by simp [e]), d1]; exact d3
      · rw [if_neg (by simpa using e)] at hsorted
        have gen : ∀ (ps : List Pred) (n : NodeSet), n.sorted = false → (applyPredicates ps n).sorted = false := by
          intro ps
          induction ps with
          | nil => intro n h; exact h
          | cons p ps ih =>
            intro n h
            rw [applyPredicates]
            split
            · exact h
            · exact ih _ rfl
        rw [gen ps (applyPredicate p m) rfl] at hsorted
        cases hsorted
  have hmem : ∀ y ∈ (applyPredicates ps m).nodes, y ∈ added ops := fun y hy =>
    (h2 y).1 ((d4 y).1 (filteredBy_mem hk hy))
  obtain ⟨fuel, res, r1, r2, r3, r4, r5⟩ := overSteps_spec hw hK hsrt steps hinv fun x hx => hr x (hmem x hx)
  obtain ⟨s1, s2, s3, s4⟩ := sort_spec hw hS hsrt r2
  refine ⟨m.nodes, _, fuel, res.sort srt, d3, fun x => (d4 x).trans (h2 x), hk, ?_, fun y => (s4 y).trans (r5 y), ?_⟩
  · intro f hf
    rw [filteredPath, hfe, r1 f hf]
  by_cases hne : res.nodes = []
  · have : (res.sort srt).nodes = [] := List.eq_nil_iff_forall_not_mem.2 fun y hy => by
      have := (s4 y).1 hy; rw [hne] at this; simp at this
    rw [this]
    exact ⟨fun _ _ => List.Pairwise.nil, fun _ => List.Pairwise.nil⟩
  · cases hl : steps.getLast? with
    | none =>
      have hst : steps = [] := by simpa using hl
      refine ⟨fun h _ => ?_, fun ⟨s, h, _⟩ => by rw [hl] at h; cases h⟩
      have hlen : ps.length = 1 := by
        rcases h with h | h
        · exact absurd hst h
        · exact h
      have hf : res.forward = true := by
        rw [r4 hst]
        match ps, hlen with
        | [p], _ =>
          rw [applyPredicates]
          split
          · exact d1
          · rw [applyPredicates, applyPredicate, NodeSet.isForward, d1, d2]; rfl
      rw [hf] at s3
      exact s3
    | some s =>
      have hf := r3 s hl hne
      rw [hf] at s3
      constructor
      · intro _ hb
        have : s.axis.forward = true := by
          cases ha : s.axis <;> first | rfl | exact absurd ⟨s, hl, by simp [ha, Reverse]⟩ hb
        rw [this] at s3
        exact s3
      · rintro ⟨s', h, hb⟩
        rw [hl] at h; cases h
        have : s.axis.forward = false := by
          revert hb
          cases ha : s.axis <;> simp [Reverse, Axis.forward]
        rw [this] at s3
        exact ordered_reverse.2 s3

/-- From nodes of a document and a fragment: `($nodes)[true()][true()]/*`. -/
example : filteredPath exWorld (sortLt (nodesLessThan exWorld)) 50 [fun _ _ _ => .bool true, fun _ _ _ => .bool true]
    [⟨.child, .star, []⟩] (NodeSet.run (sortLt (nodesLessThan exWorld)) { forward := false }
      [.push (5, []), .push (3, [.child 1]), .push (5, [])]) =
    .done ⟨[(3, [.child 0, .child 1]), (3, [.child 2, .child 1]), (5, [.child 0]), (5, [.child 1])], true, true⟩ := by
  decide +kernel

/-- `ancestor::*` is in reverse document order. -/
theorem C42_violated_reverse :
    relativePath exWorld (sortLt (nodesLessThan exWorld)) 50 [⟨.ancestor, .star, []⟩] (3, [.child 2, .child 0, .child 1]) =
      .done ⟨[(3, [.child 0, .child 1]), (3, [.child 1])], false, true⟩ ∧
    ¬ InOrder exWorld [(3, [.child 0, .child 1]), (3, [.child 1])] := by
  refine ⟨by decide +kernel, fun h => ?_⟩
  have := (List.pairwise_cons.1 h).1 (3, [.child 1]) (by simp)
  simp [DocBefore, Before, PathLt, StepLt] at this

/-- `(//*)[true()][true()]`: with two predicates the result is in reverse document order, although with one it is
in document order. -/
theorem C42_violated_filter (srt : List XN → List XN) (hs : srt = sortLt (nodesLessThan exWorld)) (ns : NodeSet)
    (hns : relativePath exWorld srt 50 [⟨.descendant, .star, []⟩] (3, []) = .done ns) :
    filteredPath exWorld srt 50 [fun _ _ _ => .bool true] [] ns =
      .done ⟨[(3, [.child 1]), (3, [.child 0, .child 1]), (3, [.child 2, .child 0, .child 1]), (3, [.child 2, .child 1])],
        true, true⟩ ∧
    filteredPath exWorld srt 50 [fun _ _ _ => .bool true, fun _ _ _ => .bool true] [] ns =
      .done ⟨[(3, [.child 2, .child 1]), (3, [.child 2, .child 0, .child 1]), (3, [.child 0, .child 1]), (3, [.child 1])],
        false, true⟩ := by
  have : relativePath exWorld srt 50 [⟨.descendant, .star, []⟩] (3, []) = .done
      ⟨[(3, [.child 1]), (3, [.child 0, .child 1]), (3, [.child 2, .child 0, .child 1]), (3, [.child 2, .child 1])],
        true, true⟩ := by subst hs; decide +kernel
  rw [this] at hns
  cases hns
  subst hs
  decide +kernel

example : ∃ ns, relativePath exWorld (sortLt (nodesLessThan exWorld)) 50 [⟨.descendant, .star, []⟩] (3, []) = .done ns :=
  ⟨⟨[(3, [.child 1]), (3, [.child 0, .child 1]), (3, [.child 2, .child 0, .child 1]), (3, [.child 2, .child 1])],
    true, true⟩, by decide +kernel⟩

/-- `/*` from an element in a fragment gives the element of the document the fragment belongs to, not those of
the fragment, although from the fragment itself it gives these. -/
theorem C42_violated_absolute :
    absolutePath exWorld (sortLt (nodesLessThan exWorld)) 50 [⟨.child, .star, []⟩] (5, []) =
      .done ⟨[(5, [.child 0]), (5, [.child 1])], true, true⟩ ∧
    absolutePath exWorld (sortLt (nodesLessThan exWorld)) 50 [⟨.child, .star, []⟩] (5, [.child 0]) =
      .done ⟨[(3, [.child 1])], true, true⟩ := by decide +kernel

end Verif.Props.XPathPath
