import Verif.Lemmas.XNodeSet
import Verif.Props.XPathAxes
set_option autoImplicit false
/-!
# C36 and C37: document order and node-sets
-/
namespace Verif.Props.XPathNodeSet
open Verif.XTree Verif.Spec.XPathAxes Verif.Spec.XPathNodeSet
open Verif.Props.XPathAxes (el tx ex doc ex')

/-! ## Example: a document at address 3 with a fragment at address 5, another document at 4 -/

def frag : Tree := .node { kind := .fragment } [] [el ['a'] [] [tx ['t']], el ['b'] [] []]

def exWorld : World where
  tree k := if k = 3 then ex else if k = 4 then ex' else if k = 5 then frag else doc []
  home k := if k = 5 then 3 else k

theorem exWorld_forest : Forest exWorld where
  doc k h := by
    by_cases h5 : k = 5
    · subst h5; exact absurd h (by decide)
    · simp [exWorld, h5]
  other k h := by
    by_cases h5 : k = 5
    · subst h5; decide
    · refine absurd ?_ h
      simp only [exWorld, h5, if_false]
      split
      · rfl
      · split <;> rfl

/-- All nodes of the document, the fragment and the other document. -/
def exNodes (x : XN) : Prop := (x.1 = 3 ∨ x.1 = 4 ∨ x.1 = 5) ∧ Valid exWorld x

theorem exNodes_usual : Usual exWorld exNodes where
  valid x h := h.2
  small x h := by
    rcases h.1 with e | e | e <;> rw [e] <;> exact small_of_check (by decide +kernel)
  root x h := by rcases h.1 with e | e | e <;> rw [e] <;> decide
  one x y hx hy hh hne := by
    obtain ⟨k, a⟩ := x
    obtain ⟨k', b⟩ := y
    rcases hx.1 with e | e | e <;> rcases hy.1 with e' | e' | e' <;> simp only at e e' <;> subst e <;> subst e' <;>
      simp only at hne ⊢ <;>
      first | (exact absurd rfl hne) | (exact .inl (by decide)) | (exact .inr (by decide))

/-! ## C36 -/

/-- The comparison of nodes used for sorting is document order and a strict total order.

Partial: only for nodes of which at most one tree besides the document is involved per document, of trees
with less than 1000 attributes on each element and at most 2147483 children of each node. Otherwise it is
no order (`C36_violated_*`). -/
theorem C36_partial (w : World) (hw : Forest w) (S : XN → Prop) (hS : Usual w S) :
    (∀ x y, S x → S y → (nodesLessThan w x y = true ↔ DocBefore w x y)) ∧
      TotalOrder S (fun x y => nodesLessThan w x y = true) :=
  ⟨fun _ _ hx hy => lessThan_iff hw hS hx hy,
    totalOrder_congr (docBefore_total hw hS.one) fun _ _ hx hy => (lessThan_iff hw hS hx hy).symm⟩

/-- In particular within a tree: a node is before its attributes, these before its children, siblings are in
their order, with everything in them. -/
theorem C36_tree (w : World) (hw : Forest w) (k : Nat) (hs : Small (w.tree k)) (hk : (w.tree k).kind ≠ .attribute)
    (a b : Ref) (ha : (sub (w.tree k) a).isSome) (hb : (sub (w.tree k) b).isSome) :
    nodesLessThan w (k, a) (k, b) = true ↔ Before a b := by
  have hS : Usual w (fun x => x = (k, a) ∨ x = (k, b)) := by
    refine ⟨?_, ?_, ?_, ?_⟩
    · rintro x (rfl | rfl) <;> assumption
    · rintro x (rfl | rfl) <;> assumption
    · rintro x (rfl | rfl) <;> assumption
    · rintro x y (rfl | rfl) (rfl | rfl) _ h <;> exact absurd rfl h
  rw [lessThan_iff hw hS (.inl rfl) (.inr rfl)]
  simp [DocBefore]

/-- What `Before` says of the parts of a node. -/
example (r : Ref) (i j : Nat) (s s' : Ref) : Before r (.attr i :: r) ∧ Before r (.child i :: r) ∧
    Before (s ++ .attr i :: r) (s' ++ .child j :: r) ∧ (i < j → Before (s ++ .child i :: r) (s' ++ .child j :: r)) :=
  ⟨before_of_anc (anc_cons _ _), before_of_anc (anc_cons _ _), before_of_div (div_siblings s s' trivial),
    fun h => before_of_div (div_siblings s s' h)⟩

example : Forest exWorld ∧ Usual exWorld exNodes ∧ exNodes (3, [.attr 0, .child 1]) ∧ exNodes (5, [.child 1]) ∧
    nodesLessThan exWorld (3, [.child 1]) (3, [.attr 0, .child 1]) = true ∧
    nodesLessThan exWorld (3, [.attr 2, .child 1]) (3, [.child 0, .child 1]) = true ∧
    nodesLessThan exWorld (3, [.child 1, .child 1]) (5, []) = true ∧
    nodesLessThan exWorld (5, []) (3, [.child 1, .child 1]) = false ∧
    nodesLessThan exWorld (4, []) (5, []) = true :=
  ⟨exWorld_forest, exNodes_usual, ⟨.inl rfl, rfl⟩, ⟨.inr (.inr rfl), rfl⟩, by decide +kernel⟩

/-- Two fragments of one document: nodes of different fragments are never less than one another, though
nodes of the same fragment are. So "neither is less" is not transitive, which `std::sort` needs: its
behaviour is undefined on such a list. -/
theorem C36_violated_fragments (w : World) (j k : Nat) (hjk : j ≠ k) (hh : w.home j = w.home k)
    (hj : (w.tree j).kind ≠ .document) (hk : (w.tree k).kind ≠ .document) (a b : Ref) :
    nodesLessThan w (j, a) (k, b) = false ∧ nodesLessThan w (k, b) (j, a) = false := by
  constructor
  · rw [nodesLessThan, compareNodes, if_neg (by simp [hjk]), if_neg (by simp [hh]), if_pos (by simp [hjk])]
    simp [resolveDifferentSubtrees, hj, hk]
  · rw [nodesLessThan, compareNodes, if_neg (by simp [Ne.symm hjk]), if_neg (by simp [hh]), if_pos (by simp [Ne.symm hjk])]
    simp [resolveDifferentSubtrees, hj, hk]

/-- The same, concretely: `x` and `z` are both incomparable with `y`, but `x` is less than `z`. -/
theorem C36_violated_fragments_example :
    ∃ w x y z, Forest w ∧ Valid w x ∧ Valid w y ∧ Valid w z ∧ nodesLessThan w x z = true ∧
      nodesLessThan w x y = false ∧ nodesLessThan w y x = false ∧ nodesLessThan w y z = false ∧
      nodesLessThan w z y = false := by
  refine ⟨⟨fun k => if k = 0 then doc [] else frag, fun _ => 0⟩, (1, []), (2, []), (1, [.child 0]), ⟨?_, ?_⟩, ?_⟩
  · intro k h
    by_cases hk : k = 0
    · exact hk.symm
    · simp [hk, frag] at h; cases h
  · intro k _; rfl
  · exact ⟨rfl, rfl, rfl, by decide +kernel⟩

/-- The thousandth attribute of an element and its first child compare equal, though they are different. -/
theorem C36_violated_attributes (w : World) (k : Nat) (hk : (w.tree k).kind ≠ .attribute) (r : Ref) :
    compareNodes w (k, .attr 999 :: r) (k, .child 0 :: r) = some 0 := by
  rw [compareNodes, if_neg (by simp), if_neg (by simp), if_neg (by simp [ultimateParent_nil])]
  rw [nodePosition_eq hk, nodePosition_eq hk]
  simp only [List.map_cons, stepPos, siblingPosition]
  have : ∀ l : List Nat, comparePositions l l = 0 := by
    intro l
    induction l with
    | nil => rfl
    | cons a l ih => simp [comparePositions, ih]
  rw [show (999 + 1) % 2 ^ 32 = 1000 from rfl, this]

/-- With 2147485 children the last is before the first. -/
theorem C36_violated_children (w : World) (k : Nat) (hk : (w.tree k).kind ≠ .attribute) :
    nodesLessThan w (k, [.child 2147484]) (k, [.child 0]) = true := by
  rw [nodesLessThan, compareNodes, if_neg (by simp), if_neg (by simp), if_neg (by simp [ultimateParent_nil])]
  rw [nodePosition_eq hk, nodePosition_eq hk]
  have e : stepPos (.child 2147484) = 1000 * 2147485 := siblingPosition_eq 2147484 (by omega)
  rw [List.map_cons, e]
  rfl

/-! ## C37 -/

/-- A node-set filled and used by any calls in any order has as members the nodes added; brought into
document order it lists each once, in document order; `sort` lists each once in the order asked for;
and `top` is the first in document order. For every implementation of `std::sort`.

Partial: as C36. -/
theorem C37_partial (w : World) (hw : Forest w) (S : XN → Prop) (hS : Usual w S)
    (srt : List XN → List XN) (hsrt : StdSort (nodesLessThan w) srt) (b : Bool) (ops : List Op)
    (hops : ∀ x ∈ added ops, S x) (ns : NodeSet) (hns : ns = NodeSet.run srt { forward := b } ops) :
    (∀ x, x ∈ ns.nodes ↔ x ∈ added ops) ∧
    InOrder w (ns.toDocumentOrder srt).nodes ∧
    (∀ x, x ∈ (ns.toDocumentOrder srt).nodes ↔ x ∈ added ops) ∧
    (if ns.forward then InOrder w (ns.sort srt).nodes else InOrder w (ns.sort srt).nodes.reverse) ∧
    (∀ x, x ∈ (ns.sort srt).nodes ↔ x ∈ added ops) ∧
    (added ops ≠ [] → ∃ x, (ns.top srt).2 = some x ∧ x ∈ added ops ∧ ∀ y ∈ added ops, y = x ∨ DocBefore w x y) := by
  subst hns
  obtain ⟨h1, h2⟩ := inv_run hw hS hsrt (ns := { forward := b }) ⟨by simp, by simp⟩ ops hops
  simp only [List.not_mem_nil, false_or] at h2
  obtain ⟨_, _, d3, d4⟩ := docOrder_spec hw hS hsrt h1
  obtain ⟨s1, _, s3, s4⟩ := sort_spec hw hS hsrt h1
  refine ⟨h2, d3, fun x => (d4 x).trans (h2 x), ?_, fun x => (s4 x).trans (h2 x), ?_⟩
  · cases hf : (NodeSet.run srt { forward := b } ops).forward with
    | true => rw [hf] at s3; exact s3
    | false => rw [hf] at s3; exact ordered_reverse.2 s3
  · intro hne
    obtain ⟨a, ha⟩ := List.exists_mem_of_ne_nil _ hne
    obtain ⟨x, hx1, hx2, hx3⟩ := top_spec hw hS hsrt h1 (List.ne_nil_of_mem ((h2 a).2 ha))
    exact ⟨x, hx1, (h2 x).1 hx2, fun y hy => hx3 y ((h2 y).2 hy)⟩

/-- Each once: a list in order has no repetitions. -/
theorem C37_once (w : World) (l : List XN) (h : InOrder w l) : l.Nodup :=
  List.Pairwise.imp (fun {x y} hb e => by subst e; simp [DocBefore, before_irrefl] at hb) h

/-- The implementation of `std::sort` in the examples. -/
example : StdSort (nodesLessThan exWorld) (sortLt (nodesLessThan exWorld)) := sortLt_spec _

example : (NodeSet.run (sortLt (nodesLessThan exWorld)) { forward := false }
      [.push (5, [.child 0]), .push (3, [.child 1]), .sort, .insert 1 [(3, [.attr 0, .child 1]), (3, [.child 1])],
        .setForward true, .push (4, [])]).sort (sortLt (nodesLessThan exWorld)) =
    ⟨[(4, []), (3, [.child 1]), (3, [.attr 0, .child 1]), (5, [.child 0])], true, true⟩ := by decide +kernel

/-- The union of node-sets filled in any way has as members those of both, and if both have members it is
in document order, each member once.

Partial: as C36; and if one is empty the other is returned as it is (`C37_violated_union`). -/
theorem C37_union_partial (w : World) (hw : Forest w) (S : XN → Prop) (hS : Usual w S)
    (srt : List XN → List XN) (hsrt : StdSort (nodesLessThan w) srt) (b b' : Bool) (ops ops' : List Op)
    (hops : ∀ x ∈ added ops, S x) (hops' : ∀ x ∈ added ops', S x) (u : NodeSet)
    (hu : u = union srt (NodeSet.run srt { forward := b } ops) (NodeSet.run srt { forward := b' } ops')) :
    (∀ x, x ∈ u.nodes ↔ x ∈ added ops ∨ x ∈ added ops') ∧
    (added ops ≠ [] → added ops' ≠ [] → InOrder w u.nodes) := by
  obtain ⟨h1, h2⟩ := inv_run hw hS hsrt (ns := { forward := b }) ⟨by simp, by simp⟩ ops hops
  obtain ⟨h1', h2'⟩ := inv_run hw hS hsrt (ns := { forward := b' }) ⟨by simp, by simp⟩ ops' hops'
  simp only [List.not_mem_nil, false_or] at h2 h2'
  generalize hn : NodeSet.run srt { forward := b } ops = n at *
  generalize hn' : NodeSet.run srt { forward := b' } ops' = n' at *
  have emp : ∀ (l l' : List XN), (∀ x, x ∈ l ↔ x ∈ l') → (l = [] ↔ l' = []) := by
    intro l l' h
    constructor
    · rintro rfl; exact List.eq_nil_iff_forall_not_mem.2 fun x hx => by simpa using (h x).2 hx
    · rintro rfl; exact List.eq_nil_iff_forall_not_mem.2 fun x hx => by simpa using (h x).1 hx
  rw [union] at hu
  by_cases e1 : n.nodes = []
  · rw [if_pos (by simp [e1])] at hu
    have := (emp _ _ h2).1 e1
    subst hu
    exact ⟨fun x => by simp [this, h2'], fun h => absurd this h⟩
  · rw [if_neg (by simpa using e1)] at hu
    by_cases e2 : n'.nodes = []
    · rw [if_pos (by simp [e2])] at hu
      have := (emp _ _ h2').1 e2
      subst hu
      exact ⟨fun x => by simp [this, h2], fun _ h => absurd this h⟩
    · rw [if_neg (by simpa using e2)] at hu
      obtain ⟨i1, i2⟩ := inv_step hw hS hsrt h1 (.insert (n.nodes.length - 1) n'.nodes)
        (by simp only [added, List.append_nil]; exact h1'.all)
      obtain ⟨_, _, d3, d4⟩ := docOrder_spec hw hS hsrt i1
      subst hu
      refine ⟨fun x => ?_, fun _ _ => d3⟩
      rw [show (n.insert (n.nodes.length - 1) n'.nodes) = n.step srt (.insert (n.nodes.length - 1) n'.nodes) from rfl,
        d4, i2]
      simp [added, h2, h2']

example : (union (sortLt (nodesLessThan exWorld))
    (NodeSet.run (sortLt (nodesLessThan exWorld)) {} [.push (3, [.child 1]), .push (3, [])])
    (NodeSet.run (sortLt (nodesLessThan exWorld)) { forward := false } [.push (5, []), .push (3, []), .sort])).nodes =
    [(3, []), (3, [.child 1]), (5, [])] := by decide +kernel

/-- The union with an empty node-set is not brought into document order: with the ancestors of a node, say,
it is in reverse order. -/
theorem C37_violated_union : ∃ ns : NodeSet,
    ns = NodeSet.run (sortLt (nodesLessThan exWorld)) { forward := false } [.push (3, [.child 1]), .push (3, []), .sort] ∧
    (union (sortLt (nodesLessThan exWorld)) ns {}).nodes = [(3, [.child 1]), (3, [])] ∧
    ¬ InOrder exWorld [(3, [.child 1]), (3, [])] := by
  refine ⟨_, rfl, by decide +kernel, ?_⟩
  intro h
  have := (List.pairwise_cons.1 h).1 (3, []) (by simp)
  simp [DocBefore, Before, PathLt] at this

end Verif.Props.XPathNodeSet
