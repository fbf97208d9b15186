import Verif.Model.XPathAxes
set_option autoImplicit false
/-!
# Document order and node-sets: include/XPath/impl/xpath_object.hpp lines 38-300,
# include/XPath/impl/xpath_union.hpp
-/
namespace Verif.XTree

/-- All trees of nodes in memory. A tree is known by the address of its root. `home` gives the address of the
document its nodes belong to (`getOwnerDocument`, and the document itself for a document,
`get_owner_document`, lines 124-131). -/
structure World where
  tree : Nat → Tree
  home : Nat → Nat

/-- A pointer to a node of any tree. -/
abbrev XN := Nat × Ref

/-- The loop of `node_child_position`, lines 69-75, from a node with `i` siblings before it. -/
def siblingPosition : Nat → Nat
  | 0 => 1000
  | i + 1 => (siblingPosition i + 1000) % 2 ^ 32

/-- `node_child_position`, lines 57-78, with `node_attribute_index`, lines 46-55, for the `i`-th attribute. A
detached attribute has no owner element and a null pointer is followed. Namespace nodes are not modelled. -/
def childPosition (t : Tree) : Ref → Option Nat
  | [] => if t.kind = .attribute then none else some (siblingPosition 0)
  | .attr i :: _ => some ((i + 1) % 2 ^ 32)
  | .child i :: _ => some (siblingPosition i)

/-- `node_parent_or_owner`, lines 38-44. -/
def parentOrOwner : Ref → Option Ref
  | [] => none
  | _ :: up => some up

/-- `ultimate_parent`, lines 80-91. -/
def ultimateParent : Ref → Ref
  | [] => []
  | _ :: up => ultimateParent up

/-- `node_position`, lines 110-122: the node first, the root last. -/
def nodePosition (t : Tree) : Ref → Option (List Nat)
  | [] => (childPosition t []).map fun p => [p]
  | s :: up =>
    match childPosition t (s :: up), nodePosition t up with
    | some p, some ps => some (p :: ps)
    | _, _ => none

/-- The conversion of an `unsigned int` difference to `int`, line 156. -/
def signed32 (n : Nat) : Int := if n < 2 ^ 31 then n else (n : Int) - 2 ^ 32

/-- The loop of `compareNodes`, lines 153-166. -/
def comparePositions : List Nat → List Nat → Int
  | l :: ls, r :: rs =>
    if l ≠ r then signed32 ((l + 2 ^ 32 - r) % 2 ^ 32) else comparePositions ls rs
  | _ :: _, [] => 1
  | [], _ :: _ => -1
  | [], [] => 0

/-- `resolve_different_subtrees`, lines 93-108; the last line compares a pointer with itself. -/
def resolveDifferentSubtrees (w : World) (a b : XN) : Int :=
  if (w.tree a.1).kind = .document then -1
  else if (w.tree b.1).kind = .document then 1
  else if a.1 < a.1 then -1 else 1

/-- `compareNodes`, lines 133-168. -/
def compareNodes (w : World) (a b : XN) : Option Int :=
  if a = b then some 0
  else if w.home a.1 ≠ w.home b.1 then some (if w.home a.1 < w.home b.1 then 1 else -1)
  else if (a.1, ultimateParent a.2) ≠ (b.1, ultimateParent b.2) then some (resolveDifferentSubtrees w a b)
  else
    match nodePosition (w.tree a.1) a.2, nodePosition (w.tree b.1) b.2 with
    | some p, some q => some (comparePositions p.reverse q.reverse)
    | _, _ => none

/-- `nodes_less_than`, lines 170-175. A null pointer followed counts as "no"; the theorems exclude it. -/
def nodesLessThan (w : World) (a b : XN) : Bool :=
  match compareNodes w a b with
  | some c => decide (c < 0)
  | none => false

/-! ## Node-sets -/

/-- `NodeSet`, lines 181-300. -/
structure NodeSet where
  nodes : List XN := []
  forward : Bool := true
  sorted : Bool := false
deriving DecidableEq, Repr

/-- `std::unique` with `==`, which compares pointers (include/DOM/Node.hpp line 61). -/
def unique : List XN → List XN
  | [] => []
  | [a] => [a]
  | a :: b :: l => if a = b then unique (b :: l) else a :: unique (b :: l)

/-- `push_back`, lines 238-242. -/
def NodeSet.push (ns : NodeSet) (x : XN) : NodeSet := { ns with nodes := ns.nodes ++ [x], sorted := false }

/-- `insert`, lines 231-236, in front of place `i`. -/
def NodeSet.insert (ns : NodeSet) (i : Nat) (xs : List XN) : NodeSet :=
  { ns with nodes := ns.nodes.take i ++ xs ++ ns.nodes.drop i, sorted := false }

/-- `forward(bool)`, lines 251-258. -/
def NodeSet.setForward (ns : NodeSet) (b : Bool) : NodeSet :=
  if ns.forward = b then ns else { ns with forward := b, sorted := false }

/-- `forward()`, line 249. -/
def NodeSet.isForward (ns : NodeSet) : Bool := ns.sorted && ns.forward

/-- `sort`, lines 271-283. `srt` is `std::sort` with `nodes_less_than`. -/
def NodeSet.sort (srt : List XN → List XN) (ns : NodeSet) : NodeSet :=
  if ns.sorted then ns
  else
    { ns with
      nodes := unique (if ns.forward then srt ns.nodes else (srt ns.nodes.reverse).reverse)
      sorted := true }

/-- `to_document_order`, lines 260-269. -/
def NodeSet.toDocumentOrder (srt : List XN → List XN) (ns : NodeSet) : NodeSet :=
  if (ns.sort srt).forward then ns.sort srt
  else { ns.sort srt with nodes := (ns.sort srt).nodes.reverse, forward := true }

/-- `top`, lines 285-291: the node-set after it, and the node; none if the set is empty, which is undefined. -/
def NodeSet.top (srt : List XN → List XN) (ns : NodeSet) : NodeSet × Option XN :=
  (ns.sort srt, if (ns.sort srt).forward then (ns.sort srt).nodes.head? else (ns.sort srt).nodes.getLast?)

/-- `UnionExpression::evaluate`, xpath_union.hpp lines 28-52, of the values of the operands. -/
def union (srt : List XN → List XN) (ns1 ns2 : NodeSet) : NodeSet :=
  if ns1.nodes.isEmpty then ns2
  else if ns2.nodes.isEmpty then ns1
  else (ns1.insert (ns1.nodes.length - 1) ns2.nodes).toDocumentOrder srt

/-- The calls that change a node-set. -/
inductive Op where
  | push (x : XN)
  | insert (i : Nat) (xs : List XN)
  | setForward (b : Bool)
  | sort
  | toDocumentOrder
  | top
deriving DecidableEq, Repr

/-- One call. -/
def NodeSet.step (srt : List XN → List XN) (ns : NodeSet) : Op → NodeSet
  | .push x => ns.push x
  | .insert i xs => ns.insert i xs
  | .setForward b => ns.setForward b
  | .sort => ns.sort srt
  | .toDocumentOrder => ns.toDocumentOrder srt
  | .top => (ns.top srt).1

/-- A node-set after some calls. -/
def NodeSet.run (srt : List XN → List XN) (ns : NodeSet) : List Op → NodeSet
  | [] => ns
  | o :: os => (ns.step srt o).run srt os

end Verif.XTree
