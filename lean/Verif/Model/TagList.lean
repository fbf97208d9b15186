import Verif.Model.Dom
set_option autoImplicit false
/-!
# include/DOM/Simple/ElementByTagImpl.hpp: the lists `getElementsByTagName` and
`getElementsByTagNameNS` return

The store of nodes is that of `Verif.Dom`.  The names of the nodes are kept beside it.
-/
namespace Verif.TagList
open Verif.Dom (Id Str St Kind live)

/-- `getNodeName`, `hasNamespaceURI` and `getNamespaceURI` (none: there is no namespace), and
`getLocalName` of an element: ElementImpl.hpp lines 138-141, ElementNSImpl.hpp lines 60-63, 94-108; an element
made by `createElement` has no namespace and the empty local name (NodeImpl.hpp lines 138, 146). -/
structure Name where
  nodeName : Str
  uri : Option Str
  localName : Str
  deriving DecidableEq, Repr

/-- Lines 129-134: what is looked for. -/
inductive Query where
  /-- `getElementsByTagName` (`useNamespace_` is false) -/
  | tag (name : Str)
  /-- `getElementsByTagNameNS` (`useNamespace_` is true) -/
  | ns (uri localName : Str)
  deriving DecidableEq, Repr

/-- Lines 32, 50-51: the wild card. -/
def star : Str := ['*']

/-- The tests of `checkNode`, lines 107-116, for a node that is an element (`checkChildren` passes no
other). -/
def hit : Query → Name → Bool
  | .ns u l, n =>
    if (n.uri.isSome && decide (n.uri = some u)) || decide (u = star) then
      decide (l = n.localName) || decide (l = star)
    else false
  | .tag t, n => decide (t = n.nodeName) || decide (t = star)

/-- `checkChildren` and `checkNode`, lines 105-126: what they append to `nodes_`.  The loop follows
`getFirstChild` and `getNextSibling`; here it goes through the child list, which is the same by
`Verif.Props.Dom.C15_forest_partial`.  The fuel bounds the depth. -/
def visit (s : St) (nm : Id → Name) (q : Query) : Nat → Id → List Id
  | 0, _ => []
  | fuel + 1, n => (s.kids n).flatMap fun c =>
    if s.kind c = .element then (if hit q (nm c) then [c] else []) ++ visit s nm q fuel c else []

/-- The data members, lines 128-137. -/
structure TagList where
  root : Id
  doc : Id
  query : Query
  nodes : List Id
  changes : Nat
  deriving DecidableEq, Repr

/-- `populate`, lines 94-103; `changes_` is an `unsigned int`. -/
def populate (s : St) (nm : Id → Name) (L : TagList) : TagList :=
  { L with nodes := visit s nm L.query (s.size + 1) L.root, changes := s.changes L.doc % 2 ^ 32 }

/-- The constructors, lines 18-53. -/
def make (s : St) (nm : Id → Name) (root doc : Id) (q : Query) : TagList :=
  populate s nm ⟨root, doc, q, [], 0⟩

/-- `changes_ != ownerDoc_->changes()`, lines 79 and 87; `changes()` is an `unsigned long`, of 64 bits
here (DocumentImpl.hpp line 470). -/
def stale (s : St) (L : TagList) : Bool := decide (L.changes ≠ s.changes L.doc % 2 ^ 64)

/-- What a query gives: a value, or undefined behaviour (a read past the end of `nodes_` or in a deleted
node). -/
inductive Res (α : Type) where
  | ok (a : α)
  | ub
  deriving DecidableEq, Repr

/-- `getLength`, lines 85-91.  The length is taken to fit an `unsigned int`. -/
def getLength (s : St) (nm : Id → Name) (L : TagList) : TagList × Res Nat :=
  if stale s L then
    if live s L.root then
      let L := populate s nm L
      (L, .ok L.nodes.length)
    else (L, .ub)
  else (L, .ok L.nodes.length)

/-- `nodes_[index]`, line 82. -/
def at' (l : List Id) (i : Nat) : Res (Option Id) :=
  match l[i]? with
  | some n => .ok (some n)
  | none => .ub

/-- `item`, lines 74-83; `none` is the null pointer. -/
def item (s : St) (nm : Id → Name) (L : TagList) (i : Nat) : TagList × Res (Option Id) :=
  if L.nodes.length ≤ i then (L, .ok none)
  else if stale s L then
    if live s L.root then
      let L := populate s nm L
      (L, at' L.nodes i)
    else (L, .ub)
  else (L, at' L.nodes i)

/-- `ElementNSImpl::setPrefix`, ElementNSImpl.hpp lines 70-92, when it succeeds: the tag name changes and
nothing else; `markChanged` is not called.  `none`: the call throws or the node is of the other class.
The test of prefix against namespace (line 84) is left out: it can only make the call fail. -/
def setPrefix (s : St) (nm : Id → Name) (n : Id) (prefix' : Str) : Option (Id → Name) :=
  if s.ro n then none
  else match (nm n).uri with
    | none => none
    | some _ =>
      let tag := if prefix' = [] then (nm n).localName else prefix' ++ ':' :: (nm n).localName
      some (Dom.upd nm n { nm n with nodeName := tag })

end Verif.TagList
