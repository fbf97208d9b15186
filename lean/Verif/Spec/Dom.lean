set_option autoImplicit false
/-!
# Specification: forests of nodes

Nodes are numbers; `parent`, `prev` and `next` give what `getParentNode`, `getPreviousSibling` and
`getNextSibling` return, `kids` the children in order.
-/
namespace Verif.Spec.Dom

/-- `a` is a proper ancestor of `c`. -/
inductive Anc (parent : Nat → Option Nat) : Nat → Nat → Prop
  | parent (p c : Nat) : parent c = some p → Anc parent p c
  | above (a q c : Nat) : parent c = some q → Anc parent a q → Anc parent a c

/-- A well formed forest. -/
structure Forest (kids : Nat → List Nat) (parent prev next : Nat → Option Nat) : Prop where
  /-- a node is in a child list exactly if the owner of the list is its parent -/
  child_iff : ∀ p c, c ∈ kids p ↔ parent c = some p
  /-- no node is listed twice -/
  nodup : ∀ p, (kids p).Nodup
  /-- neighbours in a child list are each other's siblings -/
  neighbours : ∀ p l a b r, kids p = l ++ a :: b :: r → next a = some b ∧ prev b = some a
  /-- the first child has no previous sibling -/
  first : ∀ p a r, kids p = a :: r → prev a = none
  /-- the last child has no next sibling -/
  last : ∀ p l a, kids p = l ++ [a] → next a = none
  /-- a node without parent has no siblings -/
  single : ∀ c, parent c = none → prev c = none ∧ next c = none
  /-- no node is its own ancestor -/
  acyclic : ∀ c, ¬ Anc parent c c

/-- In a list, put `new` immediately before `ref`. -/
def before (new ref : Nat) : List Nat → List Nat
  | [] => []
  | a :: l => if a = ref then new :: a :: l else a :: before new ref l

/-- In a list, put `new` before the reference node, or at the end if there is none. -/
def place (new : Nat) (ref : Option Nat) (l : List Nat) : List Nat :=
  match ref with
  | none => l ++ [new]
  | some r => before new r l

/-- The child lists after `new` has left its place and gone before `ref` under `p`. -/
def inserted (kids : Nat → List Nat) (p new : Nat) (ref : Option Nat) : Nat → List Nat := fun q =>
  if q = p then place new ref ((kids q).erase new) else (kids q).erase new

/-- In a list, put all of `new` immediately before `ref`. -/
def beforeAll (new : List Nat) (ref : Nat) : List Nat → List Nat
  | [] => []
  | a :: l => if a = ref then new ++ a :: l else a :: beforeAll new ref l

/-- In a list, put all of `new` before the reference node, or at the end if there is none. -/
def placeAll (new : List Nat) (ref : Option Nat) (l : List Nat) : List Nat :=
  match ref with
  | none => l ++ new
  | some r => beforeAll new r l

/-- The child lists after all children of the fragment `f` have gone before `ref` under `p`. -/
def spliced (kids : Nat → List Nat) (p f : Nat) (ref : Option Nat) : Nat → List Nat := fun q =>
  if q = f then [] else if q = p then placeAll (kids f) ref (kids q) else kids q

/-- The child lists after the children of the fragment `f` have taken the place of `old` under `p`. -/
def splicedOver (kids : Nat → List Nat) (p f old : Nat) : Nat → List Nat := fun q =>
  if q = f then [] else if q = p then (kids q).flatMap (fun x => if x = old then kids f else [x]) else kids q

/-- The child lists after `new` has left its place and taken that of `old` under `p`. -/
def replaced (kids : Nat → List Nat) (p new old : Nat) : Nat → List Nat := fun q =>
  if q = p then ((kids q).erase new).map (fun x => if x = old then new else x) else (kids q).erase new

/-- The child lists after `c` has left its place under `p`. -/
def removed (kids : Nat → List Nat) (p c : Nat) : Nat → List Nat := fun q =>
  if q = p then (kids q).erase c else kids q

end Verif.Spec.Dom
