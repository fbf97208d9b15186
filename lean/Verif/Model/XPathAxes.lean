import Verif.Model.XTree
set_option autoImplicit false
/-!
# The XPath axes: include/XPath/impl/xpath_axis_enumerator.hpp
-/
namespace Verif.XTree

/-- `Axis`, lines 15-30, but for the namespace axis, whose nodes are not in the tree: see
`namespaceAxis`. -/
inductive Axis where
  | ancestor | ancestorOrSelf | attribute | child | descendant | descendantOrSelf | following
  | followingSibling | parent | preceding | precedingSibling | self
deriving DecidableEq, Repr

/-- `nodeIsText`, lines 189-193, of a node. -/
def Tree.isText (t : Tree) : Bool := t.kind = .text || t.kind = .cdata

/-- `nodeIsText` of a pointer. -/
def isTextAt (t : Tree) (r : Ref) : Bool :=
  match sub t r with
  | some n => n.isText
  | none => false

/-- The loop of `findNextSibling`, lines 166-168, over the siblings from the `i`-th on. -/
def skipTexts (up : Ref) : Nat → List Tree → Option Ref
  | _, [] => none
  | i, c :: cs => if c.isText then skipTexts up (i + 1) cs else some (.child i :: up)

/-- `findNextSibling`, lines 160-169. -/
def findNextSibling (t : Tree) : Ref → Option Ref
  | .child i :: up =>
    if isTextAt t (.child i :: up) then skipTexts up (i + 1) ((kidsOf t up).drop (i + 1))
    else nextSibling t (.child i :: up)
  | _ => none

/-- The loop of `findPreviousSibling`, lines 178-183: back from the text at place `i` while there is text. -/
def runStart (kids : List Tree) : Nat → Nat
  | 0 => 0
  | i + 1 =>
    match kids[i]? with
    | some n => if n.isText then runStart kids i else i + 1
    | none => i + 1

/-- `findPreviousSibling`, lines 171-186. -/
def findPreviousSibling (t : Tree) : Ref → Option Ref
  | .child (i + 1) :: up =>
    if isTextAt t (.child i :: up) then some (.child (runStart (kidsOf t up) i) :: up)
    else some (.child i :: up)
  | _ => none

/-- What calling code gives: a result, a null pointer followed, or not finished in the steps allowed. -/
inductive Outcome (α : Type) where
  | done (a : α)
  | crash
  | more
deriving DecidableEq, Repr

/-- The loop of lines 151-155 (also 369-374, 447-452): from `parent` up to `origin`, until there is a next
sibling. A null `parent` that is not `origin` is followed. -/
def climb (t : Tree) (origin : Ptr) : Ref → Outcome (Option Ref)
  | [] =>
    if origin = .here [] then .done none else if origin = .null then .done none else .crash
  | .attr i :: up =>
    if origin = .here (.attr i :: up) then .done none else if origin = .null then .done none else .crash
  | .child i :: up =>
    if origin = .here (.child i :: up) then .done none
    else
      match nextSibling t (.child i :: up) with
      | some n => .done (some n)
      | none => climb t origin up

/-- The loop with `parent = r->getParentNode()`. -/
def climbFrom (t : Tree) (origin : Ptr) : Ref → Outcome (Option Ref)
  | .child _ :: up => climb t origin up
  | _ => if origin = .null then .done none else .crash

/-- `walkDown`, lines 133-158. -/
def walkDown (t : Tree) (context : Ref) (origin : Ptr) : Outcome (Option Ref) :=
  if kindOf t context = some .attribute then .done none
  else
    match firstChild t context with
    | some n => .done (some n)
    | none =>
      if origin = .here context then .done none
      else
        match findNextSibling t context with
        | some n => .done (some n)
        | none => climbFrom t origin context

/-- `nextDescendant`, lines 362-377. -/
def nextDescendant (t : Tree) (context : Ref) (origin : Ref) : Outcome (Option Ref) :=
  match firstChild t context with
  | some n => .done (some n)
  | none =>
    match findNextSibling t context with
    | some n => .done (some n)
    | none => climbFrom t (.here origin) context

/-- `firstFollowing`, lines 432-456, of a node that is no attribute. -/
def firstFollowingNode (t : Tree) (context : Ref) : Outcome (Option Ref) :=
  match findNextSibling t context with
  | some n => .done (some n)
  | none => climbFrom t (ownerDocument t context) context

/-- `firstFollowing`, lines 432-456. -/
def firstFollowing (t : Tree) (context : Ref) : Outcome (Option Ref) :=
  if kindOf t context = some .attribute then
    match ownerElement context with
    | none => .crash
    | some owner =>
      match firstChild t owner with
      | some n => .done (some n)
      | none => firstFollowingNode t owner
  else firstFollowingNode t context

mutual
/-- `getLastDescendant`, lines 625-635. -/
def lastDescendant (r : Ref) : Tree → Ref
  | .node _ _ kids => lastDescendants r 0 kids
/-- Its loop over the children, the first at place `i`. -/
def lastDescendants (r : Ref) : Nat → List Tree → Ref
  | _, [] => r
  | i, [c] => lastDescendant (.child i :: r) c
  | i, _ :: c :: cs => lastDescendants r (i + 1) (c :: cs)
end

/-- `getLastDescendant` of a pointer. -/
def lastDescendantAt (t : Tree) (r : Ref) : Ref :=
  match sub t r with
  | some n => lastDescendant r n
  | none => r

/-- `previousInDocument`, lines 605-623, with the member `nextAncestor_` before and after. -/
def previousInDocument (t : Tree) (ancestor : Option Ref) : Ref → Option Ref × Option Ref
  | .child i :: up =>
    match findPreviousSibling t (.child i :: up) with
    | some n => (some (lastDescendantAt t n), ancestor)
    | none =>
      if ancestor ≠ some up then (some up, ancestor)
      else
        match parentNode up with
        | none => (none, none)
        | some a => previousInDocument t (some a) up
  | _ => (none, ancestor)

/-- The `do` loop of `AttributeAxisWalker::set_next`, lines 309-312, over the attributes from the `i`-th
on: the index of the one found. -/
def scanAttrs (xmlns : Str) : Nat → List Tree → Option Nat
  | _, [] => none
  | i, a :: as => if a.data.uri = xmlns then scanAttrs xmlns (i + 1) as else some i

/-- `http://www.w3.org/2000/xmlns/`, line 312. -/
def xmlnsUri : Str :=
  ['h', 't', 't', 'p', ':', '/', '/', 'w', 'w', 'w', '.', 'w', '3', '.', 'o', 'r', 'g', '/', '2', '0', '0',
    '0', '/', 'x', 'm', 'l', 'n', 's', '/']

/-- The members of a walker that change: `current_`, `nextAncestor_` (line 638) and `index_` (line 297). -/
structure Walker where
  cur : Option Ref
  anc : Option Ref := none
  idx : Nat := 0
deriving DecidableEq, Repr

/-- `AttributeAxisWalker::set_next`, lines 300-315. -/
def setNextAttr (t : Tree) (context : Ref) (idx : Nat) : Walker :=
  if idx = (attrsOf t context).length then ⟨none, none, idx⟩
  else
    match scanAttrs xmlnsUri idx ((attrsOf t context).drop idx) with
    | some i => ⟨some (.attr i :: context), none, i + 1⟩
    | none => ⟨none, none, (attrsOf t context).length + 1⟩

/-- Keep the outcome of a move as the walker's position. -/
def moved : Outcome (Option Ref) → Outcome Walker
  | .done c => .done ⟨c, none, 0⟩
  | .crash => .crash
  | .more => .more

/-- The constructors of the walkers: lines 210-219, 240-244, 269-278, 327-331, 352-357, 397-402, 420-423,
472-476, 558-567, 586-592 with 599-603, 653-657, 678-681. -/
def create (t : Tree) (context : Ref) : Axis → Outcome Walker
  | .ancestor =>
    .done ⟨if kindOf t context = some .attribute then ownerElement context else parentNode context, none, 0⟩
  | .ancestorOrSelf => .done ⟨some context, none, 0⟩
  | .attribute =>
    .done (if (attrsOf t context).isEmpty then ⟨none, none, 0⟩ else setNextAttr t context 0)
  | .child => .done ⟨firstChild t context, none, 0⟩
  | .descendant =>
    .done ⟨if kindOf t context = some .attribute then none else firstChild t context, none, 0⟩
  | .descendantOrSelf => .done ⟨some context, none, 0⟩
  | .following => moved (firstFollowing t context)
  | .followingSibling => .done ⟨findNextSibling t context, none, 0⟩
  | .parent =>
    .done ⟨if kindOf t context = some .attribute then ownerElement context else parentNode context, none, 0⟩
  | .preceding =>
    match if kindOf t context = some .attribute then ownerElement context else some context with
    | none => .crash
    | some c =>
      let p := previousInDocument t (parentNode c) c
      .done ⟨p.1, p.2, 0⟩
  | .precedingSibling => .done ⟨findPreviousSibling t context, none, 0⟩
  | .self => .done ⟨some context, none, 0⟩

/-- `advance` of the walkers, called while `current_` is `r`: lines 221-225, 246-255, 280-285, 333-337,
359-362, 404-407, 425-428, 478-482, 569-573, 594-597, 659-663, 683-686. -/
def advance (t : Tree) (context : Ref) (w : Walker) (r : Ref) : Axis → Outcome Walker
  | .ancestor => .done ⟨parentNode r, none, 0⟩
  | .ancestorOrSelf =>
    .done ⟨if kindOf t r = some .attribute then ownerElement r else parentNode r, none, 0⟩
  | .attribute => .done (setNextAttr t context w.idx)
  | .child => .done ⟨findNextSibling t r, none, 0⟩
  | .descendant => moved (nextDescendant t r context)
  | .descendantOrSelf => moved (walkDown t r (.here context))
  | .following => moved (walkDown t r (ownerDocument t r))
  | .followingSibling => .done ⟨findNextSibling t r, none, 0⟩
  | .parent => .done ⟨none, none, 0⟩
  | .preceding => let p := previousInDocument t w.anc r; .done ⟨p.1, p.2, 0⟩
  | .precedingSibling => .done ⟨findPreviousSibling t r, none, 0⟩
  | .self => .done ⟨none, none, 0⟩

/-- Put a node in front of an outcome. -/
def Outcome.cons (r : Ref) : Outcome (List Ref) → Outcome (List Ref)
  | .done l => .done (r :: l)
  | .crash => .crash
  | .more => .more

/-- `while(*enumerator != 0) { ...; ++enumerator; }` (xpath_step.hpp lines 139-146), for at most `fuel`
nodes. -/
def drain (t : Tree) (context : Ref) (axis : Axis) : Nat → Walker → Outcome (List Ref)
  | 0, _ => .more
  | fuel + 1, w =>
    match w.cur with
    | none => .done []
    | some r =>
      match advance t context w r axis with
      | .done w' => Outcome.cons r (drain t context axis fuel w')
      | .crash => .crash
      | .more => .more

/-- Enumerate an axis: the nodes `AxisEnumerator` gives, one after the other. -/
def enumerate (t : Tree) (context : Ref) (axis : Axis) (fuel : Nat) : Outcome (List Ref) :=
  match create t context axis with
  | .done w => drain t context axis fuel w
  | .crash => .crash
  | .more => .more

/-- `AxisWalker::forward_` as the constructors set it. -/
def Axis.forward : Axis → Bool
  | .ancestor | .ancestorOrSelf | .parent | .preceding | .precedingSibling => false
  | _ => true

/-- `xmlns`, line 496. -/
def xmlnsName : Str := ['x', 'm', 'l', 'n', 's']

/-- The namespace nodes one element adds, lines 505-512: prefix and URI. -/
def declared : List Tree → List (Str × Str)
  | [] => []
  | a :: as =>
    (if a.data.pfx = xmlnsName then [(a.data.loc, a.data.value)] else []) ++
    (if a.data.name = xmlnsName then [([], a.data.value)] else []) ++ declared as

/-- The loop of `NamespaceAxisWalker`, lines 503-514. -/
def declaredUp (t : Tree) : Ref → List (Str × Str)
  | [] => if kindOf t [] = some .element then declared (attrsOf t []) else []
  | .attr i :: up => if kindOf t (.attr i :: up) = some .element then declared (attrsOf t (.attr i :: up)) else []
  | .child i :: up =>
    if kindOf t (.child i :: up) = some .element then declared (attrsOf t (.child i :: up)) ++ declaredUp t up
    else []

/-- The prefix `xml` and its namespace, lines 500-502. -/
def xmlBinding : Str × Str :=
  (['x', 'm', 'l'],
   ['h', 't', 't', 'p', ':', '/', '/', 'w', 'w', 'w', '.', 'w', '3', '.', 'o', 'r', 'g', '/', 'X', 'M', 'L',
    '/', '1', '9', '9', '8', '/', 'n', 'a', 'm', 'e', 's', 'p', 'a', 'c', 'e'])

/-- `NamespaceAxisWalker`, lines 489-546: the prefixes and URIs of the nodes it makes, in order. -/
def namespaceAxis (t : Tree) (context : Ref) : List (Str × Str) :=
  (if kindOf t context = some .attribute then [] else [xmlBinding]) ++ declaredUp t context

end Verif.XTree
