import Verif.Model.XPathAxes
set_option autoImplicit false
/-!
# The tree walker: include/DOM/Traversal/TreeWalkerImpl.hpp
-/
namespace Verif.Walker
open Verif.XTree

/-- `NodeFilter::Result`, include/DOM/Traversal/NodeFilter.hpp lines 32-37. -/
inductive Verdict where
  | accept | reject | skip
deriving DecidableEq, Repr

/-- The members, lines 290-294. The filter is any function of the node, so it may look at the whole tree.
Simplification: the tree does not change, and the filter gives the same answer for a node each time. -/
structure WalkState where
  root : Ref
  current : Ref
  whatToShow : Nat
  filter : Option (Ref → Verdict)
  expand : Bool

/-- The constructor, lines 27-38. -/
def make (root : Ref) (whatToShow : Nat) (filter : Option (Ref → Verdict)) (expand : Bool) : WalkState :=
  { root, current := root, whatToShow, filter, expand }

/-- `Node_base::Type`, include/DOM/Node.hpp lines 34-45. -/
def nodeType : Kind → Nat
  | .element => 1
  | .attribute => 2
  | .text => 3
  | .cdata => 4
  | .entityRef => 5
  | .pi => 7
  | .comment => 8
  | .document => 9
  | .doctype => 10
  | .fragment => 11

/-- `acceptNode`, lines 273-286. -/
def acceptNode (t : Tree) (w : WalkState) (r : Ref) : Verdict :=
  match kindOf t r with
  | none => .skip
  | some k =>
    let accept := if w.whatToShow &&& (1 <<< (nodeType k - 1)) ≠ 0 then Verdict.accept else .skip
    match w.filter with
    | some g => if accept = .accept then g r else accept
    | none => accept

/-- `getParentNodeImpl`, lines 152-166. -/
def getParentNodeImpl (t : Tree) (w : WalkState) : Ref → Option Ref
  | .child i :: up =>
    if .child i :: up = w.root then none
    else if up = w.root then none
    else if acceptNode t w up = .accept then some up
    else getParentNodeImpl t w up
  | _ => none

mutual
/-- `getNextSiblingImpl`, lines 168-200; the number bounds the depth of the recursion. -/
def getNextSiblingImpl (t : Tree) (w : WalkState) : Nat → Ref → Outcome (Option Ref)
  | 0, _ => .more
  | fuel + 1, node =>
    if node = w.root then .done none
    else
      match nextSibling t node with
      | none =>
        match parentNode node with
        | none => .done none
        | some p =>
          if p = w.root then .done none
          else if acceptNode t w p = .skip then getNextSiblingImpl t w fuel p
          else .done none
      | some n =>
        match acceptNode t w n with
        | .accept => .done (some n)
        | .skip =>
          match getFirstChildImpl t w fuel n with
          | .done none => if hasChildNodes t n then .done none else getNextSiblingImpl t w fuel n
          | .done (some c) => .done (some c)
          | .crash => .crash
          | .more => .more
        | .reject => getNextSiblingImpl t w fuel n
/-- `getFirstChildImpl`, lines 236-252. -/
def getFirstChildImpl (t : Tree) (w : WalkState) : Nat → Ref → Outcome (Option Ref)
  | 0, _ => .more
  | fuel + 1, node =>
    if w.expand = false ∧ kindOf t node = some .entityRef then .done none
    else
      match firstChild t node with
      | none => .done none
      | some n =>
        match acceptNode t w n with
        | .accept => .done (some n)
        | .skip => if hasChildNodes t n then getFirstChildImpl t w fuel n else getNextSiblingImpl t w fuel n
        | .reject => getNextSiblingImpl t w fuel n
end

mutual
/-- `getPreviousSiblingImpl`, lines 202-234. -/
def getPreviousSiblingImpl (t : Tree) (w : WalkState) : Nat → Ref → Outcome (Option Ref)
  | 0, _ => .more
  | fuel + 1, node =>
    if node = w.root then .done none
    else
      match prevSibling node with
      | none =>
        match parentNode node with
        | none => .done none
        | some p =>
          if p = w.root then .done none
          else if acceptNode t w p = .skip then getPreviousSiblingImpl t w fuel p
          else .done none
      | some n =>
        match acceptNode t w n with
        | .accept => .done (some n)
        | .skip =>
          match getLastChildImpl t w fuel n with
          | .done none => if hasChildNodes t n then .done none else getPreviousSiblingImpl t w fuel n
          | .done (some c) => .done (some c)
          | .crash => .crash
          | .more => .more
        | .reject => getPreviousSiblingImpl t w fuel n
/-- `getLastChildImpl`, lines 254-270. -/
def getLastChildImpl (t : Tree) (w : WalkState) : Nat → Ref → Outcome (Option Ref)
  | 0, _ => .more
  | fuel + 1, node =>
    if w.expand = false ∧ kindOf t node = some .entityRef then .done none
    else
      match lastChild t node with
      | none => .done none
      | some n =>
        match acceptNode t w n with
        | .accept => .done (some n)
        | .skip => if hasChildNodes t n then getLastChildImpl t w fuel n else getPreviousSiblingImpl t w fuel n
        | .reject => getPreviousSiblingImpl t w fuel n
end

/-- What the moves do with the node found: `if(n != 0) currentNode_ = n; return n;`. -/
def moveTo (w : WalkState) : Outcome (Option Ref) → Outcome (Option Ref × WalkState)
  | .done (some n) => .done (some n, { w with current := n })
  | .done none => .done (none, w)
  | .crash => .crash
  | .more => .more

/-- `parentNode`, lines 58-64. -/
def goParent (t : Tree) (w : WalkState) : Outcome (Option Ref × WalkState) :=
  moveTo w (.done (getParentNodeImpl t w w.current))

/-- `firstChild`, lines 66-72. -/
def goFirstChild (t : Tree) (w : WalkState) (fuel : Nat) : Outcome (Option Ref × WalkState) :=
  moveTo w (getFirstChildImpl t w fuel w.current)

/-- `lastChild`, lines 74-80. -/
def goLastChild (t : Tree) (w : WalkState) (fuel : Nat) : Outcome (Option Ref × WalkState) :=
  moveTo w (getLastChildImpl t w fuel w.current)

/-- `previousSibling`, lines 82-88. -/
def goPreviousSibling (t : Tree) (w : WalkState) (fuel : Nat) : Outcome (Option Ref × WalkState) :=
  moveTo w (getPreviousSiblingImpl t w fuel w.current)

/-- `nextSibling`, lines 90-96. -/
def goNextSibling (t : Tree) (w : WalkState) (fuel : Nat) : Outcome (Option Ref × WalkState) :=
  moveTo w (getPreviousSiblingImpl t w fuel w.current)

/-- `previousNode`, lines 98-114: `getParentNodeImpl(n)` is called with a null `n` and gives null. -/
def goPreviousNode (t : Tree) (w : WalkState) (fuel : Nat) : Outcome (Option Ref × WalkState) :=
  match getPreviousSiblingImpl t w fuel w.current with
  | .done (some n) =>
    match getLastChildImpl t w fuel n with
    | .done (some c) => .done (some c, { w with current := c })
    | .done none => .done (some n, { w with current := n })
    | .crash => .crash
    | .more => .more
  | .done none => .done (none, w)
  | .crash => .crash
  | .more => .more

/-- The loop of `nextNode`, lines 133-141. -/
def parentLoop (t : Tree) (w : WalkState) : Nat → Option Ref → Outcome (Option Ref)
  | _, none => .done none
  | 0, some _ => .more
  | fuel + 1, some p =>
    match getNextSiblingImpl t w fuel p with
    | .done (some n) => .done (some n)
    | .done none => parentLoop t w fuel (getParentNodeImpl t w p)
    | .crash => .crash
    | .more => .more

/-- The node `nextNode` finds, lines 118-142. -/
def nextNodeImpl (t : Tree) (w : WalkState) (fuel : Nat) : Outcome (Option Ref) :=
  match getFirstChildImpl t w fuel w.current with
  | .done (some n) => .done (some n)
  | .done none =>
    match getNextSiblingImpl t w fuel w.current with
    | .done (some n) => .done (some n)
    | .done none => parentLoop t w fuel (getParentNodeImpl t w w.current)
    | .crash => .crash
    | .more => .more
  | .crash => .crash
  | .more => .more

/-- `nextNode`, lines 116-143. -/
def goNextNode (t : Tree) (w : WalkState) (fuel : Nat) : Outcome (Option Ref × WalkState) :=
  moveTo w (nextNodeImpl t w fuel)

/-- What `k` calls of `nextNode`, one after the other, return. -/
def callNextNode (t : Tree) (fuel : Nat) : Nat → WalkState → Outcome (List (Option Ref))
  | 0, _ => .done []
  | k + 1, w =>
    match goNextNode t w fuel with
    | .done (n, w') =>
      match callNextNode t fuel k w' with
      | .done l => .done (n :: l)
      | .crash => .crash
      | .more => .more
    | .crash => .crash
    | .more => .more

end Verif.Walker
