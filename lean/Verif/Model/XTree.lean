set_option autoImplicit false
/-!
# A document as the XPath and traversal code sees it: include/DOM/Simple/NodeImpl.hpp,
# include/DOM/Simple/AttrImpl.hpp, include/DOM/Simple/DocumentImpl.hpp

The code walks over nodes by pointers. A tree stands for the nodes reachable from one root, and a pointer to
one of them is the way from the root to it. Every function here is a getter of the DOM.
-/
namespace Verif.XTree

abbrev Str := List Char

/-- `DOM::Node_base::Type`, include/DOM/Node.hpp; entity and notation nodes are never in a tree. -/
inductive Kind where
  | document | fragment | element | attribute | text | cdata | comment | pi | doctype | entityRef
deriving DecidableEq, Repr

/-- What a node says about itself: `getNodeType`, `getNodeName`, `getPrefix`, `getLocalName`,
`getNamespaceURI` and `getNodeValue`. -/
structure Data where
  kind : Kind
  name : Str := []
  pfx : Str := []
  loc : Str := []
  uri : Str := []
  value : Str := []
deriving DecidableEq, Repr

/-- A node with its attributes (`getAttributes`) and its children (`nodes_`, NodeImpl.hpp line 547).
Simplification: the links between siblings and to the parent (lines 224-228) are given by the place in the
list; that they agree is property C13. -/
inductive Tree where
  | node (data : Data) (attrs kids : List Tree)

def Tree.data : Tree → Data
  | .node d _ _ => d
def Tree.attrs : Tree → List Tree
  | .node _ a _ => a
def Tree.kids : Tree → List Tree
  | .node _ _ k => k
def Tree.kind (t : Tree) : Kind := t.data.kind

/-- From a node to one of its attributes or children. -/
inductive Step where
  | attr (i : Nat)
  | child (i : Nat)
deriving DecidableEq, Repr

/-- A pointer to a node of a tree: the steps from the root, the last one first. -/
abbrev Ref := List Step

/-- The node at the end of one step. -/
def Tree.step (t : Tree) : Step → Option Tree
  | .attr i => t.attrs[i]?
  | .child i => t.kids[i]?

/-- The node a pointer points to, if there is one. -/
def sub (t : Tree) : Ref → Option Tree
  | [] => some t
  | s :: up =>
    match sub t up with
    | some n => n.step s
    | none => none

/-- The children of a node. -/
def kidsOf (t : Tree) (r : Ref) : List Tree :=
  match sub t r with
  | some n => n.kids
  | none => []

/-- The attributes of a node. -/
def attrsOf (t : Tree) (r : Ref) : List Tree :=
  match sub t r with
  | some n => n.attrs
  | none => []

/-- `getFirstChild`, NodeImpl.hpp lines 323-328 and line 256. -/
def firstChild (t : Tree) (r : Ref) : Option Ref :=
  match kidsOf t r with
  | [] => none
  | _ :: _ => some (.child 0 :: r)

/-- `getLastChild`, lines 330-335 and line 257. -/
def lastChild (t : Tree) (r : Ref) : Option Ref :=
  match kidsOf t r with
  | [] => none
  | _ :: rest => some (.child rest.length :: r)

/-- `hasChildNodes`, lines 366-369 and line 283. -/
def hasChildNodes (t : Tree) (r : Ref) : Bool := !(kidsOf t r).isEmpty

/-- `getNextSibling`, line 82; none for an attribute, AttrImpl.hpp line 76. -/
def nextSibling (t : Tree) : Ref → Option Ref
  | .child i :: up => if i + 1 < (kidsOf t up).length then some (.child (i + 1) :: up) else none
  | _ => none

/-- `getPreviousSibling`, line 81; none for an attribute, AttrImpl.hpp line 75. -/
def prevSibling : Ref → Option Ref
  | .child (i + 1) :: up => some (.child i :: up)
  | _ => none

/-- `getParentNode`, line 74; none for an attribute (AttrImpl.hpp line 74) and for a root. -/
def parentNode : Ref → Option Ref
  | .child _ :: up => some up
  | _ => none

/-- `getOwnerElement` of an attribute, AttrImpl.hpp. -/
def ownerElement : Ref → Option Ref
  | .attr _ :: up => some up
  | _ => none

/-- `getNodeType`; a pointer to no node never gets this far. -/
def kindOf (t : Tree) (r : Ref) : Option Kind :=
  match sub t r with
  | some n => some n.kind
  | none => none

/-- A pointer that may be null or point outside the tree. -/
inductive Ptr where
  | null
  | here (r : Ref)
  | elsewhere
deriving DecidableEq, Repr

/-- `getOwnerDocument`, NodeImpl.hpp line 86, DocumentImpl.hpp line 387: null for a document. A tree whose
root is no document (a fragment, or a detached node) belongs to a document outside of it. -/
def ownerDocument (t : Tree) (r : Ref) : Ptr :=
  if t.kind = .document then (if r = [] then .null else .here []) else .elsewhere

end Verif.XTree
