import Verif.Model.DomNames
set_option autoImplicit false
/-!
# Document::getElementById: include/DOM/Simple/DocumentImpl.hpp, AttrImpl.hpp, AttrMap.hpp, DocumentTypeImpl.hpp,
include/DOM/SAX2DOM/SAX2DOM.hpp

One document, whose declarations are read before its elements are made.  Elements and attributes are numbers,
attributes in the order of their creation; `name e` is the name of the element `e`, and elements that are not
used are as if not made.  Histories have the calls that succeed: those that fail change nothing (C17, C20), and
which fail is C16's, C18's and C64's.  Calls on deleted elements are not in histories.  Not modelled: attributes
set by `setAttributeNode` and `setAttributeNS`, which end in the same `setOwnerElement` and `setNode`; attributes
with declared values, which an attribute of type ID must not have; read only elements.  The memory of a deleted
attribute is not used again.
-/
namespace Verif.ElementId
open Verif.DomNames (Str)

abbrev Elem := Nat
abbrev Attr := Nat

/-- `attributeDecl(elementName, attributeName, type, ..)`, and whether the type is `ID`. -/
structure Decl where
  elem : Str
  attr : Str
  isId : Bool
  deriving DecidableEq, Repr

/-- `attributeDecl`, SAX2DOM.hpp lines 364-377, of `IDs_`: `addElementId`, DocumentTypeImpl.hpp lines 160-163. -/
def attributeDecl (ids : List Str) (d : Decl) : List Str := if d.isId then ids ++ [d.attr] else ids

/-- `getElementIds()` after the declarations, DocumentTypeImpl.hpp lines 127-130. -/
def elementIds (decls : List Decl) : List Str := decls.foldl attributeDecl []

/-- What `getParentNode` gives. -/
inductive Par where
  | out
  | doc
  | elem (e : Elem)
  deriving DecidableEq, Repr

structure St where
  /-- The number of the next attribute. -/
  next : Nat
  /-- `name_`, AttrImpl.hpp line 201. -/
  aname : Attr → Str
  /-- `getNodeValue`, lines 121-129. -/
  value : Attr → Str
  /-- `ownerElement_`, line 202. -/
  owner : Attr → Elem
  /-- `nodes_` of the attributes of an element, NamedNodeMapImpl.hpp line 226. -/
  nodes : Elem → List Attr
  /-- `parentNode_`. -/
  parent : Elem → Par
  /-- The elements that were given a parent: as many as there can be above one. -/
  placed : List Elem
  /-- `idNodes_`, DocumentImpl.hpp line 535: a `std::set` of pointers, in the order of the addresses. -/
  idNodes : List Attr
  /-- The elements that are deleted. -/
  freedE : Elem → Bool
  /-- The attributes that are deleted. -/
  freedA : Attr → Bool

def init : St :=
  { next := 0, aname := fun _ => [], value := fun _ => [], owner := fun _ => 0, nodes := fun _ => [],
    parent := fun _ => .out, placed := [], idNodes := [], freedE := fun _ => false, freedA := fun _ => false }

def put {α : Type} (f : Nat → α) (i : Nat) (v : α) : Nat → α := fun j => if j = i then v else f j

/-- `idNodes_.insert`, DocumentImpl.hpp lines 495-498, `addr` being the address of an attribute. -/
def setInsert (addr : Attr → Nat) (a : Attr) : List Attr → List Attr
  | [] => [a]
  | b :: l =>
    if addr a < addr b then a :: b :: l
    else if addr b < addr a then b :: setInsert addr a l
    else b :: l

/-- `setOwnerElement`, AttrImpl.hpp lines 148-161. -/
def setOwnerElement (addr : Attr → Nat) (ids : List Str) (s : St) (a : Attr) (e : Elem) : St :=
  let s := { s with owner := put s.owner a e }
  if ids.isEmpty then s
  else if ids.contains (s.aname a) then { s with idNodes := setInsert addr a s.idNodes }
  else s

/-- `setNode` at the place `findByName` finds, NamedNodeMapImpl.hpp lines 190-204: the attribute replaced is an
orphan of the document, which deletes it when it is deleted itself. -/
def setNode (aname : Attr → Str) (n : Str) (a : Attr) : List Attr → List Attr
  | [] => [a]
  | b :: l => if aname b = n then a :: l else b :: setNode aname n a l

/-- `removeNode`, lines 206-214, likewise. -/
def removeNode (aname : Attr → Str) (n : Str) : List Attr → List Attr
  | [] => []
  | b :: l => if aname b = n then l else b :: removeNode aname n l

/-- `setAttribute`, AttrMap.hpp lines 71-76, ElementImpl.hpp lines 52-57. -/
def setAttribute (addr : Attr → Nat) (ids : List Str) (s : St) (e : Elem) (n v : Str) : St :=
  let a := s.next
  let s := { s with next := s.next + 1, aname := put s.aname a n, value := put s.value a v }
  let s := setOwnerElement addr ids s a e
  { s with nodes := put s.nodes e (setNode s.aname n a (s.nodes e)) }

/-- `removeAttribute`, AttrMap.hpp lines 78-81, 49-54. -/
def removeAttribute (s : St) (e : Elem) (n : Str) : St :=
  { s with nodes := put s.nodes e (removeNode s.aname n (s.nodes e)) }

/-- `getAttributeNode`, AttrMap.hpp lines 83-86. -/
def getAttributeNode (s : St) (e : Elem) (n : Str) : Option Attr := (s.nodes e).find? fun a => s.aname a = n

/-- `getAttributeNode(n).setValue(v)`, AttrImpl.hpp lines 61 and 131-144. -/
def setValue (s : St) (e : Elem) (n v : Str) : St :=
  match getAttributeNode s e n with
  | none => s
  | some a => { s with value := put s.value a v }

/-- Whether `x` is `e` or has it above it. -/
def under (parent : Elem → Par) (e : Elem) : Nat → Elem → Bool
  | 0, x => x == e
  | k + 1, x => x == e || match parent x with
    | .elem p => under parent e k p
    | _ => false

/-- `purgeChild`, NodeImpl.hpp lines 494-498, DocumentImpl.hpp lines 481-485: the element is deleted, with its
children (lines 301-305) and its attributes (NamedNodeMapImpl.hpp lines 80-84). -/
def purgeChild (s : St) (e : Elem) : St :=
  let gone := under s.parent e s.placed.length
  { s with parent := put s.parent e .out,
           freedE := fun x => s.freedE x || gone x,
           freedA := fun a => s.freedA a || (gone (s.owner a) && (s.nodes (s.owner a)).contains a) }

inductive Op where
  | setAttribute (e : Elem) (n v : Str)
  | removeAttribute (e : Elem) (n : Str)
  /-- `e.getAttributeNode(n).setValue(v)`, if there is one. -/
  | setValue (e : Elem) (n v : Str)
  /-- `doc.appendChild(e)`; `e` is removed from where it was. -/
  | appendToDocument (e : Elem)
  /-- `p.appendChild(e)`, and so for `insertBefore` and `replaceChild`. -/
  | appendChild (p e : Elem)
  /-- `e.getParentNode().removeChild(e)`. -/
  | removeChild (e : Elem)
  /-- `e.getParentNode().purgeChild(e)`. -/
  | purgeChild (e : Elem)
  deriving DecidableEq, Repr

/-- A call.  Of the tree only parents matter: NodeImpl.hpp lines 387-492. -/
def step (addr : Attr → Nat) (ids : List Str) (s : St) : Op → St
  | .setAttribute e n v => setAttribute addr ids s e n v
  | .removeAttribute e n => removeAttribute s e n
  | .setValue e n v => setValue s e n v
  | .appendToDocument e => { s with parent := put s.parent e .doc, placed := e :: s.placed }
  | .appendChild p e => { s with parent := put s.parent e (.elem p), placed := e :: s.placed }
  | .removeChild e => { s with parent := put s.parent e .out }
  | .purgeChild e => purgeChild s e

def run (addr : Attr → Nat) (ids : List Str) (s : St) (ops : List Op) : St := ops.foldl (step addr ids) s

inductive Out where
  /-- A deleted attribute is read, or a deleted element returned. -/
  | undefined
  | null
  | elem (e : Elem)
  deriving DecidableEq, Repr

/-- `find_if` over the attributes, with `valueIs`, DocumentImpl.hpp lines 27-40 and 372-375. -/
def findId (s : St) (v : Str) : List Attr → Out
  | [] => .null
  | a :: l =>
    if s.freedA a then .undefined
    else if s.value a = v then (if s.freedE (s.owner a) then .undefined else .elem (s.owner a))
    else findId s v l

/-- `getElementById`, DocumentImpl.hpp lines 370-376. -/
def getElementById (s : St) (v : Str) : Out := findId s v s.idNodes

/-- Calls, and then `getElementById(v)`. -/
def ask (addr : Attr → Nat) (decls : List Decl) (ops : List Op) (v : Str) : Out :=
  getElementById (run addr (elementIds decls) init ops) v

end Verif.ElementId
