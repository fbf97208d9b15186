import Verif.Model.DomNames
set_option autoImplicit false
/-!
# include/DOM/Simple/NamedNodeMapImpl.hpp, AttrMap.hpp: the attributes of elements

Nodes are numbers: elements in one numbering, attributes in another, in the order of their creation.  Not
modelled: document types, and with them default attributes and the set of ID attributes; `setPrefix`, which
renames an attribute in place; the destruction of nodes.  An attribute's value is a string here, not a list
of child nodes.  The attribute `setAttribute` allocates is lost when the map is read only; here its number
is used again.
-/
namespace Verif.AttrMap
open Verif.DomNames
open Verif.Dom (Err)

abbrev Attr := Nat
abbrev Elem := Nat
abbrev Doc := Nat

structure St where
  /-- The number of the next attribute. -/
  next : Nat
  /-- `name_`, and of an AttrNSImpl `namespaceURI_`, `hasNamespaceURI_`, `prefix_`, `localName_`. -/
  nm : Attr → NsName
  /-- `ownerDoc_` of an attribute. -/
  doc : Attr → Doc
  value : Attr → Str
  /-- `ownerElement_`, AttrImpl.hpp line 202. -/
  owner : Attr → Option Elem
  /-- `orphans_` of the attribute's document, DocumentImpl.hpp line 534. -/
  orphans : Attr → Bool
  /-- `nodes_`, NamedNodeMapImpl.hpp line 226. -/
  nodes : Elem → List Attr
  /-- `readOnly_`, line 227. -/
  ro : Elem → Bool
  /-- `ownerDoc_` of an element. -/
  edoc : Elem → Doc

/-- No attributes yet. -/
def init (edoc : Elem → Doc) : St :=
  { next := 0, nm := fun _ => plain [], doc := fun _ => 0, value := fun _ => [], owner := fun _ => none,
    orphans := fun _ => false, nodes := fun _ => [], ro := fun _ => false, edoc := edoc }

def put {α : Type} (f : Nat → α) (i : Nat) (v : α) : Nat → α := fun j => if j = i then v else f j

inductive Op where
  | createAttribute (d : Doc) (n : Str)
  | createAttributeNS (d : Doc) (u q : Str)
  | setValue (a : Attr) (v : Str)
  | setReadOnly (e : Elem) (b : Bool)
  | getNamedItem (e : Elem) (n : Str)
  | setNamedItem (e : Elem) (a : Attr)
  | removeNamedItem (e : Elem) (n : Str)
  | getAttribute (e : Elem) (n : Str)
  | hasAttribute (e : Elem) (n : Str)
  | setAttribute (e : Elem) (n v : Str)
  | removeAttributeNode (e : Elem) (a : Attr)
  | getNamedItemNS (e : Elem) (u l : Str)
  | setNamedItemNS (e : Elem) (a : Attr)
  | removeNamedItemNS (e : Elem) (u l : Str)
  | getAttributeNS (e : Elem) (u l : Str)
  | hasAttributeNS (e : Elem) (u l : Str)
  | setAttributeNS (e : Elem) (u q v : Str)

inductive Res where
  | node (a : Option Attr)
  | str (s : Str)
  | bool (b : Bool)
  | unit
  | err (e : Err)
  deriving DecidableEq, Repr

/-- `nameIs`, NamedNodeMapImpl.hpp lines 15-27. -/
def nameIs (n : Str) (r : NsName) : Bool := r.name == n

/-- `namespaceAndNameIs`, lines 37-53. -/
def namespaceAndNameIs (u l : Str) (r : NsName) : Bool :=
  (u.isEmpty && (!r.hasUri && (r.localName == l || (r.localName.isEmpty && r.name == l)))) ||
    (r.uri == u && r.localName == l)

/-- `findByName`, lines 216-219; `none` is `end()`. -/
def findByName (s : St) (e : Elem) (n : Str) : Option Nat := (s.nodes e).findIdx? fun a => nameIs n (s.nm a)

/-- `findByNamespaceAndName`, lines 221-224. -/
def findByNamespaceAndName (s : St) (e : Elem) (u l : Str) : Option Nat :=
  (s.nodes e).findIdx? fun a => namespaceAndNameIs u l (s.nm a)

/-- `getNode`, lines 183-188. -/
def getNode (s : St) (e : Elem) : Option Nat → Option Attr
  | none => none
  | some i => (s.nodes e)[i]?

/-- `setNode`, lines 190-204. -/
def setNode (s : St) (e : Elem) (a : Attr) : Option Nat → St × Res
  | none => ({ s with orphans := put s.orphans a false, nodes := put s.nodes e (s.nodes e ++ [a]) }, .node none)
  | some i =>
    let s := { s with orphans := put s.orphans a false }
    match (s.nodes e)[i]? with
    | none => (s, .node none)
    | some r =>
      ({ s with nodes := put s.nodes e ((s.nodes e).set i a), orphans := put s.orphans r true }, .node (some r))

/-- `removeNode`, lines 206-214. -/
def removeNode (s : St) (e : Elem) : Option Nat → St × Res
  | none => (s, .err .notFound)
  | some i =>
    match (s.nodes e)[i]? with
    | none => (s, .err .notFound)
    | some r => ({ s with nodes := put s.nodes e ((s.nodes e).eraseIdx i), orphans := put s.orphans r true }, .node (some r))

/-- `NamedNodeMapImpl::setNamedItem` and `setNamedItemNS`, lines 109-114 and 137-142. -/
def baseSet (s : St) (e : Elem) (a : Attr) (pos : Option Nat) : St × Res :=
  if s.ro e then (s, .err .readOnly)
  else if s.doc a ≠ s.edoc e then (s, .err .wrongDoc)
  else setNode s e a pos

/-- `NamedNodeMapImpl::removeNamedItem` and `removeNamedItemNS`, lines 116-120 and 144-148. -/
def baseRemove (s : St) (e : Elem) (pos : Option Nat) : St × Res :=
  if s.ro e then (s, .err .readOnly) else removeNode s e pos

/-- `AttrImpl::isOrphaned`, AttrImpl.hpp lines 165-171. -/
def isOrphaned (s : St) (a : Attr) : Bool :=
  match s.owner a with
  | none => true
  | some _ => s.orphans a

/-- `AttrImpl::setOwnerElement`, AttrImpl.hpp lines 148-161, without document types. -/
def setOwnerElement (s : St) (a : Attr) (e : Elem) : St :=
  { s with owner := put s.owner a (some e), orphans := put s.orphans a false }

/-- `AttrMap::setNamedItem` (`ns` false) and `setNamedItemNS` (`ns` true), AttrMap.hpp lines 38-47 and
133-142. -/
def attrSet (s : St) (e : Elem) (a : Attr) (ns : Bool) : St × Res :=
  if !isOrphaned s a && s.owner a = some e then (s, .node (some a))
  else if s.ro e then (s, .err .readOnly)
  else if !isOrphaned s a && s.owner a ≠ some e then (s, .err .inUse)
  else
    let s := setOwnerElement s a e
    baseSet s e a (if ns then findByNamespaceAndName s e (s.nm a).uri (s.nm a).localName else findByName s e (s.nm a).name)

/-- A new attribute. -/
def alloc (s : St) (r : NsName) (d : Doc) (v : Str) : St :=
  { s with next := s.next + 1, nm := put s.nm s.next r, doc := put s.doc s.next d, value := put s.value s.next v,
           owner := put s.owner s.next none, orphans := put s.orphans s.next false }

/-- `createAttribute` and `createAttributeNS`, DocumentImpl.hpp lines 199-210 and 350-361: the new attribute
is an orphan. -/
def create (s : St) (d : Doc) : Except Err NsName → St × Res
  | .error e => (s, .err e)
  | .ok r =>
    let a := s.next
    let s := alloc s r d []
    ({ s with orphans := put s.orphans a true }, .node (some a))

/-- `AttrMap::setAttribute` and `setAttributeNS`, AttrMap.hpp lines 71-76 and 107-116, called by
ElementImpl.hpp lines 48-53 and 88-92. -/
def setAttr (s : St) (e : Elem) (v : Str) (ns : Bool) : Except Err NsName → St × Res
  | .error er => (s, .err er)
  | .ok r =>
    if s.ro e then (s, .err .readOnly)
    else
      let a := s.next
      let s := setOwnerElement (alloc s r (s.edoc e) v) a e
      match baseSet s e a (if ns then findByNamespaceAndName s e r.uri r.localName else findByName s e r.name) with
      | (s, .err er) => (s, .err er)
      | (s, _) => (s, .unit)

/-- The value of an attribute, or the empty string: AttrMap.hpp lines 65-69 and 101-105. -/
def valueOf (s : St) : Option Attr → Str
  | none => []
  | some a => s.value a

def step (nameCh : Char → Bool) (s : St) : Op → St × Res
  | .createAttribute d n => create s d (createElement nameCh n)
  | .createAttributeNS d u q => create s d (createAttributeNS nameCh u q)
  | .setValue a v => ({ s with value := put s.value a v }, .unit)
  | .setReadOnly e b => ({ s with ro := put s.ro e b }, .unit)
  | .getNamedItem e n => (s, .node (getNode s e (findByName s e n)))
  | .setNamedItem e a => attrSet s e a false
  | .removeNamedItem e n => baseRemove s e (findByName s e n)
  | .getAttribute e n => (s, .str (valueOf s (getNode s e (findByName s e n))))
  | .hasAttribute e n => (s, .bool (getNode s e (findByName s e n)).isSome)
  | .setAttribute e n v => setAttr s e v false (createElement nameCh n)
  -- AttrMap.hpp lines 93-99
  | .removeAttributeNode e a =>
    if s.owner a ≠ some e then (s, .err .notFound)
    else match baseRemove s e (findByName s e (s.nm a).name) with
      | (s, .err er) => (s, .err er)
      | (s, _) => (s, .node (some a))
  | .getNamedItemNS e u l => (s, .node (getNode s e (findByNamespaceAndName s e u l)))
  | .setNamedItemNS e a => attrSet s e a true
  | .removeNamedItemNS e u l => baseRemove s e (findByNamespaceAndName s e u l)
  | .getAttributeNS e u l => (s, .str (valueOf s (getNode s e (findByNamespaceAndName s e u l))))
  | .hasAttributeNS e u l => (s, .bool (getNode s e (findByNamespaceAndName s e u l)).isSome)
  | .setAttributeNS e u q v => setAttr s e v true (createAttributeNS nameCh u q)

/-- A history of calls, and what they return. -/
def run (nameCh : Char → Bool) (s : St) : List Op → St × List Res
  | [] => (s, [])
  | op :: ops =>
    let (s, r) := step nameCh s op
    let (s, rs) := run nameCh s ops
    (s, r :: rs)

/-- `getLength`, NamedNodeMapImpl.hpp lines 127-130. -/
def getLength (s : St) (e : Elem) : Nat := (s.nodes e).length

/-- `item`, lines 122-125 and 157-163. -/
def item (s : St) (e : Elem) (i : Nat) : Option Attr := if i ≥ (s.nodes e).length then none else (s.nodes e)[i]?

/-- `getOwnerElement`, AttrImpl.hpp lines 62-65. -/
def getOwnerElement (s : St) (a : Attr) : Option Elem := s.owner a

end Verif.AttrMap
