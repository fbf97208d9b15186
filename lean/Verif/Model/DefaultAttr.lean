import Verif.Model.AttrMap
set_option autoImplicit false
/-!
# Default attributes: include/DOM/Simple/AttrMap.hpp, include/DOM/SAX2DOM/DocumentTypeImpl.hpp, SAX2DOM.hpp

The attributes of one element are a list of names and values; that attributes are nodes, owned by an element
and by a document, is Model/AttrMap's.  Declared names are taken to pass `checkName`, which the parser sees to.
`std::find_if` and what is then done at the place found are one recursion here.  Not modelled: attributes
with entity references as values, which `setValue` replaces as a whole; read only elements.
-/
namespace Verif.DefaultAttr
open Verif.DomNames
open Verif.AttrMap (nameIs namespaceAndNameIs)
open Verif.Dom (Err)

/-- An attribute: its names, `getNodeValue`, and `specified_`, AttrImpl.hpp line 203. -/
structure A where
  nm : NsName
  value : Str
  specified : Bool
  deriving DecidableEq, Repr

/-- `setNode` at the place `find_if` finds, NamedNodeMapImpl.hpp lines 190-204. -/
def setBy (p : NsName → Bool) (a : A) : List A → List A
  | [] => [a]
  | b :: l => if p b.nm then a :: l else b :: setBy p a l

/-- `removeNode` at the place `find_if` finds, lines 206-214; `none` is NOT_FOUND_ERR. -/
def removeBy (p : NsName → Bool) : List A → Option (List A)
  | [] => none
  | b :: l => if p b.nm then some l else (removeBy p l).map (b :: ·)

/-- `setNamedItem` of an attribute of no element, lines 109-114, AttrMap.hpp lines 38-47. -/
def setNamedItem (l : List A) (a : A) : List A := setBy (nameIs a.nm.name) a l

/-- `setNamedItemNS`, NamedNodeMapImpl.hpp lines 137-142, AttrMap.hpp lines 133-142. -/
def setNamedItemNS (l : List A) (a : A) : List A := setBy (namespaceAndNameIs a.nm.uri a.nm.localName) a l

/-- `getNamedItem`, NamedNodeMapImpl.hpp lines 104-107. -/
def getNamedItem (l : List A) (n : Str) : Option A := l.find? fun a => nameIs n a.nm

/-- `getNamedItemNS`, lines 132-135. -/
def getNamedItemNS (l : List A) (u n : Str) : Option A := l.find? fun a => namespaceAndNameIs u n a.nm

/-! ### Declarations -/

/-- `elements_` of a document type: the name of each element declared, and its attributes. -/
abbrev DocType := List (Str × List A)

/-- `getElements()->getNamedItem(name)`, and its attributes. -/
def exemplar (dt : DocType) (e : Str) : Option (List A) := (dt.find? fun x => x.1 == e).map Prod.snd

/-- `addElement`, Simple/DocumentTypeImpl.hpp lines 149-158. -/
def addElement (dt : DocType) (e : Str) : DocType :=
  match exemplar dt e with
  | some _ => dt
  | none => dt ++ [(e, [])]

/-- `elem->setAttributeNode(attr)` on the element of that name. -/
def onElement (e : Str) (f : List A → List A) : DocType → DocType
  | [] => []
  | x :: dt => if x.1 == e then (x.1, f x.2) :: dt else x :: onElement e f dt

/-- `addDefaultAttr`, SAX2DOM/DocumentTypeImpl.hpp lines 42-54. -/
def addDefaultAttr (dt : DocType) (e n v : Str) : DocType :=
  onElement e (fun l => setNamedItem l ⟨plain n, v, false⟩) (addElement dt e)

/-- What a parser reports to a DeclHandler. -/
inductive Decl where
  /-- `elementDecl(name, model)`. -/
  | element (e : Str)
  /-- `attributeDecl(elementName, attributeName, type, valueDefault, value)`: the value is empty if there is none. -/
  | attr (e n v : Str)
  deriving DecidableEq, Repr

/-- `elementDecl` and `attributeDecl`, SAX2DOM.hpp lines 358-377. -/
def declare (dt : DocType) : Decl → DocType
  | .element e => addElement dt e
  | .attr e n v => if v.isEmpty then dt else addDefaultAttr dt e n v

/-- The document type after the declarations. -/
def docType (decls : List Decl) : DocType := decls.foldl declare []

/-- `getDefaultAttrs`, AttrMap.hpp lines 203-216. -/
def getDefaultAttrs (dt : DocType) (e : Str) : Option (List A) := exemplar dt e

/-! ### Elements -/

/-- One turn of the loop in `getDefaults`, AttrMap.hpp lines 194-199. -/
def getDefault (l : List A) (a : A) : List A :=
  match getNamedItemNS l a.nm.uri a.nm.name with
  | none => setNamedItemNS l a
  | some _ => l

/-- `getDefaults`, lines 189-201. -/
def getDefaults (dt : DocType) (e : Str) (l : List A) : List A :=
  match getDefaultAttrs dt e with
  | none => l
  | some ds => ds.foldl getDefault l

/-- The constructor of ElementImpl, ElementImpl.hpp lines 30-37: the attributes of a new element. -/
def create (dt : DocType) (e : Str) : List A := getDefaults dt e []

/-- `createDefault(name)`, AttrMap.hpp lines 167-176. -/
def createDefault (dt : DocType) (e n : Str) (l : List A) : List A :=
  match getDefaultAttrs dt e with
  | none => l
  | some ds => match getNamedItem ds n with
    | none => l
    | some a => setNamedItem l a

/-- `createDefault(namespaceURI, localName)`, lines 178-187. -/
def createDefaultNS (dt : DocType) (e u n : Str) (l : List A) : List A :=
  match getDefaultAttrs dt e with
  | none => l
  | some ds => match getNamedItemNS ds u n with
    | none => l
    | some a => setNamedItemNS l a

/-- `setNodeValue` of the attribute of a name, AttrImpl.hpp lines 131-144. -/
def setValue (n v : Str) : List A → List A
  | [] => []
  | b :: l => if nameIs n b.nm then { b with value := v, specified := true } :: l else b :: setValue n v l

/-- One turn of the loop in `cloneChildren`, ElementImpl.hpp lines 175-186; the clone of an attribute has its
names, value and `specified_`. -/
def cloneAttr (l : List A) (a : A) : List A :=
  if a.specified then (if a.nm.localName.isEmpty then setNamedItem l a else setNamedItemNS l a) else l

/-- `cloneNode`, lines 148-153: the attributes of the clone. -/
def clone (dt : DocType) (e : Str) (l : List A) : List A := l.foldl cloneAttr (create dt e)

inductive Op where
  | setAttribute (n v : Str)
  | setAttributeNS (u q v : Str)
  | removeAttribute (n : Str)
  | removeAttributeNS (u l : Str)
  /-- `getAttributeNode(n).setValue(v)`, if there is one. -/
  | setValue (n v : Str)
  /-- The element is cloned, and its clone is used from here on. -/
  | clone
  deriving DecidableEq, Repr

/-- A call on an element; an exception leaves it as it is. -/
def step (nameCh : Char → Bool) (dt : DocType) (e : Str) (l : List A) : Op → List A × Option Err
  -- ElementImpl.hpp lines 48-53, AttrMap.hpp lines 71-76
  | .setAttribute n v => match createElement nameCh n with
    | .error er => (l, some er)
    | .ok r => (setNamedItem l ⟨r, v, true⟩, none)
  -- ElementImpl.hpp lines 88-92, AttrMap.hpp lines 107-116
  | .setAttributeNS u q v => match createAttributeNS nameCh u q with
    | .error er => (l, some er)
    | .ok r => (setNamedItemNS l ⟨r, v, true⟩, none)
  -- AttrMap.hpp lines 49-54
  | .removeAttribute n => match removeBy (nameIs n) l with
    | none => (l, some .notFound)
    | some l' => (createDefault dt e n l', none)
  -- lines 56-61
  | .removeAttributeNS u n => match removeBy (namespaceAndNameIs u n) l with
    | none => (l, some .notFound)
    | some l' => (createDefaultNS dt e u n l', none)
  | .setValue n v => (setValue n v l, none)
  | .clone => (clone dt e l, none)

/-- A history of calls, and the exceptions they throw. -/
def run (nameCh : Char → Bool) (dt : DocType) (e : Str) (l : List A) : List Op → List A × List (Option Err)
  | [] => (l, [])
  | op :: ops =>
    let (l, r) := step nameCh dt e l op
    let (l, rs) := run nameCh dt e l ops
    (l, r :: rs)

/-- `startElement`, SAX2DOM.hpp lines 192-226: the attributes of the element, if nothing is thrown. -/
def parsed (nameCh : Char → Bool) (dt : DocType) (e : Str) (atts : List (Str × Str × Str)) : List A :=
  (run nameCh dt e (create dt e) (atts.map fun x => Op.setAttributeNS x.1 x.2.1 x.2.2)).1

/-- `getAttribute`, AttrMap.hpp lines 65-69. -/
def getAttribute (l : List A) (n : Str) : Str :=
  match getNamedItem l n with
  | none => []
  | some a => a.value

/-- `hasAttribute`, lines 144-147. -/
def hasAttribute (l : List A) (n : Str) : Bool := (getNamedItem l n).isSome

/-- `getAttributeNode(n).getSpecified()`, if there is one. -/
def getSpecified (l : List A) (n : Str) : Option Bool := (getNamedItem l n).map A.specified

end Verif.DefaultAttr
