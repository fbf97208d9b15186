import Verif.Model.XmlChars
import Verif.Model.Dom
set_option autoImplicit false
/-!
# include/DOM/Simple: the names of elements and attributes

`nameCh` is `XML::is_name_char` on a character of the string: for wide strings `wideNameChar`, for
strings of bytes `byteNameChar`.
-/
namespace Verif.DomNames
open Verif.Dom (Err)

abbrev Str := List Char

/-- `is_name_char(*i)` for a wide character. -/
def wideNameChar (c : Char) : Bool := XmlChars.isNameChar c.toNat

/-- `is_name_char(*i)` for a `char`, a signed byte: it is sign extended to a `wchar_t`. -/
def byteNameChar (c : Char) : Bool :=
  XmlChars.isNameChar (if c.toNat < 128 then (c.toNat : Int) else (c.toNat : Int) - 256)

/-- `checkName`, NodeImpl.hpp lines 208-218: false is INVALID_CHARACTER_ERR. -/
def checkName (nameCh : Char → Bool) (s : Str) : Bool := !s.isEmpty && s.all nameCh

/-- `find(qualifiedName, ":")` and the two `substr`. -/
def cut : Str → Option (Str × Str)
  | [] => none
  | c :: s => if c = ':' then some ([], s) else (cut s).map fun (a, b) => (c :: a, b)

def xml : Str := ['x', 'm', 'l']
def xmlURI : Str := "http://www.w3.org/XML/1998/namespace".toList
def xmlns : Str := ['x', 'm', 'l', 'n', 's']
def xmlnsURI : Str := "http://www.w3.org/2000/xmlns/".toList

/-- `checkPrefixAndNamespace`, Helpers.hpp lines 12-50. -/
def checkPrefixAndNamespace (hasPrefix : Bool) (p : Str) (hasUri : Bool) (uri : Str) (isAttr : Bool) :
    Except Err (Bool × Str) :=
  if !hasPrefix then .ok (hasUri, uri)
  else if ':' ∈ p then .error .namespaceErr
  else if p = xml then (if uri = xmlURI then .ok (true, uri) else .error .namespaceErr)
  else if isAttr && p = xmlns then
    (if uri = xmlnsURI ∨ uri = [] then .ok (true, xmlnsURI) else .error .namespaceErr)
  else if !hasUri || uri.isEmpty then .error .namespaceErr
  else .ok (true, uri)

/-- `getNodeName`, `hasNamespaceURI`, `getNamespaceURI`, `getPrefix`, `getLocalName`. -/
structure NsName where
  name : Str
  hasUri : Bool
  uri : Str
  prefix' : Str
  localName : Str
  deriving DecidableEq, Repr

/-- The constructor of ElementNSImpl, ElementNSImpl.hpp lines 20-47, as `createElementNS_nocheck` calls it
(DocumentImpl.hpp lines 342-348). -/
def elementNS (uri q : Str) : Except Err NsName :=
  match cut q with
  | none => match checkPrefixAndNamespace false [] (!uri.isEmpty) uri false with
    | .error e => .error e
    | .ok (h, u) => .ok ⟨q, h, u, [], q⟩
  | some (p, l) => match checkPrefixAndNamespace true p (!uri.isEmpty) uri false with
    | .error e => .error e
    | .ok (h, u) => .ok ⟨q, h, u, p, l⟩

/-- The constructor of AttrNSImpl, AttrNSImpl.hpp lines 20-54, as `createAttributeNS_nocheck` and
`AttrMap::setAttributeNS` call it. -/
def attrNS (uri q : Str) : Except Err NsName :=
  match cut q with
  | none => match checkPrefixAndNamespace (decide (q = xmlns)) (if q = xmlns then q else []) (!uri.isEmpty) uri true with
    | .error e => .error e
    | .ok (h, u) => .ok ⟨q, h, u, [], q⟩
  | some (p, l) => match checkPrefixAndNamespace true p (!uri.isEmpty) uri true with
    | .error e => .error e
    | .ok (h, u) => .ok ⟨q, h, u, p, l⟩

/-- A node without namespace data: `createElement` and `createAttribute`, NodeImpl.hpp lines 130-144. -/
def plain (n : Str) : NsName := ⟨n, false, [], [], []⟩

/-- `createElement`, DocumentImpl.hpp lines 143-147 (`createAttribute`, lines 199-203, the same). -/
def createElement (nameCh : Char → Bool) (n : Str) : Except Err NsName :=
  if checkName nameCh n then .ok (plain n) else .error .invalidChar

/-- `createElementNS`, DocumentImpl.hpp lines 336-340. -/
def createElementNS (nameCh : Char → Bool) (uri q : Str) : Except Err NsName :=
  if checkName nameCh q then elementNS uri q else .error .invalidChar

/-- `createAttributeNS`, DocumentImpl.hpp lines 350-354. -/
def createAttributeNS (nameCh : Char → Bool) (uri q : Str) : Except Err NsName :=
  if checkName nameCh q then attrNS uri q else .error .invalidChar

end Verif.DomNames
