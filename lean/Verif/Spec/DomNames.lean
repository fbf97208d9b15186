import Verif.Spec.XmlChars
import Verif.Model.Dom
set_option autoImplicit false
/-!
# Names of elements and attributes, DOM Level 2 Core and Namespaces in XML
-/
namespace Verif.Spec.DomNames
open Verif.Spec
open Verif.Dom (Err)

abbrev Str := List Char

def codes (s : Str) : List Nat := s.map Char.toNat

/-- XML 1.0 [5] Name: (Letter | '_' | ':') NameChar*. -/
def XmlName (s : Str) : Prop :=
  ∃ c t, codes s = c :: t ∧ (Xml.Letter c ∨ c = '_'.toNat ∨ c = ':'.toNat) ∧ ∀ x ∈ t, Xml.NameChar x

def NCName (s : Str) : Prop := Xml.NCName (codes s)

/-- What `createElementNS` and `createAttributeNS` are given: a qualified name in its parts. -/
inductive QName where
  | unprefixed (l : Str)
  | prefixed (p l : Str)

def QName.text : QName → Str
  | .unprefixed l => l
  | .prefixed p l => p ++ ':' :: l

def QName.Ok : QName → Prop
  | .unprefixed l => NCName l
  | .prefixed p l => NCName p ∧ NCName l

def QName.localName : QName → Str
  | .unprefixed l => l
  | .prefixed _ l => l

def QName.prefix' : QName → Str
  | .unprefixed _ => []
  | .prefixed p _ => p

def xmlPrefix : Str := "xml".toList
def xmlUri : Str := "http://www.w3.org/XML/1998/namespace".toList
def xmlnsPrefix : Str := "xmlns".toList
def xmlnsUri : Str := "http://www.w3.org/2000/xmlns/".toList

/-- `createElementNS`: when NAMESPACE_ERR is to be raised.  The empty URI is no namespace. -/
def elementRefused : QName → Str → Prop
  | .unprefixed _, _ => False
  | .prefixed p _, u => u = [] ∨ (p = xmlPrefix ∧ u ≠ xmlUri)

/-- `createAttributeNS`: when NAMESPACE_ERR is to be raised, but for declarations of namespaces without a
URI, which this implementation takes to be in the namespace of declarations. -/
def attributeRefused : QName → Str → Prop
  | .unprefixed l, u => l = xmlnsPrefix ∧ u ≠ xmlnsUri ∧ u ≠ []
  | .prefixed p _, u =>
    (p = xmlPrefix ∧ u ≠ xmlUri) ∨ (p = xmlnsPrefix ∧ u ≠ xmlnsUri ∧ u ≠ []) ∨ (p ≠ xmlnsPrefix ∧ u = [])

/-- The namespace of an attribute. -/
def attributeUri : QName → Str → Str
  | .unprefixed l, u => if l = xmlnsPrefix then xmlnsUri else u
  | .prefixed p _, u => if p = xmlnsPrefix then xmlnsUri else u

end Verif.Spec.DomNames
