import Verif.Spec.XmlChars
import Verif.Model.XsltAlias
set_option autoImplicit false
/-!
# XSLT 1.0 section 7.1.1: namespace aliases
-/
namespace Verif.Spec.XsltAlias
open Verif.XsltAlias (Item Attr)

abbrev Str := List Char

/-- An alias: the namespace in the stylesheet, the namespace in the result, and if a prefix was named for it. -/
structure Alias where
  stylesheet : Str
  result : Str
  named : Bool
deriving DecidableEq, Repr

/-- The namespace a value of `stylesheet-prefix` or `result-prefix` stands for: that of the prefix, or the
default namespace, if there is one. -/
def means (sc : List (Str × Str)) (p u : Str) : Prop :=
  if p = "#default".toList then (sc.lookup []).getD [] = u else p ≠ [] ∧ sc.lookup p = some u

/-- A declaration and the alias it declares. -/
def Declares : Item → Alias → Prop
  | .alias sc sp rp, a => means sc sp a.stylesheet ∧ means sc rp a.result ∧ (a.named = true ↔ rp ≠ "#default".toList)
  | .literal .., _ => False

/-- The last alias for a namespace. -/
def lastFor (as : List Alias) (u : Str) : Option Alias := as.reverse.find? fun a => a.stylesheet = u

/-- The namespace in the result. -/
def renamed (as : List Alias) (u : Str) : Str := ((lastFor as u).map (·.result)).getD u

/-- A literal result element gives an element with the same local name in the namespace aliased, and so for
its attributes, which keep their values, but for those in the XSLT namespace, and namespace declarations. -/
structure Result where
  uri : Str
  loc : Str
  atts : List (Str × Str × Str)
deriving DecidableEq, Repr

def isXmlns (a : Attr) : Bool := "xmlns:".toList.isPrefixOf a.qn

def xslt : Str := "http://www.w3.org/1999/XSL/Transform".toList

def result (as : List Alias) (u l : Str) (atts : List Attr) : Result :=
  ⟨renamed as u, l,
    (atts.filter fun a => !isXmlns a && decide (a.uri ≠ xslt)).map fun a => (renamed as a.uri, a.loc, a.value)⟩

/-- The literal result elements of a stylesheet, each with the aliases declared before it. -/
inductive Literals : List Alias → List Item → List (List Alias × Item) → Prop
  | nil (as) : Literals as [] []
  | alias (as a i is ls) : Declares i a → Literals (as ++ [a]) is ls → Literals as (i :: is) ls
  | literal (as u l q ats is ls) : Literals as is ls →
      Literals as (.literal u l q ats :: is) ((as, .literal u l q ats) :: ls)

/-- A qualified name with this local name, as a namespace aware parser reports it. -/
def Named (q l : Str) : Prop :=
  Xml.NCName (l.map Char.toNat) ∧
  (q = l ∨ ∃ p : Str, Xml.NCName (p.map Char.toNat) ∧ q = p ++ ':' :: l)

/-- A literal result element for which the code gets the names right: if its namespace has an alias a prefix
was named for it, and no attribute is put into no namespace by `#default`; all prefixes named in aliases are
names. -/
def Fine (as : List Alias) : Item → Prop
  | .alias .. => True
  | .literal u l q ats =>
    Named q l ∧ (∀ a, lastFor as u = some a → a.named = true) ∧
    ∀ t ∈ ats, Named t.qn t.loc ∧ ∀ a, lastFor as t.uri = some a → a.named = true ∨ a.result ≠ []

/-- A result prefix is a name. -/
def PrefixNamed : Item → Prop
  | .alias _ _ rp => rp = "#default".toList ∨ Xml.NCName (rp.map Char.toNat)
  | .literal .. => True

end Verif.Spec.XsltAlias
