import Verif.Model.XsltOutputDecl
import Verif.Spec.Text
set_option autoImplicit false
/-!
# What several `xsl:output` declare together

XSLT 1.0, section 16: all `xsl:output` are merged.  For `cdata-section-elements` the union is taken; for each other
attribute the value with the highest import precedence, and of several with that the last.
-/
namespace Verif.Spec.XsltOutputDecl
open Verif.XsltOutputDecl (Str EName Attr Out)

/-- What an attribute is when it is not given. -/
def default' : List (String × String) :=
  [("method", "xml"), ("version", "1.0"), ("encoding", "UTF-8"), ("omit-xml-declaration", "no"), ("standalone", ""),
   ("doctype-public", ""), ("doctype-system", ""), ("cdata-section-elements", ""), ("indent", "no"), ("media-type", "")]

/-- The attributes of `xsl:output`. -/
def Parameter (n : Str) : Prop := ∃ d ∈ default', d.1.toList = n

/-- The values they may have. -/
inductive Allowed : Str → Str → Prop where
  | method (v : String) : v ∈ ["xml", "html", "text"] → Allowed "method".toList v.toList
  | yesno (n v : String) : n ∈ ["omit-xml-declaration", "standalone", "indent"] → v ∈ ["yes", "no"] →
      Allowed n.toList v.toList
  | any (n : String) (v : Str) :
      n ∈ ["version", "encoding", "doctype-public", "doctype-system", "cdata-section-elements", "media-type"] →
      Allowed n.toList v

/-- An `xsl:output` has this attribute, with this value. -/
def Gives (o : Out) (n v : Str) : Prop := ∃ a ∈ o.atts, a.uri = [] ∧ a.name = n ∧ a.value = v

/-- The value in effect: that of the last of those with the highest precedence that give one. -/
def InEffect (outs : List Out) (n v : Str) : Prop :=
  ∃ pre o post, outs = pre ++ o :: post ∧ Gives o n v ∧
    (∀ o' ∈ pre, ∀ v', Gives o' n v' → Xslt.precLt o.prec o'.prec = false) ∧
    ∀ o' ∈ post, ∀ v', Gives o' n v' → Xslt.precLt o'.prec o.prec = true

/-- The values are those in effect, and where there is none the default, or nothing. -/
def Merged (outs : List Out) (s : Str → Option Str) : Prop :=
  (∀ n v, Parameter n → n ≠ "cdata-section-elements".toList → InEffect outs n v → s n = some v) ∧
  ∀ d ∈ default', (∀ o ∈ outs, ∀ v, ¬ Gives o d.1.toList v) → s d.1.toList = none ∨ s d.1.toList = some d.2.toList

/-- The union of the elements listed. -/
def Listed (outs : List Out) (e : EName) : Prop :=
  ∃ o ∈ outs, ∃ v, Gives o "cdata-section-elements".toList v ∧ ∃ w ∈ Text.words v, o.names w = some e

/-- An `xsl:output` without error. -/
def Valid (o : Out) : Prop :=
  (∀ n v, Gives o n v → Allowed n v) ∧
  (∀ a ∈ o.atts, a.uri = "http://www.w3.org/XML/1998/namespace".toList → a.name = "space".toList →
    a.value = "default".toList ∨ a.value = "preserve".toList) ∧
  ∀ v, Gives o "cdata-section-elements".toList v → ∀ w ∈ Text.words v, o.names w ≠ none

/-- Attributes as a reader gives them: each has a name, and no two have the same. -/
def WellFormed (o : Out) : Prop :=
  (∀ a ∈ o.atts, a.name ≠ []) ∧
  ∀ a ∈ o.atts, ∀ b ∈ o.atts, a.uri = b.uri → a.name = b.name → a = b

/-- No attribute of another namespace has a local name that `xsl:output` knows. -/
def NoForeign (o : Out) : Prop := ∀ a ∈ o.atts, a.uri ≠ [] → ¬ Parameter a.name

/-- No list of elements is nothing but white space. -/
def NotBlank (o : Out) : Prop :=
  ∀ v, Gives o "cdata-section-elements".toList v → v = [] ∨ Text.words v ≠ []

end Verif.Spec.XsltOutputDecl
