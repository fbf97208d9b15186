import Verif.Spec.XmlChars
import Verif.Model.XsltCompile
set_option autoImplicit false
/-!
# XSLT 1.0 sections 12.4 and 15: names of instructions and of functions, system properties
-/
namespace Verif.Spec.XsltAvailable

abbrev Str := List Char
/-- Prefixes and the namespaces they are declared for. -/
abbrev Scope := List (Str × Str)

/-- XSLT 1.0 section 2.4: a qualified name stands for a namespace and a local name. A name without a
prefix is in no namespace, whatever the default namespace is. -/
def Expands (sc : Scope) (q u l : Str) : Prop :=
  Xml.QName (q.map Char.toNat) ∧
  ((':' ∉ q ∧ u = [] ∧ l = q) ∨ ∃ p, q = p ++ ':' :: l ∧ ':' ∉ p ∧ sc.lookup p = some u)

/-- The XSLT namespace. -/
def xslt : Str := "http://www.w3.org/1999/XSL/Transform".toList

/-- The elements appendix B of XSLT 1.0 has in the category of instructions. -/
def instructions : List Str :=
  ["apply-templates", "call-template", "apply-imports", "for-each", "value-of", "copy-of", "number",
   "choose", "if", "text", "copy", "variable", "message", "fallback", "processing-instruction",
   "comment", "element", "attribute"].map String.toList

/-- The functions of XPath 1.0, section 4. -/
def xpathFunctions : List Str :=
  ["last", "position", "count", "id", "local-name", "namespace-uri", "name",
   "string", "concat", "starts-with", "contains", "substring-before", "substring-after", "substring",
   "string-length", "normalize-space", "translate",
   "boolean", "not", "true", "false", "lang",
   "number", "sum", "floor", "ceiling", "round"].map String.toList

/-- The functions XSLT 1.0 adds, sections 12 and 15. -/
def xsltFunctions : List Str :=
  ["document", "key", "format-number", "current", "unparsed-entity-uri", "generate-id", "system-property",
   "element-available", "function-available"].map String.toList

/-- The values of the system properties all processors have. -/
def property (l : Str) : Str :=
  if l = "version".toList then "1.0".toList
  else if l = "vendor".toList then "Jez Higgins, JezUK Ltd".toList
  else if l = "vendor-url".toList then "http://www.jezuk.co.uk/arabica/".toList
  else []

/-- A letter or a digit of ASCII. -/
def Alphanumeric (c : Char) : Prop :=
  ('0' ≤ c ∧ c ≤ '9') ∨ ('a' ≤ c ∧ c ≤ 'z') ∨ ('A' ≤ c ∧ c ≤ 'Z')

end Verif.Spec.XsltAvailable
