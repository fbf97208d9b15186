import Verif.Model.Expat
import Verif.Model.XPathEval
import Verif.Model.XPathNodeSet
import Verif.Model.XsltCompile
set_option autoImplicit false
/-!
# Asking what there is: `element-available`, `function-available`, `system-property`, `generate-id`

Modelled: /repo/include/XSLT/impl/xslt_functions.hpp lines 202-434, what makes the functions of an
expression (/repo/include/XPath/impl/xpath_function_holder.hpp lines 140-166 and
/repo/include/XSLT/impl/xslt_compilation_context.hpp lines 202-260).

The argument of each is a string already: turning a value into one is C20. A string is the list of its
characters.
-/
namespace Verif.XsltAvailable
open Verif.XTree

abbrev Str := List Char
abbrev Scope := XsltCompile.Scope

/-- `QualifiedName::parseQName` with `is_attribute` true, /repo/include/XML/QName.hpp lines 64-95, and
`MapMapper`, lines 20-41: the uri and the local name; `none` is the exception. -/
def parseQName (sc : Scope) (q : Str) : Option (Str × Str) :=
  if Expat.isQName q then
    match Expat.cut q with
    | none => some ([], q)
    | some (p, l) => some ((sc.lookup p).getD [], l)
  else none

/-- `XSLTNames`, xslt_functions.hpp lines 318-336. -/
def elementNames : List Str :=
  ["apply-imports".toList, "apply-templates".toList, "attribute".toList, "call-template".toList,
   "choose".toList, "comment".toList, "copy".toList, "copy-of".toList, "element".toList,
   "fallback".toList, "for-each".toList, "if".toList, "message".toList, "number".toList,
   "processing-instruction".toList, "text".toList, "value-of".toList, "variable".toList]

/-- `ElementAvailableFunction::doEvaluate`, lines 305-343. -/
def elementAvailable (sc : Scope) (q : Str) : Option Bool :=
  (parseQName sc q).map fun n =>
    if n.1 ≠ XsltCompile.SC.xslt ∧ n.1 ≠ [] then false else elementNames.contains n.2

/-- `validNames`, xslt_compilation_context.hpp lines 241-260, all in no namespace. -/
def xsltNames : List Str :=
  ["document".toList, "key".toList, "current".toList, "unparsed-entity-uri".toList,
   "generate-id".toList, "system-property".toList, "element-available".toList,
   "function-available".toList]

/-- What `FunctionAvailableFunction` looks through, xslt_functions.hpp lines 369-379:
`StandardXPathFunctionResolver::validNames` and those of the resolver. -/
def functionNames : List (Str × Str) :=
  (XPathEval.functionTable.map fun f => ([], f.1)) ++ xsltNames.map fun n => ([], n)

/-- `FunctionAvailableFunction::doEvaluate`, lines 381-391. -/
def functionAvailable (sc : Scope) (q : Str) : Option Bool :=
  (parseQName sc q).map fun n => functionNames.contains n

/-- What comes of a call of a function in an expression of a stylesheet: a function; one that throws when
it is evaluated (`UndefinedFunction`, xslt_functions.hpp lines 400-434); or the expression does not
compile. -/
inductive Made where
  | function
  | throws
  | refused
deriving DecidableEq, Repr

/-- `resolveFunction`, xslt_compilation_context.hpp lines 202-239; `cur` is `current_allowed_`. -/
def resolveFunction (cur : Bool) (u n : Str) : Made :=
  if u ≠ [] then .throws
  else if n = "document".toList then .function
  else if n = "key".toList then .function
  else if n = "current".toList ∧ cur = true then .function
  else if n = "generate-id".toList then .function
  else if n = "system-property".toList then .function
  else if n = "element-available".toList then .function
  else if n = "function-available".toList then .function
  else .refused

/-- `FunctionHolder::createFunction`, xpath_function_holder.hpp lines 140-166, with the right number of
arguments. -/
def createFunction (cur : Bool) (u n : Str) : Made :=
  if u = [] ∧ (XPathEval.standardFunction n).isSome then .function else resolveFunction cur u n

/-- `SystemPropertyFunction::doEvaluate`, xslt_functions.hpp lines 264-279; the constants are in
/repo/include/XSLT/impl/handler/xslt_constants.hpp lines 130-132 and 228-230. -/
def systemProperty (p : Str) : Str :=
  if p = "xsl:version".toList then XsltCompile.SC.version
  else if p = "xsl:vendor".toList then "Jez Higgins, JezUK Ltd".toList
  else if p = "xsl:vendor-url".toList then "http://www.jezuk.co.uk/arabica/".toList
  else []

/-- A hexadecimal digit as `std::ostream` writes it. -/
def hexDigit (d : Nat) : Char :=
  if d < 10 then Char.ofNat ('0'.toNat + d) else Char.ofNat ('a'.toNat + (d - 10))

/-- A number written in hexadecimal. -/
def hex (n : Nat) : Str :=
  if h : n < 16 then [hexDigit n] else hex (n / 16) ++ [hexDigit (n % 16)]
termination_by n
decreasing_by omega

/-- `os << pointer`. The standard leaves it to the library; this is what libstdc++ does: `showbase` and
`hex`, which writes no base in front of zero. -/
def printPointer (a : Nat) : Str := if a = 0 then ['0'] else '0' :: 'x' :: hex a

/-- `GenerateIdFunction::doEvaluate`, xslt_functions.hpp lines 222-241. `addr` is where the nodes are; the
argument, if there is one, is the node-set it evaluates to. `none` is undefined behaviour: `top` of an empty
node-set. -/
def generateId (srt : List XN → List XN) (addr : XN → Nat) (context : XN) : Option NodeSet → Option Str
  | none => some (printPointer (addr context))
  | some ns =>
    if ns.nodes.length = 0 then some []
    else (ns.top srt).2.map fun x => printPointer (addr x)

end Verif.XsltAvailable
