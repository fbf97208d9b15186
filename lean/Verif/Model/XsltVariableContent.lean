import Verif.Model.XsltDomSink
import Verif.Model.XPathEval
set_option autoImplicit false
/-!
# The value of a variable with content: include/XSLT/impl/xslt_variable_impl.hpp
-/
namespace Verif.XsltVariableContent
open Verif.XsltDomSink (Chars Outcome transform)
open Verif.XTree (Tree)
open Verif.XPathEval (XVal)

/-- The end of `value`, lines 47-55: the children of the node of the sink, from the first on by
`getNextSibling`.  The fragment is tree number `k` of the forest.  Simplification: the loop is written as the
list of all children. -/
def ofNode (k : Nat) : Option Tree → XVal
  | none => .str []
  | some t => .nodes { nodes := (List.range t.kids.length).map fun i => (k, [.child i]) }

/-- `value`, lines 39-56, of a variable or parameter without `select`, whose content is executed into the
`DOMSink` of its `VariableClosure` (xslt_execution_context.hpp lines 139-161).  No `start_document` is called
on this sink, so it has no elements for CDATA sections and does not indent. -/
def value (C : Chars) (k : Nat) (is : Verif.Xslt.Instrs) : Outcome XVal :=
  match transform C [] false is with
  | .done o => .done (ofNode k o)
  | .throws => .throws
  | .undefined => .undefined

end Verif.XsltVariableContent
