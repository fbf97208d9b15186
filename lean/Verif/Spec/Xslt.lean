import Verif.Model.XsltPrecedence
set_option autoImplicit false
/-!
# XSLT 1.0, section 2.6.2: import precedence
-/
namespace Verif.Spec.Xslt
open Verif.Xslt (Sheet Sheets)

mutual
/-- The stylesheets of an import tree in post-order: what a stylesheet imports comes before it, what
an earlier import brings in comes before a later import. Later in this order is higher precedence. -/
def postorder : Sheet → List Nat
  | .mk id imports => postorders imports ++ [id]
/-- The same for a list of stylesheets. -/
def postorders : Sheets → List Nat
  | .nil => []
  | .cons s rest => postorder s ++ postorders rest
end

end Verif.Spec.Xslt
