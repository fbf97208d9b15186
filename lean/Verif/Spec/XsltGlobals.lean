import Verif.Model.XsltGlobals
set_option autoImplicit false
/-!
# The values of global variables: XSLT 1.0, section 11.4

A variable has a value if what it refers to has. The relation is the least one, so that a variable that
refers to itself, directly or through others, has none.
-/
namespace Verif.Spec.XsltGlobals
open Verif.Xslt (VName Global)

mutual
/-- The global `n` has the value `v`. -/
inductive HasValue (gs : List Global) : VName → List Char → Prop
  | make (g : Global) (vs : List (List Char)) (hg : g ∈ gs) (h : HaveValues gs (g.refs.map (·.name)) vs) :
      HasValue gs g.name (g.make vs)
/-- The same for a list. -/
inductive HaveValues (gs : List Global) : List VName → List (List Char) → Prop
  | nil : HaveValues gs [] []
  | cons (n : VName) (v : List Char) (ns : List VName) (vs : List (List Char)) (h : HasValue gs n v)
      (hs : HaveValues gs ns vs) : HaveValues gs (n :: ns) (v :: vs)
end

end Verif.Spec.XsltGlobals
