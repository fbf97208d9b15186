import Verif.Spec.XsltDomSink
import Verif.Model.XPathEval
set_option autoImplicit false
/-!
# Result tree fragments (XSLT 1.0, section 11.1)

A result tree fragment is treated as a node-set with one node, the root of the tree the content gives.  Its
string is the string-value of this root: all text of the result, in order.  Its boolean is true, as that of
every node-set that is not empty.
-/
namespace Verif.Spec.XsltVariableContent
open Verif.Spec.XsltOutput (Res)
open Verif.XPathEval (XVal Env Ev)

abbrev Str := List Char

/-- All text of a result. -/
def text : List Res → Str
  | [] => []
  | .text s :: rs => s ++ text rs
  | _ :: rs => text rs

/-- A value is, as string, number and boolean, the fragment with this content. -/
structure IsFragment (E : Env) (rs : List Res) (v : XVal) : Prop where
  string : ∃ fuel, ∀ f, fuel ≤ f → v.string E f = .val (text rs)
  number : ∃ fuel, ∀ f, fuel ≤ f → v.number E f = .val (E.cv.number (text rs))
  boolean : v.isTrue = true

/-- The text up to the end of the element `d` elements further out. -/
def inside : Nat → List Res → Str
  | _, [] => []
  | d, .start _ _ _ :: rs => inside (d + 1) rs
  | 0, .finish :: _ => []
  | d + 1, .finish :: rs => inside d rs
  | d, .text s :: rs => s ++ inside d rs
  | d, _ :: rs => inside d rs

/-- The string-value of the first node of a result. -/
def first : List Res → Str
  | .start _ _ _ :: rs => inside 0 rs
  | .text s :: _ => s
  | .comment s :: _ => s
  | .pi _ s :: _ => s
  | _ => []

end Verif.Spec.XsltVariableContent
