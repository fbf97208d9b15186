import Verif.Spec.XPathEval
set_option autoImplicit false
/-!
# Attribute value templates

https://www.w3.org/TR/1999/REC-xslt-19991116 section 7.6.2: text with expressions between braces, in which braces that
stand for themselves are doubled.
-/
namespace Verif.Spec.XPathTemplate
open Verif.XTree Verif.XPath Verif.Spec.XPathEval
open Verif.XPathParse (Ex Reads tokens isWhite meaning)

/-- A character of the text, or an expression. -/
inductive Piece where
  | char (c : Char)
  | embedded (e : Ex)

/-- `s` is these pieces as they are written and then `r`. -/
inductive Written : List Piece → List Char → List Char → Prop where
  | nil (r : List Char) : Written [] r r
  | char (c : Char) (ps : List Piece) (s r : List Char) (plain : c ≠ '{' ∧ c ≠ '}') (rest : Written ps s r) :
      Written (.char c :: ps) (c :: s) r
  | left (ps : List Piece) (s r : List Char) (rest : Written ps s r) :
      Written (.char '{' :: ps) ('{' :: '{' :: s) r
  | right (ps : List Piece) (s r : List Char) (rest : Written ps s r) :
      Written (.char '}' :: ps) ('}' :: '}' :: s) r
  | embedded (e : Ex) (ps : List Piece) (m white s r : List Char) (text : Reads (tokens false e) m (white ++ '}' :: s))
      (blank : white.all isWhite = true) (rest : Written ps s r) : Written (.embedded e :: ps) ('{' :: m) r

/-- The string that the pieces give: the characters, and the values of the expressions as strings. -/
def Gives (w : World) (cv : Conv) (vars : List Char → List Char → Option Val) (ns : List Char → Option (List Char))
    (x : XN) (i k : Int) : List Piece → List Char → Prop
  | [], t => t = []
  | .char c :: ps, t => ∃ u, t = c :: u ∧ Gives w cv vars ns x i k ps u
  | .embedded e :: ps, t => ∃ v u, Means w cv vars (meaning ns e) x i k v ∧ t = toString w cv v ++ u ∧
      Gives w cv vars ns x i k ps u

end Verif.Spec.XPathTemplate
