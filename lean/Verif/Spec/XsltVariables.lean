import Verif.Model.XsltVariables
import Verif.Spec.XsltTemplates
set_option autoImplicit false
/-!
# The scope of variables and parameters, XSLT 1.0 section 11
-/
namespace Verif.Spec.XsltVariables
open Verif.Xslt (VName Expr VIns VInss VVal VPars VTempl)

/-- The first binding of a name. -/
def binding {α : Type} (n : VName) : List (VName × α) → Option α
  | [] => none
  | b :: bs => if b.1 = n then some b.2 else binding n bs

/-- The bindings of the template being run, the latest first. -/
abbrev Locals := List (VName × List Char)

/-- The value of a reference: a binding of the template or else a global one. -/
def value (globals : VName → Option (List Char)) (l : Locals) (n : VName) : Option (List Char) :=
  match binding n l with
  | some v => some v
  | none => globals n

/-- The value of an expression, if all its references are bound. -/
def eval (globals : VName → Option (List Char)) (l : Locals) : Expr → Option (List Char)
  | .lit s => some s
  | .ref n => value globals l n
  | .concat a b =>
    match eval globals l a, eval globals l b with
    | some x, some y => some (x ++ y)
    | _, _ => none

/-- Bind a name that is not bound in the template yet; `none` if it is, or if there is no value. -/
def bind (n : VName) (x : Option (List Char)) (l : Locals) : Option Locals :=
  match binding n l, x with
  | none, some x => some ((n, x) :: l)
  | _, _ => none

/-- The names of parameters. -/
def names : VPars → List VName
  | .nil => []
  | .cons n _ rest => n :: names rest

/-- The outputs of several templates. -/
def outputs (f : VName → Option (List Char)) : List VName → Option (List Char)
  | [] => some []
  | t :: ts =>
    match f t, outputs f ts with
    | some x, some y => some (x ++ y)
    | _, _ => none

mutual
/-- Run an instruction: what it writes and the bindings its following siblings see. `app` runs a template
with the parameters passed, each with its value (`none` where computing it fails, which matters only if the
parameter is used). `none` for an error. -/
def run (app : List (VName × Option (List Char)) → VName → Option (List Char))
    (globals : VName → Option (List Char)) : VIns → Locals → Option (List Char × Locals)
  | .valueOf e, l => (eval globals l e).map fun s => (s, l)
  | .variable n v, l => (bind n (valueOf app globals v l) l).map fun l => ([], l)
  | .framed b, l => (runs app globals b l).map fun r => (r.1, l)
  | .unframed b, l => (runs app globals b l).map fun r => (r.1, l)
  | .invoke ts ps, l =>
    if (names ps).Nodup then (outputs (app (passed app globals ps l)) ts).map fun s => (s, l) else none
/-- Run a sequence. -/
def runs (app : List (VName × Option (List Char)) → VName → Option (List Char))
    (globals : VName → Option (List Char)) : VInss → Locals → Option (List Char × Locals)
  | .nil, l => some ([], l)
  | .cons i rest, l =>
    match run app globals i l with
    | none => none
    | some (s, l) => (runs app globals rest l).map fun r => (s ++ r.1, r.2)
/-- The value of a variable or parameter. -/
def valueOf (app : List (VName × Option (List Char)) → VName → Option (List Char))
    (globals : VName → Option (List Char)) : VVal → Locals → Option (List Char)
  | .select e, l => eval globals l e
  | .content b, l => (runs app globals b l).map Prod.fst
/-- The parameters passed: each is evaluated with the bindings of the caller. -/
def passed (app : List (VName × Option (List Char)) → VName → Option (List Char))
    (globals : VName → Option (List Char)) : VPars → Locals → List (VName × Option (List Char))
  | .nil, _ => []
  | .cons n v rest, l => (n, valueOf app globals v l) :: passed app globals rest l
end

/-- Bind the parameters of a template: to the value passed under the name if there is one, else to the
default, which sees the parameters before it. -/
def bindParams (app : List (VName × Option (List Char)) → VName → Option (List Char))
    (globals : VName → Option (List Char)) (given : List (VName × Option (List Char))) :
    VPars → Locals → Option Locals
  | .nil, l => some l
  | .cons n v rest, l =>
    let x := match binding n given with
      | some x => x
      | none => valueOf app globals v l
    match bind n x l with
    | some l => bindParams app globals given rest l
    | none => none

/-- Run a template with the parameters passed: it starts without bindings. The first argument bounds the
depth of the recursion. -/
def call (ts : VName → Option VTempl) (globals : VName → Option (List Char)) :
    Nat → List (VName × Option (List Char)) → VName → Option (List Char)
  | 0, _, _ => none
  | n + 1, given, name =>
    match ts name with
    | none => none
    | some t =>
      match bindParams (call ts globals n) globals given t.params [] with
      | none => none
      | some l => (runs (call ts globals n) globals t.body l).map Prod.fst

/-! ## The stylesheets for which the code is right -/

mutual
/-- No template is invoked anywhere inside. -/
def CallFree : VIns → Prop
  | .valueOf _ => True
  | .variable _ v => CallFreeV v
  | .framed b => CallFrees b
  | .unframed b => CallFrees b
  | .invoke _ _ => False
/-- The same for a sequence. -/
def CallFrees : VInss → Prop
  | .nil => True
  | .cons i rest => CallFree i ∧ CallFrees rest
/-- The same for a value. -/
def CallFreeV : VVal → Prop
  | .select _ => True
  | .content b => CallFrees b
end

/-- No parameter's value invokes a template. -/
def CallFreeP : VPars → Prop
  | .nil => True
  | .cons _ v rest => CallFreeV v ∧ CallFreeP rest

mutual
/-- No variable is declared, but in a scope of its own. -/
def Undeclaring : VIns → Prop
  | .variable _ _ => False
  | .unframed b => Undeclarings b
  | _ => True
/-- The same for a sequence. -/
def Undeclarings : VInss → Prop
  | .nil => True
  | .cons i rest => Undeclaring i ∧ Undeclarings rest
end

mutual
/-- No variable is declared directly in `xsl:copy`, `xsl:comment`, `xsl:processing-instruction` or
`xsl:message`, and no template is invoked in the content of an `xsl:with-param` but the first of its
instruction. -/
def Good : VIns → Prop
  | .valueOf _ => True
  | .variable _ v => GoodV v
  | .framed b => Goods b
  | .unframed b => Goods b ∧ Undeclarings b
  | .invoke _ ps => GoodP ps
/-- The same for a sequence. -/
def Goods : VInss → Prop
  | .nil => True
  | .cons i rest => Good i ∧ Goods rest
/-- The same for a value. -/
def GoodV : VVal → Prop
  | .select _ => True
  | .content b => Goods b
/-- The same for the parameters passed. -/
def GoodP : VPars → Prop
  | .nil => True
  | .cons _ v rest => GoodV v ∧ GoodP rest ∧ CallFreeP rest
/-- The same for the parameters of a template. -/
def GoodD : VPars → Prop
  | .nil => True
  | .cons _ v rest => GoodV v ∧ GoodD rest
end

/-- The same for a template. -/
def GoodT (t : VTempl) : Prop := GoodD t.params ∧ Goods t.body

/-- `p` has lower import precedence than `q`. -/
abbrev Lower := Verif.Spec.XsltTemplates.Lower

end Verif.Spec.XsltVariables
