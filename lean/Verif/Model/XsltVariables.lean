import Verif.Model.XsltTemplates
set_option autoImplicit false
/-!
# Variables and parameters: include/XSLT/impl/xslt_variable_stack.hpp,
# include/XSLT/impl/xslt_execution_context.hpp, include/XSLT/impl/xslt_with_param.hpp

Values are strings. Source nodes are left out: `xsl:apply-templates` is the list of the templates its
nodes select.
-/
namespace Verif.Xslt

/-- A name, in Clark notation if it is in a namespace. -/
abbrev VName := List Char

/-- The part of XPath that matters: literals, variable references, and something that combines. -/
inductive Expr where
  | lit (s : List Char)
  | ref (n : VName)
  | concat (a b : Expr)

mutual
/-- The instructions that matter. -/
inductive VIns where
  /-- `xsl:value-of` and everything else that uses an expression -/
  | valueOf (e : Expr)
  /-- `xsl:variable` -/
  | variable (n : VName) (v : VVal)
  /-- an instruction that runs its content in a `ChainStackFrame`: `xsl:if` (xslt_if.hpp line 28), `xsl:choose`
  (xslt_choose.hpp line 79), `xsl:for-each` (xslt_for_each.hpp line 48), `xsl:element` (xslt_element.hpp line
  59), literal elements (xslt_inline_element.hpp line 78), `xsl:attribute` (xslt_attribute.hpp line 58) -/
  | framed (body : VInss)
  /-- an instruction that does not: `xsl:copy` (xslt_copy.hpp), `xsl:comment` (xslt_comment.hpp),
  `xsl:processing-instruction` (xslt_processing_instruction.hpp), `xsl:message` (xslt_message.hpp) -/
  | unframed (body : VInss)
  /-- `xsl:call-template`, or `xsl:apply-templates` with the template for each node -/
  | invoke (templates : List VName) (params : VPars)
/-- A sequence of instructions. -/
inductive VInss where
  | nil
  | cons (i : VIns) (rest : VInss)
/-- What gives a variable its value: a select attribute or content. -/
inductive VVal where
  | select (e : Expr)
  | content (b : VInss)
/-- `xsl:param` or `xsl:with-param` elements. -/
inductive VPars where
  | nil
  | cons (n : VName) (v : VVal) (rest : VPars)
end

/-- A template: `xsl:param` elements come first (handler/xslt_template_handler.hpp lines 96-120). -/
structure VTempl where
  params : VPars
  body : VInss

/-- `VariableClosure`, xslt_execution_context.hpp lines 137-184. The closure keeps a copy of the context it
was made in, so that its value does not depend on when it is asked for; the model computes it at once,
`none` if asking throws (or does not end). -/
structure Inst where
  prec : List Int
  value : Option (List Char)
deriving DecidableEq

/-- `Scope`, xslt_variable_stack.hpp line 20. -/
abbrev VScope := List (VName × Inst)

/-- `VariableStack`, lines 45-207; the top of each stack is the head. `resolutionStack_` is modelled in
`Verif.Model.XsltGlobals`: variables of templates are evaluated when they are declared. -/
structure VStack where
  stack : List VScope
  params : List VScope
deriving DecidableEq

/-- The constructor, lines 53-59. -/
def VStack.start : VStack := ⟨[[]], [[], []]⟩

/-- `pushScope`, lines 67-71. -/
def pushScope (s : VStack) : VStack := ⟨[] :: s.stack, [] :: s.params⟩

/-- `chainScope`, lines 73-77. -/
def chainScope (s : VStack) : VStack := ⟨s.stack.headD [] :: s.stack, s.params.headD [] :: s.params⟩

/-- `popScope`, lines 79-83. -/
def popScope (s : VStack) : VStack := ⟨s.stack.tail, s.params.tail⟩

/-- Change the top of a stack. -/
def onTop (f : VScope → VScope) : List VScope → List VScope
  | [] => []
  | x :: l => f x :: l

/-- Change the bottom of a stack. -/
def onBottom (f : VScope → VScope) : List VScope → List VScope
  | [] => []
  | [x] => [f x]
  | x :: y :: l => x :: onBottom f (y :: l)

/-- `m[k] = v`. -/
def put (n : VName) (i : Inst) (m : VScope) : VScope := upd n i (fun _ => i) m

/-- `m.erase(k)`. -/
def eraseName (n : VName) : VScope → VScope
  | [] => []
  | e :: m => if e.1 = n then m else e :: eraseName n m

/-- `topLevelParam`, lines 85-88. -/
def topLevelParam (n : VName) (i : Inst) (s : VStack) : VStack := { s with params := onBottom (put n i) s.params }

/-- `passParam`, lines 90-99. -/
def passParam (n : VName) (i : Inst) (s : VStack) : Option VStack :=
  match get n (s.params.headD []) with
  | some _ => none
  | none => some { s with params := onTop (put n i) s.params }

/-- `unpassParam`, lines 101-104. -/
def unpassParam (n : VName) (s : VStack) : VStack := { s with params := onTop (eraseName n) s.params }

/-- `declareVariable`, lines 121-140; `none` if it throws. -/
def declareVariable (n : VName) (i : Inst) (s : VStack) : Option VStack :=
  let set : Option VStack :=
    if i.prec = frozenPrecedence.prec ∧ i.value = none then none
    else some { s with stack := onTop (put n i) s.stack }
  match get n (s.stack.headD []) with
  | none => set
  | some c =>
    if i.prec = c.prec then none
    else if isDescendant c.prec i.prec then some s
    else if precGt c.prec i.prec then some s
    else set

/-- The search of `findPassedParam`, lines 106-114: one below the top. -/
def findPassed (n : VName) (s : VStack) : Option Inst := get n (s.params.tail.headD [])

/-- `ExecutionContext::declareParam`, xslt_execution_context.hpp lines 207-212. -/
def declareParam (n : VName) (i : Inst) (s : VStack) : Option VStack :=
  match findPassed n s with
  | some p => declareVariable n p s
  | none => declareVariable n i s

/-- `resolveVariable`, lines 155-175. -/
def resolve (n : VName) (s : VStack) : Option (List Char) :=
  match get n (s.stack.headD []) with
  | some i => i.value
  | none =>
    match get n (s.stack.getLastD []) with
    | some i => i.value
    | none => none

/-- Evaluate an expression; `none` if it throws. -/
def evalExpr (s : VStack) : Expr → Option (List Char)
  | .lit t => some t
  | .ref n => resolve n s
  | .concat a b =>
    match evalExpr s a, evalExpr s b with
    | some x, some y => some (x ++ y)
    | _, _ => none

/-- `unpassParams`, xslt_with_param.hpp lines 73-77. -/
def unpassAll : VPars → VStack → VStack
  | .nil, s => s
  | .cons n _ rest, s => unpassAll rest (unpassParam n s)

/-- Run templates one after the other, `applyTemplates` of xslt_compiled_stylesheet.hpp lines 183-194. -/
def invokeEach (app : VName → VStack → Option (List Char × VStack)) : List VName → VStack →
    Option (List Char × VStack)
  | [], s => some ([], s)
  | t :: ts, s =>
    match app t s with
    | none => none
    | some (o, s) => (invokeEach app ts s).map fun r => (o ++ r.1, r.2)

mutual
/-- Run an instruction: the text written and the variables after it. `app` runs a template. `none` if it
throws. -/
def runV (app : VName → VStack → Option (List Char × VStack)) : VIns → VStack → Option (List Char × VStack)
  | .valueOf e, s => (evalExpr s e).map fun t => (t, s)
  | .variable n v, s => (declareVariable n ⟨frozenPrecedence.prec, valueV app v s⟩ s).map fun s => ([], s)
  | .framed b, s => (runVs app b (chainScope s)).map fun r => (r.1, popScope r.2)
  | .unframed b, s => runVs app b s
  | .invoke ts ps, s =>
    match passV app ps s with
    | none => none
    | some s => (invokeEach app ts s).map fun r => (r.1, unpassAll ps r.2)
/-- Run a sequence. -/
def runVs (app : VName → VStack → Option (List Char × VStack)) : VInss → VStack → Option (List Char × VStack)
  | .nil, s => some ([], s)
  | .cons i rest, s =>
    match runV app i s with
    | none => none
    | some (o, s) => (runVs app rest s).map fun r => (o ++ r.1, r.2)
/-- `Variable_impl::value`, xslt_variable_impl.hpp lines 40-57, on a copy of the context. -/
def valueV (app : VName → VStack → Option (List Char × VStack)) : VVal → VStack → Option (List Char)
  | .select e, s => evalExpr s e
  | .content b, s => (runVs app b s).map Prod.fst
/-- `passParams`, xslt_with_param.hpp lines 66-71. -/
def passV (app : VName → VStack → Option (List Char × VStack)) : VPars → VStack → Option VStack
  | .nil, s => some s
  | .cons n v rest, s =>
    match passParam n ⟨frozenPrecedence.prec, valueV app v s⟩ s with
    | none => none
    | some s => passV app rest s
end

/-- The `xsl:param` elements of a template. -/
def declareParams (app : VName → VStack → Option (List Char × VStack)) : VPars → VStack → Option VStack
  | .nil, s => some s
  | .cons n v rest, s =>
    match declareParam n ⟨frozenPrecedence.prec, valueV app v s⟩ s with
    | none => none
    | some s => declareParams app rest s

/-- `callTemplate`, xslt_compiled_stylesheet.hpp lines 213-227, and the part of `doApplyTemplates` that
runs a rule, lines 240 and 259. The first argument bounds the depth of the recursion. -/
def callV (ts : VName → Option VTempl) : Nat → VName → VStack → Option (List Char × VStack)
  | 0, _, _ => none
  | n + 1, name, s =>
    match ts name with
    | none => none
    | some t =>
      match declareParams (callV ts n) t.params (pushScope s) with
      | none => none
      | some s => (runVs (callV ts n) t.body s).map fun r => (r.1, popScope r.2)

/-- A top-level `xsl:variable` or `xsl:param`. -/
structure TopDecl where
  isParam : Bool
  name : VName
  inst : Inst

/-- The declarations of `CompiledStylesheet::execute`, xslt_compiled_stylesheet.hpp lines 110-111. -/
def declareTop : List TopDecl → VStack → Option VStack
  | [], s => some s
  | d :: ds, s =>
    match (if d.isParam then declareParam d.name d.inst s else declareVariable d.name d.inst s) with
    | none => none
    | some s => declareTop ds s

/-- `set_parameter` and lines 108-109: the value has the precedence of the main stylesheet
(xslt_top_level_param.hpp line 39). -/
def setParams : List (VName × List Char) → VStack → VStack
  | [], s => s
  | p :: ps, s => setParams ps (topLevelParam p.1 ⟨initialPrecedence.prec, some p.2⟩ s)

end Verif.Xslt
