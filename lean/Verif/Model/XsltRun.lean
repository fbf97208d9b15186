import Verif.Model.XPathEval
import Verif.Model.XsltOutput
import Verif.Model.XsltSort
set_option autoImplicit false
/-!
# Running a stylesheet: include/XSLT/impl/xslt_compiled_stylesheet.hpp and the instructions next to it

Simplifications: expressions are given as compiled (C75 is about their text); which template rule is for a node in a mode
is any function (`Stylesheet.rule`; C45 and C57 are about the search);
names of elements and attributes are fixed, not computed; variables and parameters have a `select`, no content; there is
no `xsl:number`, `xsl:message`, `xsl:apply-imports` (C57) nor `disable-output-escaping`.
-/
namespace Verif.XsltRun
open Verif.XTree Verif.XPath Verif.XPathEval
open Verif.XPathParse (Expr)
open Verif.Xslt (Out Instr Instrs startElement endElement startAttribute endAttribute addAttribute characters
  startComment endComment startPI endPI Key stableSort)

/-- The name of a variable: namespace and local name, for the Clark names of xslt_variable_stack.hpp lines 180-188. -/
abbrev VName := Str × Str

/-- A literal attribute: its name, its namespace and its value template, `InlineAttribute`, xslt_inline_element.hpp lines
12-51. -/
structure Attribute where
  pfx : Str
  loc : Str
  uri : Str
  value : Expr

/-- The `xsl:with-param`s of an instruction, or the `xsl:param`s of a template, with their `select`. -/
abbrev Params := List (VName × Expr)

/-- An `xsl:sort`: `Sort`, xslt_sort.hpp lines 17-30. The language is not used. -/
structure SortKey where
  select : Expr
  dataType : Expr
  order : Expr
  caseOrder : Expr

mutual

/-- Instructions. -/
inductive Item where
  /-- literal text and `xsl:text`: xslt_text.hpp -/
  | text (s : Str)
  /-- `xsl:value-of`: xslt_value_of.hpp lines 22-32 -/
  | valueOf (select : Expr)
  /-- `xsl:value-of` with `current()`: xslt_functions.hpp lines 142-170 -/
  | valueOfCurrent
  /-- `xsl:if`: xslt_if.hpp -/
  | ifThen (test : Expr) (body : Items)
  /-- `xsl:choose`: xslt_choose.hpp -/
  | choose (whens : Whens)
  /-- `xsl:for-each`: xslt_for_each.hpp -/
  | forEach (select : Expr) (sorts : List SortKey) (body : Items)
  /-- `xsl:apply-templates`: xslt_apply_templates.hpp -/
  | applyTemplates (select : Option Expr) (sorts : List SortKey) (mode : Str) (params : Params)
  /-- `xsl:call-template`: xslt_call_template.hpp -/
  | callTemplate (name : VName) (params : Params)
  /-- `xsl:variable`: xslt_variable.hpp -/
  | variable (name : VName) (select : Expr)
  /-- a literal element, `InlineElement`, xslt_inline_element.hpp lines 53-94, and without attributes `xsl:element`,
  xslt_element.hpp -/
  | element (pfx loc uri : Str) (attrs : List Attribute) (body : Items)
  /-- `xsl:attribute`: xslt_attribute.hpp -/
  | attribute (pfx loc uri : Str) (body : Items)
  /-- `xsl:comment`: xslt_comment.hpp -/
  | comment (body : Items)
  /-- `xsl:processing-instruction`: xslt_processing_instruction.hpp -/
  | pi (target : Str) (body : Items)
  /-- `xsl:copy`: xslt_copy.hpp lines 68-98 -/
  | copy (body : Items)
  /-- `xsl:copy-of`: xslt_copy.hpp lines 100-145 -/
  | copyOf (select : Expr)

/-- The content of an instruction, `ItemContainer`, xslt_item.hpp lines 24-58. -/
inductive Items where
  | nil
  | cons (i : Item) (rest : Items)

/-- The `xsl:when`s of an `xsl:choose` and the content of its `xsl:otherwise`, which may be none. -/
inductive Whens where
  | otherwise (body : Items)
  | when (test : Expr) (body : Items) (rest : Whens)

end

/-- A template: xslt_template.hpp. -/
structure Template where
  params : Params
  body : Items

/-- `xsl:variable` and `xsl:param` at the top level, with their `select`: xslt_variable.hpp and xslt_param.hpp. -/
structure Global where
  param : Bool
  name : VName
  value : Expr

/-- What there is to run. -/
structure Stylesheet where
  rule : Str → XN → Option Template
  named : VName → Option Template
  globals : List Global
  cdata : List (Str × Str)

/-- `ExecutionContext`, xslt_execution_context.hpp lines 105-120 and xpath_execution_context.hpp lines 43-47, with the
`VariableStack`, xslt_variable_stack.hpp lines 203-206; the top of each stack is the head. A parameter that is passed is
evaluated when it is declared, but in a copy of the context it was passed in (xslt_execution_context.hpp lines 157-160),
so that the model evaluates it at once and keeps what comes of it. Variables too are evaluated only when they are first
used, in a copy of the context (`VariableClosure`, lines 140-160); the model evaluates them at once, so that an error in one
that is never used stops the model but not the library. -/
structure St where
  current : XN
  position : Int
  last : Int
  stack : List (List (VName × XVal))
  params : List (List (VName × Ev XVal))
  out : Out

/-! ## The variable stack, xslt_variable_stack.hpp -/

/-- `pushScope`, lines 68-72. -/
def St.push (st : St) : St := { st with stack := [] :: st.stack, params := [] :: st.params }

/-- `chainScope`, lines 74-78. -/
def St.chain (st : St) : St :=
  { st with stack := st.stack.headD [] :: st.stack, params := st.params.headD [] :: st.params }

/-- `popScope`, lines 80-84. -/
def St.pop (st : St) : St := { st with stack := st.stack.tail, params := st.params.tail }

/-- `passParam`, lines 91-100. -/
def St.passParam (n : VName) (v : Ev XVal) (st : St) : Ev St :=
  if ((st.params.headD []).lookup n).isSome then .throws
  else .val { st with params := ((n, v) :: st.params.headD []) :: st.params.tail }

/-- `unpassParam`, lines 102-105. -/
def St.unpassParam (n : VName) (st : St) : St :=
  { st with params := (st.params.headD []).filter (fun p => p.1 ≠ n) :: st.params.tail }

/-- `declareVariable`, lines 122-142, of variables that all have the precedence of a running stylesheet. -/
def St.declareVariable (n : VName) (v : Ev XVal) (st : St) : Ev St :=
  if ((st.stack.headD []).lookup n).isSome then .throws
  else v.bind fun m => .val { st with stack := ((n, m) :: st.stack.headD []) :: st.stack.tail }

/-- `declareParam`, xslt_execution_context.hpp lines 195-199, with `findPassedParam`, lines 107-115, which looks one below
the top. -/
def St.declareParam (n : VName) (v : Ev XVal) (st : St) : Ev St :=
  match (st.params.tail.headD []).lookup n with
  | some p => st.declareVariable n p
  | none => st.declareVariable n v

/-- `resolveVariable`, lines 158-178: in the top scope, then in the bottom one. -/
def St.resolve (st : St) (n : VName) : Option XVal :=
  match (st.stack.headD []).lookup n with
  | some v => some v
  | none => (st.stack.getLastD []).lookup n

/-- `setPosition`, xslt_execution_context.hpp lines 91-96. -/
def St.setPosition (x : XN) (i : Int) (st : St) : St := { st with current := x, position := i }

/-! ## Copies, xslt_copy.hpp -/

/-- The name of an attribute, `getNodeName`, as prefix and rest. -/
def nodeName (d : Data) : Str × Str := (d.pfx, if d.pfx = [] then d.name else d.loc)

mutual

/-- `Copy_base::copy`, lines 26-61, for `CopyOf`. Documents and fragments have no attributes. -/
def copyTree : Tree → Out → Out
  | .node d as ks, o =>
    match d.kind with
    | .attribute => addAttribute o d.uri d.loc (nodeName d) d.value
    | .comment => endComment (characters (startComment o) d.value)
    | .document | .fragment => copyTrees ks o
    | .element =>
      if (startElement o d.pfx d.loc d.uri).1 then
        endElement (copyTrees ks (copyTrees as (startElement o d.pfx d.loc d.uri).2)) d.loc d.uri
      else (startElement o d.pfx d.loc d.uri).2
    | .pi => endPI (characters (startPI o d.name) d.value)
    | .text | .cdata => characters o d.value
    | _ => o

/-- The loops of `CopyOf::process_content`, lines 128-140. -/
def copyTrees : List Tree → Out → Out
  | [], o => o
  | t :: ts, o => copyTrees ts (copyTree t o)

end

/-! ## Instructions -/

/-- A loop over nodes with their positions: xslt_for_each.hpp lines 45-50, xslt_compiled_stylesheet.hpp lines 191-196
and 203-207. -/
def eachNode (step : XN → Int → St → Ev St) : List XN → Int → St → Ev St
  | [], _, st => .val st
  | y :: ys, i, st => (step y i st).bind fun st => eachNode step ys (i + 1) st

/-- `LastFrame`, xslt_execution_context.hpp lines 251-277. -/
def withLast (k : Int) (g : St → Ev St) (st : St) : Ev St :=
  (g { st with last := k }).bind fun st' => .val { st' with last := st.last }

/-- What to run for a node: the template rule of a mode, or a template by name. -/
inductive Target where
  | rule (mode : Str)
  | named (name : VName)

section
variable (E : Env) (fuel : Nat)

/-- The environment of XPath with the variables of the stack. -/
def envOf (st : St) : Env := { E with vars := fun u n => st.resolve (u, n) }

/-- `evaluate(node, context.xpathContext())`. -/
def value (e : Expr) (x : XN) (st : St) : Ev XVal := eval (envOf E st) fuel e x st.position st.last

/-- `evaluateAsString`. -/
def stringFor (e : Expr) (x : XN) (st : St) : Ev Str := evaluateAsString (envOf E st) fuel e x st.position st.last

/-- `evaluateAsNumber`. -/
def numberFor (e : Expr) (x : XN) (st : St) : Ev Num := evaluateAsNumber (envOf E st) fuel e x st.position st.last

/-- `evaluateAsBool`. -/
def boolFor (e : Expr) (x : XN) (st : St) : Ev Bool := evaluateAsBool (envOf E st) fuel e x st.position st.last

/-- `getChildNodes`. -/
def childNodes (x : XN) : List XN :=
  (List.range (kidsOf (E.w.tree x.1) x.2).length).map fun i => (x.1, .child i :: x.2)

/-- `passParams`, xslt_with_param.hpp lines 27-31 and 65-70. -/
def passParams : Params → XN → St → Ev St
  | [], _, st => .val st
  | p :: ps, x, st => (st.passParam p.1 (value E fuel p.2 x st)).bind fun st => passParams ps x st

/-- `unpassParams`, xslt_with_param.hpp lines 33-36 and 72-76. -/
def unpassParams : Params → St → St
  | [], st => st
  | p :: ps, st => unpassParams ps (st.unpassParam p.1)

/-- The parameters of a template are declared, xslt_param.hpp lines 28-31. -/
def declareParams : Params → XN → St → Ev St
  | [], _, st => .val st
  | p :: ps, x, st => (st.declareParam p.1 (value E fuel p.2 x st)).bind fun st => declareParams ps x st

/-- `Sortable::sort` without an `xsl:sort`, xslt_sort.hpp lines 198-203. -/
def inDocumentOrder (ns : NodeSet) : List XN :=
  if ns.sorted && ns.forward then ns.nodes else (ns.toDocumentOrder E.srt).nodes

/-- A sort key when `set_context` has chosen its `sort_fn_`. -/
structure Chosen where
  select : Expr
  number : Bool
  ascending : Bool

/-- `set_context`, xslt_sort.hpp lines 38-65, of a sort and its sub sorts, with `validate`, lines 81-90. -/
def setContext : List SortKey → XN → St → Ev (List Chosen)
  | [], _, _ => .val []
  | s :: ss, x, st =>
    (stringFor E fuel s.dataType x st).bind fun d =>
      (stringFor E fuel s.order x st).bind fun o =>
        (stringFor E fuel s.caseOrder x st).bind fun c =>
          if (d = "text".toList ∨ d = "number".toList) ∧ (o = "ascending".toList ∨ o = "descending".toList) ∧
              (c = "upper-first".toList ∨ c = "lower-first".toList) then
            (setContext ss x st).bind fun r => .val (⟨s.select, d = "number".toList, o = "ascending".toList⟩ :: r)
          else .throws

/-- `grabAsString` and `grabAsNumber`, lines 151-160, for all keys of a node: it is the current node, and its position
is 1. -/
def grab : List Chosen → XN → St → Ev (List (Num × Str))
  | [], _, _ => .val []
  | k :: ks, y, st =>
    (if k.number then (numberFor E fuel k.select y (st.setPosition y 1)).bind fun q => .val (q, [])
      else (stringFor E fuel k.select y (st.setPosition y 1)).bind fun s => .val (.nan, s)).bind fun v =>
      (grab ks y st).bind fun r => .val (v :: r)

def grabAll (ks : List Chosen) : List XN → St → Ev (List (XN × List (Num × Str)))
  | [], _ => .val []
  | y :: ys, st => (grab E fuel ks y st).bind fun v => (grabAll ks ys st).bind fun r => .val ((y, v) :: r)

/-- The keys that look into what has been grabbed. -/
def grabbed : List Chosen → Nat → List (Key (XN × List (Num × Str)))
  | [], _ => []
  | k :: ks, j =>
    ⟨k.number, k.ascending, fun a => (a.2.getD j (.nan, [])).1, fun a => (a.2.getD j (.nan, [])).2⟩ :: grabbed ks (j + 1)

/-- `Sortable::sort` with an `xsl:sort`, lines 205-206. Simplification: all keys of all nodes are evaluated, before the
nodes are sorted; the library evaluates them whenever it compares two nodes, and those it never compares not at all. What
the keys leave behind as current node and position is set anew for each node that is processed. -/
def sortNodes (sorts : List SortKey) (x : XN) (nodes : List XN) (st : St) : Ev (List XN) :=
  (setContext E fuel sorts x st).bind fun ks =>
    (grabAll E fuel ks nodes st).bind fun l => .val ((stableSort (grabbed ks 0) l).map (·.1))

/-- `Sortable::sort`, lines 194-207. -/
def sortSet (sorts : List SortKey) (x : XN) (ns : NodeSet) (st : St) : Ev (List XN) :=
  match sorts with
  | [] => .val (inDocumentOrder E ns)
  | _ :: _ => sortNodes E fuel sorts x ns.nodes st

variable (app : Target → XN → St → Ev St)

/-- `applyTemplates`, xslt_compiled_stylesheet.hpp lines 187-208. -/
def applyNodes (mode : Str) (nodes : List XN) (st : St) : Ev St :=
  withLast nodes.length (eachNode (fun y i st => app (.rule mode) y (st.setPosition y i)) nodes 1) st

/-- The attributes of a literal element, xslt_inline_element.hpp lines 40-45 and 75-76. -/
def runAttributes : List Attribute → XN → St → Ev St
  | [], _, st => .val st
  | a :: as, x, st =>
    (stringFor E fuel a.value x { st with out := startAttribute st.out a.pfx a.loc a.uri }).bind fun s =>
      runAttributes as x { st with out := endAttribute (characters (startAttribute st.out a.pfx a.loc a.uri) s) }

/-- `ApplyTemplates::execute`, xslt_apply_templates.hpp lines 31-55, after the parameters have been passed. -/
def runApply (select : Option Expr) (sorts : List SortKey) (mode : Str) (x : XN) (st : St) : Ev St :=
  match select with
  | none =>
    match sorts with
    | [] => if (childNodes E x).isEmpty then .val st else applyNodes app mode (childNodes E x) st
    | _ :: _ => (sortNodes E fuel sorts x (childNodes E x) st).bind fun l => applyNodes app mode l st
  | some e => (value E fuel e x st).bind fun v =>
    match v with
    | .nodes ns => (sortSet E fuel sorts x ns st).bind fun l => applyNodes app mode l st
    | _ => .throws

/-- `CopyOf::execute`, xslt_copy.hpp lines 112-125. -/
def runCopyOf (e : Expr) (x : XN) (st : St) : Ev St :=
  (value E fuel e x st).bind fun v =>
    match v with
    | .nodes ns => .val { st with out := copyTrees (ns.nodes.filterMap fun y => sub (E.w.tree y.1) y.2) st.out }
    | v => (v.string E fuel).bind fun s => .val { st with out := characters st.out s }

/-- `Copy::execute`, xslt_copy.hpp lines 26-61 and 83-92; `content` runs what is in the `xsl:copy`. -/
def runCopy (content : St → Ev St) (x : XN) (st : St) : Ev St :=
  match sub (E.w.tree x.1) x.2 with
  | none => .undefined
  | some n =>
    match n.kind with
    | .attribute => .val { st with out := addAttribute st.out n.data.uri n.data.loc (nodeName n.data) n.data.value }
    | .comment => .val { st with out := endComment (characters (startComment st.out) n.data.value) }
    | .document | .fragment => content st
    | .element =>
      if (startElement st.out n.data.pfx n.data.loc n.data.uri).1 then
        (content { st with out := (startElement st.out n.data.pfx n.data.loc n.data.uri).2 }).bind fun st =>
          .val { st with out := endElement st.out n.data.loc n.data.uri }
      else .val { st with out := (startElement st.out n.data.pfx n.data.loc n.data.uri).2 }
    | .pi => .val { st with out := endPI (characters (startPI st.out n.data.name) n.data.value) }
    | .text | .cdata => .val { st with out := characters st.out n.data.value }
    | _ => .val st

mutual

/-- `execute` of an instruction for the node `x`. -/
def runItem : Item → XN → St → Ev St
  | .text s, _, st => .val { st with out := characters st.out s }
  | .valueOf e, x, st => (stringFor E fuel e x st).bind fun s => .val { st with out := characters st.out s }
  | .valueOfCurrent, _, st => (stringOf E fuel st.current).bind fun s => .val { st with out := characters st.out s }
  | .ifThen t body, x, st =>
    (boolFor E fuel t x st.chain).bind fun b =>
      if b then (runItems body x st.chain).bind fun st => .val st.pop else .val st.chain.pop
  | .choose ws, x, st => (runWhens ws x st.chain).bind fun st => .val st.pop
  | .forEach e sorts body, x, st =>
    (value E fuel e x st).bind fun v =>
      match v with
      | .nodes ns =>
        (sortSet E fuel sorts x ns st).bind fun l =>
          withLast l.length
            (eachNode (fun y i st => (runItems body y (st.chain.setPosition y i)).bind fun st => .val st.pop) l 1) st
      | _ => .throws
  | .applyTemplates select sorts mode ps, x, st =>
    (passParams E fuel ps x st).bind fun st =>
      (runApply E fuel app select sorts mode x st).bind fun st => .val (unpassParams ps st)
  | .callTemplate name ps, x, st =>
    (passParams E fuel ps x st).bind fun st =>
      (app (.named name) x st).bind fun st => .val (unpassParams ps st)
  | .variable n e, x, st => st.declareVariable n (value E fuel e x st)
  | .element p l u as body, x, st =>
    if (startElement st.out p l u).1 then
      (runAttributes E fuel as x { st with out := (startElement st.out p l u).2 }).bind fun st =>
        (runItems body x st.chain).bind fun st => .val { st.pop with out := endElement st.out l u }
    else .val { st with out := (startElement st.out p l u).2 }
  | .attribute p l u body, x, st =>
    (runItems body x { st.chain with out := startAttribute st.out p l u }).bind fun st =>
      .val { st.pop with out := endAttribute st.out }
  | .comment body, x, st =>
    (runItems body x { st with out := startComment st.out }).bind fun st => .val { st with out := endComment st.out }
  | .pi t body, x, st =>
    (runItems body x { st with out := startPI st.out t }).bind fun st => .val { st with out := endPI st.out }
  | .copy body, x, st => runCopy E (fun st => runItems body x st) x st
  | .copyOf e, x, st => runCopyOf E fuel e x st

/-- `execute_children`, xslt_item.hpp lines 35-39. -/
def runItems : Items → XN → St → Ev St
  | .nil, _, st => .val st
  | .cons i rest, x, st => (runItem i x st).bind fun st => runItems rest x st

/-- The loop of `Choose::execute`, xslt_choose.hpp lines 80-88. -/
def runWhens : Whens → XN → St → Ev St
  | .otherwise body, x, st => runItems body x st
  | .when t body rest, x, st =>
    (boolFor E fuel t x st).bind fun b => if b then runItems body x st else runWhens rest x st

end

/-- `Template::execute`, xslt_template.hpp lines 55-58. -/
def runTemplate (t : Template) (x : XN) (st : St) : Ev St :=
  (declareParams E fuel t.params x st).bind fun st => runItems E fuel app t.body x st

/-- `defaultAction`, xslt_compiled_stylesheet.hpp lines 273-303. -/
def defaultAction (mode : Str) (x : XN) (st : St) : Ev St :=
  match sub (E.w.tree x.1) x.2 with
  | none => .undefined
  | some n =>
    match n.kind with
    | .document | .fragment | .element => applyNodes app mode (childNodes E x) st
    | .attribute | .text | .cdata => .val { st with out := characters st.out n.data.value }
    | _ => .val st

end

section
variable (E : Env) (P : Stylesheet) (fuel : Nat)

/-- `doApplyTemplates`, lines 239-271, and `callTemplate`, lines 218-232. The first number bounds the depth of calls. -/
def invoke : Nat → Target → XN → St → Ev St
  | 0, _, _, _ => .more
  | n + 1, .rule mode, x, st =>
    (match P.rule mode x with
      | some t => runTemplate E fuel (invoke n) t x st.push
      | none => defaultAction E (invoke n) mode x st.push).bind fun st => .val st.pop
  | n + 1, .named name, x, st =>
    (match P.named name with
      | some t => runTemplate E fuel (invoke n) t x st.push
      | none => .throws).bind fun st => .val st.pop

end

/-! ## Global variables and parameters -/

/-- A value given with `set_parameter`, lines 70-85. -/
inductive Argument where
  | bool (b : Bool)
  | num (n : Num)
  | str (s : Str)

def Argument.value : Argument → XVal
  | .bool b => .bool b
  | .num n => .num n
  | .str s => .str s

/-- `VariableClosure`, xslt_execution_context.hpp lines 123-173, in the global scope: that of a declaration or that of a
`TopLevelParam`, xslt_top_level_param.hpp. -/
inductive Closure where
  | declared (e : Expr)
  | given (a : Argument)

/-- `Variable::execute` and `Param::execute` at the top level, with `declareParam`, xslt_execution_context.hpp lines
194-199, and `findPassedParam`, xslt_variable_stack.hpp lines 106-114: what `topLevelParam` has put last in the first scope
of `params_` takes the place of the declaration of a parameter. -/
def closureOf (given : List (VName × Argument)) (g : Global) : Closure :=
  if g.param then
    match given.reverse.lookup g.name with
    | some a => .given a
    | none => .declared g.value
  else .declared g.value

/-- The declarations one after the other, `execute` lines 108-111; `declareVariable`, xslt_variable_stack.hpp lines
121-141, throws for a name that is there. Simplification: all have the same import precedence (C57). -/
def declareGlobals (given : List (VName × Argument)) :
    List Global → List (VName × Closure) → Option (List (VName × Closure))
  | [], sc => some sc
  | g :: gs, sc =>
    if (sc.lookup g.name).isSome then none else declareGlobals given gs ((g.name, closureOf given g) :: sc)

def valueOf? : Ev XVal → Option XVal
  | .val v => some v
  | _ => none

section
variable (E : Env) (fuel : Nat) (x : XN) (sc : List (VName × Closure))

/-- `VariableClosure::value`, xslt_execution_context.hpp lines 140-145, and `resolveVariable`, xslt_variable_stack.hpp lines
157-178, in the context of a closure, which has the global scope only, a `resolutionStack_` of its own and the position and
size of a new context. `active` has the entries of all those stacks, with their closures. The first number bounds the
depth. Simplification: values are not kept but made again; what fails, fails as an unbound variable. -/
def resolve : Nat → List (VName × VName) → VName → Ev XVal
  | 0, _, _ => .more
  | n + 1, active, name =>
    match sc.lookup name with
    | none => .throws
    | some (.given a) => .val a.value
    | some (.declared e) =>
      eval { E with vars := fun u m =>
        if (name, (u, m)) ∈ active then none else valueOf? (resolve n ((name, (u, m)) :: active) (u, m)) } fuel e x (-1) (-1)

/-- `freezeTopLevel`, xslt_variable_stack.hpp lines 143-150: all are evaluated. Simplification: not in the order of their
names, which can only change which exception is thrown. -/
def freezeTopLevel : List (VName × Closure) → Ev (List (VName × XVal))
  | [] => .val []
  | (n, _) :: rest =>
    (resolve E fuel x sc fuel [] n).bind fun v => (freezeTopLevel rest).bind fun vs => .val ((n, v) :: vs)

end

section
variable (E : Env) (P : Stylesheet) (fuel : Nat) (given : List (VName × Argument))

/-- The state before `applyTemplates` in `execute`, with the position and size of a new context. -/
def initial (vars : List (VName × XVal)) (x : XN) : St :=
  { current := x, position := -1, last := -1, stack := [vars],
    params := [[], given.reverse.map fun p => (p.1, .val p.2.value)], out := { cdata := P.cdata } }

/-- `execute`, lines 97-118, of a stylesheet for a node, with the parameters that have been set: what has been written. -/
def transformDocument (x : XN) : Ev Out :=
  match declareGlobals given P.globals [] with
  | none => .throws
  | some sc =>
    (freezeTopLevel E fuel x sc sc).bind fun vars =>
      (applyNodes (invoke E P fuel fuel) [] [x] (initial P given vars x)).bind fun st => .val st.out

end

end Verif.XsltRun
