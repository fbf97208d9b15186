import Verif.Model.XsltCompile
import Verif.Model.XsltRun
import Verif.Model.XPathTemplate
import Verif.Model.XPathMatch
import Verif.Model.XsltTemplates
import Verif.Model.Names
set_option autoImplicit false
/-!
# From a stylesheet document to a result: how the parts of the processor fit together

The compiler of C79 with the parsers of C70, C71 and C76 and the names of C10 in it; the compiled instructions as those
C78 runs; and the search for a template rule among the compiled patterns.

Simplifications: only what C78 runs is taken further (`load`): no `xsl:apply-imports`, `xsl:message`,
`disable-output-escaping`, content of variables or keys, and the names in `xsl:element`,
`xsl:attribute` and `xsl:processing-instruction` are constant. There is one stylesheet, with no imports (C57).
-/
namespace Verif.XsltProcess
open Verif.XTree (World XN Pred)
open Verif.XPathEval (Env Ev)
open Verif.XPathParse (Expr Step compileExpr compileTemplate)
open Verif.XPathMatch (MatchExpr compileMatch)
open Verif.XsltCompile (Str Scope Event Ext Ns SortBy Code Sheet)
open Verif.XsltRun (VName Params Attribute SortKey Item Items Whens Template Global Argument Stylesheet
  transformDocument)
open Verif.Xslt (Out sortBy)

/-! ## Compiling expressions -/

/-- `CompilationContext::namespaceURI`, xpath_compile_context.hpp lines 38-44: a prefix that is not bound, or bound to
nothing, is an error. -/
def prefixes (sc : Scope) (p : Str) : Option Str :=
  match sc.lookup p with
  | some (c :: u) => some (c :: u)
  | _ => none

/-- What an expression has to be looked up for: a function with so many arguments, or a variable. -/
inductive Use where
  | call (uri name : Str) (args : Nat)
  | var
deriving DecidableEq

mutual

/-- All that is looked up: `createFunction`, xpath_function_holder.hpp lines 140-166, and `createVariable`,
xpath_variable.hpp, are called while the expression is compiled. -/
def uses : Expr → List Use
  | .number _ | .string _ => []
  | .var _ _ => [.var]
  | .call u n args => .call u n args.length :: usesAll args
  | .binary _ a b => uses a ++ uses b
  | .negative e => uses e
  | .path _ ss => usesSteps ss

def usesAll : List Expr → List Use
  | [] => []
  | e :: es => uses e ++ usesAll es

def usesStep : Step → List Use
  | .test _ _ ps => usesAll ps
  | .expr e ps => uses e ++ usesAll ps

def usesSteps : List Step → List Use
  | [] => []
  | s :: ss => usesStep s ++ usesSteps ss

end

/-- `StandardXPathFunctionResolver`, xpath_function_holder.hpp lines 72-106, and the numbers of arguments each function
takes, xpath_function.hpp lines 163-713 (`XPathFunction`, lines 20-32, throws for any other number). -/
def standard : List (Str × Nat × Option Nat) :=
  [("position".toList, 0, some 0), ("last".toList, 0, some 0), ("count".toList, 1, some 1),
   ("local-name".toList, 0, some 1), ("namespace-uri".toList, 0, some 1), ("name".toList, 0, some 1),
   ("string".toList, 0, some 1), ("concat".toList, 2, none), ("starts-with".toList, 2, some 2),
   ("contains".toList, 2, some 2), ("substring-before".toList, 2, some 2), ("substring-after".toList, 2, some 2),
   ("substring".toList, 2, some 3), ("string-length".toList, 0, some 1), ("normalize-space".toList, 0, some 1),
   ("translate".toList, 3, some 3), ("boolean".toList, 1, some 1), ("not".toList, 1, some 1),
   ("true".toList, 0, some 0), ("false".toList, 0, some 0), ("number".toList, 0, some 1), ("sum".toList, 1, some 1),
   ("floor".toList, 1, some 1), ("ceiling".toList, 1, some 1), ("round".toList, 1, some 1)]

/-- The look up succeeds: `resolveFunction` and `compileVariable`, xslt_compilation_context.hpp lines 193-243.
Simplification: of the functions of XSLT there is only `current`. -/
def allowed (cur vars : Bool) : Use → Bool
  | .call u n k =>
    u.isEmpty && (standard.any (fun f => f.1 = n && f.2.1 ≤ k && (match f.2.2 with | none => true | some m => k ≤ m)) ||
      (cur && n = "current".toList && k = 0))
  | .var => vars

/-- An expression the parser has made, with the functions and variables in it looked up. -/
def checked (cur vars : Bool) : Verif.XPathParse.Res Expr → Option Expr
  | .ok e => if (uses e).all (allowed cur vars) then some e else none
  | .error _ => none

/-- The characters of a string as the functions of XML/strings.hpp see them. -/
def codes (s : Str) : List Int := s.map fun c => (c.toNat : Int)

/-- A name cut at its first colon. -/
def splitName (s : Str) : Str × Str :=
  match s.dropWhile (· ≠ ':') with
  | [] => ([], s)
  | _ :: l => (s.takeWhile (· ≠ ':'), l)

/-- `processInternalQName`, xslt_stylesheet_parser.hpp lines 60-65 and 89-94, with `parseQName`, XML/QName.hpp lines
64-86: an unprefixed name is in no namespace, a prefix must be bound. -/
def qualified (sc : Scope) (s : Str) : Option VName :=
  if Verif.Names.isQName (codes s) then
    if (splitName s).1 = [] then some ([], s)
    else (prefixes sc (splitName s).1).map fun u => (u, (splitName s).2)
  else none

section
/- The functions that give numbers, for patterns, and `lexical_cast<double>`. -/
variable (fnNum : Str → Str → Bool) (num : Str → Option Rat)

/-- `xpath_expression`, `xpath_match`, `xpath_attribute_value_template` and their variants,
xslt_compilation_context.hpp lines 65-91. Simplification: the functions in patterns are not looked up. -/
def library : Ext Expr (List MatchExpr) VName Rat where
  expr cur vars sc s := checked cur vars (compileExpr (prefixes sc) s)
  avt cur sc s := checked cur true (compileTemplate (prefixes sc) s)
  pattern _ sc s :=
    match compileMatch (prefixes sc) fnNum s with
    | .ok ms => some ms
    | .error _ => none
  name := qualified
  priority := num

end

/-! ## Compiled instructions as C78 runs them -/

/-- `select` and content of a variable or parameter, `Variable_impl::value`, xslt_variable_impl.hpp lines 36-56: with
neither it is the empty string. Simplification: no content. -/
def loadValue : Option Expr → List (Code Expr VName) → Option Expr
  | some e, _ => some e
  | none, [] => some (.string [])
  | none, _ :: _ => none

def loadParams : List (VName × Option Expr × List (Code Expr VName)) → Option Params
  | [] => some []
  | (n, e, b) :: ps => do
    let v ← loadValue e b
    let r ← loadParams ps
    some ((n, v) :: r)

/-- A template that is only text. -/
def constant : Expr → Option Str
  | .string s => some s
  | _ => none

/-- The mode as it is kept, a Clark name (C10): xslt_template.hpp, xslt_apply_templates.hpp. -/
def modeName : Option VName → Str
  | none => []
  | some (u, l) => if u = [] then l else '{' :: u ++ '}' :: l

/-- `Element::execute`, xslt_element.hpp lines 38-62: the namespace of the element. The map has an entry for the empty
prefix, `NamespaceSupport::getDeclaredPrefixes`. -/
def elementUri (p : Str) : Ns Expr → Option Str
  | .avt e => constant e
  | .scope sc => if p = [] then some ((sc.lookup []).getD []) else sc.lookup p

/-- `Attribute::execute`, xslt_attribute.hpp lines 34-60. -/
def attributeUri (p : Str) : Ns Expr → Option Str
  | .avt e => constant e
  | .scope sc => if p = [] then some [] else sc.lookup p

/-- `validate_name`, xslt_processing_instruction.hpp lines 37-66. -/
def validTarget (s : Str) : Bool :=
  Verif.Names.isNCName (codes s) &&
    !(match s with
      | [a, b, c] => (a = 'X' || a = 'x') && (b = 'M' || b = 'm') && (c = 'L' || c = 'l')
      | _ => false)

def loadAttributes (as : List (Str × Str × Expr)) : List Attribute :=
  as.map fun a => ⟨(splitName a.1).1, (splitName a.1).2, a.2.1, a.2.2⟩

/-- `Sort`, xslt_sort.hpp lines 20-26. The language is never set (xslt_sort_handler.hpp lines 46-53). -/
def loadSorts (ss : List (SortBy Expr)) : List SortKey :=
  ss.map fun s => ⟨s.select, s.dataType, s.order, s.caseOrder⟩

/-- `current()` and nothing else. -/
def isCurrent : Expr → Bool
  | .call [] n [] => n = "current".toList
  | _ => false

mutual

/-- An instruction. `none` if it is not one of those C78 runs, or if it would throw whenever it is run. -/
def load : Code Expr VName → Option Item
  | .text s raw => if raw then none else some (.text s)
  | .valueOf e raw => if raw then none else if isCurrent e then some .valueOfCurrent else some (.valueOf e)
  | .copyOf e => some (.copyOf e)
  | .applyImports => none
  | .applyTemplates e m sorts ps => do
    let r ← loadParams ps
    some (.applyTemplates e (loadSorts sorts) (modeName m) r)
  | .callTemplate n ps => do
    let r ← loadParams ps
    some (.callTemplate n r)
  | .choose ws none => do
    let r ← loadWhens .nil ws
    some (.choose r)
  | .choose ws (some o) => do
    let b ← loadAll o
    let r ← loadWhens b ws
    some (.choose r)
  | .ifThen e b => do
    let r ← loadAll b
    some (.ifThen e r)
  | .forEach e sorts b => do
    let r ← loadAll b
    some (.forEach e (loadSorts sorts) r)
  | .message _ _ => none
  | .comment b => do
    let r ← loadAll b
    some (.comment r)
  | .procInst n b => do
    let t ← constant n
    let r ← loadAll b
    if validTarget t then some (.pi t r) else none
  | .copy b => do
    let r ← loadAll b
    some (.copy r)
  | .variable n e b => do
    let v ← loadValue e b
    some (.variable n v)
  | .param _ _ _ => none
  | .element n ns b => do
    let t ← constant n
    let u ← elementUri (splitName t).1 ns
    let r ← loadAll b
    if Verif.Names.isQName (codes t) then some (.element (splitName t).1 (splitName t).2 u [] r) else none
  | .attribute n ns b => do
    let t ← constant n
    let u ← attributeUri (splitName t).1 ns
    let r ← loadAll b
    if t = [] then none else some (.attribute (splitName t).1 (splitName t).2 u r)
  | .literal qn u as b => do
    let r ← loadAll b
    some (.element (splitName qn).1 (splitName qn).2 u (loadAttributes as) r)

/-- `ItemContainer`, xslt_item.hpp lines 24-58. -/
def loadAll : List (Code Expr VName) → Option Items
  | [] => some .nil
  | c :: cs => do
    let i ← load c
    let r ← loadAll cs
    some (.cons i r)

/-- The branches of `Choose`, xslt_choose.hpp, and the content of `xsl:otherwise`. -/
def loadWhens (o : Items) : List (Expr × List (Code Expr VName)) → Option Whens
  | [] => some (.otherwise o)
  | (e, b) :: ws => do
    let i ← loadAll b
    let r ← loadWhens o ws
    some (.when e i r)

end

/-- `Template`: its parameters are its first instructions, xslt_template.hpp lines 51-60. -/
def loadTemplate : List (Code Expr VName) → Option Template
  | .param n e b :: cs => do
    let v ← loadValue e b
    let r ← loadTemplate cs
    some ⟨(n, v) :: r.params, r.body⟩
  | cs => do
    let r ← loadAll cs
    some ⟨[], r⟩

/-- `add_variable`, xslt_compiled_stylesheet.hpp lines 152-155: the variables and parameters outside templates. -/
def loadGlobals : List (Code Expr VName) → Option (List Global)
  | [] => some []
  | .variable n e b :: cs => do
    let v ← loadValue e b
    let r ← loadGlobals cs
    some (⟨false, n, v⟩ :: r)
  | .param n e b :: cs => do
    let v ← loadValue e b
    let r ← loadGlobals cs
    some (⟨true, n, v⟩ :: r)
  | _ :: _ => none

/-! ## Template rules -/

/-- `MatchTemplate`, xslt_compiled_stylesheet.hpp lines 312-337, and the mode it is kept under. -/
structure Rule where
  mode : Str
  pat : MatchExpr
  priority : Rat
  action : Template

/-- A template of the stylesheet, with its name and its rules. -/
structure Loaded where
  name : Option VName
  rules : List Rule
  action : Template

/-- The constructor of `Template`, xslt_template.hpp lines 32-49: a priority overrides that of all patterns. -/
def loadRule (t : Verif.XsltCompile.Template Expr (List MatchExpr) VName Rat) : Option Loaded := do
  let a ← loadTemplate t.body
  some ⟨t.name, (t.pat.getD []).map fun m => ⟨modeName t.mode, m, t.priority.getD m.priority, a⟩, a⟩

def loadRules : List (Verif.XsltCompile.Template Expr (List MatchExpr) VName Rat) → Option (List Loaded)
  | [] => some []
  | t :: ts => do
    let l ← loadRule t
    let r ← loadRules ts
    some (l :: r)

section
variable (E : Env) (ev : Expr → Pred) (fuel : Nat)

/-- Whether the pattern of a rule matches. -/
def Rule.hit (x : XN) (r : Rule) : Bool :=
  match r.pat.evaluate E.w ev E.srt fuel x with
  | .done b => b
  | _ => false

/-- `prepare`, xslt_compiled_stylesheet.hpp lines 171-180: the later rules first, then a stable sort by priority. -/
def prepareRules (rs : List Rule) : List Rule :=
  sortBy (fun a b => !decide (b.priority > a.priority)) rs.reverse

/-- `doApplyTemplates`, lines 239-271, with the lists `add_template` makes, lines 123-131; and `callTemplate`, lines
218-232. -/
def sheetOf (ls : List Loaded) (gs : List Global) : Stylesheet where
  rule mode x := ((prepareRules ((ls.flatMap (·.rules)).filter fun r => r.mode = mode)).find? (Rule.hit E ev fuel x)).map
    (·.action)
  named n := (ls.find? fun l => l.name = some n).map (·.action)
  globals := gs
  cdata := []

/-- `XSLT::Processor`: a stylesheet document, as events, compiled and executed for a node, with the
parameters the caller has set. `none` if the document is not
compiled, or has something in it that is not modelled. -/
def process (fnNum : Str → Str → Bool) (num : Str → Option Rat) (doc : List Event)
    (given : List (VName × Argument)) (x : XN) : Option (Ev Out) := do
  let sh ← Verif.XsltCompile.compile (library fnNum num) doc
  let ls ← loadRules sh.templates
  let gs ← loadGlobals sh.globals
  if sh.keys.isEmpty then some (transformDocument E (sheetOf E ev fuel ls gs) fuel given x) else none

end

end Verif.XsltProcess
