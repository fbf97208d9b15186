import Verif.Model.XPathMatch
import Verif.Model.XPathString
set_option autoImplicit false
/-!
# Evaluation of XPath expressions: include/XPath/impl/xpath_function.hpp, xpath_function_holder.hpp,
# xpath_arithmetic.hpp, xpath_logical.hpp, xpath_relational.hpp, xpath_union.hpp, xpath_value.hpp, xpath_step.hpp

Expressions are those `compileExpr` (xpath_parser.hpp) gives.
-/
namespace Verif.XPathEval
open Verif.XTree Verif.XPath
open Verif.XPathParse (Expr)
open Verif.XPathMatch (nodeTestOf)

/-- What an evaluation does: give a value, throw, or be undefined; `more` means that the enumerations need more
steps, or that a namespace axis, which is not modelled, is needed. -/
inductive Ev (α : Type) where
  | val (a : α)
  | throws
  | undefined
  | more
deriving DecidableEq, Repr

/-- One after the other. -/
def Ev.bind {α β : Type} : Ev α → (α → Ev β) → Ev β
  | .val a, f => f a
  | .throws, _ => .throws
  | .undefined, _ => .undefined
  | .more, _ => .more

/-- The result of an enumeration. -/
def Ev.ofOutcome {α : Type} : Outcome α → Ev α
  | .done a => .val a
  | .crash => .undefined
  | .more => .more

/-- A result that may be undefined. -/
def Ev.ofOption {α : Type} : Option α → Ev α
  | some a => .val a
  | none => .undefined

/-- A result of a string function. -/
def Ev.ofRes {α : Type} : Res α → Ev α
  | .val a => .val a
  | .outOfRange => .throws
  | .ub => .undefined

/-- `XPathValue`, xpath_value.hpp. -/
inductive XVal where
  | bool (b : Bool)
  | num (n : Num)
  | str (s : List Char)
  | nodes (ns : NodeSet)
deriving DecidableEq, Repr

/-- What is around an expression: the trees, `std::sort`, the conversions of the library, and the variables
(`VariableResolver`, xpath_variable_resolver.hpp; none: it throws). -/
structure Env where
  w : World
  srt : List XN → List XN
  cv : Conv
  vars : List Char → List Char → Option XVal

/-! ## Arithmetic -/

/-- `std::multiplies<double>`, xpath_arithmetic.hpp line 47, exact. -/
def mulNum : Num → Num → Num
  | .fin a, .fin b => .fin (a * b)
  | .nan, _ => .nan
  | _, .nan => .nan
  | .fin a, .pinf => if a = 0 then .nan else if a < 0 then .ninf else .pinf
  | .fin a, .ninf => if a = 0 then .nan else if a < 0 then .pinf else .ninf
  | .pinf, .fin b => if b = 0 then .nan else if b < 0 then .ninf else .pinf
  | .ninf, .fin b => if b = 0 then .nan else if b < 0 then .pinf else .ninf
  | .pinf, .pinf => .pinf
  | .ninf, .ninf => .pinf
  | .pinf, .ninf => .ninf
  | .ninf, .pinf => .ninf

/-- `std::divides<double>`, xpath_arithmetic.hpp line 55, exact. Simplification: a zero is a positive one. -/
def divNum : Num → Num → Num
  | .fin a, .fin b =>
    if b = 0 then (if a = 0 then .nan else if a < 0 then .ninf else .pinf) else .fin (a / b)
  | .nan, _ => .nan
  | _, .nan => .nan
  | .fin _, .pinf => .fin 0
  | .fin _, .ninf => .fin 0
  | .pinf, .fin b => if b < 0 then .ninf else .pinf
  | .ninf, .fin b => if b < 0 then .pinf else .ninf
  | .pinf, .pinf => .nan
  | .ninf, .ninf => .nan
  | .pinf, .ninf => .nan
  | .ninf, .pinf => .nan

/-! ## Conversions -/

variable (E : Env) (fuel : Nat)

/-- `nodeStringValue`, xpath_object.hpp lines 444-488. -/
def stringOf (x : XN) : Ev (List Char) :=
  (Ev.ofOutcome (nodeStringValue (E.w.tree x.1) x.2 fuel)).bind fun o =>
    match o with
    | some s => .val s
    | none => .throws

/-- The string values of some nodes. -/
def stringsOf : List XN → Ev (List (List Char))
  | [] => .val []
  | x :: xs => (stringOf E fuel x).bind fun s => (stringsOf xs).bind fun ss => .val (s :: ss)

/-- `asBool`, xpath_value.hpp lines 74, 100-105, 142, 173-176. -/
def XVal.isTrue : XVal → Bool
  | .bool b => b
  | .num n => if n.isNaN then false else !(n.eq (.fin 0))
  | .str s => !s.isEmpty
  | .nodes ns => !ns.nodes.isEmpty

/-- `asString`, lines 76, 107-116, 147, 181-186. -/
def XVal.string : XVal → Ev (List Char)
  | .bool b => .val (asString E.cv (.bool b))
  | .num n => .val (asString E.cv (.num n))
  | .str s => .val s
  | .nodes ns =>
    if ns.nodes.isEmpty then .val [] else (Ev.ofOption (ns.top E.srt).2).bind (stringOf E fuel)

/-- `asNumber`, lines 75, 106, 143-146, 177-180. -/
def XVal.number : XVal → Ev Num
  | .bool b => .val (asNumber E.cv (.bool b))
  | .num n => .val n
  | .str s => .val (E.cv.number s)
  | .nodes ns => (XVal.string E fuel (.nodes ns)).bind fun s => .val (E.cv.number s)

/-- `asNodeSet`, lines 77, 117, 148, 187-190: what is no node-set is an empty one. -/
def XVal.nodeSet : XVal → NodeSet
  | .nodes ns => ns
  | _ => {}

/-- The value for a comparison. Simplification: the string values of all nodes are taken first; this changes nothing
but where an exception comes from. -/
def XVal.value : XVal → Ev Value
  | .bool b => .val (.bool b)
  | .num n => .val (.num n)
  | .str s => .val (.str s)
  | .nodes ns => (stringsOf E fuel ns.nodes).bind fun l => .val (.nodes l)

/-! ## Functions -/

/-- The functions of `StandardXPathFunctionResolver`, xpath_function_holder.hpp lines 74-105. -/
inductive Fn where
  | last | position | count | localName | namespaceUri | name
  | string | concat | startsWith | contains | substringBefore | substringAfter | substring | stringLength
  | normalizeSpace | translate
  | boolean | not | true | false
  | number | sum | floor | ceiling | round
deriving DecidableEq, Repr

/-- The table of names, lines 74-105. -/
def functionTable : List (List Char × Fn) :=
  [("position".toList, .position), ("last".toList, .last), ("count".toList, .count), ("local-name".toList, .localName),
   ("namespace-uri".toList, .namespaceUri), ("name".toList, .name), ("string".toList, .string), ("concat".toList, .concat),
   ("starts-with".toList, .startsWith), ("contains".toList, .contains), ("substring-before".toList, .substringBefore),
   ("substring-after".toList, .substringAfter), ("substring".toList, .substring), ("string-length".toList, .stringLength),
   ("normalize-space".toList, .normalizeSpace), ("translate".toList, .translate), ("boolean".toList, .boolean),
   ("not".toList, .not), ("true".toList, .true), ("false".toList, .false), ("number".toList, .number), ("sum".toList, .sum),
   ("floor".toList, .floor), ("ceiling".toList, .ceiling), ("round".toList, .round)]

/-- `standardFunction` and `findFunction`, lines 42-69. -/
def standardFunction (n : List Char) : Option Fn := functionTable.lookup n

/-- The arguments of a function, where another number of them makes the constructor of `XPathFunction` throw,
xpath_function.hpp lines 21-28. -/
def noArgs {α : Type} (r : Ev α) : List (Ev XVal) → Ev α
  | [] => r
  | _ => .throws

def oneArg {α : Type} (f : Ev XVal → Ev α) : List (Ev XVal) → Ev α
  | [a] => f a
  | _ => .throws

def optArg {α : Type} (r : Ev α) (f : Ev XVal → Ev α) : List (Ev XVal) → Ev α
  | [] => r
  | [a] => f a
  | _ => .throws

def twoArgs {α : Type} (f : Ev XVal → Ev XVal → Ev α) : List (Ev XVal) → Ev α
  | [a, b] => f a b
  | _ => .throws

def threeArgs {α : Type} (f : Ev XVal → Ev XVal → Ev XVal → Ev α) : List (Ev XVal) → Ev α
  | [a, b, c] => f a b c
  | _ => .throws

/-- `argAsString`, lines 60-65. -/
def argString (a : Ev XVal) : Ev (List Char) := a.bind fun v => v.string E fuel

/-- `argAsNumber`, lines 53-58. -/
def argNumber (a : Ev XVal) : Ev Num := a.bind fun v => v.number E fuel

/-- `argAsNodeSet`, lines 67-72. -/
def argNodes (a : Ev XVal) : Ev NodeSet := a.bind fun v => .val v.nodeSet

/-- The strings of all arguments, lines 357-359. -/
def argStrings : List (Ev XVal) → Ev (List (List Char))
  | [] => .val []
  | a :: as => (argString E fuel a).bind fun s => (argStrings as).bind fun ss => .val (s :: ss)

/-- What a node says about itself. -/
def dataOf (x : XN) : Option Data := (sub (E.w.tree x.1) x.2).map Tree.data

/-- The node `LocalNameFn`, `NamespaceURIFn` and `NameFn` are about: lines 215-224, 255-264, 294-303. -/
def namedNode (x : XN) : List (Ev XVal) → Ev (Option Data) :=
  optArg (.val (dataOf E x)) fun a =>
    (argNodes a).bind fun ns =>
      if ns.nodes.isEmpty then .val none
      else (Ev.ofOption (ns.top E.srt).2).bind fun y => .val (dataOf E y)

/-- The `switch` of `LocalNameFn`, lines 226-237. Simplification: a node has a namespace if its name is not
empty. -/
def localNameOf : Option Data → List Char
  | some d =>
    if d.kind = .attribute ∨ d.kind = .element ∨ d.kind = .pi then (if d.uri.isEmpty then d.name else d.loc) else []
  | none => []

/-- That of `NamespaceURIFn`, lines 266-274. -/
def namespaceUriOf : Option Data → List Char
  | some d => if d.kind = .attribute ∨ d.kind = .element then d.uri else []
  | none => []

/-- That of `NameFn`, lines 305-316. -/
def nameOf : Option Data → List Char
  | some d => if d.kind = .attribute ∨ d.kind = .element ∨ d.kind = .pi then d.name else []
  | none => []

/-- The loop of `SumFn`, lines 656-658, with `nodeNumberValue`, xpath_object.hpp lines 490-494. -/
def sumLoop (sum : Num) : List XN → Ev Num
  | [] => .val sum
  | x :: xs => (stringOf E fuel x).bind fun s => sumLoop (sum.add (E.cv.number s)) xs

/-- `ConcatFn`, lines 345-361. -/
def concatCall : List (Ev XVal) → Ev (List Char)
  | a :: b :: rest => (argStrings E fuel (a :: b :: rest)).bind fun l => .val (concatFn l)
  | _ => .throws

/-- `SubstringFn`, lines 457-486. -/
def substringCall : List (Ev XVal) → Ev (List Char)
  | [a, b] => (argString E fuel a).bind fun s =>
      if s.isEmpty then .val []
      else (argNumber E fuel b).bind fun n => Ev.ofRes (substringFn s n none)
  | [a, b, c] => (argString E fuel a).bind fun s =>
      if s.isEmpty then .val []
      else (argNumber E fuel b).bind fun n => (argNumber E fuel c).bind fun l => Ev.ofRes (substringFn s n (some l))
  | _ => .throws

/-- Two strings. -/
def twoStrings {α : Type} (f : List Char → List Char → Ev α) : List (Ev XVal) → Ev α :=
  twoArgs fun a b => (argString E fuel a).bind fun s => (argString E fuel b).bind fun t => f s t

def Ev.bool (r : Ev Bool) : Ev XVal := r.bind fun b => .val (.bool b)
def Ev.num (r : Ev Num) : Ev XVal := r.bind fun b => .val (.num b)
def Ev.str (r : Ev (List Char)) : Ev XVal := r.bind fun b => .val (.str b)

/-- `evaluate` of the functions: xpath_function.hpp lines 165-698. An argument is evaluated where it is needed. -/
def callFn (x : XN) (i k : Int) (fn : Fn) (args : List (Ev XVal)) : Ev XVal :=
  match fn with
  | .last => Ev.num (noArgs (.val (.fin k)) args)
  | .position => Ev.num (noArgs (.val (.fin i)) args)
  | .count => Ev.num (oneArg (fun a => (argNodes a).bind fun ns => .val (.fin ns.nodes.length)) args)
  | .localName => Ev.str ((namedNode E x args).bind fun d => .val (localNameOf d))
  | .namespaceUri => Ev.str ((namedNode E x args).bind fun d => .val (namespaceUriOf d))
  | .name => Ev.str ((namedNode E x args).bind fun d => .val (nameOf d))
  | .string => Ev.str (optArg (stringOf E fuel x) (argString E fuel) args)
  | .concat => Ev.str (concatCall E fuel args)
  | .startsWith => Ev.bool (twoStrings E fuel (fun s t => .val (startsWithFn s t)) args)
  | .contains => Ev.bool (twoStrings E fuel (fun s t => .val (containsFn s t)) args)
  | .substringBefore => Ev.str (twoStrings E fuel (fun s t => Ev.ofRes (substringBeforeFn s t)) args)
  | .substringAfter => Ev.str (twoStrings E fuel (fun s t => Ev.ofRes (substringAfterFn s t)) args)
  | .substring => Ev.str (substringCall E fuel args)
  | .stringLength =>
    Ev.num ((optArg (stringOf E fuel x) (argString E fuel) args).bind fun s => .val (stringLengthFn s))
  | .normalizeSpace =>
    Ev.str ((optArg (stringOf E fuel x) (argString E fuel) args).bind fun s => .val (normalizeSpaceFn s))
  | .translate =>
    Ev.str (threeArgs (fun a b c => (argString E fuel a).bind fun s => (argString E fuel b).bind fun f =>
      (argString E fuel c).bind fun t => .val (translateFn s f t)) args)
  | .boolean => Ev.bool (oneArg (fun a => a.bind fun v => .val v.isTrue) args)
  | .not => Ev.bool (oneArg (fun a => a.bind fun v => .val (!v.isTrue)) args)
  | .true => Ev.bool (noArgs (.val Bool.true) args)
  | .false => Ev.bool (noArgs (.val Bool.false) args)
  | .number =>
    Ev.num (optArg ((stringOf E fuel x).bind fun s => .val (E.cv.number s)) (argNumber E fuel) args)
  | .sum => Ev.num (oneArg (fun a => (argNodes a).bind fun ns => sumLoop E fuel (.fin 0) ns.nodes) args)
  | .floor => Ev.num (oneArg (fun a => (argNumber E fuel a).bind fun n => .val (floorFn n)) args)
  | .ceiling => Ev.num (oneArg (fun a => (argNumber E fuel a).bind fun n => .val (ceilingFn n)) args)
  | .round => Ev.num (oneArg (fun a => (argNumber E fuel a).bind fun n => .val (roundNumber n)) args)

/-! ## Operators -/

/-- `ArithmeticOperator::doEvaluateAsNumber`, xpath_arithmetic.hpp lines 24-29. Simplification: the left operand is
evaluated first; C++ leaves the order open, which can only change which exception is thrown. -/
def arith (f : Num → Num → Ev Num) (a b : Ev XVal) : Ev XVal :=
  Ev.num ((argNumber E fuel a).bind fun m => (argNumber E fuel b).bind fun n => f m n)

/-- The operators of xpath_relational.hpp lines 20-138. -/
def relation (f : Value → Value → Ev Bool) (a b : Ev XVal) : Ev XVal :=
  Ev.bool (a.bind fun u => b.bind fun v => (u.value E fuel).bind fun l => (v.value E fuel).bind fun r => f l r)

/-- `UnionExpression::evaluate`, xpath_union.hpp lines 28-52, of the values. -/
def unionValues : XVal → Ev XVal → Ev XVal
  | .nodes n1, b => b.bind fun v =>
    match v with
    | .nodes n2 => .val (.nodes (union E.srt n1 n2))
    | _ => .throws
  | _, _ => .throws

/-- `evaluate` of the operators; `OrOperator` and `AndOperator`, xpath_logical.hpp lines 44-55 and 69-80, evaluate the
right operand only if it is needed. -/
def binaryOp (op : Verif.XPathParse.Op) (a b : Ev XVal) : Ev XVal :=
  match op with
  | .or => Ev.bool (a.bind fun u => if u.isTrue then .val true else b.bind fun v => .val v.isTrue)
  | .and => Ev.bool (a.bind fun u => if u.isTrue then b.bind fun v => .val v.isTrue else .val false)
  | .eq => relation E fuel (fun l r => .val (areEqual E.cv l r)) a b
  | .ne => relation E fuel (fun l r => .val (areNotEqual E.cv l r)) a b
  | .lt => relation E fuel (fun l r => Ev.ofOption (isLessThan E.cv l r)) a b
  | .le => relation E fuel (fun l r => Ev.ofOption (isLessThanEquals E.cv l r)) a b
  | .gt => relation E fuel (fun l r => Ev.ofOption (isGreaterThan E.cv l r)) a b
  | .ge => relation E fuel (fun l r => Ev.ofOption (isGreaterThanEquals E.cv l r)) a b
  | .plus => arith E fuel (fun m n => .val (m.add n)) a b
  | .minus => arith E fuel (fun m n => .val (m.sub n)) a b
  | .times => arith E fuel (fun m n => .val (mulNum m n)) a b
  | .div => arith E fuel (fun m n => .val (divNum m n)) a b
  | .mod => arith E fuel (fun m n => Ev.ofOption (modulus m n)) a b
  | .union => a.bind fun u => unionValues E u b

/-! ## Steps -/

/-- The two tests of `applyPredicate`, xpath_step.hpp lines 68-71. -/
def keeps (position : Nat) (v : XVal) : Bool :=
  (match v with | .num n => n.eq (.fin position) | _ => true) && v.isTrue

/-- The loop of `applyPredicate`, lines 63-75, over the nodes from `position` on. Simplification: `position` does not
overflow. -/
def filterLoop (p : XN → Int → Int → Ev XVal) (size : Nat) : Nat → List XN → Ev (List XN)
  | _, [] => .val []
  | position, x :: xs =>
    (p x position size).bind fun v =>
      if keeps position v then (filterLoop p size (position + 1) xs).bind fun r => .val (x :: r)
      else filterLoop p size (position + 1) xs

/-- `applyPredicate`, lines 56-77. -/
def filterNodes (p : XN → Int → Int → Ev XVal) (ns : NodeSet) : Ev NodeSet :=
  (filterLoop p ns.nodes.length 1 ns.nodes).bind fun l => .val { nodes := l, forward := ns.isForward, sorted := false }

/-- `TestStepExpression::enumerateOver`, lines 129-156: the node-set `results` after it; `preds` is `applyPredicates`,
none if there are no predicates. -/
def stepFrom (axis : Axis) (test : NodeTest) (preds : Option (NodeSet → Ev NodeSet)) (results : NodeSet) (x : XN) :
    Ev NodeSet :=
  (Ev.ofOutcome (enumerate (E.w.tree x.1) x.2 axis fuel)).bind fun l =>
    let found := ((l.filter (test.at (E.w.tree x.1))).map fun r => (x.1, r))
    let results := results.setForward axis.forward
    match preds with
    | none => .val (found.foldl NodeSet.push results)
    | some ps =>
      (ps (found.foldl NodeSet.push { forward := axis.forward })).bind fun kept =>
        .val (results.insert results.nodes.length kept.nodes)

/-- The loop of `TestStepExpression::evaluate`, lines 121-125. -/
def stepOver (axis : Axis) (test : NodeTest) (preds : Option (NodeSet → Ev NodeSet)) : NodeSet → List XN → Ev NodeSet
  | results, [] => .val results
  | results, x :: xs => (stepFrom E fuel axis test preds results x).bind fun r => stepOver axis test preds r xs

/-- The axes of steps; the namespace axis is not modelled (`more`) but from no nodes. -/
def axisOf : Verif.XPathParse.Axis → Option Axis
  | .ancestor => some .ancestor
  | .ancestorOrSelf => some .ancestorOrSelf
  | .attribute => some .attribute
  | .child => some .child
  | .descendant => some .descendant
  | .descendantOrSelf => some .descendantOrSelf
  | .following => some .following
  | .followingSibling => some .followingSibling
  | .namespace => none
  | .parent => some .parent
  | .preceding => some .preceding
  | .precedingSibling => some .precedingSibling
  | .self => some .self

/-- Where an absolute path starts: `AbsoluteLocationPath::evaluate`, lines 559-569. -/
def rootOf (x : XN) : XN :=
  if kindOf (E.w.tree x.1) x.2 = some .document || kindOf (E.w.tree x.1) x.2 = some .fragment then x
  else (E.w.home x.1, [])

/-- `createFunction`, xpath_function_holder.hpp lines 139-166, and `FunctionHolder::evaluate`. Simplification: there are
no other functions (`FunctionResolver`), and the exceptions for an unknown function and for a wrong number of arguments
come when the call is evaluated instead of when it is compiled. -/
def callNamed (x : XN) (i k : Int) (u n : List Char) (args : List (Ev XVal)) : Ev XVal :=
  if u.isEmpty then
    match standardFunction n with
    | some fn => callFn E fuel x i k fn args
    | none => .throws
  else .throws

/-- A variable, xpath_variable.hpp lines 26-30. -/
def variableValue (u n : List Char) : Ev XVal :=
  match E.vars u n with
  | some v => .val v
  | none => .throws

mutual

/-- `evaluate` of an expression with the context node `x`, the context position `i` and the context size `k`; the
`boost::lexical_cast` of a number literal, xpath_parser.hpp lines 690-694, is taken to be `stringAsNumber`:
xpath_value.hpp lines 26-58 (literals and numbers), xpath_variable.hpp, xpath_function_holder.hpp lines 132-136,
xpath_arithmetic.hpp lines 86-102 (negation), and `RelativeLocationPath::evaluate`, xpath_step.hpp lines 528-542. -/
def eval : Expr → XN → Int → Int → Ev XVal
  | .number t, _, _, _ => .val (.num (E.cv.number t))
  | .string t, _, _, _ => .val (.str t)
  | .var u n, _, _, _ => variableValue E u n
  | .call u n args, x, i, k => callNamed E fuel x i k u n (evalArgs args x i k)
  | .binary op a b, x, i, k => binaryOp E fuel op (eval a x i k) (eval b x i k)
  | .negative a, x, i, k => Ev.num ((argNumber E fuel (eval a x i k)).bind fun n => .val n.neg)
  | .path absolute ss, x, i, k =>
    (evalSteps ss (NodeSet.push {} (if absolute then rootOf E x else x)) i k).bind fun ns =>
      .val (.nodes (ns.sort E.srt))

/-- The arguments of a function. -/
def evalArgs : List Expr → XN → Int → Int → List (Ev XVal)
  | [], _, _, _ => []
  | e :: es, x, i, k => eval e x i k :: evalArgs es x i k

/-- `applyPredicates`, xpath_step.hpp lines 47-54. -/
def evalPreds : List Expr → NodeSet → Ev NodeSet
  | [], ns => .val ns
  | p :: ps, ns =>
    if ns.nodes.isEmpty then .val ns
    else (filterNodes (fun x i k => eval p x i k) ns).bind fun r => evalPreds ps r

/-- `evaluate` of a step from a node-set: `TestStepExpression`, lines 114-127, and `ExprStepExpression`, lines
179-194. -/
def evalStep : Verif.XPathParse.Step → NodeSet → Int → Int → Ev NodeSet
  | .test a t ps, ns, _, _ =>
    match axisOf a with
    | some axis => stepOver E fuel axis (nodeTestOf t) (if ps.isEmpty then none else some fun m => evalPreds ps m) {} ns.nodes
    | none => if ns.nodes.isEmpty then .val {} else .more
  | .expr e ps, ns, i, k =>
    (Ev.ofOption (ns.top E.srt).2).bind fun c =>
      (eval e c i k).bind fun v =>
        if ps.isEmpty then .val v.nodeSet else evalPreds ps (v.nodeSet.toDocumentOrder E.srt)

/-- The loop of `RelativeLocationPath::evaluate`, lines 533-537. -/
def evalSteps : List Verif.XPathParse.Step → NodeSet → Int → Int → Ev NodeSet
  | [], ns, _, _ => .val ns
  | s :: ss, ns, i, k => (evalStep s ns i k).bind fun r => evalSteps ss r i k

end

/-! ## Results: xpath_expression.hpp lines 70-92, with an execution context -/

/-- `evaluateAsBool`, lines 73-77; the logical operators override it, xpath_logical.hpp, with the same value. -/
def evaluateAsBool (e : Expr) (x : XN) (i k : Int) : Ev Bool := (eval E fuel e x i k).bind fun v => .val v.isTrue

/-- `evaluateAsNumber`, lines 78-82; the arithmetic operators override it, xpath_arithmetic.hpp, with the same value. -/
def evaluateAsNumber (e : Expr) (x : XN) (i k : Int) : Ev Num := argNumber E fuel (eval E fuel e x i k)

/-- `evaluateAsString`, lines 83-87. -/
def evaluateAsString (e : Expr) (x : XN) (i k : Int) : Ev (List Char) := argString E fuel (eval E fuel e x i k)

/-- `evaluateAsNodeSet`, lines 88-92. -/
def evaluateAsNodeSet (e : Expr) (x : XN) (i k : Int) : Ev NodeSet := argNodes (eval E fuel e x i k)

/-- `evaluate` without an execution context, xpath_expression.hpp lines 49-52, with the position and the size of a new
`ExecutionContext`, xpath_execution_context.hpp lines 17-21. -/
def evaluateAlone (e : Expr) (x : XN) : Ev XVal := eval E fuel e x (-1) (-1)

end Verif.XPathEval
