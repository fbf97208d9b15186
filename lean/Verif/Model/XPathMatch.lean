import Verif.Model.XPathParse
import Verif.Model.XPathPath
set_option autoImplicit false
/-!
# Match patterns: include/XPath/impl/xpath_grammar.hpp lines 338-393, include/XPath/impl/xpath_parser.hpp lines 780-1003,
# include/XPath/impl/xpath_match.hpp and include/XPath/impl/xpath_match_rewrite.hpp
-/
namespace Verif.XPathMatch
open Verif.XPathParse
open Verif.XTree (PathStep Pred World XN Outcome)

/-! ## the grammar -/

/-- `IdKeyPattern`, xpath_grammar.hpp lines 360-361. Simplification: the words `id` and `key`, which have no rule of
their own, are given the id of this one. -/
def idKeyPattern : P :=
  rule .idKeyPattern (alt
    (seq (lit .idKeyPattern "id".toList) (seq leftBracket (seq (discard space) (seq literal (seq (discard space)
      rightBracket)))))
    (seq (lit .idKeyPattern "key".toList) (seq leftBracket (seq (discard space) (seq literal (seq (discard space)
      (seq (discard (lit .idKeyPattern ",".toList)) (seq (discard space) (seq literal (seq (discard space)
        rightBracket))))))))))

/-- `ChildOrAttributeAxisSpecifier`, line 372: never more than one node. -/
def patternAxis : P :=
  alt (seq (alt (lit .child "child".toList) (lit .attribute "attribute".toList))
      (discard (lit .axisSpecifier "::".toList)))
    (opt (lit .abbreviatedAxisSpecifier "@".toList))

/-- `NodeMatchPattern`, line 374. -/
def nodeMatchPattern : P := lit .nodeMatchPattern "node()".toList

section
/- `E` is the rule `Expr`. -/
variable (E : P)

/-- `StepPattern`, line 369. -/
def stepPattern : P :=
  rule .stepPattern (seq patternAxis (seq (alt nodeMatchPattern nodeTest) (many (predicate E))))

/-- A step after another, line 366. -/
def nextPattern : P := seq (alt slashSlash slash) (stepPattern E)

/-- `RelativePathPattern`, line 366. -/
def relativePathPattern : P := rule .relativePathPattern (seq (stepPattern E) (many (nextPattern E)))

/-- `LocationPathPattern`, lines 354-356. -/
def locationPathPattern : P :=
  rule .locationPathPattern (alt (seq idKeyPattern (opt (seq (alt slashSlash slash) (relativePathPattern E))))
    (alt (seq (opt slashSlash) (relativePathPattern E)) (seq slash (opt (relativePathPattern E)))))

/-- A further alternative, line 349. -/
def nextAlternative : P :=
  seq (lit .unionOperator "|".toList) (seq (discard space) (seq (locationPathPattern E) (discard space)))

/-- `Pattern`, line 349. -/
def pattern : P :=
  rule .pattern (seq (discard space) (seq (locationPathPattern E) (seq (discard space) (many (nextAlternative E)))))

end

/-- `parse_xpath_match`, xpath_parser.hpp lines 183-187, and the test of `full` in `do_compile`. -/
def parseMatch (s : Str) : Option Tree :=
  match pattern (expr s.length) s with
  | some ([t], []) => some t
  | _ => none

/-! ## steps -/

/-- A predicate of a step of a pattern: as written, or a `ReplacementExpression`, xpath_match_rewrite.hpp lines 9-40. -/
inductive MPred where
  | expr (e : Expr)
  | among (test : Verif.XTree.NodeTest) (preds : List MPred)

/-- A `TestStepExpression` of a pattern. -/
structure MStep where
  axis : Verif.XTree.Axis
  test : Verif.XTree.NodeTest
  preds : List MPred := []

/-- The node tests as classes of xpath_node_test.hpp. -/
def nodeTestOf : Test → Verif.XTree.NodeTest
  | .any => .any
  | .node => .node
  | .root => .root
  | .comment => .comment
  | .text => .text
  | .pi none => .processingInstruction []
  | .pi (some t) => .processingInstruction t
  | .star attr => if attr then .attributeNode else .star
  | .qStar attr u => if attr then .attributeQStar u else .qstar u
  | .name attr n => if attr then .attributeName n else .name n
  | .qName attr u n => if attr then .attributeQName u n else .qname u n
  | .fail => .fail

/-- `getPatternAxis`, xpath_parser.hpp lines 900-919, of the nodes after `from`; none for `static_cast<Axis>(-1)`. -/
def getPatternAxis : List Tree → Option Verif.XTree.Axis
  | [] => some .self
  | t :: ts =>
    if t.id = .predicate then getPatternAxis ts
    else if t.id = .slashSlash then some .ancestorOrSelf
    else if t.id = .abbreviatedAxisSpecifier ∨ t.id = .attribute then none
    else some .parent

section
variable (ns : Str → Option Str)

section
/- `C` is `compile_expression`. -/
variable (C : List Tree → Res Expr)

/-- `createStep` with an axis, xpath_step.hpp lines 214-232: the step and the nodes after it. An expression in place
of a test cannot come up: the grammar gives none but `IdKeyPattern`, which `compile_expression` does not know. An axis
of -1, which `AxisEnumerator` would refuse, cannot come up either. -/
def createStepAt (axis : Option Verif.XTree.Axis) (attr : Bool) (ts : List Tree) : Res (MStep × List Tree) := do
  let (test, ts) ← getTest ns attr ts
  match test with
  | some x =>
    let (ps, ts) ← predicates C ts
    match axis with
    | some a => .ok (⟨a, nodeTestOf x, ps.map .expr⟩, ts)
    | none => .error .undefined
  | none =>
    let _ ← C ts
    .error .undefined

/-- The `switch` at the start of `createPatternList` and `createStepsFromPattern`, lines 932-939 and
991-998. -/
def startOf : List Tree → List MStep → List Tree × List MStep
  | [], acc => ([], acc)
  | t :: ts, acc =>
    if t.id = .slash then (ts, ⟨.parent, .root, []⟩ :: acc)
    else if t.id = .slashSlash then (ts, acc)
    else (t :: ts, acc)

/-- The loop of `createStepsFromPattern`, lines 941-978; `R` is the function itself, for the nodes below, and the steps
so far are `acc`. Each round passes a node. -/
def stepsLoop (R : Option Verif.XTree.Axis → List Tree → List MStep → Res (List MStep))
    (override : Option Verif.XTree.Axis) : Nat → Bool → List Tree → List MStep → Res (List MStep)
  | 0, _, _, acc => .ok acc
  | _ + 1, _, [], acc => .ok acc
  | n + 1, attr, t :: ts, acc =>
    if t.id = .stepPattern then do
      let acc ← R (getPatternAxis ts) t.kids acc
      stepsLoop R override n attr ts acc
    else if t.id = .relativePathPattern then do
      let acc ← R none t.kids acc
      stepsLoop R override n attr ts acc
    else if t.id = .child ∨ t.id = .slash ∨ t.id = .slashSlash then stepsLoop R override n attr ts acc
    else if t.id = .abbreviatedAxisSpecifier ∨ t.id = .attribute then stepsLoop R override n true ts acc
    else do
      let (x, us) ← createStepAt ns C (override <|> getPatternAxis ts) attr (t :: ts)
      stepsLoop R override n attr us (x :: ⟨.self, if attr then .attributeNode else .notAttribute, []⟩ :: acc)

/-- `createStepsFromPattern`, lines 921-979, to a depth of nodes. -/
def stepsFrom : Nat → Option Verif.XTree.Axis → List Tree → List MStep → Res (List MStep)
  | 0, _, _, _ => .error .undefined
  | d + 1, override, ts, acc =>
    stepsLoop ns C (stepsFrom d) override (startOf ts acc).1.length false (startOf ts acc).1 (startOf ts acc).2

/-- `createPatternList`, lines 981-1003; a `LocationPathPattern` has a `RelativePathPattern` in it and that
`StepPattern`s, and no more. -/
def patternList (ts : List Tree) : Res (List MStep) :=
  stepsFrom ns C 3 none (startOf ts []).1 (startOf ts []).2

end

/-! ## priorities -/

/-- What `defaultPriority` looks at after a node. -/
def nextId (ts : List Tree) : Option Id :=
  match skipS ts with
  | [] => none
  | t :: _ => some t.id

/-- `defaultPriority`, lines 832-898, of the first of some nodes, to a depth of calls. Simplification: doubles that are
multiples of a quarter are rational numbers. -/
def defaultPriority : Nat → List Tree → Rat
  | 0, _ => 1 / 2
  | d + 1, ts =>
    match skipS ts with
    | [] => 1 / 2
    | t :: us =>
      match t.id with
      | .qName => 0
      | .ncName =>
        if nextId us = some .predicate then 1 / 2 else if nextId us = some .anyName then -1 / 4 else 0
      | .nodeTest =>
        if nextId t.kids = some .processingInstruction then 0
        else if nextId us = some .predicate then 1 / 2 else -1 / 2
      | .nodeMatchPattern | .anyName | .text | .comment | .processingInstruction =>
        if nextId us = some .predicate then 1 / 2 else -1 / 2
      | .nameTest | .stepPattern | .relativePathPattern =>
        if (t.kids.filter fun k => k.id ≠ .s).length ≤ 2 then defaultPriority d t.kids else 1 / 2
      | .child | .attribute | .abbreviatedAxisSpecifier =>
        if (t.kids.filter fun k => k.id ≠ .s).length = 0 then defaultPriority d us else 1 / 2
      | _ => 1 / 2

/-! ## rewriting -/

section
/- Which functions have the type `NUMBER`. -/
variable (fnNum : Str → Str → Bool)

/-- `type() == NUMBER`: xpath_value.hpp, xpath_arithmetic.hpp lines 16-30 and 85-100, xpath_function_holder.hpp; the
type of a variable is `ANY`. -/
def typeNumber : Expr → Bool
  | .number _ => true
  | .negative _ => true
  | .call u n _ => fnNum u n
  | .binary op _ _ =>
    match op with
    | .plus | .minus | .times | .div | .mod => true
    | _ => false
  | _ => false

/-- `PositionFnScanner`, xpath_match_rewrite.hpp lines 44-75, with `scan` of the expressions, xpath_expression.hpp: it
goes into the operands of operators and nothing else. -/
def scanPosition : Expr → Bool
  | .call u n _ => u.isEmpty && (n == "position".toList || n == "last".toList)
  | .binary _ a b => scanPosition a || scanPosition b
  | .negative e => scanPosition e
  | _ => false

/-- `should_rewrite`, lines 77-86. -/
def shouldRewrite : MPred → Bool
  | .expr e => typeNumber fnNum e || scanPosition e
  | .among _ _ => false

/-- The loop of the constructor of `MatchExpr`, lines 110-120: every round replaces a predicate that is to be
rewritten. -/
def rewriteLoop (test : Verif.XTree.NodeTest) : Nat → List MPred → List MPred
  | 0, ps => ps
  | n + 1, ps =>
    match ps.dropWhile fun p => !shouldRewrite fnNum p with
    | [] => ps
    | q :: post =>
      rewriteLoop test n (.among test ((ps.takeWhile fun p => !shouldRewrite fnNum p) ++ [q]) :: post)

/-- The constructor of `MatchExpr`, lines 89-122. -/
def rewriteSteps (steps : List MStep) : List MStep :=
  steps.map fun s => { s with preds := rewriteLoop fnNum s.test s.preds.length s.preds }

/-! ## compiling -/

/-- A `MatchExpr`, xpath_match.hpp lines 12-37. -/
structure MatchExpr where
  steps : List MStep
  priority : Rat

/-- `compile_match` with `match_factory`, xpath_parser.hpp lines 214-219 and 356-377, of an
alternative: `createDocMatch`, `createSingleMatchStep` and `createRelativePathPattern`, lines 780-802. Simplification: patterns with `id()` and `key()`
are not compiled. -/
def compileAlternative (C : List Tree → Res Expr) : List Tree → Res MatchExpr
  | [] => .error .undefined
  | t :: ts =>
    match t.id with
    | .slash => .ok ⟨rewriteSteps fnNum [⟨.self, .root, []⟩], defaultPriority 8 (t :: ts)⟩
    | .nameTest | .qName | .ncName | .nodeMatchPattern | .anyName | .text | .comment | .processingInstruction
    | .nodeTest => do
      let (test, _) ← getTest ns false (t :: ts)
      match test with
      | some x =>
        .ok ⟨rewriteSteps fnNum [⟨.self, .notAttribute, []⟩, ⟨.self, nodeTestOf x, []⟩], defaultPriority 8 (t :: ts)⟩
      | none => .error .undefined
    | .stepPattern | .locationPathPattern | .relativePathPattern => do
      let steps ← patternList ns C t.kids
      .ok ⟨rewriteSteps fnNum steps, defaultPriority 8 (t :: ts)⟩
    | _ => .error .unsupported

/-- `createAlternatePattern`, lines 804-819: between two alternatives is an operator. -/
def compileAlternatives (C : List Tree → Res Expr) : List Tree → Res (List MatchExpr)
  | [] => .error .undefined
  | [t] => do
    let m ← compileAlternative ns fnNum C [t]
    .ok [m]
  | t :: o :: ts => do
    let m ← compileAlternative ns fnNum C (t :: o :: ts)
    let ms ← compileAlternatives C ts
    .ok (m :: ms)

/-- `compile_match`, lines 94-98: one `MatchExpr` for each alternative. -/
def compileMatch (s : Str) : Res (List MatchExpr) :=
  match parseMatch s with
  | none => .error .syntax
  | some t =>
    if t.id = .pattern then compileAlternatives ns fnNum (compiler ns t.size).1 t.kids
    else compileAlternatives ns fnNum (compiler ns t.size).1 [t]

end

end

/-! ## matching -/

section
/- The values of expressions. -/
variable (w : World) (ev : Expr → Pred)

/-- `ReplacementExpression::evaluate`, xpath_match_rewrite.hpp lines 26-37, where the predicates have the values `ps`.
The axis of a null parent has no nodes. The children of a node come to an end, so there is always a list
(`among_done`). -/
def isAmong (test : Verif.XTree.NodeTest) (ps : List Pred) (x : XN) : Bool :=
  match Verif.XTree.parentNode x.2 with
  | none => false
  | some up =>
    match Verif.XTree.enumerateOver w ⟨.child, test, ps⟩ ((Verif.XTree.kidsOf (w.tree x.1) up).length + 1) {} (x.1, up) with
    | .done r => r.nodes.contains x
    | _ => false

mutual

/-- The value of a predicate. -/
def MPred.value : MPred → Pred
  | .expr e => ev e
  | .among test ps => fun x _ _ => .bool (isAmong w test (values ps) x)

def values : List MPred → List Pred
  | [] => []
  | p :: ps => p.value :: values ps

end

def MStep.step (s : MStep) : PathStep := ⟨s.axis, s.test, values w ev s.preds⟩

/-- `MatchExpr::evaluate`, xpath_match.hpp lines 22-26: whether the path selects anything. -/
def MatchExpr.evaluate (srt : List XN → List XN) (fuel : Nat) (m : MatchExpr) (x : XN) : Outcome Bool :=
  match Verif.XTree.relativePath w srt fuel (m.steps.map (MStep.step w ev)) x with
  | .done r => .done (!r.nodes.isEmpty)
  | .crash => .crash
  | .more => .more

end

end Verif.XPathMatch
