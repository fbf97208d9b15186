set_option autoImplicit false
/-!
# include/XPath/impl/xpath_grammar.hpp, xpath_parser.hpp and xpath_step.hpp: from strings to XPath expressions

The grammar is written with Boost Spirit, of which this models what the grammar uses: alternatives are tried in order
and the first that matches is taken, `*` takes as much as it can, `a - b` matches what `a` does unless `b` matches as
much or more.  A match gives a list of nodes: a rule with more than one node below it makes a node of them, a rule with
one hands it on, and matches of the empty string give none when they are joined to others.
-/
namespace Verif.XPathParse

abbrev Str := List Char

/-- The ids of nodes, xpath_ast_ids.hpp, that occur in trees. -/
inductive Id where
  | s | ncName | qName | nameTest | anyName | node | text | comment | processingInstruction | nodeTest
  | ancestorOrSelf | ancestor | attribute | child | descendantOrSelf | descendant | followingSibling | following
  | namespace | parent | precedingSibling | preceding | self
  | axisSpecifier | abbreviatedAxisSpecifier | predicate | step | selfSelect | parentSelect
  | slash | slashSlash | leftSquare | rightSquare | leftBracket | rightBracket
  | relativeLocationPath | absoluteLocationPath | abbreviatedAbsoluteLocationPath
  | pathExpr | filterExpr | primaryExpr | functionCall | variableReference | number | digits | literal
  | orOperator | andOperator | equalsOperator | notEqualsOperator | lessThanEqualsOperator | greaterThanEqualsOperator
  | lessThanOperator | greaterThanOperator | plusOperator | minusOperator | multiplyOperator | divOperator | modOperator
  | unionOperator | unaryMinusOperator
  | orExpr | andExpr | equalityExpr | relationalExpr | additiveExpr | multiplicativeExpr | unaryExpr | unionExpr
  | pattern | locationPathPattern | idKeyPattern | relativePathPattern | stepPattern | nodeMatchPattern
  | attributeValueTemplate | doubleLeftCurly | doubleRightCurly | leftCurly | rightCurly | embeddedExpr | attrLiteral
  deriving DecidableEq, Repr

/-- A node of the parse tree with the characters it stands for, which are not kept where nobody looks at them. -/
inductive Tree where
  | node (id : Id) (text : Str) (kids : List Tree)
  deriving Repr

def Tree.id : Tree → Id
  | .node i _ _ => i

def Tree.chars : Tree → Str
  | .node _ t _ => t

def Tree.kids : Tree → List Tree
  | .node _ _ ks => ks

/-! ## Spirit -/

/-- A parser: the nodes and what is left. -/
abbrev P := Str → Option (List Tree × Str)

/-- `a >> b`. -/
def seq (a b : P) : P := fun s =>
  match a s with
  | none => none
  | some (ts, r) =>
    match b r with
    | none => none
    | some (us, r') => some (ts ++ us, r')

/-- `a | b`. -/
def alt (a b : P) : P := fun s =>
  match a s with
  | none => b s
  | x => x

/-- `!a`. -/
def opt (a : P) : P := fun s =>
  match a s with
  | none => some ([], s)
  | x => x

def manyN (a : P) : Nat → Str → List Tree × Str
  | 0, s => ([], s)
  | n + 1, s =>
    match a s with
    | none => ([], s)
    | some (ts, r) => (ts ++ (manyN a n r).1, (manyN a n r).2)

/-- `*a`; no `a` here matches the empty string, so there are no more matches than characters. -/
def many (a : P) : P := fun s => some (manyN a s.length s)

/-- `a - b`. -/
def minus (a b : P) : P := fun s =>
  match a s with
  | none => none
  | some (ts, r) =>
    match b s with
    | none => some (ts, r)
    | some (_, r') => if r.length < r'.length then some (ts, r) else none

/-- `discard_node_d[a]`. -/
def discard (a : P) : P := fun s =>
  match a s with
  | none => none
  | some (_, r) => some ([], r)

/-- A rule. -/
def group (id : Id) : List Tree → List Tree
  | [] => []
  | [t] => [t]
  | ts => [.node id [] ts]

def rule (id : Id) (a : P) : P := fun s =>
  match a s with
  | none => none
  | some (ts, r) => some (group id ts, r)

/-- A rule that is `str_p` or `ch_p`. -/
def lit (id : Id) (w : Str) : P := fun s =>
  if w.isPrefixOf s then some ([.node id w []], s.drop w.length) else none

/-! ## characters -/

/-- `space_p`. -/
def isSpace (c : Char) : Bool := c == ' ' || c == '\t' || c == '\n' || c == '\x0b' || c == '\x0c' || c == '\r'

/-- `alpha_p`, in the C locale. -/
def isAlpha (c : Char) : Bool := ('a' ≤ c && c ≤ 'z') || ('A' ≤ c && c ≤ 'Z')

/-- `digit_p`. -/
def isDigit (c : Char) : Bool := '0' ≤ c && c ≤ '9'

/-- xpath_grammar.hpp line 148. -/
def isNCNameChar (c : Char) : Bool := isAlpha c || isDigit c || c == '.' || c == '-' || c == '_'

/-! ## tokens -/

/-- `S`, line 143. -/
def space : P := fun s =>
  some ((match s.takeWhile isSpace with | [] => [] | w => [.node .s w []]), s.dropWhile isSpace)

/-- `NCName`, line 147. -/
def ncName : P
  | [] => none
  | c :: s =>
    if isAlpha c || c == '_' then some ([.node .ncName (c :: s.takeWhile isNCNameChar) []], s.dropWhile isNCNameChar)
    else none

/-- `QName`, lines 144-146. -/
def qName : P := rule .qName (seq (opt (seq ncName (discard (lit .qName [':'])))) ncName)

/-- `+digit_p`. -/
def digits : P := fun s =>
  match s.takeWhile isDigit with
  | [] => none
  | w => some ([.node .digits w []], s.dropWhile isDigit)

/-- `Number`, lines 126-127: alone, digits keep their own id. -/
def number : P := fun s =>
  match s with
  | [] => none
  | '.' :: s =>
    match s.takeWhile isDigit with
    | [] => none
    | w => some ([.node .number ('.' :: w) []], s.dropWhile isDigit)
  | s =>
    match s.takeWhile isDigit with
    | [] => none
    | w =>
      match s.dropWhile isDigit with
      | '.' :: r => some ([.node .number (w ++ '.' :: r.takeWhile isDigit) []], r.dropWhile isDigit)
      | r => some ([.node .digits w []], r)

/-- One of the alternatives of `Literal`. -/
def quoted (q : Char) : P
  | [] => none
  | c :: s =>
    if c = q then
      match s.dropWhile (· ≠ q) with
      | [] => none
      | _ :: r => some ([.node .literal (s.takeWhile (· ≠ q)) []], r)
    else none

/-- `Literal`, lines 124-125. -/
def literal : P := alt (quoted '"') (quoted '\'')

/-- Lines 151-152, 172-181. -/
def slash : P := lit .slash "/".toList
def slashSlash : P := lit .slashSlash "//".toList
def anyName : P := lit .anyName "*".toList
def leftSquare : P := lit .leftSquare "[".toList
def rightSquare : P := lit .rightSquare "]".toList
def leftBracket : P := lit .leftBracket "(".toList
def rightBracket : P := lit .rightBracket ")".toList

/-- `NodeType`, lines 137-140. -/
def nodeType : P :=
  alt (lit .comment "comment".toList) (alt (lit .text "text".toList)
    (alt (lit .processingInstruction "processing-instruction".toList) (lit .node "node".toList)))

/-- `AxisName`, lines 50-62. -/
def axisName : P :=
  alt (lit .ancestorOrSelf "ancestor-or-self".toList) (alt (lit .ancestor "ancestor".toList)
    (alt (lit .attribute "attribute".toList) (alt (lit .child "child".toList)
    (alt (lit .descendantOrSelf "descendant-or-self".toList) (alt (lit .descendant "descendant".toList)
    (alt (lit .followingSibling "following-sibling".toList) (alt (lit .following "following".toList)
    (alt (lit .namespace "namespace".toList) (alt (lit .parent "parent".toList)
    (alt (lit .precedingSibling "preceding-sibling".toList) (alt (lit .preceding "preceding".toList)
    (lit .self "self".toList))))))))))))

/-! ## rules -/

/-- `AxisSpecifier`, lines 47 and 79. -/
def axisSpecifier : P :=
  rule .axisSpecifier (seq space (seq
    (alt (seq axisName (seq space (lit .axisSpecifier "::".toList))) (opt (lit .abbreviatedAxisSpecifier "@".toList))) space))

/-- `NameTest`, lines 134-136. -/
def nameTest : P :=
  rule .nameTest (alt anyName (alt (seq ncName (seq (discard (lit .nameTest [':'])) anyName)) qName))

/-- `processing-instruction` with a target, line 65. -/
def piTest : P :=
  seq (lit .processingInstruction "processing-instruction".toList) (seq space (seq (discard leftBracket) (seq space
    (seq literal (seq space (discard rightBracket))))))

/-- The other tests of types, line 66. -/
def typeTest : P := seq nodeType (seq space (seq (discard leftBracket) (seq space (discard rightBracket))))

/-- `NodeTest`, lines 65-68. -/
def nodeTest : P := rule .nodeTest (seq space (seq (alt piTest (alt typeTest nameTest)) space))

/-- `AbbreviatedStep`, line 78. -/
def abbreviatedStep : P := alt (lit .parentSelect "..".toList) (lit .selfSelect ".".toList)

/-- `FunctionName`, line 132. -/
def functionName : P := minus qName nodeType

/-- `VariableReference`, line 133. -/
def variableReference : P := rule .variableReference (seq (lit .variableReference "$".toList) qName)

section
/- `E` is the rule `Expr` where it is used inside of others. -/
variable (E : P)

/-- `Predicate`, lines 71-72. -/
def predicate : P := rule .predicate (seq space (seq leftSquare (seq E (seq rightSquare space))))

/-- The first alternative of `Step`, line 46. -/
def fullStep : P := seq axisSpecifier (seq nodeTest (many (predicate E)))

/-- `Step`, line 46. -/
def step : P := rule .step (alt (fullStep E) abbreviatedStep)

/-- A step after another, line 43. -/
def nextStep : P := seq (alt slashSlash (discard slash)) (step E)

/-- `RelativeLocationPath`, line 43. -/
def relativeLocationPath : P := rule .relativeLocationPath (seq (step E) (many (nextStep E)))

/-- `AbbreviatedAbsoluteLocationPath`, line 75. -/
def abbreviatedAbsoluteLocationPath : P :=
  rule .abbreviatedAbsoluteLocationPath (seq slashSlash (relativeLocationPath E))

/-- `AbsoluteLocationPath`, lines 40-41. -/
def absoluteLocationPath : P :=
  rule .absoluteLocationPath (alt (abbreviatedAbsoluteLocationPath E) (seq slash (opt (relativeLocationPath E))))

/-- `LocationPath`, line 38. -/
def locationPath : P := alt (absoluteLocationPath E) (relativeLocationPath E)

/-- A further argument, line 92. -/
def nextArgument : P := seq (discard (lit .functionCall ",".toList)) (seq space E)

/-- `FunctionCall`, lines 92-93. -/
def functionCall : P :=
  rule .functionCall (seq functionName (seq space (seq leftBracket (seq (opt (seq E (many (nextArgument E))))
    (seq space (seq rightBracket space))))))

/-- An expression in brackets, line 87. -/
def bracketed : P := seq (discard leftBracket) (seq space (seq E (seq space (discard rightBracket))))

/-- `PrimaryExpr`, lines 83-89. -/
def primaryExpr : P :=
  rule .primaryExpr (seq (discard space) (seq
    (alt variableReference (alt number (alt (functionCall E) (alt (bracketed E) literal)))) (discard space)))

/-- `FilterExpr`, line 108. -/
def filterExpr : P := rule .filterExpr (seq (primaryExpr E) (many (predicate E)))

/-- The first alternative of `PathExpr`, line 104. -/
def filterPath : P := seq (filterExpr E) (opt (seq (alt slashSlash slash) (relativeLocationPath E)))

/-- `PathExpr`, lines 103-106. -/
def pathExpr : P := rule .pathExpr (seq (discard space) (seq (alt (filterPath E) (locationPath E)) (discard space)))

/-- A rule for binary operators. -/
def binary (id : Id) (operand operator : P) : P := rule id (seq operand (many (seq operator operand)))

/-- `UnionExpr`, line 97. -/
def unionExpr : P := binary .unionExpr (pathExpr E) (lit .unionOperator "|".toList)

/-- `UnaryExpr`, line 119. -/
def unaryExpr : P :=
  rule .unaryExpr (seq (discard space) (seq (many (lit .unaryMinusOperator "-".toList)) (unionExpr E)))

/-- `MultiplicativeExpr`, line 118. -/
def multiplicativeExpr : P :=
  binary .multiplicativeExpr (unaryExpr E)
    (alt (lit .multiplyOperator "*".toList) (alt (lit .divOperator "div".toList) (lit .modOperator "mod".toList)))

/-- `AdditiveExpr`, line 117. -/
def additiveExpr : P :=
  binary .additiveExpr (multiplicativeExpr E) (alt (lit .plusOperator "+".toList) (lit .minusOperator "-".toList))

/-- `RelationalExpr`, line 114. -/
def relationalExpr : P :=
  binary .relationalExpr (additiveExpr E)
    (alt (lit .lessThanEqualsOperator "<=".toList) (alt (lit .greaterThanEqualsOperator ">=".toList)
      (alt (lit .lessThanOperator "<".toList) (lit .greaterThanOperator ">".toList))))

/-- `EqualityExpr`, line 113. -/
def equalityExpr : P :=
  binary .equalityExpr (relationalExpr E) (alt (lit .equalsOperator "=".toList) (lit .notEqualsOperator "!=".toList))

/-- `AndExpr`, line 112. -/
def andExpr : P := binary .andExpr (equalityExpr E) (lit .andOperator "and".toList)

/-- `OrExpr`, line 111, and `Expr`, line 82. -/
def orExpr : P := binary .orExpr (andExpr E) (lit .orOperator "or".toList)

end

/-- `Expr` to a depth of nesting. -/
def expr : Nat → P
  | 0 => fun _ => none
  | n + 1 => orExpr (expr n)

/-- `parse_xpath_expr`, xpath_parser.hpp lines 177-181, and the test of `full`: every use of `Expr` inside `Expr` comes
after a character. -/
def parseExpr (s : Str) : Option Tree :=
  match expr (s.length + 1) s with
  | some ([t], []) => some t
  | _ => none

/-! ## expressions -/

/-- xpath_axis_enumerator.hpp lines 15-30. -/
inductive Axis where
  | ancestor | ancestorOrSelf | attribute | child | descendant | descendantOrSelf | following | followingSibling
  | namespace | parent | preceding | precedingSibling | self
  deriving DecidableEq, Repr

/-- The node tests of xpath_node_test.hpp; those for attributes have `attr` set. -/
inductive Test where
  | any | node | root | comment | text
  | pi (target : Option Str)
  | star (attr : Bool)
  | qStar (attr : Bool) (uri : Str)
  | name (attr : Bool) (name : Str)
  | qName (attr : Bool) (uri name : Str)
  | fail
  deriving DecidableEq, Repr

inductive Op where
  | or | and | eq | ne | le | ge | lt | gt | plus | minus | times | div | mod | union
  deriving DecidableEq, Repr

mutual

/-- The subclasses of `XPathExpression_impl`.  Numbers are kept as they are written; functions and variables are not
looked up. -/
inductive Expr where
  | number (text : Str)
  | string (text : Str)
  | var (uri name : Str)
  | call (uri name : Str) (args : List Expr)
  | binary (op : Op) (a b : Expr)
  | negative (e : Expr)
  | path (absolute : Bool) (steps : List Step)

/-- The subclasses of `StepExpression`. -/
inductive Step where
  | test (axis : Axis) (test : Test) (preds : List Expr)
  | expr (e : Expr) (preds : List Expr)

end

inductive Err where
  | syntax | unbound | unsupported | undefined
  deriving DecidableEq, Repr

abbrev Res (α : Type) := Except Err α

/-- `skipWhitespace`, xpath_ast.hpp lines 41-47. -/
def skipS : List Tree → List Tree
  | [] => []
  | t :: ts => if t.id = .s then skipS ts else t :: ts

/-- `getAxis`, xpath_step.hpp lines 264-332, of a node other than `AxisSpecifier`: the axis, and whether the node is
passed. -/
def axisOf : Id → Axis × Bool
  | .slash | .selfSelect => (.self, false)
  | .parentSelect => (.parent, false)
  | .slashSlash => (.descendantOrSelf, false)
  | .abbreviatedAxisSpecifier | .attribute => (.attribute, true)
  | .ancestorOrSelf => (.ancestorOrSelf, true)
  | .ancestor => (.ancestor, true)
  | .child => (.child, true)
  | .descendantOrSelf => (.descendantOrSelf, true)
  | .descendant => (.descendant, true)
  | .followingSibling => (.followingSibling, true)
  | .following => (.following, true)
  | .namespace => (.namespace, true)
  | .parent => (.parent, true)
  | .precedingSibling => (.precedingSibling, true)
  | .preceding => (.preceding, true)
  | .self => (.self, true)
  | _ => (.child, false)

/-- `getAxis`. -/
def getAxis : List Tree → Res (Axis × List Tree)
  | [] => .error .undefined
  | t :: ts =>
    if t.id = .axisSpecifier then
      match skipS t.kids with
      | [] => .error .undefined
      | a :: _ => .ok ((axisOf a.id).1, ts)
    else .ok ((axisOf t.id).1, if (axisOf t.id).2 then ts else t :: ts)

section
variable (ns : Str → Option Str)

def resolve (p : Str) : Res Str :=
  match ns p with
  | none => .error .unbound
  | some u => .ok u

def xmlns : Str := "xmlns".toList

/-- The cases of `getTest`, xpath_step.hpp lines 355-468, but for `NodeTest`. -/
def testOf (attr : Bool) : List Tree → Res (Option Test × List Tree)
  | [] => .error .undefined
  | t :: ts =>
    match t.id with
    | .qName =>
      match t.kids with
      | p :: n :: _ => do
        let uri ← resolve ns p.chars
        if attr then
          if p.chars = xmlns then .ok (some .fail, ts) else .ok (some (.qName true uri n.chars), ts)
        else .ok (some (.qName false uri n.chars), ts)
      | _ => .error .undefined
    | .ncName =>
      if attr then
        if t.chars = xmlns then .ok (some .fail, ts) else .ok (some (.name true t.chars), ts)
      else .ok (some (.name false t.chars), ts)
    | .comment => .ok (some .comment, ts)
    | .text => .ok (some .text, ts)
    | .processingInstruction =>
      match ts with
      | [] => .ok (some (.pi none), [])
      | l :: us => if l.id = .literal then .ok (some (.pi (some l.chars)), us) else .ok (some (.pi none), l :: us)
    | .slashSlash | .selfSelect | .parentSelect | .node => .ok (some .any, ts)
    | .nodeMatchPattern => .ok (some .node, ts)
    | .slash => .ok (some .root, t :: ts)
    | .anyName => .ok (some (.star attr), ts)
    | .nameTest =>
      match t.kids with
      | p :: _ => do
        let uri ← resolve ns p.chars
        if attr then
          if p.chars = xmlns then .ok (some .fail, ts) else .ok (some (.qStar true uri), ts)
        else .ok (some (.qStar false uri), ts)
      | _ => .error .undefined
    | _ => .ok (none, t :: ts)

/-- `getTest`: a `NodeTest` never has another in it. -/
def getTest (attr : Bool) (ts : List Tree) : Res (Option Test × List Tree) :=
  match skipS ts with
  | [] => .error .undefined
  | t :: us =>
    if t.id = .nodeTest then do
      let (x, _) ← testOf ns attr (skipS t.kids)
      .ok (x, us)
    else testOf ns attr (t :: us)

/-- The name of a function or variable, xpath_parser.hpp lines 586-595, 703-710. -/
def nameOf (t : Tree) : Res (Str × Str) :=
  if t.id = .qName then
    match t.kids with
    | p :: n :: _ => do
      let uri ← resolve ns p.chars
      .ok (uri, n.chars)
    | _ => .error .undefined
  else .ok ([], t.chars)

/-- The operator of a node, lines 629-674. -/
def opOf : Id → Option Op
  | .plusOperator => some .plus
  | .minusOperator => some .minus
  | .multiplyOperator => some .times
  | .divOperator => some .div
  | .modOperator => some .mod
  | .equalsOperator => some .eq
  | .notEqualsOperator => some .ne
  | .lessThanOperator => some .lt
  | .lessThanEqualsOperator => some .le
  | .greaterThanOperator => some .gt
  | .greaterThanEqualsOperator => some .ge
  | .orOperator => some .or
  | .andOperator => some .and
  | .unionOperator => some .union
  | _ => none

section
/- `C` is `compile_expression` and `R` is `createStepList`, for smaller trees. -/
variable (C : List Tree → Res Expr) (R : List Tree → Res (List Step))

/-- `createPredicates`, xpath_step.hpp lines 334-353. -/
def predicates : List Tree → Res (List Expr × List Tree)
  | [] => .ok ([], [])
  | t :: ts =>
    if t.id = .predicate then
      match t.kids with
      | _ :: ks => do
        let e ← C ks
        let (es, us) ← predicates ts
        .ok (e :: es, us)
      | [] => .error .undefined
    else .ok ([], t :: ts)

/-- `createStep`, lines 206-232. -/
def createStep (ts : List Tree) : Res (Step × List Tree) := do
  let (axis, ts) ← getAxis ts
  let (test, ts) ← getTest ns (axis == .attribute) ts
  match test with
  | some x =>
    let (ps, ts) ← predicates C ts
    .ok (.test axis x ps, ts)
  | none =>
    let e ← C ts
    let (ps, ts) ← predicates C ts.tail
    .ok (.expr e ps, ts)

/-- `createFilter`, lines 234-243. -/
def createFilter (t : Tree) : Res Step := do
  let e ← C t.kids
  let (ps, _) ← predicates C t.kids.tail
  .ok (.expr e ps)

/-- `createSingleStep`, lines 245-261. -/
def createSingleStep (ts : List Tree) : Res Step := do
  let (axis, ts) ← getAxis ts
  let (test, _) ← getTest ns (axis == .attribute) ts
  match test with
  | some x => .ok (.test axis x [])
  | none => .error .undefined

/-- `createStepList`, xpath_parser.hpp lines 737-778; each round passes a node. -/
def stepList : Nat → List Tree → Res (List Step)
  | 0, _ => .ok []
  | _, [] => .ok []
  | n + 1, t :: ts =>
    if t.id = .s ∨ t.id = .slash then stepList n ts
    else if t.id = .filterExpr then do
      let x ← createFilter C t
      let xs ← stepList n ts
      .ok (x :: xs)
    else if t.id = .relativeLocationPath then do
      let x ← R t.kids
      let xs ← stepList n ts
      .ok (x ++ xs)
    else if t.id = .step then do
      let (x, _) ← createStep ns C t.kids
      let xs ← stepList n ts
      .ok (x :: xs)
    else do
      let (x, ts) ← createStep ns C (t :: ts)
      let xs ← stepList n ts
      .ok (x :: xs)

def steps (ts : List Tree) : Res (List Step) := stepList ns C R ts.length ts

/-- The loop of `createFunction`, lines 603-610. -/
def arguments : Nat → List Tree → Res (List Expr)
  | 0, _ => .error .undefined
  | n + 1, ts =>
    match skipS ts with
    | [] => .error .undefined
    | t :: ts =>
      if t.id = .rightBracket then .ok []
      else do
        let e ← C (t :: ts)
        let es ← arguments n ts
        .ok (e :: es)

/-- `createFunction`, lines 581-614, without the look up. -/
def createFunction (t : Tree) : Res Expr :=
  match t.kids with
  | [] => .error .undefined
  | c :: cs => do
    let (uri, name) ← nameOf ns c
    match skipS cs with
    | [] => .error .undefined
    | _ :: cs =>
      let args ← arguments C (cs.length + 1) cs
      .ok (.call uri name args)

/-- The loop of `createBinaryExpression`, lines 622-677. -/
def operands : Expr → List Tree → Res Expr
  | e, [] => .ok e
  | _, [_] => .error .undefined
  | e, o :: t :: ts => do
    let e' ← C (t :: ts)
    match opOf o.id with
    | none => .error .unsupported
    | some op => operands (.binary op e e') ts

/-- `createBinaryExpression`, lines 617-680. -/
def createBinaryExpression (t : Tree) : Res Expr :=
  match t.kids with
  | [] => .error .undefined
  | c :: cs => do
    let e ← C (c :: cs)
    match cs with
    | [] => .error .undefined
    | cs => operands C e cs

/-- `createVariable`, lines 697-715. -/
def createVariable (t : Tree) : Res Expr :=
  match t.kids with
  | _ :: n :: _ => do
    let (uri, name) ← nameOf ns n
    .ok (.var uri name)
  | _ => .error .undefined

/-- `compile_with_factory`, lines 228-247, with `expression_factory`, lines 307-354: the nodes are those from the one
to compile. -/
def compileNode : List Tree → Res Expr
  | [] => .error .undefined
  | t :: ts =>
    match t.id with
    | .absoluteLocationPath | .abbreviatedAbsoluteLocationPath => do
      let xs ← steps ns C R t.kids
      .ok (.path true xs)
    | .relativeLocationPath | .step | .pathExpr => do
      let xs ← steps ns C R t.kids
      .ok (.path false xs)
    | .filterExpr => do
      let x ← createFilter C t
      .ok (.path false [x])
    | .primaryExpr => C (skipS t.kids)
    | .functionCall => createFunction ns C t
    | .additiveExpr | .multiplicativeExpr | .equalityExpr | .relationalExpr | .orExpr | .andExpr | .unionExpr =>
      createBinaryExpression C t
    | .literal => .ok (.string t.chars)
    | .number | .digits => .ok (.number t.chars)
    | .variableReference => createVariable ns t
    | .nodeTest | .nameTest | .qName | .ncName | .anyName | .text | .comment | .processingInstruction | .node
    | .selfSelect | .parentSelect => do
      let x ← createSingleStep ns (t :: ts)
      .ok (.path false [x])
    | .slash => do
      let x ← createSingleStep ns (t :: ts)
      .ok (.path true [x])
    | .unaryExpr => C t.kids
    | .unaryMinusOperator => do
      let e ← C ts
      .ok (.negative e)
    | _ => .error .unsupported

end

/-- Both for trees of a size. -/
def compiler : Nat → (List Tree → Res Expr) × (List Tree → Res (List Step))
  | 0 => (fun _ => .error .undefined, fun _ => .error .undefined)
  | n + 1 => (compileNode ns (compiler n).1 (compiler n).2, steps ns (compiler n).1 (compiler n).2)

end

mutual

def Tree.size : Tree → Nat
  | .node _ _ ks => sizes ks + 1

def sizes : List Tree → Nat
  | [] => 0
  | t :: ts => t.size + sizes ts

end

/-- `compile_expr`, lines 84-87 and `do_compile`, lines 140-167. -/
def compileExpr (ns : Str → Option Str) (s : Str) : Res Expr :=
  match parseExpr s with
  | none => .error .syntax
  | some t => (compiler ns t.size).1 [t]

end Verif.XPathParse
