import Verif.Model.XPathNodeSet
import Verif.Model.XPathCompare
set_option autoImplicit false
/-!
# String values, node tests, predicates and location paths: include/XPath/impl/xpath_object.hpp lines 444-488,
# include/XPath/impl/xpath_node_test.hpp, include/XPath/impl/xpath_step.hpp
-/
namespace Verif.XTree

/-! ## String values -/

/-- `nodeStringValue` of a text node, xpath_object.hpp lines 471-483, over it and its next siblings. -/
def textRun : List Tree → Str
  | [] => []
  | n :: rest =>
    match rest with
    | [] => n.data.value
    | next :: _ => if next.isText then n.data.value ++ textRun rest else n.data.value

/-- The same of a pointer to it. -/
def textValue (t : Tree) : Ref → Str
  | .child i :: up => textRun ((kidsOf t up).drop i)
  | r =>
    match sub t r with
    | some n => n.data.value
    | none => []

/-- `nodeStringValue`, xpath_object.hpp lines 444-488; none if it throws. `std::basic_ostringstream` collects
the pieces; simplification: `os.str().c_str()` (line 462) would end the string at a character of value zero,
which XML does not allow. -/
def nodeStringValue (t : Tree) (r : Ref) (fuel : Nat) : Outcome (Option Str) :=
  match kindOf t r with
  | some .document | some .fragment | some .element =>
    match enumerate t r .descendant fuel with
    | .done l => .done (some ((l.filter (isTextAt t)).flatMap (textValue t)))
    | .crash => .crash
    | .more => .more
  | some .attribute | some .pi | some .comment =>
    match sub t r with
    | some n => .done (some n.data.value)
    | none => .crash
  | some .text | some .cdata => .done (some (textValue t r))
  | _ => .done none

/-! ## Node tests -/

/-- The subclasses of `NodeTest`, xpath_node_test.hpp. -/
inductive NodeTest where
  | any | node | name (n : Str) | attributeName (n : Str) | qname (uri n : Str) | attributeQName (uri n : Str)
  | star | qstar (uri : Str) | text | comment | attributeNode | attributeQStar (uri : Str) | notAttribute
  | processingInstruction (target : Str) | root | fail
deriving DecidableEq, Repr

/-- `operator()` of the tests: xpath_node_test.hpp lines 36-39, 47-54, 64-70, 83-88, 102-108, 123-128, 141-146,
157-161, 173-176, 185-188, 197-200, 211-215, 228-231, 242-251, 263-269, 278-281. -/
def NodeTest.holds (test : NodeTest) (d : Data) : Bool :=
  match test with
  | .any => true
  | .node => if d.kind = .document || d.kind = .fragment then false else true
  | .name n => d.kind = .element && d.name = n && d.uri.isEmpty
  | .attributeName n => d.kind = .attribute && d.name = n && d.uri.isEmpty
  | .qname u n => d.kind = .element && d.loc = n && d.uri = u
  | .attributeQName u n => d.kind = .attribute && d.loc = n && d.uri = u
  | .star => d.kind = .element
  | .qstar u => d.uri = u && d.kind = .element
  | .text => d.kind = .text || d.kind = .cdata
  | .comment => d.kind = .comment
  | .attributeNode => d.kind = .attribute
  | .attributeQStar u => d.uri = u && d.kind = .attribute
  | .notAttribute => d.kind ≠ .attribute
  | .processingInstruction target =>
    if d.kind ≠ .pi then false else if target.isEmpty then true else d.name = target
  | .root => d.kind = .document || d.kind = .fragment
  | .fail => false

/-- A test applied to a pointer. -/
def NodeTest.at (test : NodeTest) (t : Tree) (r : Ref) : Bool :=
  match sub t r with
  | some n => test.holds n.data
  | none => false

/-! ## Predicates -/

/-- A predicate: the value it has for a node, its position and the size of the list (`last()`). Any
expression is allowed; its evaluation is not modelled here. -/
abbrev Pred := XN → Nat → Nat → Verif.XPath.Value

/-- The loop of `applyPredicate`, xpath_step.hpp lines 63-75, over the nodes from `position` on. Simplification:
`position` does not overflow. -/
def predicateLoop (p : Pred) (size : Nat) : Nat → List XN → List XN
  | _, [] => []
  | position, x :: xs =>
    let v := p x position size
    let isNumber := match v with | .num n => some n | _ => none
    if (match isNumber with | some n => !(n.eq (.fin position)) | none => false) then
      predicateLoop p size (position + 1) xs
    else if Verif.XPath.asBool v = false then predicateLoop p size (position + 1) xs
    else x :: predicateLoop p size (position + 1) xs

/-- `applyPredicate`, lines 56-77. -/
def applyPredicate (p : Pred) (ns : NodeSet) : NodeSet :=
  { nodes := predicateLoop p ns.nodes.length 1 ns.nodes, forward := ns.isForward, sorted := false }

/-- `applyPredicates`, lines 47-54. -/
def applyPredicates : List Pred → NodeSet → NodeSet
  | [], ns => ns
  | p :: ps, ns => if ns.nodes.isEmpty then ns else applyPredicates ps (applyPredicate p ns)

/-! ## Steps and paths -/

/-- `TestStepExpression`, lines 85-160. -/
structure PathStep where
  axis : Axis
  test : NodeTest
  preds : List Pred := []

/-- `TestStepExpression::enumerateOver`, lines 129-156: the node-set `results` after it. -/
def enumerateOver (w : World) (s : PathStep) (fuel : Nat) (results : NodeSet) (x : XN) : Outcome NodeSet :=
  match enumerate (w.tree x.1) x.2 s.axis fuel with
  | .done l =>
    let found := ((l.filter (s.test.at (w.tree x.1))).map fun r => (x.1, r))
    let results := results.setForward s.axis.forward
    if s.preds.isEmpty then .done (found.foldl NodeSet.push results)
    else
      let kept := applyPredicates s.preds (found.foldl NodeSet.push { forward := s.axis.forward })
      .done (results.insert results.nodes.length kept.nodes)
  | .crash => .crash
  | .more => .more

/-- The loop of `TestStepExpression::evaluate`, lines 121-125. -/
def overNodes (w : World) (s : PathStep) (fuel : Nat) : NodeSet → List XN → Outcome NodeSet
  | results, [] => .done results
  | results, x :: xs =>
    match enumerateOver w s fuel results x with
    | .done r => overNodes w s fuel r xs
    | .crash => .crash
    | .more => .more

/-- The loop of `RelativeLocationPath::evaluate`, lines 533-537. -/
def overSteps (w : World) (fuel : Nat) : List PathStep → NodeSet → Outcome NodeSet
  | [], ns => .done ns
  | s :: ss, ns =>
    match overNodes w s fuel {} ns.nodes with
    | .done r => overSteps w fuel ss r
    | .crash => .crash
    | .more => .more

/-- `RelativeLocationPath::evaluate`, lines 528-542. -/
def relativePath (w : World) (srt : List XN → List XN) (fuel : Nat) (steps : List PathStep) (x : XN) :
    Outcome NodeSet :=
  match overSteps w fuel steps (NodeSet.push {} x) with
  | .done ns => .done (ns.sort srt)
  | .crash => .crash
  | .more => .more

/-- `AbsoluteLocationPath::evaluate`, lines 559-569. -/
def absolutePath (w : World) (srt : List XN → List XN) (fuel : Nat) (steps : List PathStep) (x : XN) :
    Outcome NodeSet :=
  if kindOf (w.tree x.1) x.2 = some .document || kindOf (w.tree x.1) x.2 = some .fragment then
    relativePath w srt fuel steps x
  else relativePath w srt fuel steps (w.home x.1, [])

/-- `ExprStepExpression::evaluate`, lines 179-187, of the node-set `expr_` gives. -/
def filterExpression (srt : List XN → List XN) (preds : List Pred) (ns : NodeSet) : NodeSet :=
  if preds.isEmpty then ns else applyPredicates preds (ns.toDocumentOrder srt)

/-- A filter expression followed by steps: `RelativeLocationPath::evaluate`, lines 528-542, where the first step is
an `ExprStepExpression` (`createFilteredPath`, include/XPath/impl/xpath_parser.hpp lines 557-563, with no steps after it;
`StepFactory::createStep`, xpath_step.hpp lines 216-232), from the node-set `ns` of its `expr_`. -/
def filteredPath (w : World) (srt : List XN → List XN) (fuel : Nat) (preds : List Pred) (steps : List PathStep)
    (ns : NodeSet) : Outcome NodeSet :=
  match overSteps w fuel steps (filterExpression srt preds ns) with
  | .done ns => .done (ns.sort srt)
  | .crash => .crash
  | .more => .more

end Verif.XTree
