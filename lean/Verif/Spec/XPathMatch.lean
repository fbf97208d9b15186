import Verif.Spec.XPathParse
import Verif.Spec.XPathPath
set_option autoImplicit false
/-!
# Match patterns as they are written, the nodes they match and their priorities

XSLT 1.0, sections 5.2 and 5.5: a pattern is a set of paths of steps on the child and attribute axes; a node matches it
exactly if it is among the nodes that some context node gives for the pattern, taken as an expression.
-/
namespace Verif.Spec.XPathMatch
open Verif.XPathParse
open Verif.XTree (World XN Pred PathStep)
open Verif.Spec.XPathAxes (XNode IsAttr)
open Verif.Spec.XPathPath (PathSelects Passes)

/-! ## patterns -/

/-- Nothing, `@`, `child::` or `attribute::`. -/
inductive PatAxis where
  | none | atSign | child | attribute
  deriving DecidableEq

/-- [5] -/
structure PatStep where
  axis : PatAxis
  test : NodeTest
  preds : Exs

/-- [4]; `deep` for `//`. -/
inductive PatRel where
  | one (s : PatStep)
  | cons (s : PatStep) (deep : Bool) (r : PatRel)

/-- [2]: `/`, a relative path, and one after `/` or `//`. Patterns with `id()` or `key()` are left out. -/
inductive Alternative where
  | root
  | rel (r : PatRel)
  | abs (deep : Bool) (r : PatRel)

def PatRel.first : PatRel → PatStep
  | .one s => s
  | .cons s _ _ => s

def PatStep.attr (s : PatStep) : Bool :=
  match s.axis with
  | .atSign | .attribute => true
  | _ => false

/-! ## tokens -/

def PatStep.isNode (s : PatStep) : Bool := match s.test with | .type .node => true | _ => false

/-- At the start of an alternative there may be white space; besides, an axis is tight. -/
def patAxisTokens (first : Bool) : PatAxis → List Tok
  | .none => []
  | .atSign => [sym "@" (!first)]
  | .child => [sym "child" (!first), sym "::" true]
  | .attribute => [sym "attribute" (!first), sym "::" true]

/-- `node()` is one token, and tight unless at the start of an alternative. -/
def patTestTokens (first : Bool) (s : PatStep) : List Tok :=
  if s.isNode then [sym "node()" (!(first && s.axis == .none))] else testTokens s.test

/-- The first bracket is tight after `node()`. -/
def patPredTokens (tight : Bool) : Exs → List Tok
  | .nil => []
  | .cons e es => sym "[" tight :: tokens false e ++ sym "]" :: predTokens es

def patStepTokens (first : Bool) (s : PatStep) : List Tok :=
  patAxisTokens first s.axis ++ patTestTokens first s ++ patPredTokens s.isNode s.preds

/-- `node()` and nothing after it. -/
def PatStep.endsInNode (s : PatStep) : Bool := s.isNode && (match s.preds with | .nil => true | _ => false)

/-- A slash is tight after `node()`. -/
def patRelTokens (first : Bool) : PatRel → List Tok
  | .one s => patStepTokens first s
  | .cons s deep r => patStepTokens first s ++ slashTok deep s.endsInNode :: patRelTokens false r

def altTokens : Alternative → List Tok
  | .root => [sym "/"]
  | .rel r => patRelTokens true r
  | .abs deep r => slashTok deep false :: patRelTokens false r

def patternTokens : List Alternative → List Tok
  | [] => []
  | [a] => altTokens a
  | a :: as => altTokens a ++ sym "|" :: patternTokens as

/-! ## which patterns there are -/

def PatStep.Ok (ns : Str → Option Str) (s : PatStep) : Prop := s.test.Ok ns ∧ s.preds.Ok ns

def PatRel.Ok (ns : Str → Option Str) : PatRel → Prop
  | .one s => s.Ok ns
  | .cons s _ r => s.Ok ns ∧ r.Ok ns

def Alternative.Ok (ns : Str → Option Str) : Alternative → Prop
  | .root => True
  | .rel r => r.Ok ns
  | .abs _ r => r.Ok ns

/-! ## the nodes a pattern matches -/

section
variable (ns : Str → Option Str) (ev : Expr → Pred)

/-- The tests of C70 as those of C38; no processing instruction has an empty name. -/
def treeTest : Test → Verif.XTree.NodeTest
  | .any | .node => .any
  | .root => .root
  | .comment => .comment
  | .text => .text
  | .pi none => .processingInstruction []
  | .pi (some t) => if t = [] then .fail else .processingInstruction t
  | .star attr => if attr then .attributeNode else .star
  | .qStar attr u => if attr then .attributeQStar u else .qstar u
  | .name attr n => if attr then .attributeName n else .name n
  | .qName attr u n => if attr then .attributeQName u n else .qname u n
  | .fail => .fail

/-- A step of a pattern as a step of a path; `ev` gives the values of its predicates. -/
def PatStep.step (s : PatStep) : PathStep :=
  ⟨if s.attr then .attribute else .child, treeTest (testMeaning ns s.attr s.test), (meanings ns s.preds).map ev⟩

/-- `//` is short for `/descendant-or-self::node()/`. -/
def deepSteps (deep : Bool) : List PathStep := if deep then [⟨.descendantOrSelf, .any, []⟩] else []

def PatRel.steps : PatRel → List PathStep
  | .one s => [s.step ns ev]
  | .cons s deep r => s.step ns ev :: (deepSteps deep ++ r.steps)

/-- `x` is among the nodes the pattern, as an expression, gives for some context node. A path from the root
gives the same for all. -/
def Matches (w : World) (x : XN) : Alternative → Prop
  | .root => x.2 = []
  | .rel r => ∃ c : XN, XNode (w.tree c.1) c.2 ∧ PathSelects w (r.steps ns ev) c x
  | .abs deep r => PathSelects w (deepSteps deep ++ r.steps ns ev) (x.1, []) x

/-! ## what the theorem asks of a pattern -/

/-- An expression of a type that is a number. -/
def Numeric (fnNum : Str → Str → Bool) : Expr → Prop
  | .number _ | .negative _ => True
  | .call u n _ => fnNum u n = true
  | .binary op _ _ => op ∈ [Op.plus, .minus, .times, .div, .mod]
  | _ => False

/-- `position()` or `last()`, or an operand that has one of them. -/
def Positional : Expr → Prop
  | .call u n _ => u = [] ∧ (n = "position".toList ∨ n = "last".toList)
  | .binary _ a b => Positional a ∨ Positional b
  | .negative e => Positional e
  | _ => False

/-- A predicate that takes no notice of the position: its value is the same at all positions and not a number. -/
def Steady (p : Pred) : Prop := ∀ x i n j m, p x i n = p x j m ∧ ∀ v, p x i n ≠ .num v

/-- A numeric expression, or one with `position()` or `last()` as an operand. -/
def Counted (fnNum : Str → Str → Bool) (e : Expr) : Prop := Numeric fnNum e ∨ Positional e

/-- After a test for children, a predicate that takes notice of the position shows it by its form; after one for
attributes there are none of that form or that take notice of it. -/
def PatStep.Counts (fnNum : Str → Str → Bool) (s : PatStep) : Prop :=
  ∀ e ∈ meanings ns s.preds, (s.attr = true → Steady (ev e) ∧ ¬ Counted fnNum e) ∧
    (s.attr = false → Steady (ev e) ∨ Counted fnNum e)

/-- What a step asks of a node by itself. -/
def PatStep.Admits (s : PatStep) (d : Verif.XTree.Data) : Prop :=
  Passes d (treeTest (testMeaning ns s.attr s.test)) ∧ (s.attr = true ↔ d.kind = .attribute)

def PatStep.Plain (fnNum : Str → Str → Bool) (s : PatStep) : Prop :=
  s.Counts ns ev fnNum ∧ ∀ q, s.test ≠ .target q []

/-- Besides, no node passes the tests on both sides of `//`. -/
def PatRel.Plain (fnNum : Str → Str → Bool) : PatRel → Prop
  | .one s => s.Plain ns ev fnNum
  | .cons s deep r => s.Plain ns ev fnNum ∧ (deep = true → ∀ d, ¬ (s.Admits ns d ∧ r.first.Admits ns d)) ∧ r.Plain fnNum

def Alternative.Plain (fnNum : Str → Str → Bool) : Alternative → Prop
  | .root => True
  | .rel r => r.Plain ns ev fnNum
  | .abs _ r => r.Plain ns ev fnNum

end

/-! ## priorities -/

/-- One step without predicates. -/
def Alternative.bare : Alternative → Bool
  | .rel (.one s) => match s.preds with | .nil => true | _ => false
  | _ => false

/-- Section 5.5: 0 for a name or a processing instruction with a target, -1/4 for all names of a namespace, -1/2 for
other tests; 1/2 for anything else. -/
def Alternative.priority : Alternative → Rat
  | .rel (.one s) =>
    match s.preds with
    | .nil =>
      match s.test with
      | .name _ | .target .. => 0
      | .anyIn _ => -1 / 4
      | .any | .type _ => -1 / 2
    | _ => 1 / 2
  | _ => 1 / 2

/-- The same tokens with no white space between them. -/
def harden : List Tok → List Tok
  | [] => []
  | t :: ts => t :: ts.map fun k => { k with tight := true }

/-- No white space within and after a step that is all of an alternative and has no predicates. -/
def closeTokens : List Alternative → List Tok
  | [] => []
  | [a] => if a.bare then harden (altTokens a) else altTokens a
  | a :: as => (if a.bare then harden (altTokens a) else altTokens a) ++ sym "|" a.bare :: closeTokens as

def endsBare : List Alternative → Bool
  | [] => false
  | [a] => a.bare
  | _ :: as => endsBare as

/-- A step without axis and with one predicate has one of these tests. -/
def Alternative.Ranked : Alternative → Prop
  | .rel (.one ⟨.none, t, .cons _ .nil⟩) =>
    match t with
    | .any | .name ⟨none, _⟩ | .type .comment | .type .text | .type .node => True
    | _ => False
  | _ => True

end Verif.Spec.XPathMatch
