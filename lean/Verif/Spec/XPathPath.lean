import Verif.Model.XPathPath
import Verif.Spec.XPathNodeSet
set_option autoImplicit false
/-!
# String values, predicates and location paths (XPath 1.0, sections 2, 3.3 and 5)
-/
namespace Verif.Spec.XPathPath
open Verif.XTree Verif.Spec.XPathAxes Verif.Spec.XPathNodeSet
open Verif.XPath (Value Num)

/-! ## String values -/

mutual
/-- All text in a node. -/
def textIn : Tree → Str
  | .node d _ kids => if d.kind = .text ∨ d.kind = .cdata then d.value else textInAll kids
/-- All text in some nodes, one after the other. -/
def textInAll : List Tree → Str
  | [] => []
  | n :: ns => textIn n ++ textInAll ns
end

/-- The pieces of text at the front of some nodes, put together. -/
def leadingText : List Tree → Str
  | [] => []
  | n :: ns => if n.kind = .text ∨ n.kind = .cdata then n.data.value ++ leadingText ns else []

/-! ## Predicates -/

/-- Whether a node with this position is kept: a number is compared with the position, anything else is
taken as a boolean. -/
def Keeps (position : Nat) : Value → Prop
  | .num n => n = .fin position
  | .bool b => b = true
  | .str s => s ≠ []
  | .nodes l => l ≠ []

/-- `l'` are the nodes of `l` a predicate keeps, in the same order: position `i + 1` for the one at `i`. -/
def Filtered (p : Pred) (l l' : List XN) : Prop :=
  ∃ keep : List Nat, keep.Pairwise (· < ·) ∧ l'.map some = keep.map (fun i => l[i]?) ∧
    ∀ (i : Nat) (x : XN), l[i]? = some x → (i ∈ keep ↔ Keeps (i + 1) (p x (i + 1) l.length))

/-- The same for predicates one after the other. -/
def FilteredBy : List Pred → List XN → List XN → Prop
  | [], l, l' => l' = l
  | p :: ps, l, l' => ∃ m, Filtered p l m ∧ FilteredBy ps m l'

/-! ## Node tests -/

/-- What a test asks of a node. `.root`, `.node`, `.notAttribute` and `.fail` are not from XPath expressions:
they are used for patterns and for names that match nothing. -/
def Passes (d : Data) : NodeTest → Prop
  | .any => True
  | .node => d.kind ≠ .document ∧ d.kind ≠ .fragment
  | .name n => d.kind = .element ∧ d.name = n ∧ d.uri = []
  | .attributeName n => d.kind = .attribute ∧ d.name = n ∧ d.uri = []
  | .qname u n => d.kind = .element ∧ d.loc = n ∧ d.uri = u
  | .attributeQName u n => d.kind = .attribute ∧ d.loc = n ∧ d.uri = u
  | .star => d.kind = .element
  | .qstar u => d.kind = .element ∧ d.uri = u
  | .text => d.kind = .text ∨ d.kind = .cdata
  | .comment => d.kind = .comment
  | .attributeNode => d.kind = .attribute
  | .attributeQStar u => d.kind = .attribute ∧ d.uri = u
  | .notAttribute => d.kind ≠ .attribute
  | .processingInstruction target => d.kind = .pi ∧ (target ≠ [] → d.name = target)
  | .root => d.kind = .document ∨ d.kind = .fragment
  | .fail => False

/-! ## Paths -/

/-- `y` is selected by a step from `x`: from the nodes of the axis that pass the test, in the order of the
axis, the predicates keep it. -/
def StepSelects (w : World) (s : PathStep) (x y : XN) : Prop :=
  ∃ (axisNodes passing : List Ref) (kept : List XN), IsAxis (w.tree x.1) x.2 s.axis axisNodes ∧
    passing.Sublist axisNodes ∧
    (∀ r ∈ axisNodes, r ∈ passing ↔ ∃ n, sub (w.tree x.1) r = some n ∧ Passes n.data s.test) ∧
    FilteredBy s.preds (passing.map fun r => (x.1, r)) kept ∧ y ∈ kept

/-- `y` is selected by some steps from `x`. -/
def PathSelects (w : World) : List PathStep → XN → XN → Prop
  | [], x, y => y = x
  | s :: ss, x, y => ∃ m, StepSelects w s x m ∧ PathSelects w ss m y

/-- The last step of a path goes backwards; the parent axis counts as such. -/
def Backward (steps : List PathStep) : Prop :=
  ∃ s, steps.getLast? = some s ∧ (Reverse s.axis ∨ s.axis = .parent)

/-- What the axes need of the tree and the nodes reached (see C35): no child step from an attribute, no
following step outside a document, no preceding step over split text. -/
def Regular (w : World) (steps : List PathStep) (x : XN) : Prop :=
  ∀ pre s post, steps = pre ++ s :: post →
    (s.axis = .child → ∀ m, PathSelects w pre x m → ¬ IsAttr m.2) ∧
    (s.axis = .following → (w.tree x.1).kind = .document) ∧
    (s.axis = .preceding → Normalized (w.tree x.1))

/-- The trees the theorems are about: trees the DOM can build, without document types or entity references,
not too large, and of the trees of a document, besides itself, at most one. -/
structure Trees (w : World) (K : Nat → Prop) : Prop where
  dom : ∀ k, K k → DomTree (w.tree k)
  expanded : ∀ k, K k → Expanded (w.tree k)
  small : ∀ k, K k → Small (w.tree k)
  one : ∀ j k, K j → K k → w.home j = w.home k → j ≠ k → (w.tree j).kind = .document ∨ (w.tree k).kind = .document

end Verif.Spec.XPathPath
