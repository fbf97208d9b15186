import Verif.Model.XPathAxes
set_option autoImplicit false
/-!
# What the XPath axes are (XPath 1.0, sections 2.2 and 5)
-/
namespace Verif.Spec.XPathAxes
open Verif.XTree

/-! ## Document order -/

/-- Attributes of a node come before its children, each in their order. -/
def StepLt : Step → Step → Prop
  | .attr i, .attr j => i < j
  | .attr _, .child _ => True
  | .child _, .attr _ => False
  | .child i, .child j => i < j

/-- Of two ways down from the root, the one that ends on the other's way or turns off first. -/
def PathLt : List Step → List Step → Prop
  | [], b => b ≠ []
  | _ :: _, [] => False
  | x :: a, y :: b => StepLt x y ∨ (x = y ∧ PathLt a b)

/-- `a` is before `b` in document order: a node is before its attributes, these before its children, and
everything in one child before everything in the next. -/
def Before (a b : Ref) : Prop := PathLt a.reverse b.reverse

/-! ## The nodes of the XPath data model -/

/-- No step to an attribute. -/
def AllChild (r : Ref) : Prop := ∀ s ∈ r, ∃ i, s = Step.child i

/-- The pointer points to text. -/
def TextAt (t : Tree) (r : Ref) : Prop := ∃ n, sub t r = some n ∧ (n.kind = .text ∨ n.kind = .cdata)

/-- The nodes XPath sees in a DOM tree: the root; children at any depth, where adjacent pieces of text are
one node, here its first piece, and there are no nodes for a document type or entity references; attributes
that are not namespace declarations, but nothing in an attribute. -/
def XNode (t : Tree) : Ref → Prop
  | [] => True
  | .child i :: up =>
    AllChild up ∧ (∃ n, sub t (.child i :: up) = some n ∧ n.kind ≠ .doctype ∧ n.kind ≠ .entityRef) ∧
      ¬ (TextAt t (.child i :: up) ∧ ∃ j, i = j + 1 ∧ TextAt t (.child j :: up))
  | .attr i :: up => AllChild up ∧ ∃ n, sub t (.attr i :: up) = some n ∧ n.data.uri ≠ xmlnsUri

def IsAttr : Ref → Prop
  | .attr _ :: _ => True
  | _ => False

/-- `a` is an ancestor of `b`. -/
def Ancestor (a b : Ref) : Prop := ∃ s, s ≠ [] ∧ b = s ++ a

/-- The node `r` is on an axis of `c`. -/
def OnAxis (c : Ref) (r : Ref) : Axis → Prop
  | .self => r = c
  | .parent => ∃ s, c = s :: r
  | .ancestor => Ancestor r c
  | .ancestorOrSelf => r = c ∨ Ancestor r c
  | .child => ∃ i, r = .child i :: c
  | .attribute => ∃ i, r = .attr i :: c
  | .descendant => Ancestor c r ∧ ¬ IsAttr r
  | .descendantOrSelf => r = c ∨ (Ancestor c r ∧ ¬ IsAttr r)
  | .following => Before c r ∧ ¬ Ancestor c r ∧ ¬ IsAttr r
  | .preceding => Before r c ∧ ¬ Ancestor r c ∧ ¬ IsAttr r
  | .followingSibling => ∃ i j up, c = .child i :: up ∧ r = .child j :: up ∧ i < j
  | .precedingSibling => ∃ i j up, c = .child i :: up ∧ r = .child j :: up ∧ j < i

/-- The axes that go backwards. -/
def Reverse : Axis → Prop
  | .ancestor | .ancestorOrSelf | .preceding | .precedingSibling => True
  | _ => False

/-- A list gives exactly the nodes on an axis, each once, in the order of the axis. -/
def IsAxis (t : Tree) (c : Ref) (axis : Axis) (l : List Ref) : Prop :=
  (∀ r, r ∈ l ↔ XNode t r ∧ OnAxis c r axis) ∧
    (Reverse axis → l.Pairwise fun a b => Before b a) ∧ (¬ Reverse axis → l.Pairwise Before)

/-! ## Trees the DOM can build -/

/-- Attributes, and only they, are in attribute lists; documents and fragments are roots; only elements have
attributes; text, comments, processing instructions and document types have no children. -/
structure DomTree (t : Tree) : Prop where
  root : t.kind ≠ .attribute
  attrs : ∀ up i n, sub t (.attr i :: up) = some n → n.kind = .attribute
  kids : ∀ up i n, sub t (.child i :: up) = some n → n.kind ≠ .attribute ∧ n.kind ≠ .document ∧ n.kind ≠ .fragment
  owners : ∀ r n, sub t r = some n → n.attrs ≠ [] → n.kind = .element
  inner : ∀ r n, sub t r = some n → n.kids ≠ [] →
    n.kind = .document ∨ n.kind = .fragment ∨ n.kind = .element ∨ n.kind = .attribute ∨ n.kind = .entityRef

/-- No document type node and no entity reference. -/
def Expanded (t : Tree) : Prop := ∀ r n, sub t r = some n → n.kind ≠ .doctype ∧ n.kind ≠ .entityRef

/-- No text next to text. -/
def Normalized (t : Tree) : Prop := ∀ up i, ¬ (TextAt t (.child i :: up) ∧ TextAt t (.child (i + 1) :: up))

/-! ## Namespaces -/

/-- The element `a` declares the prefix `p` (none for the default) for the namespace `u`. -/
def Declares (t : Tree) (a : Ref) (p u : Str) : Prop :=
  ∃ i n, sub t (.attr i :: a) = some n ∧ n.data.value = u ∧
    ((n.data.pfx = xmlnsName ∧ n.data.loc = p) ∨ (n.data.name = xmlnsName ∧ p = []))

/-- The namespaces in scope at an element (section 5.4): the binding of each prefix by the nearest
declaration, unless it is undone by an empty name; and that of `xml`. -/
def InScope (t : Tree) (c : Ref) (p u : Str) : Prop :=
  (p, u) = xmlBinding ∨
    (u ≠ [] ∧ ∃ s a, c = s ++ a ∧ Declares t a p u ∧
      ∀ s' s'', s = s' ++ s'' → s'' ≠ [] → ∀ u', ¬ Declares t (s'' ++ a) p u')

end Verif.Spec.XPathAxes
