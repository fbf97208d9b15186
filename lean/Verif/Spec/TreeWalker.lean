import Verif.Model.TreeWalker
import Verif.Spec.XPathAxes
set_option autoImplicit false
/-!
# The filtered view of a tree walker (DOM Level 2 Traversal, sections 1.1.2 and 1.2)
-/
namespace Verif.Spec.TreeWalker
open Verif.XTree Verif.Spec.XPathAxes Verif.Walker

/-- `SHOW_ELEMENT` and so on. -/
def showBit : Kind → Nat
  | .element => 0x1
  | .attribute => 0x2
  | .text => 0x4
  | .cdata => 0x8
  | .entityRef => 0x10
  | .pi => 0x40
  | .comment => 0x80
  | .document => 0x100
  | .doctype => 0x200
  | .fragment => 0x400

/-- A node that is not shown is skipped, without asking the filter; one that is shown is accepted if there is no
filter. -/
def verdict (t : Tree) (w : WalkState) (r : Ref) : Verdict :=
  match kindOf t r with
  | none => .skip
  | some k =>
    if w.whatToShow &&& showBit k = 0 then .skip
    else
      match w.filter with
      | none => .accept
      | some g => g r

/-- The view goes into a node below the root, or the root itself: it is not rejected, and no entity reference
unless these are expanded. -/
def Opens (t : Tree) (w : WalkState) (a : Ref) : Prop :=
  (a ≠ w.root → verdict t w a ≠ .reject) ∧ (kindOf t a = some .entityRef → w.expand = true)

/-- The nodes of the view: those below the root that are accepted and not in anything closed. -/
def Sees (t : Tree) (w : WalkState) (r : Ref) : Prop :=
  ∃ s, s ≠ [] ∧ AllChild s ∧ r = s ++ w.root ∧ (sub t r).isSome ∧ verdict t w r = .accept ∧
    ∀ s' s'', s = s' ++ s'' → s' ≠ [] → Opens t w (s'' ++ w.root)

/-- `r` is a child of `p` in the view. -/
def ViewChild (t : Tree) (w : WalkState) (p r : Ref) : Prop :=
  (p = w.root ∨ Sees t w p) ∧ Sees t w r ∧ Ancestor p r ∧ ∀ q, Sees t w q → ¬ (Ancestor p q ∧ Ancestor q r)

/-- The first in document order of the nodes with a property, or none if there are none. -/
def IsFirst (S : Ref → Prop) : Option Ref → Prop
  | some x => S x ∧ ∀ y, S y → y = x ∨ Before x y
  | none => ∀ y, ¬ S y

/-- The last in document order. -/
def IsLast (S : Ref → Prop) : Option Ref → Prop
  | some x => S x ∧ ∀ y, S y → y = x ∨ Before y x
  | none => ∀ y, ¬ S y

/-- Entity references are expanded, or at least none is skipped. -/
def EntitiesShown (t : Tree) (w : WalkState) : Prop :=
  w.expand = true ∨ ∀ r, kindOf t r = some .entityRef → verdict t w r ≠ .skip

/-- The walker is at its root or at a node of the view. -/
def AtView (t : Tree) (w : WalkState) : Prop :=
  (sub t w.root).isSome ∧ (w.current = w.root ∨ Sees t w w.current)

end Verif.Spec.TreeWalker
