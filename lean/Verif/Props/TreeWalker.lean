import Verif.Lemmas.TreeWalker4
import Verif.Props.XPathAxes
set_option autoImplicit false
/-!
# C24: the tree walker
-/
namespace Verif.Props.TreeWalker
open Verif.XTree Verif.Spec.XPathAxes Verif.Spec.TreeWalker Verif.Walker

/-! ## An example -/

open Verif.Props.XPathAxes (el tx cm doc)

def er (kids : List Tree) : Tree := .node { kind := .entityRef } [] kids

/-- `<a><b>s<c><e/></c></b><!--n-->u<d><f/><g/></d></a>` -/
def ex : Tree :=
  doc [el ['a'] [] [el ['b'] [] [tx ['s'], el ['c'] [] [el ['e'] [] []]], cm ['n'], tx ['u'],
    el ['d'] [] [el ['f'] [] [], el ['g'] [] []]]]

/-- Skips the element `b`, rejects the element `d`. -/
def flt : Ref → Verdict
  | [.child 0, .child 0] => .skip
  | [.child 3, .child 0] => .reject
  | _ => .accept

/-- A walker over elements and text (5 is `SHOW_ELEMENT | SHOW_TEXT`). -/
def wk : WalkState := make [] 5 (some flt) true

/-! ## All nodes in order -/

/-- Starting at the root and calling `nextNode` until it returns null gives the accepted descendants, each
once, in document order, for every tree and every filter, unless there are entity references that are skipped
while they are not to be expanded.

Partial: for such entity references see `C24_violated_entity`. -/
theorem C24_nextNode_partial (t : Tree) (root : Ref) (show' : Nat) (filter : Option (Ref → Verdict)) (expand : Bool)
    (hr : (sub t root).isSome) (hE : EntitiesShown t (make root show' filter expand)) :
    ∃ l : List Ref, (∀ y, y ∈ l ↔ Sees t (make root show' filter expand) y) ∧ l.Pairwise Before ∧
      ∃ fuel, ∀ f, fuel ≤ f →
        callNextNode t f (l.length + 1) (make root show' filter expand) = .done (l.map some ++ [none]) := by
  obtain ⟨n, hn⟩ := Option.isSome_iff_exists.1 hr
  have hm := fun y => mem_below (t := t) (w := make root show' filter expand) (s := []) (y := y) allChild_nil hn trivial
    (fun h => absurd rfl h)
  refine ⟨_, fun y => (hm y).trans ⟨fun h => h.1, fun h => ⟨h, ?_⟩⟩, vis_sorted _ _, ?_⟩
  · obtain ⟨s, h1, _, h2, _⟩ := h
    exact ⟨s, h1, h2⟩
  · exact calls_spec hE hr _ root (.inl rfl) (vis_sorted _ _) fun y =>
      (hm y).trans ⟨fun h => ⟨h.1, before_of_anc h.2⟩, fun ⟨h, _⟩ => ⟨h, by
        obtain ⟨s, h1, _, h2, _⟩ := h
        exact ⟨s, h1, h2⟩⟩⟩

example : (sub ex wk.root).isSome ∧ EntitiesShown ex wk ∧
    callNextNode ex 20 6 wk = .done [some [.child 0], some [.child 0, .child 0, .child 0], some [.child 1, .child 0, .child 0],
      some [.child 0, .child 1, .child 0, .child 0], some [.child 2, .child 0], none] :=
  ⟨rfl, .inl rfl, by decide +kernel⟩

/-! ## The moves -/

/-- The state after a move: the current node is the one returned, or the same if null was returned. -/
def moved (w : WalkState) (x : Option Ref) : WalkState := { w with current := x.getD w.current }

theorem moveTo_done (w : WalkState) (x : Option Ref) : moveTo w (.done x) = .done (x, moved w x) := by
  cases x <;> rfl

/-- `nextNode` goes to the next node of the view in document order. -/
theorem C24_next_partial (t : Tree) (w : WalkState) (h : AtView t w) (hE : EntitiesShown t w) :
    ∃ x, IsFirst (fun y => Sees t w y ∧ Before w.current y) x ∧
      ∃ fuel, ∀ f, fuel ≤ f → goNextNode t w f = .done (x, moved w x) := by
  obtain ⟨x, h1, k, h2⟩ := nextNode_spec hE h
  refine ⟨x, h1, k, fun f hf => ?_⟩
  rw [goNextNode, show nextNodeImpl t w f = .done x from h2 f hf, moveTo_done]

/-- `firstChild` goes to the first child in the view. -/
theorem C24_firstChild_partial (t : Tree) (w : WalkState) (h : AtView t w) (hE : EntitiesShown t w) :
    ∃ x, IsFirst (ViewChild t w w.current) x ∧ ∃ fuel, ∀ f, fuel ≤ f → goFirstChild t w f = .done (x, moved w x) := by
  obtain ⟨x, h1, k, h2⟩ := firstChild_spec hE h
  refine ⟨x, h1, k, fun f hf => ?_⟩
  rw [goFirstChild, show getFirstChildImpl t w f w.current = .done x from h2 f hf, moveTo_done]

/-- `lastChild` goes to the last child in the view. -/
theorem C24_lastChild_partial (t : Tree) (w : WalkState) (h : AtView t w) (hE : EntitiesShown t w) :
    ∃ x, IsLast (ViewChild t w w.current) x ∧ ∃ fuel, ∀ f, fuel ≤ f → goLastChild t w f = .done (x, moved w x) := by
  obtain ⟨x, h1, k, h2⟩ := lastChild_spec hE h
  refine ⟨x, h1, k, fun f hf => ?_⟩
  rw [goLastChild, show getLastChildImpl t w f w.current = .done x from h2 f hf, moveTo_done]

/-- `previousSibling` goes to the last child of the same parent in the view before the current node. -/
theorem C24_previousSibling_partial (t : Tree) (w : WalkState) (h : AtView t w) (hE : EntitiesShown t w) :
    ∃ x, IsLast (fun y => Before y w.current ∧ ∃ p, ViewChild t w p w.current ∧ ViewChild t w p y) x ∧
      ∃ fuel, ∀ f, fuel ≤ f → goPreviousSibling t w f = .done (x, moved w x) := by
  obtain ⟨x, h1, k, h2⟩ := previousSibling_spec hE h
  refine ⟨x, h1, k, fun f hf => ?_⟩
  rw [goPreviousSibling, show getPreviousSiblingImpl t w f w.current = .done x from h2 f hf, moveTo_done]

/-- `parentNode` goes to the parent in the view, unless that is the root of the walker.

Partial: it never goes to the root, even if the root is accepted, see `C24_violated_parent`. -/
theorem C24_parent_partial (t : Tree) (w : WalkState) (h : AtView t w) :
    ∃ x, goParent t w = .done (x, moved w x) ∧ ∀ p, x = some p ↔ (ViewChild t w p w.current ∧ p ≠ w.root) :=
  ⟨getParentNodeImpl t w w.current, moveTo_done _ _, fun p => parent_spec' h p⟩

/-- Every move keeps the walker in the view, so the theorems above apply to any sequence of moves. -/
theorem C24_stays (t : Tree) (w : WalkState) (h : AtView t w) (x : Option Ref) (hx : ∀ y, x = some y → Sees t w y) :
    AtView t (moved w x) := by
  cases x with
  | none => exact h
  | some y => exact ⟨h.1, .inr (hx y rfl)⟩

/-- At the element `c`, whose parent `b` is skipped: its previous sibling is the text in `b`, its first child `e`,
its parent `a`. -/
def atC : WalkState := { wk with current := [.child 1, .child 0, .child 0] }

example : AtView ex atC ∧ EntitiesShown ex atC ∧
    goPreviousSibling ex atC 20 = .done (some [.child 0, .child 0, .child 0], moved atC (some [.child 0, .child 0, .child 0])) ∧
    goParent ex atC = .done (some [.child 0], moved atC (some [.child 0])) ∧
    goFirstChild ex atC 20 = .done (some [.child 0, .child 1, .child 0, .child 0],
      moved atC (some [.child 0, .child 1, .child 0, .child 0])) ∧
    goNextNode ex { atC with current := [.child 0, .child 1, .child 0, .child 0] } 20 =
      .done (some [.child 2, .child 0], moved atC (some [.child 2, .child 0])) := by
  refine ⟨⟨rfl, .inr ?_⟩, .inl rfl, rfl, rfl, rfl, rfl⟩
  refine sees_iff.2 ⟨[.child 1, .child 0, .child 0], by simp, by simp [AllChild], rfl, rfl, rfl, ?_⟩
  refine ⟨rfl, fun _ => ?_, rfl, fun _ => ?_, rfl, fun h => absurd rfl h, trivial⟩ <;> decide

/-! ## Where the code is wrong -/

/-- `nextSibling` is `previousSibling`. -/
theorem C24_violated_nextSibling (t : Tree) (w : WalkState) (f : Nat) : goNextSibling t w f = goPreviousSibling t w f := rfl

/-- From the second of two children it goes to the first, and from the first nowhere. -/
theorem C24_violated_nextSibling_example :
    let t := doc [el ['a'] [] [el ['b'] [] [], el ['c'] [] []]]
    let w := make [] 0xffff none true
    (∀ f, 1 ≤ f → goNextSibling t { w with current := [.child 1, .child 0] } f =
      .done (some [.child 0, .child 0], { w with current := [.child 0, .child 0] })) ∧
    (∀ f, 1 ≤ f → goNextSibling t { w with current := [.child 0, .child 0] } f =
      .done (none, { w with current := [.child 0, .child 0] })) := by
  refine ⟨fun f hf => ?_, fun f hf => ?_⟩ <;>
  · obtain ⟨f, rfl⟩ : ∃ g, f = g + 1 := ⟨f - 1, by omega⟩
    rfl

/-- `previousNode` does not go back to the parent: from the first child of a node of the view it returns
null. -/
theorem C24_violated_previousNode_parent :
    let t := doc [el ['a'] [] [el ['b'] [] []]]
    let w := make [] 0xffff none true
    Sees t w [.child 0] ∧ Before [.child 0] [.child 0, .child 0] ∧
    ∀ f, 1 ≤ f → goPreviousNode t { w with current := [.child 0, .child 0] } f =
      .done (none, { w with current := [.child 0, .child 0] }) := by
  refine ⟨?_, by simp [Before, PathLt], fun f hf => ?_⟩
  · exact sees_iff.2 ⟨[.child 0], by simp, by simp [AllChild], rfl, rfl, rfl, ⟨rfl, fun h => absurd rfl h, trivial⟩⟩
  · obtain ⟨f, rfl⟩ : ∃ g, f = g + 1 := ⟨f - 1, by omega⟩
    rfl

/-- `previousNode` goes down only one level: from `d` it skips `c` in `<a><b><c/></b></a><d/>`. -/
theorem C24_violated_previousNode_descends :
    let t := doc [el ['r'] [] [el ['a'] [] [el ['b'] [] [el ['c'] [] []]], el ['d'] [] []]]
    let w := make [] 0xffff none true
    Sees t w [.child 0, .child 0, .child 0, .child 0] ∧
    Before [.child 0, .child 0, .child 0] [.child 0, .child 0, .child 0, .child 0] ∧
    Before [.child 0, .child 0, .child 0, .child 0] [.child 1, .child 0] ∧
    ∀ f, 2 ≤ f → goPreviousNode t { w with current := [.child 1, .child 0] } f =
      .done (some [.child 0, .child 0, .child 0], { w with current := [.child 0, .child 0, .child 0] }) := by
  refine ⟨?_, by simp [Before, PathLt], by simp [Before, PathLt, StepLt], fun f hf => ?_⟩
  · refine sees_iff.2 ⟨[.child 0, .child 0, .child 0, .child 0], by simp, by simp [AllChild], rfl, rfl, rfl, ?_⟩
    refine ⟨rfl, fun _ => ?_, rfl, fun _ => ?_, rfl, fun _ => ?_, rfl, fun h => absurd rfl h, trivial⟩ <;> decide
  · obtain ⟨f, rfl⟩ : ∃ g, f = g + 2 := ⟨f - 2, by omega⟩
    rfl

/-- `parentNode` does not go to the root, though it is accepted. -/
theorem C24_violated_parent :
    let t := doc [el ['a'] [] []]
    let w := make [] 0xffff none true
    verdict t w [] = .accept ∧ ViewChild t w [] [.child 0] ∧
    goParent t { w with current := [.child 0] } = .done (none, { w with current := [.child 0] }) := by
  refine ⟨rfl, ⟨.inl rfl, ?_, ⟨[.child 0], by simp, rfl⟩, ?_⟩, rfl⟩
  · exact sees_iff.2 ⟨[.child 0], by simp, by simp [AllChild], rfl, rfl, rfl, ⟨rfl, fun h => absurd rfl h, trivial⟩⟩
  · rintro q _ ⟨⟨s, h1, h2⟩, h3⟩
    rcases anc_cons_iff.1 h3 with h4 | h4
    · rw [h4] at h2; simp at h2; exact h1 h2
    · exact not_anc_nil h4

/-- Where entity references are not expanded and not shown either, the walk ends at the first that has
children, though there are more nodes. -/
theorem C24_violated_entity :
    let t := doc [el ['a'] [] [er [tx ['s']], el ['b'] [] []]]
    let w := make [] 1 none false
    Sees t w [.child 1, .child 0] ∧
    ∀ f, 3 ≤ f → callNextNode t f 2 w = .done [some [.child 0], none] := by
  refine ⟨?_, fun f hf => ?_⟩
  · refine sees_iff.2 ⟨[.child 1, .child 0], by simp, by simp [AllChild], rfl, rfl, rfl, ?_⟩
    refine ⟨rfl, fun _ => ?_, rfl, fun h => absurd rfl h, trivial⟩; decide
  · obtain ⟨f, rfl⟩ : ∃ g, f = g + 3 := ⟨f - 3, by omega⟩
    rfl

end Verif.Props.TreeWalker
