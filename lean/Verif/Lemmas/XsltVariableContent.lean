import Verif.Lemmas.XsltDomShape
import Verif.Lemmas.XStringValue
import Verif.Lemmas.XNodeSet
import Verif.Model.XsltVariableContent
import Verif.Spec.XsltVariableContent
set_option autoImplicit false
set_option linter.unusedSimpArgs false
set_option linter.unusedVariables false
/-!
# The string of a variable with content
-/
namespace Verif.XsltVariableContent
open Verif.XTree Verif.XPathEval
open Verif.Spec.XPathAxes Verif.Spec.XPathPath Verif.Spec.XPathNodeSet
open Verif.Spec.XsltOutput (Res)
open Verif.XsltDomSink (Shape ShapeL)
open Verif.Spec.XsltDomSink (nodes nodesAll)
open Verif.Spec.XsltVariableContent (inside first)

mutual
theorem inside_node : ∀ (t : Tree), Shape t → ∀ (d : Nat) (rest : List Res), inside d (nodes t ++ rest) = textIn t ++ inside d rest
  | .node a as ks, h, d, rest => by
    cases h with
    | element _ _ _ hk _ hs _ =>
      rw [nodes, textIn, hk]
      simp only [List.cons_append, inside, List.append_assoc, reduceCtorEq, or_self, if_false]
      rw [inside_all ks hs]
      simp [inside]
    | leaf _ hk =>
      rw [nodes, textIn]
      rcases hk with e | e | e | e <;> simp [e, inside, textInAll]
theorem inside_all : ∀ (ks : List Tree), (∀ t ∈ ks, Shape t) → ∀ (d : Nat) (rest : List Res),
    inside d (nodesAll ks ++ rest) = textInAll ks ++ inside d rest
  | [], _, d, rest => by simp [nodesAll, textInAll]
  | t :: ts, h, d, rest => by
    rw [nodesAll, textInAll, List.append_assoc, inside_node t (h t (by simp)), inside_all ts (fun t ht => h t (by simp [ht])),
      List.append_assoc]
end

/-- The string-value of the first child of a fragment. -/
theorem string_first {d : Data} {n : Tree} {top : List Tree} (hk : d.kind = .fragment) (h : ShapeL (n :: top)) :
    ∃ fuel, ∀ f, fuel ≤ f → nodeStringValue (.node d [] (n :: top)) [.child 0] f =
      .done (some (first (nodesAll (n :: top)))) := by
  have hsub : sub (.node d [] (n :: top)) [.child 0] = some n := rfl
  have hd := (Verif.XsltDomSink.shape_dom hk h).1
  have hn := h.1 n (by simp)
  cases hn with
  | element a as ks he ha hs hp =>
    obtain ⟨fuel, hf⟩ := stringValue_inner hd (r := [.child 0]) (by intro s hs; simp at hs; exact ⟨0, hs⟩) hsub (Or.inr (Or.inr he))
    refine ⟨fuel, fun f hl => ?_⟩
    rw [hf f hl]
    simp only [nodesAll, nodes, he, List.cons_append, first, List.append_assoc]
    rw [inside_all ks hs]
    simp [inside, Tree.kids]
  | leaf a he =>
    refine ⟨0, fun f _ => ?_⟩
    have hlt : ∀ (hx : (Tree.node a [] []).kind = .text ∨ (Tree.node a [] []).kind = .cdata), leadingText ((kidsOf (.node d [] (.node a [] [] :: top)) []).drop 0) = a.value := by
      intro hx
      show leadingText (.node a [] [] :: top) = _
      rw [leadingText, if_pos hx]
      cases top with
      | nil => simp [leadingText, Tree.data]
      | cons m ms =>
        have := h.2 0 (.node a [] []) m rfl rfl
        rw [leadingText, if_neg (show ¬ (m.kind = .text ∨ m.kind = .cdata) from fun hm => this ⟨hx, hm⟩)]
        simp [Tree.data]
    rcases he with e | e | e | e
    · rw [stringValue_text hsub (Or.inl e), hlt (Or.inl e)]
      simp [nodesAll, nodes, e, first]
    · rw [stringValue_text hsub (Or.inr e), hlt (Or.inr e)]
      simp [nodesAll, nodes, e, first]
    · rw [stringValue_value hsub (Or.inr (Or.inr e))]
      simp [nodesAll, nodes, e, first, Tree.data]
    · rw [stringValue_value hsub (Or.inr (Or.inl e))]
      simp [nodesAll, nodes, e, first, Tree.data]

theorem string_value {E : Env} (hw : Forest E.w) (hsrt : StdSort (nodesLessThan E.w) E.srt) {k : Nat} {d : Data}
    {top : List Tree} (hk : d.kind = .fragment) (h : ShapeL top) (hne : top ≠ []) (ht : E.w.tree k = .node d [] top)
    (hsm : Small (.node d [] top)) :
    ∃ fuel, ∀ f, fuel ≤ f → (ofNode k (some (.node d [] top))).string E f = .val (first (nodesAll top)) := by
  let S : XN → Prop := fun x => x.1 = k ∧ Valid E.w x
  have hS : Usual E.w S := by
    refine ⟨fun x hx => hx.2, fun x hx => ?_, fun x hx => ?_, fun x y hx hy _ hn => ?_⟩
    · rw [hx.1, ht]; exact hsm
    · rw [hx.1, ht]; show d.kind ≠ _; rw [hk]; decide
    · exact absurd (hx.1.trans hy.1.symm) hn
  have hmem : ∀ x ∈ (List.range top.length).map (fun i => ((k, [Step.child i]) : XN)), S x := by
    intro x hx
    obtain ⟨i, hi, rfl⟩ := List.mem_map.mp hx
    refine ⟨rfl, ?_⟩
    have hi' : i < top.length := List.mem_range.mp hi
    unfold Valid
    rw [ht]
    show (top[i]?).isSome = true
    rw [List.getElem?_eq_getElem hi']
    rfl
  cases top with
  | nil => exact absurd rfl hne
  | cons n rest =>
    obtain ⟨x, hx, hm, hb⟩ := top_spec hw hS hsrt
      (ns := { nodes := (List.range (n :: rest).length).map fun i => (k, [Step.child i]) })
      ⟨hmem, fun h => by cases h⟩ (by simp)
    have hx0 : x = (k, [.child 0]) := by
      rcases hb (k, [.child 0]) (List.mem_map.mpr ⟨0, by simp, rfl⟩) with e | e
      · exact e.symm
      · exfalso
        obtain ⟨i, _, rfl⟩ := List.mem_map.mp hm
        simp [DocBefore, Before, PathLt, StepLt] at e
    obtain ⟨fuel, hf⟩ := string_first hk h
    refine ⟨fuel, fun f hl => ?_⟩
    rw [ofNode]
    show XVal.string E f (.nodes { nodes := (List.range (n :: rest).length).map fun i => (k, [Step.child i]) }) = _
    rw [XVal.string, if_neg (by simp), hx, hx0]
    simp only [Ev.ofOption, Ev.bind, stringOf, ht, hf f hl, Ev.ofOutcome]

theorem children_of (l : List Tree) : (List.range l.length).filterMap (fun i => l[i]?) = l := by
  induction l with
  | nil => rfl
  | cons t ts ih =>
    rw [List.length_cons, List.range_succ_eq_map, List.filterMap_cons]
    simp only [List.getElem?_cons_zero, List.filterMap_map]
    show t :: (List.range ts.length).filterMap (fun i => ts[i]?) = _
    rw [ih]

end Verif.XsltVariableContent
