import Verif.Lemmas.XsltVariableContent
import Verif.Props.XsltDomSink
import Verif.Props.XPathEval
set_option autoImplicit false
/-!
# C82: variables with content
-/
namespace Verif.Props.XsltVariableContent
open Verif.XsltVariableContent
open Verif.XsltDomSink (transform wide wide_ok nc_wide res_wide transform_good transform_shape)
open Verif.XTree (Tree sub nodesLessThan sortLt sortLt_spec World)
open Verif.XPathEval (Env XVal Ev)
open Verif.Xslt (Instrs)
open Verif.Spec.XPathNodeSet (Forest StdSort Small)
open Verif.Spec.XsltOutput (Consistents results Res)
open Verif.Spec.XsltDomSink (Prefixes Nameable nodes nodesAll joinedEmpty)
open Verif.Spec.XsltVariableContent
open Verif.Props.XsltOutput (seq exOk exNs exOk_consistent u1 u2 a b p)

/-- C82 in full: the value of a variable with content is the result tree fragment of its content. -/
def GivesFragment (E : Env) (k : Nat) (is : Instrs) : Prop :=
  ∃ v, value wide k is = .done v ∧ IsFragment E (results is) v

/-- The fragment the content gives, if there is one, is tree `k` of the forest. -/
def Holds (E : Env) (k : Nat) (is : Instrs) : Prop :=
  ∀ t, transform wide [] false is = .done (some t) → E.w.tree k = t ∧ Small t

/-- What the string of a variable with content is: the string-value of the first node of the content. -/
theorem C82_first (E : Env) (hw : Forest E.w) (hs : StdSort (nodesLessThan E.w) E.srt) (ns : Str → Str) (k : Nat)
    (is : Instrs) (hE : Holds E k is) (h : Consistents ns is) (hp : Prefixes ns) (hr : ∀ r ∈ results is, Nameable r)
    (h1 : results is ≠ []) :
    ∃ v, value wide k is = .done v ∧ v.isTrue = true ∧
      ∃ fuel, ∀ f, fuel ≤ f → v.string E f = .val (first (joinedEmpty (results is))) := by
  have hns : ∀ p, p ≠ [] → ns p ≠ [] → Verif.XsltDomSink.Nm wide p := fun p h1 h2 => nc_wide (hp p h1 h2)
  obtain ⟨top, g1, g2, g3⟩ := (transform_good wide_ok hns [] is h (fun r hm => res_wide (hr r hm))).2 h1
  obtain ⟨top', e, g4⟩ := transform_shape wide_ok hns [] is h (fun r hm => res_wide (hr r hm)) g1
  cases e
  obtain ⟨t1, t2⟩ := hE _ g1
  have hne : top ≠ [] := by
    rintro rfl
    exact Verif.XsltDomSink.joinedEmpty_ne _ h1 (by rw [← g2, nodesAll])
  obtain ⟨fuel, hf⟩ := string_value hw hs (k := k) rfl g4 hne t1 t2
  refine ⟨_, by rw [value, g1], ?_, fuel, fun f hl => by rw [hf f hl, g2]⟩
  cases top with
  | nil => exact absurd rfl hne
  | cons n top => simp [ofNode, XVal.isTrue, Tree.kids, List.range_succ_eq_map]

/-- C82, partial: if the text of the content is all in its first node, as in content that is one element, or
text only.  Missing: other content (`C82_violated_string`), and content that gives nothing
(`C82_violated_boolean`). -/
theorem C82_partial (E : Env) (hw : Forest E.w) (hs : StdSort (nodesLessThan E.w) E.srt) (ns : Str → Str) (k : Nat)
    (is : Instrs) (hE : Holds E k is) (h : Consistents ns is) (hp : Prefixes ns) (hr : ∀ r ∈ results is, Nameable r)
    (h1 : results is ≠ []) (h2 : first (joinedEmpty (results is)) = text (results is)) : GivesFragment E k is := by
  obtain ⟨v, g1, g2, fuel, g3⟩ := C82_first E hw hs ns k is hE h hp hr h1
  rw [h2] at g3
  have hn : ∃ ns, v = .nodes ns := by
    obtain ⟨top, e, _⟩ := (transform_good wide_ok (fun p h1 h2 => nc_wide (hp p h1 h2)) [] is h
      (fun r hm => res_wide (hr r hm))).2 h1
    rw [value, e] at g1
    cases g1
    exact ⟨_, rfl⟩
  obtain ⟨l, rfl⟩ := hn
  refine ⟨_, g1, ⟨fuel, g3⟩, ⟨fuel, fun f hl => ?_⟩, g2⟩
  rw [XVal.number, g3 f hl, Ev.bind]

/-- What `xsl:copy-of` of the variable copies: its nodes, in their order, are the nodes of the content. -/
theorem C82_nodes_partial (E : Env) (ns : Str → Str) (k : Nat)
    (is : Instrs) (hE : Holds E k is) (h : Consistents ns is) (hp : Prefixes ns) (hr : ∀ r ∈ results is, Nameable r)
    (h1 : results is ≠ []) :
    ∃ l, value wide k is = .done (.nodes l) ∧
      (l.nodes.filterMap fun x => sub (E.w.tree x.1) x.2).flatMap nodes = joinedEmpty (results is) := by
  obtain ⟨top, e, g2, g3⟩ := (transform_good wide_ok (fun p h1 h2 => nc_wide (hp p h1 h2)) [] is h
      (fun r hm => res_wide (hr r hm))).2 h1
  refine ⟨_, by rw [value, e]; rfl, ?_⟩
  rw [← g2]
  have key : ((List.range top.length).map fun i => ((k, [.child i]) : Verif.XTree.XN)).filterMap
      (fun x => sub (E.w.tree x.1) x.2) = top := by
    rw [List.filterMap_map]
    show (List.range top.length).filterMap (fun i => sub (E.w.tree k) [.child i]) = top
    rw [(hE _ e).1]
    exact children_of top
  show (List.filterMap _ ((List.range top.length).map fun i => ((k, [.child i]) : Verif.XTree.XN))).flatMap nodes = _
  rw [key]
  clear e g2 g3 key
  induction top with
  | nil => rfl
  | cons t ts ih => rw [nodesAll, List.flatMap_cons, ih]

/-- Content that gives nothing: the string is right. -/
theorem C82_nothing_partial (E : Env) (ns : Str → Str) (k : Nat) (is : Instrs) (h : Consistents ns is) (hp : Prefixes ns)
    (h1 : results is = []) : value wide k is = .done (.str []) ∧ text (results is) = [] := by
  rw [value, Verif.Props.XsltDomSink.C81_nothing ns [] is h hp h1, h1]
  exact ⟨rfl, rfl⟩

/-! ## Examples -/

/-- A forest of a document and a fragment. -/
def exWorld (t : Tree) : World where
  tree k := if k = 0 then .node { kind := .document } [] [] else t
  home _ := 0

def exEnv (t : Tree) : Env where
  w := exWorld t
  srt := sortLt (nodesLessThan (exWorld t))
  cv := Verif.Props.XPathValue.digits
  vars _ _ := none

theorem exForest (t : Tree) (h : t.kind ≠ .document) : Forest (exWorld t) where
  doc k hk := by
    simp only [exWorld] at hk ⊢
    split at hk
    · omega
    · exact absurd hk h
  other k _ := rfl

/-- `<a>b<b>b</b></a>` -/
def exOne : Instrs := seq [.element [] a [] (seq [.text b, .element [] b [] (seq [.text b])])]

/-- `a<b>b</b>` -/
def exTwo : Instrs := seq [.text a, .element [] b [] (seq [.text b])]

def frag (ks : List Tree) : Tree := .node { kind := .fragment, name := "#document-fragment".toList } [] ks
def elem (n : Str) (ks : List Tree) : Tree := .node { kind := .element, name := n, loc := n } [] ks

theorem exOne_tree : transform wide [] false exOne =
    .done (some (frag [elem a [Verif.XsltDomSink.textNode b, elem b [Verif.XsltDomSink.textNode b]]])) := by rfl

theorem exTwo_tree : transform wide [] false exTwo =
    .done (some (frag [Verif.XsltDomSink.textNode a, elem b [Verif.XsltDomSink.textNode b]])) := by rfl

theorem no_prefixes : Prefixes fun _ => [] := fun _ _ h => absurd rfl h

theorem exNames (r : Res) (h : r = .start [] a [] ∨ r = .start [] b [] ∨ r = .text a ∨ r = .text b ∨ r = .finish) :
    Nameable r := by
  rcases h with rfl | rfl | rfl | rfl | rfl
  · exact ⟨Verif.Props.XsltDomSink.letter 'a' (by decide +kernel), by simp⟩
  · exact ⟨Verif.Props.XsltDomSink.letter 'b' (by decide +kernel), by simp⟩
  all_goals trivial

/-- Content that is one element. -/
example : GivesFragment (exEnv (frag [elem a [Verif.XsltDomSink.textNode b, elem b [Verif.XsltDomSink.textNode b]]])) 1
    exOne := by
  refine C82_partial _ (exForest _ (by decide)) (sortLt_spec _) (fun _ => []) 1 exOne ?_ ?_ no_prefixes ?_ (by decide) (by decide)
  · intro t ht
    rw [exOne_tree] at ht
    cases ht
    exact ⟨rfl, Verif.XTree.small_of_check (by decide +kernel)⟩
  · simp [exOne, seq, Consistents, Spec.XsltOutput.Consistent]
  · intro r hr
    refine exNames r ?_
    have : results exOne = [.start [] a [], .text b, .start [] b [], .text b, .finish, .finish] := by decide
    rw [this] at hr
    simp only [List.mem_cons, List.not_mem_nil, or_false] at hr
    rcases hr with rfl | rfl | rfl | rfl | rfl | rfl <;> simp

/-- C82 is violated by content of text and an element: its string is the text before the element, so that
`<xsl:value-of select="$v"/>` for a variable with the content `a<b>b</b>` writes `a` and not `ab`. -/
theorem C82_violated_string : ∃ E v, Forest E.w ∧ StdSort (nodesLessThan E.w) E.srt ∧ Holds E 1 exTwo ∧
    value wide 1 exTwo = .done v ∧ (∃ fuel, ∀ f, fuel ≤ f → v.string E f = .val a) ∧
    text (results exTwo) = a ++ b ∧ ¬ GivesFragment E 1 exTwo := by
  have hE : Holds (exEnv (frag [Verif.XsltDomSink.textNode a, elem b [Verif.XsltDomSink.textNode b]])) 1 exTwo := by
    intro t ht
    rw [exTwo_tree] at ht
    cases ht
    exact ⟨rfl, Verif.XTree.small_of_check (by decide +kernel)⟩
  have hF : Forest (exEnv (frag [Verif.XsltDomSink.textNode a, elem b [Verif.XsltDomSink.textNode b]])).w :=
    exForest _ (by decide)
  have hS := sortLt_spec (nodesLessThan (exWorld (frag [Verif.XsltDomSink.textNode a, elem b [Verif.XsltDomSink.textNode b]])))
  obtain ⟨v, h1, h2, fuel, h3⟩ := C82_first _ hF hS (fun _ => []) 1 exTwo hE (by simp [exTwo, seq, Consistents, Spec.XsltOutput.Consistent]) no_prefixes
    (by
      intro r hr
      refine exNames r ?_
      have : results exTwo = [.text a, .start [] b [], .text b, .finish] := by decide
      rw [this] at hr
      simp only [List.mem_cons, List.not_mem_nil, or_false] at hr
      rcases hr with rfl | rfl | rfl | rfl <;> simp) (by decide)
  have e : first (joinedEmpty (results exTwo)) = a := by decide
  rw [e] at h3
  refine ⟨_, v, hF, hS, hE, h1, ⟨fuel, h3⟩, by decide, ?_⟩
  rintro ⟨v', g1, ⟨fuel', g2⟩, _, _⟩
  rw [h1] at g1
  cases g1
  have x1 := h3 (max fuel fuel') (Nat.le_max_left _ _)
  have x2 := g2 (max fuel fuel') (Nat.le_max_right _ _)
  rw [x1] at x2
  exact absurd x2 (by decide)

/-- C82 is violated by content that gives nothing: as a boolean the variable is false. -/
theorem C82_violated_boolean : value wide 1 .nil = .done (.str []) ∧ ∀ E, ¬ GivesFragment E 1 .nil := by
  have h : value wide 1 .nil = .done (.str []) := rfl
  refine ⟨h, ?_⟩
  rintro E ⟨v, g1, _, _, g2⟩
  rw [h] at g1
  cases g1
  cases g2

end Verif.Props.XsltVariableContent
