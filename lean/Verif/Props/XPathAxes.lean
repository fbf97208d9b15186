import Verif.Lemmas.XTreeAxes
set_option autoImplicit false
/-!
# C35: the XPath axes
-/
namespace Verif.Props.XPathAxes
open Verif.XTree Verif.Spec.XPathAxes

/-! ## Example documents -/

def el (name : Str) (attrs kids : List Tree) : Tree := .node { kind := .element, name := name, loc := name } attrs kids
def tx (s : Str) : Tree := .node { kind := .text, value := s } [] []
def cd (s : Str) : Tree := .node { kind := .cdata, value := s } [] []
def cm (s : Str) : Tree := .node { kind := .comment, value := s } [] []
def at' (name value : Str) : Tree := .node { kind := .attribute, name := name, loc := name, value := value } [] [tx value]
def ns (p u : Str) : Tree :=
  .node { kind := .attribute, name := xmlnsName ++ ':' :: p, pfx := xmlnsName, loc := p, uri := xmlnsUri, value := u } [] [tx u]
def doc (kids : List Tree) : Tree := .node { kind := .document } [] kids

/-- `<!--c--><a x="1" xmlns:p="u" y="2"><b>s<![CDATA[t]]><c/></b>u<d z="3"/></a>` -/
def ex : Tree :=
  doc [cm ['c'], el ['a'] [at' ['x'] ['1'], ns ['p'] ['u'], at' ['y'] ['2']]
    [el ['b'] [] [tx ['s'], cd ['t'], el ['c'] [] []], tx ['u'], el ['d'] [at' ['z'] ['3']] []]]

/-- The same without the CDATA section. -/
def ex' : Tree :=
  doc [cm ['c'], el ['a'] [at' ['x'] ['1'], ns ['p'] ['u'], at' ['y'] ['2']]
    [el ['b'] [] [tx ['s'], el ['c'] [] []], tx ['u'], el ['d'] [at' ['z'] ['3']] []]]

theorem ex_dom : DomTree ex := domTree_of_check (by decide +kernel)
theorem ex_expanded : Expanded ex := expanded_of_check (by decide +kernel)
theorem ex'_dom : DomTree ex' := domTree_of_check (by decide +kernel)
theorem ex'_expanded : Expanded ex' := expanded_of_check (by decide +kernel)
theorem ex'_normalized : Normalized ex' := normalized_of_check (by decide +kernel)

/-! ## The axes -/

/-- Every axis of every node gives exactly the XPath nodes on it, each once, forward axes in document order
and reverse axes in reverse document order, however text is split (but see `preceding`).

Partial: the child axis of an attribute is not empty as it should be (`C35_violated_child_of_attribute`); the
following axis outside of a document follows a null pointer (`C35_violated_following_in_fragment`); the preceding
axis gives the pieces of split text one by one (`C35_violated_preceding_split_text`); document type nodes and
entity references are given although XPath has no such nodes (`C35_violated_doctype`). -/
theorem C35_partial (t : Tree) (hd : DomTree t) (he : Expanded t) (c : Ref) (hc : XNode t c) (axis : Axis)
    (hchild : axis = .child → ¬ IsAttr c) (hfoll : axis = .following → t.kind = .document)
    (hprec : axis = .preceding → Normalized t) :
    ∃ l fuel, (∀ f, fuel ≤ f → enumerate t c axis f = .done l) ∧ IsAxis t c axis l := by
  obtain ⟨fuel, l, h1, h2⟩ := axes hd he hc axis hchild hfoll hprec
  exact ⟨l, fuel, fun f hf => enumerate_mono h1 hf, h2⟩

/-- The hypotheses are met by a document with attributes, a namespace declaration and split text, and the
lists are not trivial. -/
example : DomTree ex ∧ Expanded ex ∧ XNode ex [.child 0, .child 1] ∧ ex.kind = .document ∧
    enumerate ex [.child 1] .descendant 10 = .done [[.child 0, .child 1], [.child 0, .child 0, .child 1],
      [.child 2, .child 0, .child 1], [.child 1, .child 1], [.child 2, .child 1]] ∧
    enumerate ex [.child 1] .attribute 10 = .done [[.attr 0, .child 1], [.attr 2, .child 1]] ∧
    enumerate ex [.child 2, .child 0, .child 1] .following 10 = .done [[.child 1, .child 1], [.child 2, .child 1]] ∧
    enumerate ex [.child 2, .child 0, .child 1] .precedingSibling 10 = .done [[.child 0, .child 0, .child 1]] := by
  refine ⟨ex_dom, ex_expanded, ⟨by simp [AllChild], ⟨_, rfl, by decide, by decide⟩, ?_⟩, ?_⟩
  · rintro ⟨_, j, hj, _⟩; omega
  · decide +kernel

example : Normalized ex' ∧ enumerate ex' [.child 2, .child 1] .preceding 10 =
    .done [[.child 1, .child 1], [.child 1, .child 0, .child 1], [.child 0, .child 0, .child 1],
      [.child 0, .child 1], [.child 0]] := ⟨ex'_normalized, by decide +kernel⟩

/-- The five lists of a node: itself, ancestors, descendants, following and preceding nodes. Every node of
the document that is no attribute is in exactly one of them. -/
theorem C35_partition (t : Tree) (hd : DomTree t) (he : Expanded t) (hdoc : t.kind = .document)
    (hn : Normalized t) (c : Ref) (hc : XNode t c) (hca : ¬ IsAttr c) (y : Ref) (hy : XNode t y) (hya : ¬ IsAttr y)
    (f : Nat) (la ld lf lp : List Ref) (h1 : enumerate t c .ancestor f = .done la)
    (h2 : enumerate t c .descendant f = .done ld) (h3 : enumerate t c .following f = .done lf)
    (h4 : enumerate t c .preceding f = .done lp) :
    ([[c], la, ld, lf, lp].filter fun l => decide (y ∈ l)).length = 1 := by
  have key : ∀ axis l, enumerate t c axis f = .done l → axis ≠ .child → ∀ r, r ∈ l ↔ XNode t r ∧ OnAxis c r axis := by
    intro axis l hl hne
    obtain ⟨l', fuel, h, hax⟩ := C35_partial t hd he c hc axis (fun h => absurd h hne) (fun _ => hdoc) (fun _ => hn)
    have e1 := h (max fuel f) (Nat.le_max_left ..)
    have e2 := enumerate_mono hl (Nat.le_max_right fuel f)
    rw [e1] at e2
    cases e2
    exact hax.1
  have k1 : y ∈ la ↔ Ancestor y c := by
    rw [key _ _ h1 (by simp) y]; simp [OnAxis, hy]
  have k2 : y ∈ ld ↔ Ancestor c y := by
    rw [key _ _ h2 (by simp) y]; simp [OnAxis, hy, hya]
  have k3 : y ∈ lf ↔ Div c y := by
    rw [key _ _ h3 (by simp) y]
    simp only [OnAxis, hy, hya, not_false_eq_true, and_true, true_and]
    constructor
    · rintro ⟨a, b⟩; exact (div_iff_of_not_anc b).1 a
    · intro h; exact ⟨before_of_div h, not_anc_of_div h⟩
  have k4 : y ∈ lp ↔ Div y c := by
    rw [key _ _ h4 (by simp) y]
    simp only [OnAxis, hy, hya, not_false_eq_true, and_true, true_and]
    constructor
    · rintro ⟨a, b⟩; exact (div_iff_of_not_anc b).1 a
    · intro h; exact ⟨before_of_div h, not_anc_of_div h⟩
  have k0 : y ∈ [c] ↔ y = c := by simp
  have dec : ∀ P Q : Prop, [Decidable P] → (P ↔ Q) → Q → decide P = true := by
    intro P Q _ h q; exact decide_eq_true (h.2 q)
  have decn : ∀ P Q : Prop, [Decidable P] → (P ↔ Q) → ¬ Q → decide P = false := by
    intro P Q _ h q; exact decide_eq_false (fun p => q (h.1 p))
  have five := cases5 c y
  have count : ∀ b0 b1 b2 b3 b4 : Bool, decide (y ∈ [c]) = b0 → decide (y ∈ la) = b1 → decide (y ∈ ld) = b2 →
      decide (y ∈ lf) = b3 → decide (y ∈ lp) = b4 →
      ([[c], la, ld, lf, lp].filter fun l => decide (y ∈ l)).length =
        (bif b0 then 1 else 0) + (bif b1 then 1 else 0) + (bif b2 then 1 else 0) + (bif b3 then 1 else 0) +
          (bif b4 then 1 else 0) := by
    intro b0 b1 b2 b3 b4 e0 e1 e2 e3 e4
    simp only [List.filter, e0, e1, e2, e3, e4]
    cases b0 <;> cases b1 <;> cases b2 <;> cases b3 <;> cases b4 <;> rfl
  rcases five with rfl | h | h | h | h
  · rw [count true false false false false (dec _ _ k0 rfl) (decn _ _ k1 (anc_irrefl _)) (decn _ _ k2 (anc_irrefl _))
      (decn _ _ k3 (fun h => before_irrefl _ (before_of_div h))) (decn _ _ k4 (fun h => before_irrefl _ (before_of_div h)))]
    rfl
  · rw [count false false true false false
      (decn _ _ k0 (fun e => anc_irrefl _ (e ▸ h)))
      (decn _ _ k1 (fun h' => before_asymm (before_of_anc h) (before_of_anc h')))
      (dec _ _ k2 h) (decn _ _ k3 (not_div_of_anc h)) (decn _ _ k4 (not_div_of_anc' h))]
    rfl
  · rw [count false true false false false
      (decn _ _ k0 (fun e => anc_irrefl _ (e ▸ h))) (dec _ _ k1 h)
      (decn _ _ k2 (fun h' => before_asymm (before_of_anc h) (before_of_anc h')))
      (decn _ _ k3 (not_div_of_anc' h)) (decn _ _ k4 (not_div_of_anc h))]
    rfl
  · rw [count false false false true false
      (decn _ _ k0 (fun e => before_irrefl _ (before_of_div (e ▸ h))))
      (decn _ _ k1 (fun h' => not_div_of_anc' h' h)) (decn _ _ k2 (not_anc_of_div h)) (dec _ _ k3 h)
      (decn _ _ k4 (fun h' => before_asymm (before_of_div h) (before_of_div h')))]
    rfl
  · rw [count false false false false true
      (decn _ _ k0 (fun e => before_irrefl _ (before_of_div (e ▸ h))))
      (decn _ _ k1 (not_anc_of_div h)) (decn _ _ k2 (fun h' => not_div_of_anc' h' h))
      (decn _ _ k3 (fun h' => before_asymm (before_of_div h) (before_of_div h'))) (dec _ _ k4 h)]
    rfl

example : ∃ la ld lf lp, enumerate ex' [.child 1, .child 1] .ancestor 10 = .done la ∧
    enumerate ex' [.child 1, .child 1] .descendant 10 = .done ld ∧
    enumerate ex' [.child 1, .child 1] .following 10 = .done lf ∧
    enumerate ex' [.child 1, .child 1] .preceding 10 = .done lp ∧ la.length = 2 ∧ ld.length = 0 ∧ lf.length = 1 ∧
    lp.length = 4 := ⟨[[.child 1], []], [], [[.child 2, .child 1]],
      [[.child 1, .child 0, .child 1], [.child 0, .child 0, .child 1], [.child 0, .child 1], [.child 0]],
      by decide +kernel⟩

/-! ## Where the axes are wrong -/

/-- The child axis of an attribute gives the text node that holds its value; XPath attributes have no
children. -/
theorem C35_violated_child_of_attribute : XNode ex [.attr 0, .child 1] ∧
    enumerate ex [.attr 0, .child 1] .child 10 = .done [[.child 0, .attr 0, .child 1]] ∧
    ¬ IsAxis ex [.attr 0, .child 1] .child [[.child 0, .attr 0, .child 1]] := by
  refine ⟨⟨by simp [AllChild], _, rfl, by decide⟩, by decide +kernel, ?_⟩
  rintro ⟨h, _⟩
  have := ((h [.child 0, .attr 0, .child 1]).1 (by simp)).1.1
  simp [AllChild] at this

/-- In a document fragment the following axis of the last node follows a null pointer. -/
theorem C35_violated_following_in_fragment :
    DomTree (.node { kind := .fragment } [] [el ['a'] [] []]) ∧
    enumerate (.node { kind := .fragment } [] [el ['a'] [] []]) [.child 0] .following 10 = .crash :=
  ⟨domTree_of_check (by decide +kernel), by decide +kernel⟩

/-- Split text before a node is given piece by piece on its preceding axis: here the XPath text node `st`
is given twice, by its second and by its first piece. -/
theorem C35_violated_preceding_split_text :
    enumerate (doc [el ['r'] [] [el ['b'] [] [tx ['s'], cd ['t']], el ['c'] [] []]]) [.child 1, .child 0] .preceding 10 =
      .done [[.child 1, .child 0, .child 0], [.child 0, .child 0, .child 0], [.child 0, .child 0]] ∧
    ¬ XNode (doc [el ['r'] [] [el ['b'] [] [tx ['s'], cd ['t']], el ['c'] [] []]]) [.child 1, .child 0, .child 0] := by
  refine ⟨by decide +kernel, ?_⟩
  rintro ⟨_, _, h⟩
  exact h ⟨⟨_, rfl, .inr rfl⟩, 0, rfl, ⟨_, rfl, .inl rfl⟩⟩

/-- The document type declaration is given as a child of the document. -/
theorem C35_violated_doctype :
    enumerate (doc [.node { kind := .doctype } [] [], el ['a'] [] []]) [] .child 10 = .done [[.child 0], [.child 1]] ∧
    ¬ XNode (doc [.node { kind := .doctype } [] [], el ['a'] [] []]) [.child 0] := by
  refine ⟨by decide +kernel, ?_⟩
  rintro ⟨_, ⟨n, hn, h, _⟩, _⟩
  cases hn
  exact h rfl

/-! ## The namespace axis -/

/-- Every namespace in scope at an element is on its namespace axis. -/
theorem C35_namespace_complete (t : Tree) (hd : DomTree t) (he : Expanded t) (c : Ref) (hc : XNode t c)
    (hk : kindOf t c = some .element) (p u : Str) (h : InScope t c p u) : (p, u) ∈ namespaceAxis t c := by
  have hca : AllChild c := by
    rcases xnode_cases hc with h | ⟨a, up, rfl, _⟩
    · exact h
    · rw [attr_kind hd (xnode_some hc)] at hk; cases hk
  rw [namespaceAxis, if_neg (by rw [hk]; simp)]
  rcases h with h | ⟨_, s, a, rfl, h, _⟩
  · simp [h]
  · exact List.mem_append.2 (.inr ((mem_declaredUp hd he hca (xnode_some hc) (.inl hk)).2 ⟨s, a, rfl, h⟩))

/-- The namespace axis of an element gives exactly the namespaces in scope.

Partial: only where no prefix is declared again further down and none is undone by an empty name. Otherwise
the outer declaration is given too (`C35_violated_namespace_redeclared`). -/
theorem C35_namespace_partial (t : Tree) (hd : DomTree t) (he : Expanded t) (c : Ref) (hc : XNode t c)
    (hk : kindOf t c = some .element)
    (once : ∀ s a s' a' p u u', c = s ++ a → c = s' ++ a' → Declares t a p u → Declares t a' p u' → a = a')
    (some' : ∀ s a p, c = s ++ a → ¬ Declares t a p []) (p u : Str) :
    (p, u) ∈ namespaceAxis t c ↔ InScope t c p u := by
  refine ⟨?_, C35_namespace_complete t hd he c hc hk p u⟩
  have hca : AllChild c := by
    rcases xnode_cases hc with h | ⟨a, up, rfl, _⟩
    · exact h
    · rw [attr_kind hd (xnode_some hc)] at hk; cases hk
  rw [namespaceAxis, if_neg (by rw [hk]; simp), List.mem_append]
  rintro (h | h)
  · left; simpa using h
  · right
    obtain ⟨s, a, hsa, h⟩ := (mem_declaredUp hd he hca (xnode_some hc) (.inl hk)).1 h
    refine ⟨?_, s, a, hsa, h, ?_⟩
    · rintro rfl; exact some' s a p hsa h
    · rintro s' s'' rfl hne u' h'
      have := once (s' ++ s'') a s' (s'' ++ a) p u u' hsa (by rw [hsa]; simp) h h'
      have := congrArg List.length this
      simp at this
      exact hne this

example : namespaceAxis ex [.child 0, .child 1] = [xmlBinding, (['p'], ['u'])] ∧
    kindOf ex [.child 0, .child 1] = some .element := by decide +kernel

/-- With a prefix declared twice, the hidden outer namespace is on the axis too. -/
theorem C35_violated_namespace_redeclared :
    namespaceAxis (el ['a'] [ns ['p'] ['u']] [el ['b'] [ns ['p'] ['v']] []]) [.child 0] =
      [xmlBinding, (['p'], ['v']), (['p'], ['u'])] ∧
    ¬ InScope (el ['a'] [ns ['p'] ['u']] [el ['b'] [ns ['p'] ['v']] []]) [.child 0] ['p'] ['u'] := by
  refine ⟨by decide +kernel, ?_⟩
  rintro (h | ⟨_, s, a, hsa, ⟨i, n, hn, hu, _⟩, hno⟩)
  · revert h; decide +kernel
  · cases s with
    | nil =>
      simp at hsa
      subst hsa
      match i with
      | 0 => simp [sub, Tree.step, el, ns, Tree.kids, Tree.attrs] at hn; subst hn; revert hu; decide +kernel
      | i + 1 => simp [sub, Tree.step, el, ns, Tree.kids, Tree.attrs] at hn
    | cons x s =>
      simp at hsa
      obtain ⟨rfl, rfl, rfl⟩ := hsa
      exact hno [] [.child 0] rfl (by simp) ['v'] ⟨0, _, rfl, rfl, .inl ⟨rfl, rfl⟩⟩

/-- Text has a namespace node; XPath gives none to nodes other than elements. -/
theorem C35_violated_namespace_of_text : namespaceAxis ex [.child 1, .child 1] = [xmlBinding] ∧
    kindOf ex [.child 1, .child 1] = some .text := by decide +kernel

end Verif.Props.XPathAxes
