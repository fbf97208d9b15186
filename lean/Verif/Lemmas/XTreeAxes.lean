import Verif.Lemmas.XTreeReverse
set_option autoImplicit false
set_option linter.unusedSimpArgs false
set_option linter.unusedVariables false
namespace Verif.XTree
open Verif.Spec.XPathAxes

/-! ## More steps do not matter -/

theorem drain_mono {t : Tree} {c : Ref} {axis : Axis} {f g : Nat} {w : Walker} {l : List Ref}
    (h : drain t c axis f w = .done l) (hg : f ≤ g) : drain t c axis g w = .done l := by
  induction f generalizing g w l with
  | zero => simp [drain] at h
  | succ f ih =>
    obtain ⟨g, rfl⟩ : ∃ g', g = g' + 1 := ⟨g - 1, by omega⟩
    rw [drain] at h ⊢
    cases hc : w.cur with
    | none => rw [hc] at h; exact h
    | some r =>
      simp only [hc] at h
      cases ha : advance t c w r axis with
      | crash => simp [ha] at h
      | more => simp [ha] at h
      | done w' =>
        simp only [ha] at h
        cases hd : drain t c axis f w' with
        | crash => simp [hd, Outcome.cons] at h
        | more => simp [hd, Outcome.cons] at h
        | done l' =>
          simp [hd, Outcome.cons] at h
          simp [ha, ih hd (show f ≤ g by omega), Outcome.cons, h]

theorem enumerate_mono {t : Tree} {c : Ref} {axis : Axis} {f g : Nat} {l : List Ref}
    (h : enumerate t c axis f = .done l) (hg : f ≤ g) : enumerate t c axis g = .done l := by
  rw [enumerate] at *
  cases hc : create t c axis with
  | crash => simp [hc] at h
  | more => simp [hc] at h
  | done w => simp only [hc] at h ⊢; exact drain_mono h hg

/-! ## The context node -/

theorem xnode_some {t : Tree} {c : Ref} (h : XNode t c) : (sub t c).isSome := by
  match c, h with
  | [], _ => simp [sub]
  | .child i :: up, h => obtain ⟨n, hn, _⟩ := h.2.1; simp [hn]
  | .attr i :: up, h => obtain ⟨n, hn, _⟩ := h.2; simp [hn]

theorem xnode_cases {t : Tree} {c : Ref} (h : XNode t c) :
    AllChild c ∨ ∃ a up, c = .attr a :: up ∧ AllChild up := by
  match c, h with
  | [], _ => exact .inl allChild_nil
  | .child i :: up, h => exact .inl (allChild_cons.2 ⟨⟨i, rfl⟩, h.1⟩)
  | .attr i :: up, h => exact .inr ⟨i, up, rfl, h.1⟩

theorem xnode_of_cnode {t : Tree} (he : Expanded t) {r : Ref} (h : CNode t r) : XNode t r := ((xnode_iff he r).2 h).1

theorem cnode_of_xnode {t : Tree} (he : Expanded t) {r : Ref} (h : XNode t r) (ha : ¬ IsAttr r) : CNode t r :=
  (xnode_iff he r).1 ⟨h, ha⟩

theorem not_isAttr_of_allChild {r : Ref} (h : AllChild r) : ¬ IsAttr r := by
  match r, h with
  | [], _ => simp [IsAttr]
  | .child i :: up, _ => simp [IsAttr]
  | .attr i :: up, h => have := (allChild_cons.1 h).1; simp at this

theorem xnode_anc {t : Tree} (hd : DomTree t) (he : Expanded t) {a c : Ref} (hc : XNode t c) (h : Ancestor a c) :
    CNode t a := by
  obtain ⟨s, hs, rfl⟩ := h
  cases s with
  | nil => exact absurd rfl hs
  | cons x s =>
    have hv : (sub t (s ++ a)).isSome := isSome_of_append (s := [x]) (by simpa using xnode_some hc)
    have hall : AllChild (s ++ a) := by
      rcases xnode_cases hc with h | ⟨i, up, h, hup⟩
      · exact (allChild_cons.1 h).2
      · simp at h; rw [h.2]; exact hup
    by_cases hs' : s = []
    · subst hs'
      refine ⟨hall, hv, ?_⟩
      simp only [List.cons_append, List.nil_append] at *
      intro hcont
      -- a piece of text has neither children nor attributes
      have ht : TextAt t a := by
        match a, hcont with
        | .child (j + 1) :: up, hcont => exact hcont.1
      obtain ⟨n, hn, hk⟩ := ht
      have hx := xnode_some hc
      cases x with
      | child i => rw [child_isSome, kidsOf_some hn, hd.leaves a n hn hk] at hx; simp at hx
      | attr i =>
        rw [sub_attr, attrsOf_some hn] at hx
        have : n.attrs = [] := by
          by_cases h0 : n.attrs = []
          · exact h0
          · have := hd.owners a n hn h0
            rcases hk with hk | hk <;> rw [hk] at this <;> simp at this
        rw [this] at hx; simp at hx
    · have := not_text_of_anc hd hs' (allChild_append.1 hall).1 hv
      exact ⟨(allChild_append.1 hall).2, isSome_of_append hv, not_cont_of_not_text this⟩

theorem axes {t : Tree} (hd : DomTree t) (he : Expanded t) {c : Ref} (hc : XNode t c) (axis : Axis)
    (hchild : axis = .child → ¬ IsAttr c) (hfoll : axis = .following → t.kind = .document)
    (hprec : axis = .preceding → Normalized t) :
    ∃ fuel l, enumerate t c axis fuel = .done l ∧ IsAxis t c axis l := by
  have hv := xnode_some hc
  have hcs := xnode_cases hc
  have pw : ∀ l : List Ref, l.Pairwise After → l.Pairwise fun a b => Before b a := fun l h => h
  cases axis with
  | self =>
    refine ⟨2, [c], axis_self, ?_, by simp, by simp⟩
    intro r
    simp only [List.mem_singleton, OnAxis]
    constructor
    · rintro rfl; exact ⟨hc, rfl⟩
    · exact fun h => h.2
  | parent =>
    obtain ⟨l, hl, hm, hp⟩ := axis_parent hd hv hcs
    refine ⟨2, l, hl, ?_, by simp [Reverse], fun _ => hp⟩
    intro r
    rw [hm]
    constructor
    · rintro ⟨s, rfl⟩
      exact ⟨xnode_of_cnode he (xnode_anc hd he hc (anc_cons _ _)), s, rfl⟩
    · exact fun h => h.2
  | ancestor =>
    obtain ⟨f, l, hl, hm, hp⟩ := axis_ancestor hd hv hcs
    refine ⟨f, l, hl, ?_, fun _ => hp, fun h => absurd trivial h⟩
    intro r
    rw [hm]
    exact ⟨fun h => ⟨xnode_of_cnode he (xnode_anc hd he hc h), h⟩, fun h => h.2⟩
  | ancestorOrSelf =>
    obtain ⟨f, l, hl, hm, hp⟩ := axis_ancestorOrSelf hd hv hcs
    refine ⟨f, l, hl, ?_, fun _ => hp, fun h => absurd trivial h⟩
    intro r
    rw [hm]
    constructor
    · rintro (rfl | h)
      · exact ⟨hc, .inl rfl⟩
      · exact ⟨xnode_of_cnode he (xnode_anc hd he hc h), .inr h⟩
    · exact fun h => h.2
  | «attribute» =>
    obtain ⟨f, l, hl, hm, hp⟩ := axis_attribute (t := t) (c := c)
    refine ⟨f, l, hl, ?_, by simp [Reverse], fun _ => hp⟩
    intro r
    rw [hm]
    simp only [OnAxis]
    constructor
    · rintro ⟨i, n, rfl, hn, hu⟩
      refine ⟨⟨?_, n, hn, hu⟩, i, rfl⟩
      rcases hcs with h | ⟨a, up, rfl, _⟩
      · exact h
      · exfalso
        -- an attribute has no attributes
        obtain ⟨m, hm', hs⟩ := sub_cons.1 hn
        have hk := hd.attrs up a m hm'
        have h0 : m.attrs ≠ [] := by
          intro h0
          have hs : m.attrs[i]? = some n := hs
          rw [h0] at hs; simp at hs
        have := hd.owners _ m hm' h0
        rw [hk] at this; cases this
    · rintro ⟨hx, i, rfl⟩
      obtain ⟨n, hn, hu⟩ := hx.2
      exact ⟨i, n, rfl, hn, hu⟩
  | child =>
    have hca : AllChild c := by
      rcases hcs with h | ⟨a, up, rfl, _⟩
      · exact h
      · exact absurd trivial (hchild rfl)
    obtain ⟨f, l, hl, hm, hp⟩ := axis_child hd hca
    refine ⟨f, l, hl, ?_, by simp [Reverse], fun _ => hp⟩
    intro r
    rw [hm]
    simp only [OnAxis]
    constructor
    · rintro ⟨h1, h2⟩; exact ⟨xnode_of_cnode he h1, h2⟩
    · rintro ⟨h1, i, rfl⟩; exact ⟨cnode_of_xnode he h1 (by simp [IsAttr]), i, rfl⟩
  | descendant =>
    rcases hcs with hca | ⟨a, up, rfl, hup⟩
    · have hcc := cnode_of_xnode he hc (not_isAttr_of_allChild hca)
      obtain ⟨f, l, hl, hm, hp⟩ := axis_descendant hd hcc
      refine ⟨f, l, hl, ?_, by simp [Reverse], fun _ => hp⟩
      intro r
      rw [hm]
      simp only [OnAxis]
      constructor
      · rintro ⟨h1, h2⟩; exact ⟨xnode_of_cnode he h1, h2, not_isAttr_of_allChild h1.1⟩
      · rintro ⟨h1, h2, h3⟩; exact ⟨cnode_of_xnode he h1 h3, h2⟩
    · refine ⟨1, [], ?_, ?_, by simp, by simp⟩
      · simp [enumerate, create, if_pos (attr_kind hd hv), drain]
      · intro r
        simp only [List.not_mem_nil, OnAxis, false_iff]
        rintro ⟨h1, h2, h3⟩
        have := (cnode_of_xnode he h1 h3).1
        obtain ⟨s, _, rfl⟩ := h2
        have := (allChild_cons.1 (allChild_append.1 this).2).1
        simp at this
  | descendantOrSelf =>
    rcases hcs with hca | ⟨a, up, rfl, hup⟩
    · have hcc := cnode_of_xnode he hc (not_isAttr_of_allChild hca)
      obtain ⟨f, l, hl, hm, hp⟩ := axis_descendantOrSelf hd hcc
      refine ⟨f, l, hl, ?_, by simp [Reverse], fun _ => hp⟩
      intro r
      rw [hm]
      simp only [OnAxis]
      constructor
      · rintro (rfl | ⟨h1, h2⟩)
        · exact ⟨hc, .inl rfl⟩
        · exact ⟨xnode_of_cnode he h1, .inr ⟨h2, not_isAttr_of_allChild h1.1⟩⟩
      · rintro ⟨h1, rfl | ⟨h2, h3⟩⟩
        · exact .inl rfl
        · exact .inr ⟨cnode_of_xnode he h1 h3, h2⟩
    · refine ⟨2, [.attr a :: up], ?_, ?_, by simp, by simp⟩
      · simp [enumerate, create, drain, advance, walkDown, if_pos (attr_kind hd hv), moved, Outcome.cons]
      · intro r
        simp only [List.mem_singleton, OnAxis]
        constructor
        · rintro rfl; exact ⟨hc, .inl rfl⟩
        · rintro ⟨h1, rfl | ⟨h2, h3⟩⟩
          · rfl
          · exfalso
            have := (cnode_of_xnode he h1 h3).1
            obtain ⟨s, _, rfl⟩ := h2
            have := (allChild_cons.1 (allChild_append.1 this).2).1
            simp at this
  | following =>
    obtain ⟨f, l, hl, hm, hp⟩ := axis_following hd (hfoll rfl) hcs hv
    refine ⟨f, l, hl, ?_, by simp [Reverse], fun _ => hp⟩
    intro r
    rw [hm]
    simp only [OnAxis]
    constructor
    · rintro ⟨h1, h2⟩
      exact ⟨xnode_of_cnode he h1, before_of_div h2, not_anc_of_div h2, not_isAttr_of_allChild h1.1⟩
    · rintro ⟨h1, h2, h3, h4⟩
      exact ⟨cnode_of_xnode he h1 h4, (div_iff_of_not_anc h3).1 h2⟩
  | preceding =>
    obtain ⟨f, l, hl, hm, hp⟩ := axis_preceding hd (hprec rfl) hcs hv
    refine ⟨f, l, hl, ?_, fun _ => hp, fun h => absurd trivial h⟩
    intro r
    rw [hm]
    simp only [OnAxis]
    constructor
    · rintro ⟨h1, h2⟩
      exact ⟨xnode_of_cnode he h1, before_of_div h2, not_anc_of_div h2, not_isAttr_of_allChild h1.1⟩
    · rintro ⟨h1, h2, h3, h4⟩
      exact ⟨cnode_of_xnode he h1 h4, (div_iff_of_not_anc h3).1 h2⟩
  | followingSibling =>
    obtain ⟨f, l, hl, hm, hp⟩ := axis_followingSibling hd hv hcs
    refine ⟨f, l, hl, ?_, by simp [Reverse], fun _ => hp⟩
    intro r
    rw [hm]
    simp only [OnAxis]
    constructor
    · rintro ⟨h1, h2⟩; exact ⟨xnode_of_cnode he h1, h2⟩
    · rintro ⟨h1, i, j, up, rfl, rfl, h⟩
      exact ⟨cnode_of_xnode he h1 (by simp [IsAttr]), i, j, up, rfl, rfl, h⟩
  | precedingSibling =>
    obtain ⟨f, l, hl, hm, hp⟩ := axis_precedingSibling hd hv hcs
    refine ⟨f, l, hl, ?_, fun _ => hp, fun h => absurd trivial h⟩
    intro r
    rw [hm]
    simp only [OnAxis]
    constructor
    · rintro ⟨h1, h2⟩; exact ⟨xnode_of_cnode he h1, h2⟩
    · rintro ⟨h1, i, j, up, rfl, rfl, h⟩
      exact ⟨cnode_of_xnode he h1 (by simp [IsAttr]), i, j, up, rfl, rfl, h⟩

/-! ## Namespaces -/

theorem mem_declared {l : List Tree} {p u : Str} : (p, u) ∈ declared l ↔
    ∃ (i : Nat) (n : Tree), l[i]? = some n ∧ n.data.value = u ∧
      ((n.data.pfx = xmlnsName ∧ n.data.loc = p) ∨ (n.data.name = xmlnsName ∧ p = [])) := by
  induction l with
  | nil => simp [declared]
  | cons a l ih =>
    rw [declared, List.mem_append, List.mem_append, ih]
    constructor
    · rintro ((h | h) | ⟨i, n, h⟩)
      · by_cases hp : a.data.pfx = xmlnsName
        · rw [if_pos hp] at h
          simp at h
          exact ⟨0, a, by simp, h.2.symm, .inl ⟨hp, h.1.symm⟩⟩
        · rw [if_neg hp] at h; simp at h
      · by_cases hp : a.data.name = xmlnsName
        · rw [if_pos hp] at h
          simp at h
          exact ⟨0, a, by simp, h.2.symm, .inr ⟨hp, h.1⟩⟩
        · rw [if_neg hp] at h; simp at h
      · exact ⟨i + 1, n, by simpa using h⟩
    · rintro ⟨i, n, hn, hu, h⟩
      cases i with
      | zero =>
        simp at hn
        subst hn
        left
        rcases h with ⟨h1, h2⟩ | ⟨h1, h2⟩
        · left; rw [if_pos h1]; simp [h2, hu]
        · right; rw [if_pos h1]; simp [h2, hu]
      | succ i => exact .inr ⟨i, n, by simpa using hn, hu, h⟩

theorem mem_declared_iff {t : Tree} {a : Ref} {p u : Str} : (p, u) ∈ declared (attrsOf t a) ↔ Declares t a p u := by
  rw [mem_declared, Declares]
  simp only [sub_attr]

theorem declares_element {t : Tree} (hd : DomTree t) {a : Ref} {p u : Str} (h : Declares t a p u) :
    kindOf t a = some .element := by
  obtain ⟨i, n, hn, _⟩ := h
  obtain ⟨m, hm, hs⟩ := sub_cons.1 hn
  rw [kindOf, hm]
  simp
  refine hd.owners a m hm ?_
  intro h0
  have hs : m.attrs[i]? = some n := hs
  rw [h0] at hs; simp at hs

theorem parent_kind {t : Tree} (hd : DomTree t) (he : Expanded t) {i : Nat} {up : Ref} (hup : AllChild up)
    (h : (sub t (.child i :: up)).isSome) : kindOf t up = some .element ∨ up = [] := by
  obtain ⟨m, hm⟩ := Option.isSome_iff_exists.1 h
  obtain ⟨n, hn, hs⟩ := sub_cons.1 hm
  have hk : n.kids ≠ [] := by
    intro h0
    have hs : n.kids[i]? = some m := hs
    rw [h0] at hs; simp at hs
  match up, hup, hn with
  | [], _, _ => exact .inr rfl
  | .attr j :: u, hup, _ => have := (allChild_cons.1 hup).1; simp at this
  | .child j :: u, _, hn =>
    left
    have h1 := hd.kids u j n hn
    have h2 := (he _ n hn).2
    rcases hd.inner _ n hn hk with h | h | h | h | h
    · exact absurd h h1.2.1
    · exact absurd h h1.2.2
    · rw [kindOf, hn]; exact congrArg some h
    · exact absurd h h1.1
    · exact absurd h h2

theorem mem_declaredUp {t : Tree} (hd : DomTree t) (he : Expanded t) {c : Ref} (hc : AllChild c)
    (hv : (sub t c).isSome) (hk : kindOf t c = some .element ∨ c = []) {p u : Str} :
    (p, u) ∈ declaredUp t c ↔ ∃ s a, c = s ++ a ∧ Declares t a p u := by
  induction c with
  | nil =>
    rw [declaredUp]
    constructor
    · intro h
      by_cases hk : kindOf t [] = some .element
      · rw [if_pos hk] at h
        exact ⟨[], [], rfl, mem_declared_iff.1 h⟩
      · rw [if_neg hk] at h; simp at h
    · rintro ⟨s, a, h, h'⟩
      simp at h
      obtain ⟨rfl, rfl⟩ := h
      rw [if_pos (declares_element hd h')]
      exact mem_declared_iff.2 h'
  | cons x up ih =>
    obtain ⟨⟨i, rfl⟩, hup⟩ := allChild_cons.1 hc
    have hk' : kindOf t (.child i :: up) = some .element := hk.resolve_right (by simp)
    rw [declaredUp, if_pos hk', List.mem_append, mem_declared_iff,
      ih hup (isSome_of_append (s := [.child i]) hv) (parent_kind hd he hup hv)]
    constructor
    · rintro (h | ⟨s, a, rfl, h⟩)
      · exact ⟨[], _, rfl, h⟩
      · exact ⟨.child i :: s, a, rfl, h⟩
    · rintro ⟨s, a, h, h'⟩
      cases s with
      | nil => simp at h; subst h; exact .inl h'
      | cons y s => simp at h; exact .inr ⟨s, a, h.2, h'⟩

/-! ## Checking a concrete tree -/

def checkTree (t : Tree) : Bool :=
  t.kind != .attribute && (refs [] t).all fun r =>
    match sub t r with
    | none => true
    | some n =>
      (match r with
        | [] => true
        | .attr _ :: _ => n.kind == .attribute
        | .child _ :: _ => n.kind != .attribute && n.kind != .document && n.kind != .fragment) &&
      (n.attrs.isEmpty || n.kind == .element) &&
      (n.kids.isEmpty || n.kind == .document || n.kind == .fragment || n.kind == .element ||
        n.kind == .attribute || n.kind == .entityRef)

theorem domTree_of_check {t : Tree} (h : checkTree t = true) : DomTree t := by
  rw [checkTree, Bool.and_eq_true] at h
  obtain ⟨h0, h⟩ := h
  rw [List.all_eq_true] at h
  have key : ∀ r n, sub t r = some n → _ := fun r n hn => h r (mem_all (by simp [hn]))
  refine ⟨by simpa using h0, ?_, ?_, ?_, ?_⟩
  · intro up i n hn
    have := key _ n hn
    simp [hn] at this
    exact this.1.1
  · intro up i n hn
    have := key _ n hn
    simp [hn] at this
    exact ⟨this.1.1.1.1, this.1.1.1.2, this.1.1.2⟩
  · intro r n hn ha
    have := key _ n hn
    simp [hn] at this
    exact this.1.2.resolve_left ha
  · intro r n hn ha
    have := key _ n hn
    simp [hn, ha] at this
    rcases this.2 with (((h | h) | h) | h) | h
    · exact .inl h
    · exact .inr (.inl h)
    · exact .inr (.inr (.inl h))
    · exact .inr (.inr (.inr (.inl h)))
    · exact .inr (.inr (.inr (.inr h)))

def checkExpanded (t : Tree) : Bool :=
  (refs [] t).all fun r =>
    match sub t r with
    | none => true
    | some n => n.kind != .doctype && n.kind != .entityRef

theorem expanded_of_check {t : Tree} (h : checkExpanded t = true) : Expanded t := by
  rw [checkExpanded, List.all_eq_true] at h
  intro r n hn
  have := h r (mem_all (by simp [hn]))
  simpa [hn] using this

def checkNormalized (t : Tree) : Bool :=
  (refs [] t).all fun r =>
    match r with
    | .child (i + 1) :: up => !(isTextAt t (.child (i + 1) :: up) && isTextAt t (.child i :: up))
    | _ => true

theorem normalized_of_check {t : Tree} (h : checkNormalized t = true) : Normalized t := by
  rw [checkNormalized, List.all_eq_true] at h
  rintro up i ⟨h1, h2⟩
  obtain ⟨n, hn, _⟩ := id h2
  have := h _ (mem_all (r := .child (i + 1) :: up) (by simp [hn]))
  simp [isTextAt_iff.2 h1, isTextAt_iff.2 h2] at this

end Verif.XTree
