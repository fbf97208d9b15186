import Verif.Lemmas.XTreeNav
set_option autoImplicit false
set_option linter.unusedSimpArgs false
set_option linter.unusedVariables false
namespace Verif.XTree
open Verif.Spec.XPathAxes

/-- Leave `r` for the next node after everything in it. -/
def nextOut (t : Tree) (o r : Ref) : Outcome (Option Ref) :=
  match findNextSibling t r with
  | some n => .done (some n)
  | none => climbFrom t (.here o) r

theorem climb_origin (t : Tree) (o : Ref) : climb t (.here o) o = .done none := by
  match o with
  | [] => simp [climb]
  | .attr i :: up => simp [climb]
  | .child i :: up => simp [climb]

theorem climb_eq_nextOut {t : Tree} {o r : Ref} (hr : AllChild r) (hne : r ≠ o) (hnil : r ≠ [])
    (hnt : ¬ TextAt t r) : climb t (.here o) r = nextOut t o r := by
  match r, hr, hnil with
  | .child i :: up, _, _ =>
    rw [climb, if_neg (by intro h; cases h; exact hne rfl), nextOut, findNextSibling, climbFrom,
      if_neg (fun h => hnt (isTextAt_iff.1 h))]
    cases nextSibling t (.child i :: up) <;> rfl
  | .attr i :: up, hr, _ => have := (allChild_cons.1 hr).1; simp at this

theorem nextOut_spec {t : Tree} (hd : DomTree t) (o : Ref) (s : Ref) (hs : s ≠ [])
    (hr : AllChild (s ++ o)) (hv : (sub t (s ++ o)).isSome) :
    ∃ res, nextOut t o (s ++ o) = .done res ∧
      Least Before (fun y => CNode t y ∧ Ancestor o y ∧ Div (s ++ o) y) res := by
  induction s with
  | nil => exact absurd rfl hs
  | cons x s ih =>
    obtain ⟨⟨i, rfl⟩, hup⟩ := allChild_cons.1 (show AllChild (x :: (s ++ o)) from hr)
    have hvu : (sub t (s ++ o)).isSome := isSome_of_append (s := [Step.child i]) hv
    have hi : i < (kidsOf t (s ++ o)).length := child_isSome.1 hv
    have hf := findNext_spec hup hi
    -- what comes after in the same sibling list
    have hsib : ∀ y, CNode t y → Ancestor o y → (Div (.child i :: (s ++ o)) y ↔
        (∃ s' j, y = s' ++ .child j :: (s ++ o) ∧ i < j) ∨ Div (s ++ o) y) := by
      intro y hy hoy
      rw [div_cons_left]
      refine or_congr_left ?_
      constructor
      · rintro ⟨s', z, rfl, hz⟩
        have := allChild_append.1 hy.1
        obtain ⟨⟨j, rfl⟩, _⟩ := allChild_cons.1 this.2
        exact ⟨s', j, rfl, hz⟩
      · rintro ⟨s', j, rfl, hz⟩
        exact ⟨s', _, rfl, hz⟩
    cases hfn : findNextSibling t (.child i :: (s ++ o)) with
    | some x =>
      refine ⟨some x, by rw [nextOut, List.cons_append, hfn], ?_⟩
      obtain ⟨k, hik, rfl, hck, hmin⟩ := hf.2 x hfn
      refine ⟨⟨hck, ⟨.child k :: s, by simp, rfl⟩, ?_⟩, ?_⟩
      · exact div_siblings [] [] (up := s ++ o) (x := .child i) (y := .child k) hik
      · rintro y ⟨hy, hoy, hdiv⟩
        rcases (hsib y hy hoy).1 hdiv with ⟨s', j, rfl, hij⟩ | hdu
        · have hcj : CNode t (.child j :: (s ++ o)) := hy.anc hd
          have hkj := hmin j hij hcj
          rcases Nat.lt_or_ge k j with h | h
          · right
            exact before_of_div (div_siblings [] s' (up := s ++ o) (x := .child k) (y := .child j) h)
          · have : k = j := by omega
            subst this
            by_cases hs' : s' = []
            · subst hs'; exact .inl rfl
            · exact .inr (before_of_anc ⟨s', hs', rfl⟩)
        · exact .inr (before_of_div (div_append [.child k] [] hdu))
    | none =>
      have hnone := hf.1 hfn
      have hnosib : ∀ y, CNode t y → ¬ ∃ s' j, y = s' ++ .child j :: (s ++ o) ∧ i < j := by
        rintro y hy ⟨s', j, rfl, hij⟩
        exact hnone j hij (hy.anc hd)
      by_cases hs' : s = []
      · subst hs'
        refine ⟨none, ?_, ?_⟩
        · rw [nextOut, List.cons_append, hfn]
          exact climb_origin t o
        · rintro y ⟨hy, hoy, hdiv⟩
          rcases (hsib y hy hoy).1 hdiv with h | h
          · exact hnosib y hy h
          · exact not_div_of_anc hoy h
      · obtain ⟨res, hres, hl⟩ := ih hs' hup hvu
        refine ⟨res, ?_, ?_⟩
        · rw [nextOut, List.cons_append, hfn]
          show climb t (.here o) (s ++ o) = _
          rw [climb_eq_nextOut hup ?_ ?_ ?_, hres]
          · intro h
            have := congrArg List.length h
            simp at this
            exact hs' this
          · simp [hs']
          · exact not_textAt_of_child hd ⟨i, rfl⟩ hv
        · refine hl.congr ?_
          intro y
          constructor
          · rintro ⟨hy, hoy, hdiv⟩
            exact ⟨hy, hoy, (hsib y hy hoy).2 (.inr hdiv)⟩
          · rintro ⟨hy, hoy, hdiv⟩
            exact ⟨hy, hoy, ((hsib y hy hoy).1 hdiv).resolve_left (hnosib y hy)⟩

theorem firstChild_spec {t : Tree} (hd : DomTree t) {r : Ref} (hr : AllChild r) :
    (firstChild t r = none → ∀ y, CNode t y → ¬ Ancestor r y) ∧
    (∀ x, firstChild t r = some x → x = .child 0 :: r ∧ CNode t x ∧
      ∀ y, CNode t y → Before r y → y = x ∨ Before x y) := by
  rw [firstChild]
  cases hk : kidsOf t r with
  | nil =>
    refine ⟨?_, by simp⟩
    rintro _ y hy ⟨s, hs, rfl⟩
    obtain ⟨s', x, rfl⟩ : ∃ s' x, s = s' ++ [x] := ⟨s.dropLast, s.getLast hs, (List.dropLast_concat_getLast hs).symm⟩
    have h : CNode t (x :: r) := CNode.anc hd (s := s') (by simpa using hy)
    obtain ⟨⟨i, rfl⟩, _⟩ := allChild_cons.1 h.1
    have := child_isSome.1 h.2.1
    simp [hk] at this
  | cons c cs =>
    refine ⟨by simp, ?_⟩
    intro x hx
    simp at hx
    subst hx
    have hx : CNode t (.child 0 :: r) := by
      rw [cnode_child hr]
      exact ⟨by simp [hk], by simp⟩
    refine ⟨rfl, hx, ?_⟩
    intro y hy hb
    rcases (before_iff _ _).1 hb with ⟨s, hs, rfl⟩ | hdiv
    · obtain ⟨s', x, rfl⟩ : ∃ s' x, s = s' ++ [x] :=
        ⟨s.dropLast, s.getLast hs, (List.dropLast_concat_getLast hs).symm⟩
      have h : CNode t (x :: r) := CNode.anc hd (s := s') (by simpa using hy)
      obtain ⟨⟨i, rfl⟩, _⟩ := allChild_cons.1 h.1
      rw [List.append_assoc]
      cases i with
      | zero =>
        by_cases hs' : s' = []
        · subst hs'; exact .inl rfl
        · exact .inr (before_of_anc ⟨s', hs', rfl⟩)
      | succ i =>
        exact .inr (before_of_div (div_siblings [] s' (up := r) (x := .child 0) (y := .child (i + 1))
          (Nat.succ_pos i)))
    · exact .inr (before_of_div (div_append [.child 0] [] hdiv))

/-- The next node below `o`. -/
theorem nextDescendant_spec {t : Tree} (hd : DomTree t) {o r : Ref} (hr : CNode t r) (hor : Ancestor o r) :
    ∃ res, nextDescendant t r o = .done res ∧
      Least Before (fun y => CNode t y ∧ Ancestor o y ∧ Before r y) res := by
  have hf := firstChild_spec hd hr.1
  rw [nextDescendant]
  cases hfc : firstChild t r with
  | some x =>
    obtain ⟨rfl, hx, hmin⟩ := hf.2 x hfc
    exact ⟨_, rfl, ⟨hx, anc_trans hor (anc_cons _ _), before_of_anc (anc_cons _ _)⟩,
      fun y hy => hmin y hy.1 hy.2.2⟩
  | none =>
    obtain ⟨s, hs, rfl⟩ := hor
    obtain ⟨res, hres, hl⟩ := nextOut_spec hd o s hs hr.1 hr.2.1
    refine ⟨res, hres, hl.congr ?_⟩
    intro y
    constructor
    · rintro ⟨h1, h2, h3⟩
      exact ⟨h1, h2, before_of_div h3⟩
    · rintro ⟨h1, h2, h3⟩
      refine ⟨h1, h2, ((before_iff _ _).1 h3).resolve_left (hf.1 hfc y h1)⟩

theorem not_attr_kind {t : Tree} (hd : DomTree t) {r : Ref} (h : AllChild r) : kindOf t r ≠ some .attribute := by
  rw [kindOf]
  match r, h with
  | [], _ => simp [sub, hd.root]
  | .child i :: up, _ =>
    cases hs : sub t (.child i :: up) with
    | none => simp
    | some n => simp [(hd.kids up i n hs).1]
  | .attr i :: up, h => have := (allChild_cons.1 h).1; simp at this

theorem attr_kind {t : Tree} (hd : DomTree t) {i : Nat} {up : Ref} (h : (sub t (.attr i :: up)).isSome) :
    kindOf t (.attr i :: up) = some .attribute := by
  obtain ⟨n, hn⟩ := Option.isSome_iff_exists.1 h
  rw [kindOf, hn]
  simp [hd.attrs up i n hn]

/-- `walkDown` from a node below the origin is `nextDescendant`. -/
theorem walkDown_eq {t : Tree} (hd : DomTree t) {o r : Ref} (hr : CNode t r) (hor : r ≠ o) :
    walkDown t r (.here o) = nextDescendant t r o := by
  rw [walkDown, if_neg (not_attr_kind hd hr.1), nextDescendant]
  cases firstChild t r with
  | some x => rfl
  | none => simp only; rw [if_neg (by intro h; cases h; exact hor rfl)]

theorem all_cnode {t : Tree} {y : Ref} (h : CNode t y) : y ∈ refs [] t := mem_all h.2.1

/-! ## The axes -/

theorem axis_descendant {t : Tree} (hd : DomTree t) {c : Ref} (hc : CNode t c) :
    ∃ fuel l, enumerate t c .descendant fuel = .done l ∧ (∀ y, y ∈ l ↔ CNode t y ∧ Ancestor c y) ∧
      l.Pairwise Before := by
  have hf := firstChild_spec hd hc.1
  refine enumerate_done t c .descendant Before before_irrefl (fun _ _ _ => before_trans)
    (fun y => CNode t y ∧ Ancestor c y) (refs [] t) (fun y h => all_cnode h.1) (fun _ => True)
    ⟨firstChild t c, none, 0⟩ ?_ trivial ?_ ?_
  · rw [create, if_neg (not_attr_kind hd hc.1)]
  · show Least _ _ (firstChild t c)
    cases hfc : firstChild t c with
    | none => rintro y ⟨h1, h2⟩; exact hf.1 hfc y h1 h2
    | some x =>
      obtain ⟨rfl, hx, hmin⟩ := hf.2 x hfc
      exact ⟨⟨hx, anc_cons _ _⟩, fun y hy => hmin y hy.1 (before_of_anc hy.2)⟩
  · rintro w r _ hw ⟨hr, har⟩
    obtain ⟨res, hres, hl⟩ := nextDescendant_spec hd hr har
    refine ⟨⟨res, none, 0⟩, by rw [advance, hres]; rfl, trivial, hl.congr ?_⟩
    intro y; exact and_assoc.symm

theorem axis_descendantOrSelf {t : Tree} (hd : DomTree t) {c : Ref} (hc : CNode t c) :
    ∃ fuel l, enumerate t c .descendantOrSelf fuel = .done l ∧
      (∀ y, y ∈ l ↔ y = c ∨ (CNode t y ∧ Ancestor c y)) ∧ l.Pairwise Before := by
  have hf := firstChild_spec hd hc.1
  refine enumerate_done t c .descendantOrSelf Before before_irrefl (fun _ _ _ => before_trans)
    (fun y => y = c ∨ (CNode t y ∧ Ancestor c y)) (refs [] t) ?_ (fun _ => True)
    ⟨some c, none, 0⟩ (by rw [create]) trivial ?_ ?_
  · rintro y (rfl | h)
    · exact all_cnode hc
    · exact all_cnode h.1
  · refine ⟨.inl rfl, ?_⟩
    rintro y (rfl | h)
    · exact .inl rfl
    · exact .inr (before_of_anc h.2)
  · rintro w r _ hw hr
    by_cases hrc : r = c
    · subst hrc
      refine ⟨⟨firstChild t r, none, 0⟩, ?_, trivial, ?_⟩
      · rw [advance, walkDown, if_neg (not_attr_kind hd hc.1)]
        cases hfc : firstChild t r <;> simp [moved]
      · show Least _ _ (firstChild t r)
        cases hfc : firstChild t r with
        | none =>
          rintro y ⟨rfl | h1, h2⟩
          · exact before_irrefl _ h2
          · exact hf.1 hfc y h1.1 h1.2
        | some x =>
          obtain ⟨rfl, hx, hmin⟩ := hf.2 x hfc
          refine ⟨⟨.inr ⟨hx, anc_cons _ _⟩, before_of_anc (anc_cons _ _)⟩, ?_⟩
          rintro y ⟨rfl | h1, h2⟩
          · exact absurd h2 (before_irrefl _)
          · exact hmin y h1.1 h2
    · obtain ⟨hr1, har⟩ := hr.resolve_left hrc
      obtain ⟨res, hres, hl⟩ := nextDescendant_spec hd hr1 har
      refine ⟨⟨res, none, 0⟩, by rw [advance, walkDown_eq hd hr1 hrc, hres]; rfl, trivial, hl.congr ?_⟩
      intro y
      constructor
      · rintro ⟨h1, h2, h3⟩
        exact ⟨.inr ⟨h1, h2⟩, h3⟩
      · rintro ⟨rfl | h1, h2⟩
        · exact absurd (before_of_anc har) (fun h => before_asymm h h2)
        · exact ⟨h1.1, h1.2, h2⟩

theorem div_before_closed {c r y : Ref} (h : Div c r) (hb : Before r y) : Div c y := by
  rcases (before_iff _ _).1 (before_trans (before_of_div h) hb) with ha | hd
  · exact absurd hb (fun hb => before_asymm hb (before_of_div (anc_div h ha)))
  · exact hd

theorem ownerDocument_of {t : Tree} (ht : t.kind = .document) {r : Ref} (hr : r ≠ []) :
    ownerDocument t r = .here [] := by
  simp [ownerDocument, ht, hr]

theorem anc_nil {y : Ref} (h : y ≠ []) : Ancestor [] y := ⟨y, h, by simp⟩

/-- The first node after `c` and not in it. -/
theorem firstFollowingNode_spec {t : Tree} (hd : DomTree t) (ht : t.kind = .document) {c : Ref} (hc : AllChild c)
    (hv : (sub t c).isSome) :
    ∃ res, firstFollowingNode t c = .done res ∧ Least Before (fun y => CNode t y ∧ Div c y) res := by
  by_cases hn : c = []
  · subst hn
    refine ⟨none, by simp [firstFollowingNode, findNextSibling, climbFrom, ownerDocument, ht], ?_⟩
    rintro y ⟨_, h⟩
    exact not_div_nil_left h
  · obtain ⟨res, hres, hl⟩ := nextOut_spec hd [] c hn (by simpa using hc) (by simpa using hv)
    refine ⟨res, ?_, hl.congr ?_⟩
    · rw [firstFollowingNode, ownerDocument_of ht hn]
      simp only [List.append_nil, nextOut] at hres
      rw [← hres]
      cases findNextSibling t c <;> rfl
    · intro y
      simp only [List.append_nil]
      constructor
      · rintro ⟨h1, _, h3⟩; exact ⟨h1, h3⟩
      · rintro ⟨h1, h3⟩
        refine ⟨h1, anc_nil ?_, h3⟩
        rintro rfl
        exact not_div_nil_right h3

theorem div_attr {a : Nat} {up y : Ref} (hy : AllChild y) :
    Div (.attr a :: up) y ↔ Ancestor up y ∨ Div up y := by
  rw [div_cons_left]
  refine or_congr_left ?_
  constructor
  · rintro ⟨s, z, rfl, _⟩
    exact ⟨s ++ [z], by simp, by simp⟩
  · rintro ⟨s, hs, rfl⟩
    obtain ⟨s', x, rfl⟩ : ∃ s' x, s = s' ++ [x] :=
        ⟨s.dropLast, s.getLast hs, (List.dropLast_concat_getLast hs).symm⟩
    refine ⟨s', x, by simp, ?_⟩
    have := (allChild_append.1 hy).1
    have := (allChild_append.1 this).2
    obtain ⟨i, rfl⟩ := (allChild_cons.1 this).1
    exact trivial

theorem firstFollowing_spec {t : Tree} (hd : DomTree t) (ht : t.kind = .document) {c : Ref}
    (hc : AllChild c ∨ ∃ a up, c = .attr a :: up ∧ AllChild up) (hv : (sub t c).isSome) :
    ∃ res, firstFollowing t c = .done res ∧ Least Before (fun y => CNode t y ∧ Div c y) res := by
  rcases hc with hc | ⟨a, up, rfl, hup⟩
  · obtain ⟨res, hres, hl⟩ := firstFollowingNode_spec hd ht hc hv
    exact ⟨res, by rw [firstFollowing, if_neg (not_attr_kind hd hc)]; exact hres, hl⟩
  · have hvu : (sub t up).isSome := isSome_of_append (s := [Step.attr a]) hv
    have hf := firstChild_spec hd hup
    rw [firstFollowing, if_pos (attr_kind hd hv)]
    simp only [ownerElement]
    cases hfc : firstChild t up with
    | some x =>
      obtain ⟨rfl, hx, hmin⟩ := hf.2 x hfc
      refine ⟨_, rfl, ⟨hx, ?_⟩, ?_⟩
      · rw [div_attr hx.1]; exact .inl (anc_cons _ _)
      · rintro y ⟨hy, hdiv⟩
        refine hmin y hy ?_
        rw [div_attr hy.1] at hdiv
        exact (before_iff _ _).2 hdiv
    | none =>
      obtain ⟨res, hres, hl⟩ := firstFollowingNode_spec hd ht hup hvu
      refine ⟨res, hres, hl.congr ?_⟩
      intro y
      constructor
      · rintro ⟨h1, h2⟩; exact ⟨h1, (div_attr h1.1).2 (.inr h2)⟩
      · rintro ⟨h1, h2⟩; exact ⟨h1, ((div_attr h1.1).1 h2).resolve_left (hf.1 hfc y h1)⟩

theorem axis_following {t : Tree} (hd : DomTree t) (ht : t.kind = .document) {c : Ref}
    (hc : AllChild c ∨ ∃ a up, c = .attr a :: up ∧ AllChild up) (hv : (sub t c).isSome) :
    ∃ fuel l, enumerate t c .following fuel = .done l ∧ (∀ y, y ∈ l ↔ CNode t y ∧ Div c y) ∧
      l.Pairwise Before := by
  obtain ⟨res, hres, hl⟩ := firstFollowing_spec hd ht hc hv
  refine enumerate_done t c .following Before before_irrefl (fun _ _ _ => before_trans)
    (fun y => CNode t y ∧ Div c y) (refs [] t) (fun y h => all_cnode h.1) (fun _ => True)
    ⟨res, none, 0⟩ (by rw [create, hres]; rfl) trivial hl ?_
  rintro w r _ hw ⟨hr, hdr⟩
  have hne : r ≠ [] := by rintro rfl; exact not_div_nil_right hdr
  obtain ⟨res', hres', hl'⟩ := nextDescendant_spec hd hr (anc_nil hne)
  refine ⟨⟨res', none, 0⟩, ?_, trivial, hl'.congr ?_⟩
  · rw [advance, ownerDocument_of ht hne, walkDown_eq hd hr hne, hres']; rfl
  · intro y
    constructor
    · rintro ⟨h1, _, h3⟩
      exact ⟨⟨h1, div_before_closed hdr h3⟩, h3⟩
    · rintro ⟨⟨h1, h2⟩, h3⟩
      refine ⟨h1, anc_nil ?_, h3⟩
      rintro rfl
      exact not_div_nil_right h2

theorem axis_followingSibling {t : Tree} (hd : DomTree t) {c : Ref} (hv : (sub t c).isSome)
    (hc : AllChild c ∨ ∃ a up, c = .attr a :: up ∧ AllChild up) :
    ∃ fuel l, enumerate t c .followingSibling fuel = .done l ∧
      (∀ y, y ∈ l ↔ CNode t y ∧ ∃ i j up, c = .child i :: up ∧ y = .child j :: up ∧ i < j) ∧
      l.Pairwise Before := by
  have key : ∀ r, AllChild r → (sub t r).isSome → Least Before
      (fun y => CNode t y ∧ ∃ i j up, r = .child i :: up ∧ y = .child j :: up ∧ i < j) (findNextSibling t r) := by
    intro r hr hvr
    match r, hr, hvr with
    | [], _, _ =>
      rw [findNextSibling]
      · rintro y ⟨_, i, j, up, h, _⟩; cases h
      · intro i up h; cases h
    | .attr i :: up, hr, _ => have := (allChild_cons.1 hr).1; simp at this
    | .child i :: up, hr, hvr =>
      have hup := (allChild_cons.1 hr).2
      have hf := findNext_spec hup (child_isSome.1 hvr)
      cases hfn : findNextSibling t (.child i :: up) with
      | none =>
        rintro y ⟨hy, i', j, up', h, rfl, hij⟩
        cases h
        exact hf.1 hfn j hij hy
      | some x =>
        obtain ⟨k, hik, rfl, hx, hmin⟩ := hf.2 x hfn
        refine ⟨⟨hx, i, k, up, rfl, rfl, hik⟩, ?_⟩
        rintro y ⟨hy, i', j, up', h, rfl, hij⟩
        cases h
        have := hmin j hij hy
        rcases Nat.lt_or_ge k j with h | h
        · exact .inr (before_of_div (div_siblings [] [] (x := .child k) (y := .child j) h))
        · have : k = j := by omega
          subst this; exact .inl rfl
  refine enumerate_done t c .followingSibling Before before_irrefl (fun _ _ _ => before_trans)
    (fun y => CNode t y ∧ ∃ i j up, c = .child i :: up ∧ y = .child j :: up ∧ i < j)
    (refs [] t) (fun y h => all_cnode h.1) (fun _ => True)
    ⟨findNextSibling t c, none, 0⟩ (by rw [create]) trivial ?_ ?_
  · rcases hc with hc | ⟨a, up, rfl, _⟩
    · exact key c hc hv
    · show Least _ _ (findNextSibling t (.attr a :: up))
      rw [findNextSibling]
      · rintro y ⟨_, i, j, up, h, _⟩; cases h
      · intro i up h; cases h
  · rintro w r _ hw ⟨hr, i, j, up, rfl, rfl, hij⟩
    refine ⟨⟨findNextSibling t (.child j :: up), none, 0⟩, by rw [advance], trivial, ?_⟩
    refine (key _ hr.1 hr.2.1).congr ?_
    intro y
    constructor
    · rintro ⟨hy, i', j', up', h, rfl, hlt⟩
      cases h
      exact ⟨⟨hy, i, j', up, rfl, rfl, by omega⟩,
        before_of_div (div_siblings [] [] (x := .child j) (y := .child j') hlt)⟩
    · rintro ⟨⟨hy, i', j', up', h, rfl, hlt⟩, hb⟩
      cases h
      refine ⟨hy, j, j', up, rfl, rfl, ?_⟩
      rcases Nat.lt_trichotomy j j' with h | rfl | h
      · exact h
      · exact absurd hb (before_irrefl _)
      · exact absurd (before_of_div (div_siblings [] [] (up := up) (x := .child j') (y := .child j) h))
          (fun h' => before_asymm h' hb)

theorem axis_child {t : Tree} (hd : DomTree t) {c : Ref} (hc : AllChild c) :
    ∃ fuel l, enumerate t c .child fuel = .done l ∧
      (∀ y, y ∈ l ↔ CNode t y ∧ ∃ i, y = .child i :: c) ∧ l.Pairwise Before := by
  have hf := firstChild_spec hd hc
  refine enumerate_done t c .child Before before_irrefl (fun _ _ _ => before_trans)
    (fun y => CNode t y ∧ ∃ i, y = .child i :: c)
    (refs [] t) (fun y h => all_cnode h.1) (fun _ => True)
    ⟨firstChild t c, none, 0⟩ (by rw [create]) trivial ?_ ?_
  · show Least _ _ (firstChild t c)
    cases hfc : firstChild t c with
    | none => rintro y ⟨hy, i, rfl⟩; exact hf.1 hfc _ hy (anc_cons _ _)
    | some x =>
      obtain ⟨rfl, hx, hmin⟩ := hf.2 x hfc
      refine ⟨⟨hx, 0, rfl⟩, ?_⟩
      rintro y ⟨hy, i, rfl⟩
      exact hmin _ hy (before_of_anc (anc_cons _ _))
  · rintro w r _ hw ⟨hr, i, rfl⟩
    refine ⟨⟨findNextSibling t (.child i :: c), none, 0⟩, by rw [advance], trivial, ?_⟩
    have hf := findNext_spec hc (child_isSome.1 hr.2.1)
    show Least _ _ (findNextSibling t (.child i :: c))
    have hlt : ∀ j, Before (.child i :: c) (.child j :: c) → i < j := by
      intro j hb
      rcases Nat.lt_trichotomy i j with h | rfl | h
      · exact h
      · exact absurd hb (before_irrefl _)
      · exact absurd (before_of_div (div_siblings [] [] (up := c) (x := .child j) (y := .child i) h))
          (fun h' => before_asymm h' hb)
    cases hfn : findNextSibling t (.child i :: c) with
    | none => rintro y ⟨⟨hy, j, rfl⟩, hb⟩; exact hf.1 hfn j (hlt j hb) hy
    | some x =>
      obtain ⟨k, hik, rfl, hx, hmin⟩ := hf.2 x hfn
      refine ⟨⟨⟨hx, k, rfl⟩, before_of_div (div_siblings [] [] (x := .child i) (y := .child k) hik)⟩, ?_⟩
      rintro y ⟨⟨hy, j, rfl⟩, hb⟩
      have := hmin j (hlt j hb) hy
      rcases Nat.lt_or_ge k j with h | h
      · exact .inr (before_of_div (div_siblings [] [] (x := .child k) (y := .child j) h))
      · have : k = j := by omega
        subst this; exact .inl rfl

end Verif.XTree
