import Verif.Lemmas.XTreeForward
set_option autoImplicit false
set_option linter.unusedSimpArgs false
set_option linter.unusedVariables false
namespace Verif.XTree
open Verif.Spec.XPathAxes

/-- The order of the reverse axes. -/
def After (a b : Ref) : Prop := Before b a

theorem after_trans (a b c : Ref) (h1 : After a b) (h2 : After b c) : After a c := before_trans h2 h1

theorem cnode_of_normalized {t : Tree} (hn : Normalized t) {r : Ref} (hr : AllChild r) (hv : (sub t r).isSome) :
    CNode t r := by
  refine ⟨hr, hv, ?_⟩
  intro hc
  match r, hc with
  | .child (j + 1) :: up, hc => exact hn up j ⟨hc.2, hc.1⟩

theorem split_last {s : Ref} (hs : s ≠ []) : ∃ s' x, s = s' ++ [x] :=
  ⟨s.dropLast, s.getLast hs, (List.dropLast_concat_getLast hs).symm⟩

theorem lastDescendants_eq (r : Ref) (l : List Tree) (i : Nat) (hne : l ≠ []) :
    lastDescendants r i l = lastDescendant (.child (i + (l.length - 1)) :: r) (l.getLast hne) := by
  induction l generalizing i with
  | nil => exact absurd rfl hne
  | cons a l ih =>
    cases l with
    | nil => simp [lastDescendants]
    | cons b l =>
      rw [lastDescendants, ih (i + 1) (by simp)]
      simp only [List.length_cons, List.getLast_cons_cons]
      congr 3
      omega

theorem last_spec {t : Tree} (m : Nat) : ∀ (n : Tree) (r : Ref), sizeOf n ≤ m → sub t r = some n →
    AllChild r → ∃ s, lastDescendant r n = s ++ r ∧ AllChild s ∧ (sub t (s ++ r)).isSome ∧
      ∀ s', AllChild s' → (sub t (s' ++ r)).isSome → s' = s ∨ Before (s' ++ r) (s ++ r) := by
  induction m with
  | zero => intro n r h; cases n; simp at h
  | succ m ih =>
    intro n r hm hn hr
    have hkids := kidsOf_some hn
    cases n with
    | node d as ks =>
    have hkids : kidsOf t r = ks := hkids
    by_cases hks : ks = []
    · subst hks
      refine ⟨[], by simp [lastDescendant, lastDescendants], allChild_nil, by simp [hn], ?_⟩
      intro s' hs' hv
      left
      cases s' with
      | nil => rfl
      | cons x s'' =>
        exfalso
        obtain ⟨s3, z, h3⟩ := split_last (s := x :: s'') (by simp)
        rw [h3] at hs' hv
        have hv' : (sub t (z :: r)).isSome := isSome_of_append (s := s3) (by simpa using hv)
        obtain ⟨⟨i, rfl⟩, _⟩ := allChild_cons.1 (allChild_append.1 hs').2
        have := child_isSome.1 hv'
        rw [hkids] at this
        simp at this
    · have hlen : 0 < ks.length := by
        cases ks with
        | nil => exact absurd rfl hks
        | cons => simp
      have hc : sub t (.child (ks.length - 1) :: r) = some (ks.getLast hks) := by
        rw [sub_child, hkids, List.getElem?_eq_getElem (by omega), List.getLast_eq_getElem]
      have hsz : sizeOf (ks.getLast hks) ≤ m := by
        have := List.sizeOf_lt_of_mem (List.getLast_mem hks)
        simp at hm
        omega
      obtain ⟨s, hs, hsa, hv, hmax⟩ := ih _ (.child (ks.length - 1) :: r) hsz hc
        (allChild_cons.2 ⟨⟨_, rfl⟩, hr⟩)
      refine ⟨s ++ [.child (ks.length - 1)], ?_, ?_, by simpa using hv, ?_⟩
      · rw [lastDescendant, lastDescendants_eq r ks 0 hks]
        simpa using hs
      · rw [allChild_append]; exact ⟨hsa, by simp [AllChild]⟩
      · intro s' hs' hv'
        by_cases hn' : s' = []
        · subst hn'
          right
          exact before_of_anc ⟨s ++ [.child (ks.length - 1)], by simp, by simp⟩
        · obtain ⟨s3, z, rfl⟩ := split_last hn'
          have hz : (sub t (z :: r)).isSome := isSome_of_append (s := s3) (by simpa using hv')
          obtain ⟨⟨j, rfl⟩, _⟩ := allChild_cons.1 (allChild_append.1 hs').2
          have hj := child_isSome.1 hz
          rw [hkids] at hj
          rcases Nat.lt_or_ge j (ks.length - 1) with h | h
          · right
            simp only [List.append_assoc, List.cons_append, List.nil_append]
            exact before_of_div (div_siblings s3 s (up := r) (x := .child j) (y := .child (ks.length - 1)) h)
          · have : j = ks.length - 1 := by omega
            subst this
            rcases hmax s3 (allChild_append.1 hs').1 (by simpa using hv') with rfl | hb
            · exact .inl rfl
            · right
              simpa using hb

/-- The last node in the subtree of `r`. -/
theorem lastDescendantAt_spec {t : Tree} (hn : Normalized t) {r : Ref} (hr : CNode t r) :
    ∃ s, lastDescendantAt t r = s ++ r ∧ CNode t (s ++ r) ∧
      ∀ y s', y = s' ++ r → CNode t y → y = s ++ r ∨ Before y (s ++ r) := by
  obtain ⟨n, hnn⟩ := Option.isSome_iff_exists.1 hr.2.1
  obtain ⟨s, hs, hsa, hv, hmax⟩ := last_spec (t := t) (sizeOf n) n r (Nat.le_refl _) hnn hr.1
  refine ⟨s, by rw [lastDescendantAt, hnn]; exact hs,
    cnode_of_normalized hn (allChild_append.2 ⟨hsa, hr.1⟩) hv, ?_⟩
  rintro y s' rfl hy
  rcases hmax s' (allChild_append.1 hy.1).1 hy.2.1 with rfl | h
  · exact .inl rfl
  · exact .inr h

/-- The nodes before the `i`-th child of `up` and the last of them in document order. -/
theorem prev_in_siblings {t : Tree} (hd : DomTree t) (hn : Normalized t) {i : Nat} {up x : Ref} (hup : AllChild up)
    (hi : i < (kidsOf t up).length) (hx : findPreviousSibling t (.child i :: up) = some x) :
    ∃ s k, lastDescendantAt t x = s ++ .child k :: up ∧ k < i ∧ CNode t (s ++ .child k :: up) ∧
      ∀ y, CNode t y → Div y (.child i :: up) → y = s ++ .child k :: up ∨ Before y (s ++ .child k :: up) := by
  obtain ⟨k, hki, rfl, hcx, hmax⟩ := (findPrev_spec hup hi).2 x hx
  obtain ⟨s, hs, hcs, hlast⟩ := lastDescendantAt_spec hn hcx
  refine ⟨s, k, hs, hki, hcs, ?_⟩
  intro y hy hdiv
  rcases div_cons_right.1 hdiv with ⟨s', z, rfl, hz⟩ | hdu
  · have hcz : CNode t (z :: up) := hy.anc hd
    obtain ⟨⟨j, rfl⟩, _⟩ := allChild_cons.1 hcz.1
    have hjk := hmax j hz hcz
    rcases Nat.lt_or_ge j k with h | h
    · exact .inr (before_of_div (div_siblings s' s (up := up) (x := .child j) (y := .child k) h))
    · have : j = k := by omega
      subst this
      exact hlast _ s' rfl hy
  · exact .inr (before_of_div (div_append [] (s ++ [.child k]) hdu |> fun h => by simpa using h))

/-- What the walker knows of its place: it is in an earlier sibling of a node `A` above the context, and
remembers the parent of that. -/
def PInv (c : Ref) (w : Walker) : Prop :=
  ∀ r, w.cur = some r → ∃ a q s j, w.anc = some q ∧ (c = .child a :: q ∨ Ancestor (.child a :: q) c) ∧
    r = s ++ .child j :: q ∧ j < a

theorem firstPreceding_spec {t : Tree} (hd : DomTree t) (hn : Normalized t) {c : Ref} (hc : AllChild c)
    (hv : (sub t c).isSome) :
    Least After (fun y => CNode t y ∧ Div y c) (previousInDocument t (parentNode c) c).1 ∧
      PInv c ⟨(previousInDocument t (parentNode c) c).1, (previousInDocument t (parentNode c) c).2, 0⟩ := by
  induction c with
  | nil =>
    rw [previousInDocument]
    · refine ⟨?_, ?_⟩
      · rintro y ⟨_, h⟩; exact not_div_nil_right h
      · intro r h; cases h
    · intro i up h; cases h
  | cons x up ih =>
    obtain ⟨⟨i, rfl⟩, hup⟩ := allChild_cons.1 hc
    have hvu : (sub t up).isSome := isSome_of_append (s := [Step.child i]) hv
    have hi := child_isSome.1 hv
    rw [previousInDocument]
    cases hf : findPreviousSibling t (.child i :: up) with
    | some x =>
      obtain ⟨s, k, hs, hki, hcs, hmax⟩ := prev_in_siblings hd hn hup hi hf
      simp only [hs, parentNode]
      refine ⟨⟨⟨hcs, div_siblings s [] (x := .child k) (y := .child i) hki⟩, ?_⟩, ?_⟩
      · rintro y ⟨hy, hdiv⟩
        exact hmax y hy hdiv
      · intro r hr
        cases hr
        exact ⟨i, up, s, k, rfl, .inl rfl, rfl, hki⟩
    | none =>
      have h0 := (findPrev_spec hup hi).1 hf
      subst h0
      have hdiv : ∀ y, CNode t y → (Div y (.child 0 :: up) ↔ Div y up) := by
        intro y hy
        rw [div_cons_right]
        constructor
        · rintro (⟨s, z, rfl, hz⟩ | h)
          · have hcz : CNode t (z :: up) := hy.anc hd
            obtain ⟨⟨j, rfl⟩, _⟩ := allChild_cons.1 hcz.1
            exact absurd hz (Nat.not_lt_zero j)
          · exact h
        · exact .inr
      simp only [show parentNode (.child 0 :: up) = some up from rfl, ne_eq, not_true_eq_false, if_false]
      cases hp : parentNode up with
      | none =>
        have : up = [] := by
          match up, hup with
          | [], _ => rfl
          | .child j :: u, _ => simp [parentNode] at hp
          | .attr j :: u, h => have := (allChild_cons.1 h).1; simp at this
        subst this
        refine ⟨?_, ?_⟩
        · rintro y ⟨hy, h⟩
          exact not_div_nil_right ((hdiv y hy).1 h)
        · intro r h; cases h
      | some a =>
        obtain ⟨ih1, ih2⟩ := ih hup hvu
        rw [hp] at ih1 ih2
        refine ⟨ih1.congr ?_, ?_⟩
        · intro y
          constructor
          · rintro ⟨h1, h2⟩; exact ⟨h1, (hdiv y h1).2 h2⟩
          · rintro ⟨h1, h2⟩; exact ⟨h1, (hdiv y h1).1 h2⟩
        · intro r hr
          obtain ⟨a', q, s, j, h1, h2, h3, h4⟩ := ih2 r hr
          refine ⟨a', q, s, j, h1, .inr ?_, h3, h4⟩
          rw [anc_cons_iff]
          rcases h2 with h2 | h2
          · exact .inl h2.symm
          · exact .inr h2

theorem parent_of_allChild {r : Ref} (h : AllChild r) (hne : r ≠ []) : ∃ a q, r = .child a :: q := by
  match r, h, hne with
  | .child i :: up, _, _ => exact ⟨i, up, rfl⟩
  | .attr j :: u, h, _ => have := (allChild_cons.1 h).1; simp at this

theorem nextPreceding_spec {t : Tree} (hd : DomTree t) (hn : Normalized t) {c : Ref} (hc : AllChild c)
    (hv : (sub t c).isSome) (w : Walker) (r : Ref) (hr : CNode t r) (hw : w.cur = some r) (hinv : PInv c w) :
    Least After (fun y => (CNode t y ∧ Div y c) ∧ After r y) (previousInDocument t w.anc r).1 ∧
      PInv c ⟨(previousInDocument t w.anc r).1, (previousInDocument t w.anc r).2, 0⟩ := by
  obtain ⟨a, q, s, j, hanc, hA, rfl, hja⟩ := hinv r hw
  have hrc : Div (s ++ .child j :: q) c := by
    rcases hA with rfl | hA
    · exact div_siblings s [] (x := .child j) (y := .child a) hja
    · exact div_anc (div_siblings s [] (x := .child j) (y := .child a) hja) hA
  have hq : AllChild q := (allChild_cons.1 (allChild_append.1 hr.1).2).2
  have hqv : (sub t q).isSome := isSome_of_append (s := s ++ [.child j]) (by simpa using hr.2.1)
  rw [hanc]
  cases s with
  | nil =>
    simp only [List.nil_append] at *
    have hi := child_isSome.1 hr.2.1
    rw [previousInDocument]
    cases hf : findPreviousSibling t (.child j :: q) with
    | some x =>
      obtain ⟨s, k, hs, hki, hcs, hmax⟩ := prev_in_siblings hd hn hq hi hf
      simp only [hs]
      have hb : Div (s ++ .child k :: q) (.child j :: q) :=
        div_siblings s [] (x := .child k) (y := .child j) hki
      have hdc : Div (s ++ .child k :: q) c := by
        rcases hA with rfl | hA
        · exact div_siblings s [] (x := .child k) (y := .child a) (Nat.lt_trans hki hja)
        · exact div_anc (div_siblings s [] (x := .child k) (y := .child a) (Nat.lt_trans hki hja)) hA
      refine ⟨⟨⟨⟨hcs, hdc⟩, before_of_div hb⟩, ?_⟩, ?_⟩
      · rintro y ⟨⟨hy, hyc⟩, hyr⟩
        rcases (before_iff _ _).1 hyr with h | h
        · exfalso
          -- an ancestor of this place is the parent or above: also an ancestor of the context
          refine not_div_of_anc (a := y) (b := c) ?_ hyc
          have hyq : y = q ∨ Ancestor y q := anc_cons_iff.1 h
          have hqc : Ancestor q c := by
            rcases hA with rfl | hA
            · exact anc_cons _ _
            · exact anc_trans (anc_cons _ _) hA
          rcases hyq with rfl | h'
          · exact hqc
          · exact anc_trans h' hqc
        · exact hmax y hy h
      · intro r hr
        cases hr
        exact ⟨a, q, s, k, rfl, hA, rfl, Nat.lt_trans hki hja⟩
    | none =>
      have h0 := (findPrev_spec hq hi).1 hf
      subst h0
      simp only [ne_eq, not_true_eq_false, if_false]
      have hqc : Ancestor q c := by
        rcases hA with rfl | hA
        · exact anc_cons _ _
        · exact anc_trans (anc_cons _ _) hA
      have hset : ∀ y, ((CNode t y ∧ Div y c) ∧ After (.child 0 :: q) y) ↔ (CNode t y ∧ Div y q) := by
        intro y
        constructor
        · rintro ⟨⟨hy, hyc⟩, hyr⟩
          refine ⟨hy, ?_⟩
          rcases (before_iff _ _).1 hyr with h | h
          · exfalso
            refine not_div_of_anc (a := y) (b := c) ?_ hyc
            rcases anc_cons_iff.1 h with rfl | h'
            · exact hqc
            · exact anc_trans h' hqc
          · rcases div_cons_right.1 h with ⟨s, z, rfl, hz⟩ | h
            · have hcz : CNode t (z :: q) := hy.anc hd
              obtain ⟨⟨j, rfl⟩, _⟩ := allChild_cons.1 hcz.1
              exact absurd hz (Nat.not_lt_zero j)
            · exact h
        · rintro ⟨hy, h⟩
          exact ⟨⟨hy, div_anc h hqc⟩, before_of_div (div_append [] [.child 0] h)⟩
      cases hp : parentNode q with
      | none =>
        have : q = [] := by
          match q, hq with
          | [], _ => rfl
          | .child j :: u, _ => simp [parentNode] at hp
          | .attr j :: u, h => have := (allChild_cons.1 h).1; simp at this
        subst this
        refine ⟨?_, ?_⟩
        · intro y hy
          exact not_div_nil_right ((hset y).1 hy).2
        · intro r h; cases h
      | some p =>
        obtain ⟨h1, h2⟩ := firstPreceding_spec hd hn hq hqv
        rw [hp] at h1 h2
        refine ⟨h1.congr fun y => (hset y).symm, ?_⟩
        intro r hr
        obtain ⟨a', q', s, j, e1, e2, e3, e4⟩ := h2 r hr
        refine ⟨a', q', s, j, e1, .inr ?_, e3, e4⟩
        rcases e2 with e2 | e2
        · rw [← e2]; exact hqc
        · exact anc_trans e2 hqc
  | cons x s =>
    obtain ⟨⟨i, rfl⟩, hup⟩ := allChild_cons.1 (show AllChild (x :: (s ++ .child j :: q)) from hr.1)
    simp only [List.cons_append] at *
    have hi := child_isSome.1 hr.2.1
    rw [previousInDocument]
    have hsub : Div (s ++ .child j :: q) c := by
      rcases hA with rfl | hA
      · exact div_siblings s [] (x := .child j) (y := .child a) hja
      · exact div_anc (div_siblings s [] (x := .child j) (y := .child a) hja) hA
    cases hf : findPreviousSibling t (.child i :: (s ++ .child j :: q)) with
    | some x =>
      obtain ⟨s2, k, hs, hki, hcs, hmax⟩ := prev_in_siblings hd hn hup hi hf
      simp only [hs]
      have hb : Div (s2 ++ .child k :: (s ++ .child j :: q)) (.child i :: (s ++ .child j :: q)) :=
        div_siblings s2 [] (x := .child k) (y := .child i) hki
      have hdc : Div (s2 ++ .child k :: (s ++ .child j :: q)) c :=
        div_append (s2 ++ [.child k]) [] hsub |> fun h => by simpa using h
      refine ⟨⟨⟨⟨hcs, hdc⟩, before_of_div hb⟩, ?_⟩, ?_⟩
      · rintro y ⟨⟨hy, hyc⟩, hyr⟩
        rcases (before_iff _ _).1 hyr with h | h
        · right
          -- an ancestor is before everything in the parent
          have h' : y = s ++ .child j :: q ∨ Ancestor y (s ++ .child j :: q) := anc_cons_iff.1 h
          have hpar : Ancestor (s ++ .child j :: q) (s2 ++ .child k :: (s ++ .child j :: q)) :=
            ⟨s2 ++ [.child k], by simp, by simp⟩
          rcases h' with rfl | h'
          · exact before_of_anc hpar
          · exact before_of_anc (anc_trans h' hpar)
        · exact hmax y hy h
      · intro r hr
        cases hr
        exact ⟨a, q, s2 ++ .child k :: s, j, rfl, hA, by simp, hja⟩
    | none =>
      have h0 := (findPrev_spec hup hi).1 hf
      subst h0
      have hne : q ≠ s ++ .child j :: q := by
        intro h
        have := congrArg List.length h
        simp at this
        omega
      rw [if_pos (by simpa using hne)]
      refine ⟨⟨⟨⟨hr.anc hd (s := [.child 0]), hsub⟩, before_of_anc (anc_cons _ _)⟩, ?_⟩, ?_⟩
      · rintro y ⟨⟨hy, hyc⟩, hyr⟩
        rcases (before_iff _ _).1 hyr with h | h
        · rcases anc_cons_iff.1 h with rfl | h'
          · exact .inl rfl
          · exact .inr (before_of_anc h')
        · right
          rcases div_cons_right.1 h with ⟨s', z, rfl, hz⟩ | h
          · have hcz : CNode t (z :: (s ++ .child j :: q)) := hy.anc hd
            obtain ⟨⟨j, rfl⟩, _⟩ := allChild_cons.1 hcz.1
            exact absurd hz (Nat.not_lt_zero j)
          · exact before_of_div h
      · intro r hr
        cases hr
        exact ⟨a, q, s, j, rfl, hA, rfl, hja⟩

theorem axis_preceding {t : Tree} (hd : DomTree t) (hn : Normalized t) {c : Ref}
    (hc : AllChild c ∨ ∃ a up, c = .attr a :: up ∧ AllChild up) (hv : (sub t c).isSome) :
    ∃ fuel l, enumerate t c .preceding fuel = .done l ∧ (∀ y, y ∈ l ↔ CNode t y ∧ Div y c) ∧
      l.Pairwise After := by
  -- of an attribute, the owner
  obtain ⟨c', hc', hv', hcr, hset⟩ : ∃ c', AllChild c' ∧ (sub t c').isSome ∧
      create t c .preceding = .done ⟨(previousInDocument t (parentNode c') c').1,
        (previousInDocument t (parentNode c') c').2, 0⟩ ∧ ∀ y, CNode t y → (Div y c' ↔ Div y c) := by
    rcases hc with hc | ⟨a, up, rfl, hup⟩
    · refine ⟨c, hc, hv, ?_, fun _ _ => Iff.rfl⟩
      rw [create, if_neg (not_attr_kind hd hc)]
    · refine ⟨up, hup, isSome_of_append (s := [.attr a]) hv, ?_, ?_⟩
      · rw [create, if_pos (attr_kind hd hv)]; rfl
      · intro y hy
        rw [div_cons_right]
        constructor
        · exact .inr
        · rintro (⟨s, z, rfl, hz⟩ | h)
          · obtain ⟨⟨j, rfl⟩, _⟩ := allChild_cons.1 (allChild_append.1 hy.1).2
            exact hz.elim
          · exact h
  obtain ⟨h1, h2⟩ := firstPreceding_spec hd hn hc' hv'
  obtain ⟨fuel, l, hl, hmem, hp⟩ := enumerate_done t c .preceding After before_irrefl after_trans
    (fun y => CNode t y ∧ Div y c') (refs [] t) (fun y h => all_cnode h.1) (PInv c')
    _ hcr h2 h1 (by
      rintro w r hw hcur ⟨hr, _⟩
      obtain ⟨e1, e2⟩ := nextPreceding_spec hd hn hc' hv' w r hr hcur hw
      exact ⟨_, rfl, e2, e1⟩)
  refine ⟨fuel, l, hl, ?_, hp⟩
  intro y
  rw [hmem]
  constructor
  · rintro ⟨a, b⟩; exact ⟨a, (hset y a).1 b⟩
  · rintro ⟨a, b⟩; exact ⟨a, (hset y a).2 b⟩

theorem axis_precedingSibling {t : Tree} (hd : DomTree t) {c : Ref} (hv : (sub t c).isSome)
    (hc : AllChild c ∨ ∃ a up, c = .attr a :: up ∧ AllChild up) :
    ∃ fuel l, enumerate t c .precedingSibling fuel = .done l ∧
      (∀ y, y ∈ l ↔ CNode t y ∧ ∃ i j up, c = .child i :: up ∧ y = .child j :: up ∧ j < i) ∧
      l.Pairwise After := by
  have key : ∀ r, AllChild r → (sub t r).isSome → Least After
      (fun y => CNode t y ∧ ∃ i j up, r = .child i :: up ∧ y = .child j :: up ∧ j < i)
      (findPreviousSibling t r) := by
    intro r hr hvr
    match r, hr, hvr with
    | [], _, _ =>
      rw [findPreviousSibling]
      · rintro y ⟨_, i, j, up, h, _⟩; cases h
      · intro i up h; cases h
    | .attr i :: up, hr, _ => have := (allChild_cons.1 hr).1; simp at this
    | .child i :: up, hr, hvr =>
      have hup := (allChild_cons.1 hr).2
      have hf := findPrev_spec hup (child_isSome.1 hvr)
      cases hfn : findPreviousSibling t (.child i :: up) with
      | none =>
        rintro y ⟨hy, i', j, up', h, rfl, hij⟩
        cases h
        have := hf.1 hfn
        omega
      | some x =>
        obtain ⟨k, hik, rfl, hx, hmin⟩ := hf.2 x hfn
        refine ⟨⟨hx, i, k, up, rfl, rfl, hik⟩, ?_⟩
        rintro y ⟨hy, i', j, up', h, rfl, hij⟩
        cases h
        have := hmin j hij hy
        rcases Nat.lt_or_ge j k with h | h
        · exact .inr (before_of_div (div_siblings [] [] (x := .child j) (y := .child k) h))
        · have : k = j := by omega
          subst this; exact .inl rfl
  refine enumerate_done t c .precedingSibling After before_irrefl after_trans
    (fun y => CNode t y ∧ ∃ i j up, c = .child i :: up ∧ y = .child j :: up ∧ j < i)
    (refs [] t) (fun y h => all_cnode h.1) (fun _ => True)
    ⟨findPreviousSibling t c, none, 0⟩ (by rw [create]) trivial ?_ ?_
  · rcases hc with hc | ⟨a, up, rfl, _⟩
    · exact key c hc hv
    · show Least _ _ (findPreviousSibling t (.attr a :: up))
      rw [findPreviousSibling]
      · rintro y ⟨_, i, j, up, h, _⟩; cases h
      · intro i up h; cases h
  · rintro w r _ hw ⟨hr, i, j, up, rfl, rfl, hij⟩
    refine ⟨⟨findPreviousSibling t (.child j :: up), none, 0⟩, by rw [advance], trivial, ?_⟩
    refine (key _ hr.1 hr.2.1).congr ?_
    intro y
    constructor
    · rintro ⟨hy, i', j', up', h, rfl, hlt⟩
      cases h
      exact ⟨⟨hy, i, j', up, rfl, rfl, by omega⟩,
        before_of_div (div_siblings [] [] (x := .child j') (y := .child j) hlt)⟩
    · rintro ⟨⟨hy, i', j', up', h, rfl, hlt⟩, hb⟩
      cases h
      refine ⟨hy, j, j', up, rfl, rfl, ?_⟩
      rcases Nat.lt_trichotomy j' j with h | rfl | h
      · exact h
      · exact absurd hb (before_irrefl _)
      · exact absurd (before_of_div (div_siblings [] [] (up := up) (x := .child j) (y := .child j') h))
          (fun h' => before_asymm h' hb)

/-! ## The ancestors -/

theorem least_parent {c : Ref} (x : Step) (S : Ref → Prop) (hS : ∀ y, S y ↔ Ancestor y (x :: c)) :
    Least After S (some c) := by
  refine ⟨(hS c).2 (anc_cons _ _), ?_⟩
  intro y hy
  rcases anc_cons_iff.1 ((hS y).1 hy) with rfl | h
  · exact .inl rfl
  · exact .inr (before_of_anc h)

theorem anc_mem {t : Tree} {c y : Ref} (hv : (sub t c).isSome) (h : Ancestor y c) : y ∈ refs [] t := by
  obtain ⟨s, _, rfl⟩ := h
  exact mem_all (isSome_of_append hv)

theorem parent_least {r : Ref} (hr : AllChild r) : Least After (fun y => Ancestor y r) (parentNode r) := by
  match r, hr with
  | [], _ => exact fun y h => not_anc_nil h
  | .child i :: up, _ => exact least_parent (.child i) _ (fun _ => Iff.rfl)
  | .attr i :: up, hr => have := (allChild_cons.1 hr).1; simp at this

theorem anc_of_anc_both {a b c : Ref} (h1 : Ancestor a c) (h2 : Ancestor b c) (h : Before a b) : Ancestor a b := by
  obtain ⟨s, hs, rfl⟩ := h1
  obtain ⟨s', hs', h'⟩ := h2
  rcases List.append_eq_append_iff.1 h' with ⟨as, h3, h4⟩ | ⟨bs, h3, h4⟩
  · exfalso
    by_cases has : as = []
    · subst has; simp at h4; subst h4; exact before_irrefl _ h
    · exact before_asymm h (before_of_anc ⟨as, has, h4⟩)
  · by_cases hbs : bs = []
    · subst hbs; simp at h4; subst h4; exact absurd h (before_irrefl _)
    · exact ⟨bs, hbs, h4⟩

theorem axis_ancestor {t : Tree} (hd : DomTree t) {c : Ref} (hv : (sub t c).isSome)
    (hc : AllChild c ∨ ∃ a up, c = .attr a :: up ∧ AllChild up) :
    ∃ fuel l, enumerate t c .ancestor fuel = .done l ∧ (∀ y, y ∈ l ↔ Ancestor y c) ∧ l.Pairwise After := by
  have hall : ∀ y, Ancestor y c → AllChild y := by
    rintro y ⟨s, hs, h⟩
    rcases hc with hc | ⟨a, up, rfl, hup⟩
    · rw [h] at hc; exact (allChild_append.1 hc).2
    · cases s with
      | nil => exact absurd rfl hs
      | cons x s =>
        simp at h
        rw [h.2] at hup
        exact (allChild_append.1 hup).2
  obtain ⟨p, hp, hl⟩ : ∃ p, create t c .ancestor = .done ⟨p, none, 0⟩ ∧ Least After (fun y => Ancestor y c) p := by
    rcases hc with hc | ⟨a, up, rfl, hup⟩
    · exact ⟨_, by rw [create, if_neg (not_attr_kind hd hc)], parent_least hc⟩
    · exact ⟨some up, by rw [create, if_pos (attr_kind hd hv)]; rfl, least_parent (.attr a) _ (fun _ => Iff.rfl)⟩
  refine enumerate_done t c .ancestor After before_irrefl after_trans (fun y => Ancestor y c) (refs [] t)
    (fun y h => anc_mem hv h) (fun _ => True) _ hp trivial hl ?_
  rintro w r _ hw hr
  refine ⟨⟨parentNode r, none, 0⟩, by rw [advance], trivial, (parent_least (hall r hr)).congr ?_⟩
  intro y
  constructor
  · intro h; exact ⟨anc_trans h hr, before_of_anc h⟩
  · rintro ⟨h1, h2⟩; exact anc_of_anc_both h1 hr h2

theorem axis_ancestorOrSelf {t : Tree} (hd : DomTree t) {c : Ref} (hv : (sub t c).isSome)
    (hc : AllChild c ∨ ∃ a up, c = .attr a :: up ∧ AllChild up) :
    ∃ fuel l, enumerate t c .ancestorOrSelf fuel = .done l ∧ (∀ y, y ∈ l ↔ y = c ∨ Ancestor y c) ∧
      l.Pairwise After := by
  have hall : ∀ y, Ancestor y c → AllChild y := by
    rintro y ⟨s, hs, h⟩
    rcases hc with hc | ⟨a, up, rfl, hup⟩
    · rw [h] at hc; exact (allChild_append.1 hc).2
    · cases s with
      | nil => exact absurd rfl hs
      | cons x s =>
        simp at h
        rw [h.2] at hup
        exact (allChild_append.1 hup).2
  have hself : Least After (fun y => Ancestor y c)
      (if kindOf t c = some .attribute then ownerElement c else parentNode c) := by
    rcases hc with hc | ⟨a, up, rfl, hup⟩
    · rw [if_neg (not_attr_kind hd hc)]; exact parent_least hc
    · rw [if_pos (attr_kind hd hv)]; exact least_parent (.attr a) _ (fun _ => Iff.rfl)
  refine enumerate_done t c .ancestorOrSelf After before_irrefl after_trans (fun y => y = c ∨ Ancestor y c)
    (refs [] t) ?_ (fun _ => True) ⟨some c, none, 0⟩ (by rw [create]) trivial ?_ ?_
  · rintro y (rfl | h)
    · exact mem_all hv
    · exact anc_mem hv h
  · refine ⟨.inl rfl, ?_⟩
    rintro y (rfl | h)
    · exact .inl rfl
    · exact .inr (before_of_anc h)
  · rintro w r _ hw hr
    rcases hr with rfl | hr
    · refine ⟨_, by rw [advance], trivial, hself.congr ?_⟩
      intro y
      constructor
      · intro h; exact ⟨.inr h, before_of_anc h⟩
      · rintro ⟨rfl | h, h2⟩
        · exact absurd h2 (before_irrefl _)
        · exact h
    · refine ⟨⟨parentNode r, none, 0⟩, by rw [advance, if_neg (not_attr_kind hd (hall r hr))], trivial,
        (parent_least (hall r hr)).congr ?_⟩
      intro y
      constructor
      · intro h; exact ⟨.inr (anc_trans h hr), before_of_anc h⟩
      · rintro ⟨rfl | h1, h2⟩
        · exact absurd (before_of_anc hr) (fun h => before_asymm h h2)
        · exact anc_of_anc_both h1 hr h2

/-! ## Attributes, self and parent -/

theorem scanAttrs_spec {u : Str} {l : List Tree} {i : Nat} :
    (scanAttrs u i l = none → ∀ (m : Nat) (n : Tree), l[m]? = some n → n.data.uri = u) ∧
    (∀ k, scanAttrs u i l = some k → ∃ (m : Nat) (n : Tree), k = i + m ∧ l[m]? = some n ∧ n.data.uri ≠ u ∧
      ∀ m' n', m' < m → l[m']? = some n' → n'.data.uri = u) := by
  induction l generalizing i with
  | nil => simp [scanAttrs]
  | cons c l ih =>
    rw [scanAttrs]
    by_cases hc : c.data.uri = u
    · rw [if_pos hc]
      refine ⟨?_, ?_⟩
      · intro h m n hm
        cases m with
        | zero => simp at hm; subst hm; exact hc
        | succ m => simp at hm; exact (ih (i := i + 1)).1 h m n hm
      · intro k hk
        obtain ⟨m, n, rfl, hm, hn, hall⟩ := (ih (i := i + 1)).2 k hk
        refine ⟨m + 1, n, by omega, by simpa using hm, hn, ?_⟩
        intro m' n' hlt hm'
        cases m' with
        | zero => simp at hm'; subst hm'; exact hc
        | succ m' => simp at hm'; exact hall m' n' (by omega) hm'
    · rw [if_neg hc]
      refine ⟨by simp, ?_⟩
      intro k hk
      simp at hk
      subst hk
      exact ⟨0, c, rfl, by simp, hc, by intro m' n' h; omega⟩

/-- The attributes of `c` that are no namespace declarations. -/
def AttrOf (t : Tree) (c : Ref) (y : Ref) : Prop :=
  ∃ i n, y = .attr i :: c ∧ sub t y = some n ∧ n.data.uri ≠ xmlnsUri

theorem setNext_spec {t : Tree} {c : Ref} (idx : Nat) (hidx : idx ≤ (attrsOf t c).length) :
    Least Before (fun y => AttrOf t c y ∧ ∃ i, y = .attr i :: c ∧ idx ≤ i) (setNextAttr t c idx).cur ∧
      (∀ r, (setNextAttr t c idx).cur = some r → ∃ i, r = .attr i :: c ∧ (setNextAttr t c idx).idx = i + 1 ∧
        i + 1 ≤ (attrsOf t c).length) := by
  rw [setNextAttr]
  by_cases h : idx = (attrsOf t c).length
  · rw [if_pos h]
    refine ⟨?_, by simp⟩
    rintro y ⟨⟨i, n, rfl, hn, _⟩, j, hj, hij⟩
    cases hj
    rw [sub_attr] at hn
    have := (List.getElem?_eq_some_iff.1 hn).1
    omega
  · rw [if_neg h]
    have hs := scanAttrs_spec (u := xmlnsUri) (l := (attrsOf t c).drop idx) (i := idx)
    cases hsc : scanAttrs xmlnsUri idx ((attrsOf t c).drop idx) with
    | none =>
      refine ⟨?_, by simp⟩
      rintro y ⟨⟨i, n, rfl, hn, hu⟩, j, hj, hij⟩
      cases hj
      rw [sub_attr] at hn
      refine hu (hs.1 hsc (i - idx) n ?_)
      rw [List.getElem?_drop, show idx + (i - idx) = i by omega]
      exact hn
    | some k =>
      obtain ⟨m, n, rfl, hm, hu, hall⟩ := hs.2 k hsc
      rw [List.getElem?_drop] at hm
      refine ⟨⟨⟨⟨_, n, rfl, by rw [sub_attr]; exact hm, hu⟩, _, rfl, by omega⟩, ?_⟩, ?_⟩
      · rintro y ⟨⟨i, n', rfl, hn, hu'⟩, j, hj, hij⟩
        cases hj
        rcases Nat.lt_trichotomy (idx + m) i with h | h | h
        · exact .inr (before_of_div (div_siblings [] [] (x := .attr (idx + m)) (y := .attr i) h))
        · subst h; exact .inl rfl
        · exfalso
          rw [sub_attr] at hn
          refine hu' (hall (i - idx) n' (by omega) ?_)
          rw [List.getElem?_drop, show idx + (i - idx) = i by omega]
          exact hn
      · intro r hr
        cases hr
        exact ⟨_, rfl, rfl, (List.getElem?_eq_some_iff.1 hm).1⟩

theorem axis_attribute {t : Tree} {c : Ref} :
    ∃ fuel l, enumerate t c .attribute fuel = .done l ∧ (∀ y, y ∈ l ↔ AttrOf t c y) ∧ l.Pairwise Before := by
  have hcr : create t c .attribute = .done (if (attrsOf t c).isEmpty then ⟨none, none, 0⟩ else setNextAttr t c 0) := by
    rw [create]
  have h0 := setNext_spec (t := t) (c := c) 0 (Nat.zero_le _)
  refine enumerate_done t c .attribute Before before_irrefl (fun _ _ _ => before_trans) (AttrOf t c) (refs [] t) ?_
    (fun w => ∀ r, w.cur = some r → ∃ i, r = .attr i :: c ∧ w.idx = i + 1 ∧ i + 1 ≤ (attrsOf t c).length)
    _ hcr ?_ ?_ ?_
  · rintro y ⟨i, n, rfl, hn, _⟩
    exact mem_all (by simp [hn])
  · by_cases he : (attrsOf t c).isEmpty = true
    · rw [if_pos he]; simp
    · rw [if_neg he]; exact h0.2
  · by_cases he : (attrsOf t c).isEmpty = true
    · rw [if_pos he]
      rintro y ⟨i, n, rfl, hn, _⟩
      rw [sub_attr] at hn
      rw [List.isEmpty_iff] at he
      rw [he] at hn
      simp at hn
    · rw [if_neg he]
      refine h0.1.congr ?_
      intro y
      constructor
      · exact fun h => h.1
      · intro h
        obtain ⟨i, n, rfl, _⟩ := id h
        exact ⟨h, i, rfl, Nat.zero_le _⟩
  · intro w r hw hcur hr
    obtain ⟨i, rfl, hi, hlen⟩ := hw r hcur
    have hs := setNext_spec (t := t) (c := c) (i + 1) hlen
    refine ⟨setNextAttr t c (i + 1), by rw [advance, hi], hs.2, hs.1.congr ?_⟩
    intro y
    constructor
    · rintro ⟨h, j, rfl, hj⟩
      exact ⟨h, before_of_div (div_siblings [] [] (x := .attr i) (y := .attr j) hj)⟩
    · rintro ⟨h, hb⟩
      obtain ⟨j, n, rfl, _⟩ := id h
      refine ⟨h, j, rfl, ?_⟩
      rcases Nat.lt_trichotomy i j with h | rfl | h
      · exact h
      · exact absurd hb (before_irrefl _)
      · exact absurd (before_of_div (div_siblings [] [] (up := c) (x := .attr j) (y := .attr i) h))
          (fun h' => before_asymm h' hb)

theorem axis_self {t : Tree} {c : Ref} : enumerate t c .self 2 = .done [c] := by
  simp [enumerate, create, drain, advance, Outcome.cons]

theorem axis_parent {t : Tree} (hd : DomTree t) {c : Ref} (hv : (sub t c).isSome)
    (hc : AllChild c ∨ ∃ a up, c = .attr a :: up ∧ AllChild up) :
    ∃ l, enumerate t c .parent 2 = .done l ∧ (∀ y, y ∈ l ↔ ∃ s, c = s :: y) ∧ l.Pairwise Before := by
  rcases hc with hc | ⟨a, up, rfl, hup⟩
  · match c, hc with
    | [], hc =>
      refine ⟨[], ?_, by simp, List.Pairwise.nil⟩
      simp [enumerate, create, if_neg (not_attr_kind hd hc), parentNode, drain]
    | .child i :: up, hc =>
      refine ⟨[up], ?_, ?_, by simp⟩
      · simp [enumerate, create, if_neg (not_attr_kind hd hc), parentNode, drain, advance, Outcome.cons]
      · intro y; simp [eq_comm]
    | .attr i :: up, hc => have := (allChild_cons.1 hc).1; simp at this
  · refine ⟨[up], ?_, ?_, by simp⟩
    · simp [enumerate, create, if_pos (attr_kind hd hv), ownerElement, drain, advance, Outcome.cons]
    · intro y; simp [eq_comm]

end Verif.XTree
