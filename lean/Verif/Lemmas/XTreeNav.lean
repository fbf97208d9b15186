import Verif.Lemmas.XTreeOrder
set_option autoImplicit false
set_option linter.unusedSimpArgs false
set_option linter.unusedVariables false
namespace Verif.XTree
open Verif.Spec.XPathAxes

/-! ## All pointers of a tree -/

mutual
def refs (r : Ref) : Tree → List Ref
  | .node _ as ks => r :: (refsL r .attr 0 as ++ refsL r .child 0 ks)
def refsL (r : Ref) (mk : Nat → Step) : Nat → List Tree → List Ref
  | _, [] => []
  | i, c :: cs => refs (mk i :: r) c ++ refsL r mk (i + 1) cs
end

theorem mem_refsL {r : Ref} {mk : Nat → Step} {l : List Tree} {i k : Nat} {c : Tree} (h : l[k]? = some c) {x : Ref}
    (hx : x ∈ refs (mk (i + k) :: r) c) : x ∈ refsL r mk i l := by
  induction l generalizing i k with
  | nil => simp at h
  | cons a l ih =>
    rw [refsL, List.mem_append]
    cases k with
    | zero => simp at h; subst h; exact .inl hx
    | succ k =>
      simp at h
      exact .inr (ih (i := i + 1) h (by rw [show i + 1 + k = i + (k + 1) by omega]; exact hx))

theorem refs_self (r : Ref) (t : Tree) : r ∈ refs r t := by
  cases t; rw [refs]; simp

theorem refs_step {n m : Tree} {s : Step} {r x : Ref} (h : n.step s = some m) (hx : x ∈ refs (s :: r) m) :
    x ∈ refs r n := by
  cases n with
  | node d as ks =>
    rw [refs]
    cases s with
    | attr i =>
      have h : as[i]? = some m := h
      have := mem_refsL (r := r) (mk := .attr) (i := 0) h (x := x) (by simpa using hx)
      simp [this]
    | child i =>
      have h : ks[i]? = some m := h
      have := mem_refsL (r := r) (mk := .child) (i := 0) h (x := x) (by simpa using hx)
      simp [this]

theorem sub_cons {t : Tree} {s : Step} {up : Ref} {m : Tree} :
    sub t (s :: up) = some m ↔ ∃ n, sub t up = some n ∧ n.step s = some m := by
  rw [sub]
  cases h : sub t up <;> simp

theorem mem_refs {t : Tree} {r : Ref} {n : Tree} (h : sub t r = some n) : ∀ x ∈ refs r n, x ∈ refs [] t := by
  induction r generalizing n with
  | nil => simp [sub] at h; subst h; exact fun x hx => hx
  | cons s up ih =>
    obtain ⟨m, hm, hs⟩ := sub_cons.1 h
    exact fun x hx => ih hm x (refs_step hs hx)

theorem mem_all {t : Tree} {r : Ref} (h : (sub t r).isSome) : r ∈ refs [] t := by
  obtain ⟨n, hn⟩ := Option.isSome_iff_exists.1 h
  exact mem_refs hn r (refs_self r n)

/-! ## Pointers -/

theorem sub_append {t : Tree} {s r : Ref} {m : Tree} (h : sub t (s ++ r) = some m) : ∃ n, sub t r = some n := by
  induction s generalizing m with
  | nil => exact ⟨m, h⟩
  | cons x s ih =>
    obtain ⟨n, hn, _⟩ := sub_cons.1 h
    exact ih hn

theorem kidsOf_some {t : Tree} {r : Ref} {n : Tree} (h : sub t r = some n) : kidsOf t r = n.kids := by
  rw [kidsOf, h]

theorem attrsOf_some {t : Tree} {r : Ref} {n : Tree} (h : sub t r = some n) : attrsOf t r = n.attrs := by
  rw [attrsOf, h]

theorem sub_child {t : Tree} {i : Nat} {up : Ref} : sub t (.child i :: up) = (kidsOf t up)[i]? := by
  rw [sub, kidsOf]
  cases sub t up <;> simp [Tree.step]

theorem sub_attr {t : Tree} {i : Nat} {up : Ref} : sub t (.attr i :: up) = (attrsOf t up)[i]? := by
  rw [sub, attrsOf]
  cases sub t up <;> simp [Tree.step]

theorem child_isSome {t : Tree} {i : Nat} {up : Ref} :
    (sub t (.child i :: up)).isSome ↔ i < (kidsOf t up).length := by
  rw [sub_child]; simp

theorem isText_iff (n : Tree) : n.isText = true ↔ (n.kind = .text ∨ n.kind = .cdata) := by
  simp [Tree.isText]

theorem isTextAt_iff {t : Tree} {r : Ref} : isTextAt t r = true ↔ TextAt t r := by
  rw [isTextAt, TextAt]
  cases h : sub t r with
  | none => simp
  | some n => simp [isText_iff]

theorem _root_.Verif.Spec.XPathAxes.DomTree.leaves {t : Tree} (hd : DomTree t) (r : Ref) (n : Tree)
    (h : sub t r = some n) (hk : n.kind = .text ∨ n.kind = .cdata) : n.kids = [] := by
  by_cases he : n.kids = []
  · exact he
  · have := hd.inner r n h he
    rcases hk with hk | hk <;> rw [hk] at this <;> simp at this

theorem textAt_kids {t : Tree} (hd : DomTree t) {r : Ref} (h : TextAt t r) : kidsOf t r = [] := by
  obtain ⟨n, hn, hk⟩ := h
  rw [kidsOf_some hn]
  exact hd.leaves r n hn hk

theorem not_textAt_of_child {t : Tree} (hd : DomTree t) {s : Step} {r : Ref} (hs : ∃ i, s = .child i)
    (h : (sub t (s :: r)).isSome) : ¬ TextAt t r := by
  intro ht
  obtain ⟨i, rfl⟩ := hs
  rw [child_isSome, textAt_kids hd ht] at h
  simp at h

theorem allChild_cons {s : Step} {r : Ref} : AllChild (s :: r) ↔ (∃ i, s = .child i) ∧ AllChild r := by
  simp [AllChild]

theorem allChild_append {s r : Ref} : AllChild (s ++ r) ↔ AllChild s ∧ AllChild r := by
  simp only [AllChild, List.mem_append]
  constructor
  · intro h; exact ⟨fun x hx => h x (.inl hx), fun x hx => h x (.inr hx)⟩
  · rintro ⟨h1, h2⟩ x (hx | hx)
    · exact h1 x hx
    · exact h2 x hx

theorem allChild_nil : AllChild [] := by simp [AllChild]

/-- A piece of text behind another. -/
def Cont (t : Tree) : Ref → Prop
  | .child (j + 1) :: up => TextAt t (.child (j + 1) :: up) ∧ TextAt t (.child j :: up)
  | _ => False

/-- A node reached by children only, not counting further pieces of text. -/
def CNode (t : Tree) (r : Ref) : Prop := AllChild r ∧ (sub t r).isSome ∧ ¬ Cont t r

theorem xnode_iff {t : Tree} (he : Expanded t) (r : Ref) : (XNode t r ∧ ¬ IsAttr r) ↔ CNode t r := by
  match r with
  | [] => simp [XNode, IsAttr, CNode, AllChild, sub, Cont]
  | .attr i :: up =>
    constructor
    · rintro ⟨_, h⟩; simp [IsAttr] at h
    · rintro ⟨h, _⟩; have := (allChild_cons.1 h).1; simp at this
  | .child i :: up =>
    simp only [XNode, IsAttr, CNode, not_false_eq_true, and_true, allChild_cons]
    constructor
    · rintro ⟨h1, ⟨n, hn, _⟩, h3⟩
      refine ⟨⟨⟨i, rfl⟩, h1⟩, by simp [hn], ?_⟩
      intro hc
      cases i with
      | zero => exact hc
      | succ j => exact h3 ⟨hc.1, j, rfl, hc.2⟩
    · rintro ⟨⟨_, h1⟩, h2, h3⟩
      obtain ⟨n, hn⟩ := Option.isSome_iff_exists.1 h2
      refine ⟨h1, ⟨n, hn, he _ _ hn⟩, ?_⟩
      rintro ⟨ht, j, rfl, hj⟩
      exact h3 ⟨ht, hj⟩

theorem CNode.all {t : Tree} {r : Ref} (h : CNode t r) : AllChild r := h.1
theorem CNode.some {t : Tree} {r : Ref} (h : CNode t r) : (sub t r).isSome := h.2.1

theorem isSome_of_append {t : Tree} {s r : Ref} (h : (sub t (s ++ r)).isSome) : (sub t r).isSome := by
  obtain ⟨m, hm⟩ := Option.isSome_iff_exists.1 h
  obtain ⟨n, hn⟩ := sub_append hm
  simp [hn]

theorem not_text_of_anc {t : Tree} (hd : DomTree t) {s r : Ref} (hs : s ≠ []) (ha : AllChild s)
    (h : (sub t (s ++ r)).isSome) : ¬ TextAt t r := by
  induction s with
  | nil => exact absurd rfl hs
  | cons x s ih =>
    by_cases hs' : s = []
    · subst hs'
      exact not_textAt_of_child hd (allChild_cons.1 ha).1 (by simpa using h)
    · exact ih hs' (allChild_cons.1 ha).2 (isSome_of_append (s := [x]) (by simpa using h))

theorem not_cont_of_not_text {t : Tree} {r : Ref} (h : ¬ TextAt t r) : ¬ Cont t r := by
  intro hc
  match r, hc with
  | .child (j + 1) :: up, hc => exact h hc.1

theorem CNode.anc {t : Tree} (hd : DomTree t) {s r : Ref} (h : CNode t (s ++ r)) : CNode t r := by
  by_cases hs : s = []
  · subst hs; exact h
  · refine ⟨(allChild_append.1 h.1).2, isSome_of_append h.2.1, ?_⟩
    exact not_cont_of_not_text (not_text_of_anc hd hs (allChild_append.1 h.1).1 h.2.1)

/-! ## Siblings -/

theorem skipTexts_spec {up : Ref} {l : List Tree} {i : Nat} :
    (skipTexts up i l = none → ∀ (m : Nat) (n : Tree), l[m]? = some n → n.isText = true) ∧
    (∀ x, skipTexts up i l = some x → ∃ (m : Nat) (n : Tree), x = .child (i + m) :: up ∧ l[m]? = some n ∧ n.isText = false ∧
      ∀ m' n', m' < m → l[m']? = some n' → n'.isText = true) := by
  induction l generalizing i with
  | nil => simp [skipTexts]
  | cons c l ih =>
    rw [skipTexts]
    by_cases hc : c.isText = true
    · rw [if_pos hc]
      refine ⟨?_, ?_⟩
      · intro h m n hm
        cases m with
        | zero => simp at hm; subst hm; exact hc
        | succ m => simp at hm; exact (ih (i := i + 1)).1 h m n hm
      · intro x hx
        obtain ⟨m, n, rfl, hm, hn, hall⟩ := (ih (i := i + 1)).2 x hx
        refine ⟨m + 1, n, by rw [show i + 1 + m = i + (m + 1) by omega], by simpa using hm, hn, ?_⟩
        intro m' n' hlt hm'
        cases m' with
        | zero => simp at hm'; subst hm'; exact hc
        | succ m' => simp at hm'; exact hall m' n' (by omega) hm'
    · rw [if_neg hc]
      refine ⟨by simp, ?_⟩
      intro x hx
      simp at hx
      subst hx
      exact ⟨0, c, rfl, by simp, by simpa using hc, by intro m' n' h; omega⟩

theorem textAt_child {t : Tree} {i : Nat} {up : Ref} :
    TextAt t (.child i :: up) ↔ ∃ n, (kidsOf t up)[i]? = some n ∧ n.isText = true := by
  rw [TextAt, sub_child]
  simp [isText_iff]

theorem cnode_child {t : Tree} {i : Nat} {up : Ref} (hup : AllChild up) :
    CNode t (.child i :: up) ↔ i < (kidsOf t up).length ∧
      ∀ j, i = j + 1 → ¬ (TextAt t (.child (j + 1) :: up) ∧ TextAt t (.child j :: up)) := by
  rw [CNode, child_isSome, allChild_cons]
  constructor
  · rintro ⟨_, h2, h3⟩
    refine ⟨h2, ?_⟩
    rintro j rfl h
    exact h3 h
  · rintro ⟨h1, h2⟩
    refine ⟨⟨⟨i, rfl⟩, hup⟩, h1, ?_⟩
    intro hc
    cases i with
    | zero => exact hc
    | succ j => exact h2 j rfl hc

theorem findNext_spec {t : Tree} {i : Nat} {up : Ref} (hup : AllChild up)
    (hi : i < (kidsOf t up).length) :
    (findNextSibling t (.child i :: up) = none → ∀ j, i < j → ¬ CNode t (.child j :: up)) ∧
    (∀ x, findNextSibling t (.child i :: up) = some x → ∃ k, i < k ∧ x = .child k :: up ∧ CNode t x ∧
      ∀ j, i < j → CNode t (.child j :: up) → k ≤ j) := by
  rw [findNextSibling]
  by_cases ht : isTextAt t (.child i :: up) = true
  · rw [if_pos ht]
    have hs := skipTexts_spec (up := up) (l := (kidsOf t up).drop (i + 1)) (i := i + 1)
    -- text between i and a place means that the place is no first piece
    have hrun : ∀ k, (∀ m, m < k → ∀ n, (kidsOf t up)[i + 1 + m]? = some n → n.isText = true) →
        ∀ j, i < j → j < i + 1 + k → ¬ CNode t (.child j :: up) := by
      intro k hk j hij hjk hc
      have hc' := (cnode_child hup).1 hc
      obtain ⟨m, rfl⟩ : ∃ m, j = i + 1 + m := ⟨j - (i + 1), by omega⟩
      refine hc'.2 (i + m) (by omega) ⟨?_, ?_⟩
      · rw [textAt_child]
        refine ⟨(kidsOf t up)[i + 1 + m]'hc'.1, ?_, ?_⟩
        · rw [show i + m + 1 = i + 1 + m by omega]; simp
        · exact hk m (by omega) _ (by simp)
      · cases m with
        | zero => exact isTextAt_iff.1 ht
        | succ m =>
          rw [textAt_child]
          have hl : i + 1 + m < (kidsOf t up).length := by have := hc'.1; omega
          refine ⟨(kidsOf t up)[i + 1 + m]'hl, ?_, ?_⟩
          · rw [show i + (m + 1) = i + 1 + m by omega]; simp
          · exact hk m (by omega) _ (by simp)
    refine ⟨?_, ?_⟩
    · intro h j hij hc
      have hall := hs.1 h
      refine hrun (j - i) ?_ j hij (by omega) hc
      intro m hm n hn
      exact hall m n (by simpa [List.getElem?_drop] using hn)
    · intro x hx
      obtain ⟨m, n, rfl, hm, hn, hall⟩ := hs.2 x hx
      have hm' : (kidsOf t up)[i + 1 + m]? = some n := by simpa [List.getElem?_drop] using hm
      refine ⟨i + 1 + m, by omega, rfl, ?_, ?_⟩
      · rw [cnode_child hup]
        refine ⟨(List.getElem?_eq_some_iff.1 hm').1, ?_⟩
        rintro j hj ⟨h1, _⟩
        rw [← hj, textAt_child] at h1
        obtain ⟨n', h1, h2⟩ := h1
        rw [hm'] at h1
        cases h1
        rw [hn] at h2; cases h2
      · intro j hij hc
        rcases Nat.lt_or_ge j (i + 1 + m) with hlt | hge
        · refine absurd hc (hrun m ?_ j hij hlt)
          intro m' hm' n' hn'
          exact hall m' n' hm' (by simpa [List.getElem?_drop] using hn')
        · exact hge
  · rw [if_neg ht, nextSibling]
    by_cases hlt : i + 1 < (kidsOf t up).length
    · rw [if_pos hlt]
      refine ⟨by simp, ?_⟩
      intro x hx
      simp at hx
      subst hx
      refine ⟨i + 1, by omega, rfl, ?_, by intro j h _; omega⟩
      rw [cnode_child hup]
      refine ⟨hlt, ?_⟩
      intro j hj
      have : j = i := by omega
      subst this
      intro h
      exact ht (isTextAt_iff.2 h.2)
    · rw [if_neg hlt]
      refine ⟨?_, by simp⟩
      intro _ j hij hc
      have := ((cnode_child hup).1 hc).1
      omega

theorem runStart_spec (kids : List Tree) (i : Nat) (hi : ∃ n, kids[i]? = some n ∧ n.isText = true) :
    runStart kids i ≤ i ∧ (∀ j, runStart kids i ≤ j → j ≤ i → ∃ n, kids[j]? = some n ∧ n.isText = true) ∧
      (∀ j, runStart kids i = j + 1 → ∀ n, kids[j]? = some n → n.isText = false) := by
  induction i with
  | zero =>
    refine ⟨by simp [runStart], ?_, by simp [runStart]⟩
    intro j _ h
    have : j = 0 := by omega
    subst this; exact hi
  | succ i ih =>
    rw [runStart]
    cases hk : kids[i]? with
    | none =>
      obtain ⟨n, hn, _⟩ := hi
      have := (List.getElem?_eq_some_iff.1 hn).1
      have := List.getElem?_eq_none_iff.1 hk
      omega
    | some n =>
      by_cases hn : n.isText = true
      · simp only [hn, if_true]
        obtain ⟨h1, h2, h3⟩ := ih ⟨n, hk, hn⟩
        refine ⟨by omega, ?_, h3⟩
        intro j hj hji
        rcases Nat.lt_or_ge i j with h | h
        · have : j = i + 1 := by omega
          subst this; exact hi
        · exact h2 j hj h
      · simp only [hn]
        refine ⟨Nat.le_refl _, ?_, ?_⟩
        · intro j h1 h2
          have : j = i + 1 := by simp at h1; omega
          subst this; exact hi
        · intro j hj m hm
          have : j = i := by simp at hj; omega
          subst this
          rw [hk] at hm; cases hm
          simpa using hn

theorem findPrev_spec {t : Tree} {i : Nat} {up : Ref} (hup : AllChild up) (hi : i < (kidsOf t up).length) :
    (findPreviousSibling t (.child i :: up) = none → i = 0) ∧
    (∀ x, findPreviousSibling t (.child i :: up) = some x → ∃ k, k < i ∧ x = .child k :: up ∧ CNode t x ∧
      ∀ j, j < i → CNode t (.child j :: up) → j ≤ k) := by
  cases i with
  | zero => simp [findPreviousSibling]
  | succ i =>
    rw [findPreviousSibling]
    by_cases ht : isTextAt t (.child i :: up) = true
    · rw [if_pos ht]
      refine ⟨by simp, ?_⟩
      intro x hx
      simp at hx
      subst hx
      obtain ⟨h1, h2, h3⟩ := runStart_spec (kidsOf t up) i (textAt_child.1 (isTextAt_iff.1 ht))
      refine ⟨_, by omega, rfl, ?_, ?_⟩
      · rw [cnode_child hup]
        refine ⟨by omega, ?_⟩
        rintro j hj ⟨_, hj2⟩
        obtain ⟨n, hn, hn'⟩ := textAt_child.1 hj2
        rw [h3 j hj n hn] at hn'
        cases hn'
      · intro j hj hc
        rcases Nat.lt_or_ge (runStart (kidsOf t up) i) j with h | h
        · have hc' := (cnode_child hup).1 hc
          obtain ⟨j', rfl⟩ : ∃ j', j = j' + 1 := ⟨j - 1, by omega⟩
          exact absurd ⟨textAt_child.2 (h2 _ (by omega) (by omega)), textAt_child.2 (h2 j' (by omega) (by omega))⟩
            (hc'.2 j' rfl)
        · exact h
    · rw [if_neg ht]
      refine ⟨by simp, ?_⟩
      intro x hx
      simp at hx
      subst hx
      refine ⟨i, by omega, rfl, ?_, by intro j h _; omega⟩
      rw [cnode_child hup]
      refine ⟨by omega, ?_⟩
      rintro j rfl ⟨h, _⟩
      exact ht (isTextAt_iff.2 h)

end Verif.XTree
