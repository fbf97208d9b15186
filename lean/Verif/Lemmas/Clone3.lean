import Verif.Lemmas.Clone2
set_option autoImplicit false
set_option linter.unusedSimpArgs false
set_option linter.unusedVariables false
namespace Verif.Clone
open Verif.Dom (Str Kind Err upd upd_ne upd_same)
open Verif.DomNames (NsName plain)

/-! ## what the loops leave alone -/

/-- From `s` to `s'` the node `m` got children or attributes, all of them new. -/
structure L (C : Chars) (m : Nat) (s s' : St) : Prop where
  good : Good C s'
  size : s.base.size ≤ s'.base.size
  low : Upto m s s'
  self : bare (node s' m) = bare (node s m)
  kept : ∀ i, m < i → i < s.base.size → view s' i = view s i
  up : Up m s'

theorem L.refl {C : Chars} {m : Nat} {s : St} (h : Good C s) (hu : Up m s) : L C m s s :=
  ⟨h, Nat.le_refl _, Upto.refl _ _, rfl, fun _ _ _ => rfl, hu⟩

theorem L.trans {C : Chars} {m : Nat} {a b c : St} (h : L C m a b) (k : L C m b c) : L C m a c :=
  ⟨k.good, Nat.le_trans h.size k.size, h.low.trans k.low, k.self.trans h.self,
   fun i h1 h2 => (k.kept i h1 (Nat.lt_of_lt_of_le h2 h.size)).trans (h.kept i h1 h2), k.up⟩

/-- The members of `m` other than children and attributes. -/
theorem L.fields {C : Chars} {m : Nat} {s s' : St} (h : L C m s s') :
    s'.base.kind m = s.base.kind m ∧ s'.base.doc m = s.base.doc m ∧ s'.base.parent m = s.base.parent m ∧
    s'.base.ro m = s.base.ro m ∧ s'.base.orphan m = s.base.orphan m ∧ s'.base.data m = s.base.data m ∧
    s'.nm m = s.nm m ∧ s'.isNS m = s.isNS m ∧ s'.owner m = s.owner m ∧ s'.specified m = s.specified m ∧
    s'.ids m = s.ids m := by
  have e := h.self
  simp only [bare, node, Node.mk.injEq] at e
  obtain ⟨h1, h2, h3, _, _, _, h7, h8, _, h10, _, _, h13, h14, _, h16, h17, h18, _⟩ := e
  exact ⟨h1, h2, h3, h7, h8, h10, h13, h14, h16, h17, h18⟩

theorem node_fields {s s' : St} {i : Nat} (e : node s' i = node s i) :
    s'.base.kind i = s.base.kind i ∧ s'.base.doc i = s.base.doc i ∧ s'.base.parent i = s.base.parent i ∧
    s'.base.next i = s.base.next i ∧ s'.base.kids i = s.base.kids i ∧ s'.base.ro i = s.base.ro i ∧
    s'.base.data i = s.base.data i ∧ s'.base.dtype i = s.base.dtype i ∧
    s'.nm i = s.nm i ∧ s'.isNS i = s.isNS i ∧ s'.attrs i = s.attrs i ∧ s'.owner i = s.owner i ∧
    s'.specified i = s.specified i ∧ s'.ids i = s.ids i ∧ s'.entities i = s.entities i := by
  simp only [node, Node.mk.injEq] at e
  obtain ⟨h1, h2, h3, _, h5, h6, h7, _, _, h10, _, h12, h13, h14, h15, h16, h17, h18, h19⟩ := e
  exact ⟨h1, h2, h3, h5, h6, h7, h10, h12, h13, h14, h15, h16, h17, h18, h19⟩

theorem view_fields {s s' : St} {i : Nat} (e : view s' i = view s i) :
    s'.base.kind i = s.base.kind i ∧ s'.nm i = s.nm i ∧ s'.base.data i = s.base.data i ∧ s'.ids i = s.ids i ∧
    s'.attrs i = s.attrs i ∧ s'.base.kids i = s.base.kids i ∧ s'.specified i = s.specified i := by
  simpa only [view, View.mk.injEq] using e

/-- The copy of something else in between. -/
theorem L.of_upto {C : Chars} {m : Nat} {s s' : St} (hg : Good C s') (hs : s.base.size ≤ s'.base.size) (hm : m < s.base.size)
    (hu : Upto s.base.size s s') (h0 : Up m s) (h1 : Up s.base.size s') : L C m s s' := by
  refine ⟨hg, hs, hu.mono (Nat.le_of_lt hm), congrArg bare (hu m hm), fun i _ hi => view_of_node (hu i hi), ?_⟩
  intro i j hi hj
  by_cases hl : i < s.base.size
  · obtain ⟨_, _, _, _, k, _, _, _, _, _, a, _⟩ := node_fields (hu i hl)
    rw [k, a] at hj
    exact h0 i j hi hj
  · exact h1 i j (by omega) hj

theorem orphan_inv2 {b : Dom.St} (h : Dom.Inv2 b) (o : Nat → Bool) : Dom.Inv2 { b with orphan := o } :=
  ⟨h.inv.of_tree rfl rfl rfl rfl rfl rfl rfl rfl, h.allow, h.rodown, h.fresh⟩

theorem docInserted_not {b : Dom.St} {m k : Nat} (h : b.kind m ≠ .document) : Dom.docInserted b m k = b := by
  unfold Dom.docInserted; rw [if_neg h]

theorem append_L' {C : Chars} {s : St} (h : Good C s) {m k d : Nat} (hu : Up m s) (hmk : m < k) (hk : k < s.base.size)
    (hh : Dom.hasKids (s.base.kind m) = true) (hnd : s.base.kind m ≠ .document) (hro : s.base.ro m = false)
    (hfr : s.base.kind k ≠ .fragment) (hpk : s.base.parent k = none) (hanc : ¬ Dom.AncEq s.base.parent k m)
    (hdm : s.base.doc m = some d)
    (hc : (s.base.doc k = s.base.doc m ∧ Dom.childAllowed (s.base.kind m) (s.base.kind k) = true) ∨
      (s.base.doc k = none ∧ s.base.kind k = .doctype)) :
    ∃ s', append s m k = .ok s' () ∧ L C m s s' ∧ s'.base.size = s.base.size ∧
      s'.base.kids m = s.base.kids m ++ [k] ∧ s'.attrs = s.attrs ∧
      (∀ i, i ≠ m → view s' i = view s i) ∧ s'.base.parent = upd s.base.parent k (some m) ∧
      s'.base.doc = upd s.base.doc k (some d) ∧ s'.base.ro = s.base.ro := by
  obtain ⟨u, e, i2, hs, hkk, hf, hr, hda, hrt, hdt, hdo, hki, hpa, hor, hpn⟩ :=
    dom_append' h.dom h.live (by omega) hk (by omega) ⟨hh, fun t => hnd t.1, fun t => hnd t.1, hro⟩ hfr hpk hanc hdm hc
  have hku : u.kind m ≠ .document := by rw [hkk]; exact hnd
  rw [docInserted_not hku] at e
  refine ⟨{ s with base := u }, ?_, ⟨?_, ?_, ?_, ?_, ?_, ?_⟩, hs, ?_, rfl, ?_, hpa, by rw [← hdm]; exact hdo, hr⟩
  · unfold append; rw [e]
  · refine h.with_base i2 hs hkk hf ?_ hdt hrt
    intro n hn
    rw [hdo]
    by_cases x : n = k
    · subst x
      rw [upd_same]
      rcases hc with ⟨hc, _⟩ | ⟨hc, _⟩
      · exact hc.symm
      · exact absurd hc hn
    · rw [upd_ne _ _ x]
  · show s.base.size ≤ u.size; omega
  · intro i hi
    have x : i ≠ k := by omega
    have y : i ≠ m := by omega
    have z : i ∉ s.base.kids m := fun t => by have := hu m i (Nat.le_refl _) (.inl t); omega
    obtain ⟨p1, p2⟩ := hpn i x z
    simp only [node, hkk, hf, hr, hda, hrt, hdt, hdo, hki, hpa, hor, upd_ne _ _ x, upd_ne _ _ y, p1, p2]
  · have x : m ≠ k := by omega
    have z : m ∉ s.base.kids m := fun t => by have := hu m m (Nat.le_refl _) (.inl t); omega
    obtain ⟨p1, p2⟩ := hpn m x z
    simp only [bare, node, hkk, hf, hr, hda, hrt, hdt, hdo, hpa, hor, upd_ne _ _ x, p1, p2]
  · intro i h1 _
    have y : i ≠ m := by omega
    simp only [view, hkk, hda, hki, upd_ne _ _ y]
  · intro i j hi hj
    rcases hj with hj | hj
    · have hj : j ∈ u.kids i := hj
      rw [hki] at hj
      by_cases y : i = m
      · subst y
        rw [upd_same] at hj
        rcases List.mem_append.mp hj with hj | hj
        · exact hu i j hi (.inl hj)
        · rw [List.mem_singleton] at hj; subst hj; exact hmk
      · rw [upd_ne _ _ y] at hj; exact hu i j hi (.inl hj)
    · exact hu i j hi (.inr hj)
  · show u.kids m = _; rw [hki, upd_same]
  · intro i y
    simp only [view, hkk, hda, hki, upd_ne _ _ y]

theorem append_L {C : Chars} {s : St} (h : Good C s) {m k d : Nat} (hu : Up m s) (hmk : m < k) (hk : k < s.base.size)
    (hh : Dom.hasKids (s.base.kind m) = true) (hnd : s.base.kind m ≠ .document) (hro : s.base.ro m = false)
    (hfr : s.base.kind k ≠ .fragment) (hpk : s.base.parent k = none) (hpm : s.base.parent m = none)
    (hdm : s.base.doc m = some d)
    (hc : (s.base.doc k = s.base.doc m ∧ Dom.childAllowed (s.base.kind m) (s.base.kind k) = true) ∨
      (s.base.doc k = none ∧ s.base.kind k = .doctype)) :
    ∃ s', append s m k = .ok s' () ∧ L C m s s' ∧ s'.base.size = s.base.size ∧
      s'.base.kids m = s.base.kids m ++ [k] ∧ s'.attrs = s.attrs ∧
      (∀ i, i ≠ m → view s' i = view s i) :=
  have ⟨s', h1, h2, h3, h4, h5, h6, _⟩ := append_L' h hu hmk hk hh hnd hro hfr hpk (anc_none (by omega) hpm) hdm hc
  ⟨s', h1, h2, h3, h4, h5, h6⟩

/-! ## attributes -/

theorem mem_set {α : Type} {l : List α} {i : Nat} {a x : α} (h : x ∈ l.set i a) : x ∈ l ∨ x = a :=
  List.mem_or_eq_of_mem_set h

theorem setNode_L {C : Chars} {s : St} (h : Good C s) {m b : Nat} (hu : Up m s) (hmb : m < b) (hb : b < s.base.size)
    (hkm : s.base.kind m = .element) (hkb : s.base.kind b = .attr) (hd : s.base.doc b = s.base.doc m)
    (pos : Option Nat) : L C m s (setNode s m b pos) ∧ (setNode s m b pos).base.kids = s.base.kids ∧
      (setNode s m b pos).base.size = s.base.size ∧
      (∀ i, i ≠ m → view (setNode s m b pos) i = view s i) ∧ (pos = none → (setNode s m b pos).attrs m = s.attrs m ++ [b]) := by
  -- a list of attributes and a set of orphans
  have key : ∀ (l : List Nat) (o : Nat → Bool), (∀ x ∈ l, x ∈ s.attrs m ∨ x = b) → (∀ i, i ≤ m → o i = s.base.orphan i) →
      ∀ s', s' = { s with attrs := upd s.attrs m l, base := { s.base with orphan := o } } →
      L C m s s' ∧ s'.base.kids = s.base.kids ∧ s'.base.size = s.base.size ∧ (∀ i, i ≠ m → view s' i = view s i) ∧
        s'.attrs m = l := by
    intro l o hl ho s' e
    subst e
    refine ⟨⟨?_, Nat.le_refl _, ?_, ?_, ?_, ?_⟩, rfl, rfl, ?_, upd_same _ _ _⟩
    · refine ⟨orphan_inv2 h.dom o, h.live, ?_, h.made, h.dt, h.root, h.ent⟩
      intro e a ha
      have ha : a ∈ upd s.attrs m l e := ha
      by_cases x : e = m
      · subst x
        rw [upd_same] at ha
        rcases hl a ha with ha | rfl
        · exact h.attr e a ha
        · exact ⟨Nat.lt_trans hmb hb, hb, hkm, hkb, hd⟩
      · rw [upd_ne _ _ x] at ha; exact h.attr e a ha
    · intro i hi
      have x : i ≠ m := by omega
      simp only [node, upd_ne _ _ x, ho i (by omega)]
    · simp only [bare, node, ho m (Nat.le_refl _)]
    · intro i hi _
      have x : i ≠ m := by omega
      simp only [view, upd_ne _ _ x]
    · intro i j hi hj
      rcases hj with hj | hj
      · exact hu i j hi (.inl hj)
      · have hj : j ∈ upd s.attrs m l i := hj
        by_cases x : i = m
        · subst x
          rw [upd_same] at hj
          rcases hl j hj with hj | rfl
          · exact hu i j hi (.inr hj)
          · exact hmb
        · rw [upd_ne _ _ x] at hj; exact hu i j hi (.inr hj)
    · intro i x
      simp only [view, upd_ne _ _ x]
  have ob : ∀ i, i ≤ m → upd s.base.orphan b false i = s.base.orphan i := fun i hi => upd_ne _ _ (show (i : Nat) ≠ b by omega)
  unfold setNode
  cases pos with
  | none =>
    have := key (s.attrs m ++ [b]) (upd s.base.orphan b false) (by simp) ob _ rfl
    exact ⟨this.1, this.2.1, this.2.2.1, this.2.2.2.1, fun _ => this.2.2.2.2⟩
  | some i =>
    dsimp only []
    cases hi : (s.attrs m)[i]? with
    | none =>
      have := key (s.attrs m) (upd s.base.orphan b false) (fun x hx => .inl hx) ob
        { s with base := { s.base with orphan := upd s.base.orphan b false } } (by
          congr 1
          funext j
          by_cases x : j = m
          · subst x; rw [upd_same]
          · rw [upd_ne _ _ x])
      exact ⟨this.1, this.2.1, this.2.2.1, this.2.2.2.1, fun t => nomatch t⟩
    | some r =>
      have hr : m < r := hu m r (Nat.le_refl _) (.inr (List.mem_of_getElem? hi))
      have := key ((s.attrs m).set i b) (upd (upd s.base.orphan b false) r true) (fun x hx => mem_set hx)
        (fun j hj => (upd_ne _ _ (show (j : Nat) ≠ r by omega)).trans (ob j hj)) _ rfl
      exact ⟨this.1, this.2.1, this.2.2.1, this.2.2.2.1, fun t => nomatch t⟩

theorem setAttr_L {C : Chars} {s : St} (h : Good C s) {m b : Nat} (hu : Up m s) (hmb : m < b) (hb : b < s.base.size)
    (hkm : s.base.kind m = .element) (hkb : s.base.kind b = .attr) (hro : s.base.ro m = false)
    (hob : s.owner b = none) (hd : s.base.doc b = s.base.doc m) (ns : Bool) :
    ∃ s', setAttr s m b ns = .ok s' () ∧ L C m s s' ∧ s'.base.kids = s.base.kids ∧ s'.base.size = s.base.size ∧
      (∀ i, i ≠ m → view s' i = view s i) ∧
      ((∀ a ∈ s.attrs m, (if ns then AttrMap.namespaceAndNameIs (s.nm b).uri (s.nm b).localName (s.nm a)
          else AttrMap.nameIs (s.nm b).name (s.nm a)) = false) → s'.attrs m = s.attrs m ++ [b]) := by
  let s1 : St := { s with owner := upd s.owner b (some m),
                          base := { s.base with orphan := upd s.base.orphan b false } }
  have ho : isOrphaned s b = true := by unfold isOrphaned; rw [hob]
  have l1 : L C m s s1 := by
    refine ⟨⟨orphan_inv2 h.dom _, h.live, h.attr, h.made, h.dt, h.root, h.ent⟩, Nat.le_refl _, ?_, ?_, fun _ _ _ => rfl, hu⟩
    · intro i hi
      have x : i ≠ b := by omega
      simp only [node, s1, upd_ne _ _ x]
    · have x : m ≠ b := by omega
      simp only [bare, node, s1, upd_ne _ _ x]
  let pos := (s1.attrs m).findIdx? fun a =>
        if ns then AttrMap.namespaceAndNameIs (s1.nm b).uri (s1.nm b).localName (s1.nm a)
        else AttrMap.nameIs (s1.nm b).name (s1.nm a)
  obtain ⟨l2, k2, z2, v2, a2⟩ := setNode_L l1.good (b := b) l1.up hmb hb hkm hkb hd pos
  refine ⟨setNode s1 m b pos, ?_, l1.trans l2, k2, z2, fun i hi => v2 i hi, ?_⟩
  · unfold setAttr
    simp only [ho, hro, Bool.not_true, Bool.false_and, Bool.false_eq_true, if_false, hd, ne_eq, not_true_eq_false]
    rfl
  · intro hn
    apply a2
    exact List.findIdx?_eq_none_iff.mpr hn

end Verif.Clone
