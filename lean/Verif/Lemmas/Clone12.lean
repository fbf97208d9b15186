import Verif.Lemmas.Clone11
set_option autoImplicit false
set_option linter.unusedSimpArgs false
set_option linter.unusedVariables false
namespace Verif.Clone
open Verif.Dom (Str Kind Err upd upd_ne upd_same)
open Verif.DomNames (NsName plain)

/-! ## clones of documents -/

/-- The clone `m` of a document is being filled. -/
structure D (C : Chars) (s0 : St) (m : Nat) (s : St) : Prop where
  good : Good C s
  id : m = s0.base.size
  lt : m < s.base.size
  low : Upto m s0 s
  up : Up m s
  kind : s.base.kind m = .document
  doc : s.base.doc m = some m
  ro : s.base.ro m = false
  parent : s.base.parent m = none
  owner : s.owner m = none
  root : ∀ x, s.base.root m = some x → m < x

/-- The document type of `m` has no entities. -/
def NoEnt (s : St) (m : Nat) : Prop := ∀ t, s.base.dtype m = some t → s.entities t = []

theorem node_root {s s' : St} {i : Nat} (e : node s' i = node s i) : s'.base.root i = s.base.root i := by
  simp only [node, Node.mk.injEq] at e
  exact e.2.2.2.2.2.2.2.2.2.2.1

theorem D.of_upto {C : Chars} {s0 s s1 : St} {m : Nat} (h : D C s0 m s) (hg : Good C s1) (hl : Upto s.base.size s s1)
    (hs : s.base.size ≤ s1.base.size) (hu : Up s.base.size s1) : D C s0 m s1 := by
  obtain ⟨f1, f2, f3, f4, f5, f6, f7, f8, f9, f10, f11, f12, f13, f14, f15⟩ := node_fields (hl m h.lt)
  have hm := h.lt
  refine ⟨hg, h.id, by omega, h.low.trans (hl.mono (by omega)), ?_, by rw [f1]; exact h.kind, by rw [f2]; exact h.doc,
    by rw [f6]; exact h.ro, by rw [f3]; exact h.parent, by rw [f12]; exact h.owner, ?_⟩
  · intro i j hi hj
    by_cases hx : i < s.base.size
    · obtain ⟨_, _, _, _, k, _, _, _, _, _, a, _⟩ := node_fields (hl i hx)
      rw [k, a] at hj
      exact h.up i j hi hj
    · exact hu i j (by omega) hj
  · rw [node_root (hl m h.lt)]; exact h.root

theorem NoEnt.of_upto {C : Chars} {s s1 : St} {m : Nat} (h : NoEnt s m) (hg : Good C s) (hm : m < s.base.size)
    (hl : Upto s.base.size s s1) : NoEnt s1 m := by
  intro t ht
  rw [(node_fields (hl m hm)).2.2.2.2.2.2.2.1] at ht
  rw [(node_fields (hl t (hg.dt m t ht).2)).2.2.2.2.2.2.2.2.2.2.2.2.2.2]
  exact h t ht

theorem D.of_Q {C : Chars} {s0 s s1 : St} {m k : Nat} {kc : Kind} {d : Option Nat} (h : D C s0 m s) (q : Q C s kc d s1 k) :
    D C s0 m s1 := h.of_upto q.good q.low (by have := q.lt; have := q.id; omega) q.up

theorem docInserted_doc {u : Dom.St} {m k : Nat} :
    (Dom.docInserted u m k).size = u.size ∧ (Dom.docInserted u m k).kind = u.kind ∧ (Dom.docInserted u m k).freed = u.freed ∧
    (Dom.docInserted u m k).ro = u.ro ∧ (Dom.docInserted u m k).data = u.data ∧ (Dom.docInserted u m k).doc = u.doc ∧
    (Dom.docInserted u m k).kids = u.kids ∧ (Dom.docInserted u m k).parent = u.parent ∧ (Dom.docInserted u m k).orphan = u.orphan ∧
    (Dom.docInserted u m k).prev = u.prev ∧ (Dom.docInserted u m k).next = u.next ∧
    (∀ i, i ≠ m → (Dom.docInserted u m k).root i = u.root i ∧ (Dom.docInserted u m k).dtype i = u.dtype i) ∧
    ((Dom.docInserted u m k).root m = u.root m ∨ ((Dom.docInserted u m k).root m = some k ∧ u.kind k = .element)) ∧
    ((Dom.docInserted u m k).dtype m = u.dtype m ∨ ((Dom.docInserted u m k).dtype m = some k ∧ u.kind k = .doctype)) := by
  unfold Dom.docInserted
  by_cases h0 : u.kind m = .document
  · rw [if_pos h0]
    simp only []
    by_cases h1 : u.kind k = .element ∧ u.root m = none
    · rw [if_pos h1]
      rw [if_neg (by intro t; have := t.1; simp only [] at this; rw [h1.1] at this; cases this)]
      refine ⟨rfl, rfl, rfl, rfl, rfl, rfl, rfl, rfl, rfl, rfl, rfl, fun i hi => ⟨upd_ne _ _ hi, rfl⟩, .inr ⟨upd_same _ _ _, h1.1⟩, .inl rfl⟩
    · rw [if_neg h1]
      by_cases h2 : u.kind k = .doctype ∧ u.dtype m = none
      · rw [if_pos h2]
        exact ⟨rfl, rfl, rfl, rfl, rfl, rfl, rfl, rfl, rfl, rfl, rfl, fun i hi => ⟨rfl, upd_ne _ _ hi⟩, .inl rfl, .inr ⟨upd_same _ _ _, h2.1⟩⟩
      · rw [if_neg h2]
        exact ⟨rfl, rfl, rfl, rfl, rfl, rfl, rfl, rfl, rfl, rfl, rfl, fun i hi => ⟨rfl, rfl⟩, .inl rfl, .inl rfl⟩
  · rw [if_neg h0]
    exact ⟨rfl, rfl, rfl, rfl, rfl, rfl, rfl, rfl, rfl, rfl, rfl, fun i hi => ⟨rfl, rfl⟩, .inl rfl, .inl rfl⟩

theorem inv2_docInserted {u : Dom.St} (h : Dom.Inv2 u) (m k : Nat) : Dom.Inv2 (Dom.docInserted u m k) := by
  obtain ⟨a1, a2, a3, a4, a5, a6, a7, a8, a9, a10, a11, a12, a13, a14⟩ := docInserted_doc (u := u) (m := m) (k := k)
  refine ⟨h.inv.of_tree a7 a8 a10 a11 a1 a2 a6 a3, ?_, ?_, ?_⟩
  · intro p c hc; rw [a7] at hc; rw [a2]; exact h.allow p c hc
  · intro p c hc; rw [a7] at hc; rw [a4]; exact h.rodown p c hc
  · rw [a1, a3]; exact h.fresh

/-- Appending to the clone. -/
theorem append_doc {C : Chars} {s0 s : St} {m k : Nat} (h : D C s0 m s) (hmk : m < k) (hk : k < s.base.size)
    (hal : Dom.childAllowed .document (s.base.kind k) = true) (hpk : s.base.parent k = none)
    (hdk : s.base.doc k = some m ∨ (s.base.doc k = none ∧ s.base.kind k = .doctype))
    (h1 : s.base.kind k = .element → s.base.root m = none) (h2 : s.base.kind k = .doctype → s.base.dtype m = none) :
    ∃ s', append s m k = .ok s' () ∧ D C s0 m s' ∧ s'.base.size = s.base.size ∧
      s'.base.kids m = s.base.kids m ++ [k] ∧ (∀ i, i ≠ m → view s' i = view s i) ∧
      (s.base.kind k ≠ .element → s'.base.root m = s.base.root m) ∧ s'.entities = s.entities ∧
      (s'.base.dtype m = s.base.dtype m ∨ s'.base.dtype m = some k ∧ s.base.kind k = .doctype) ∧
      s'.base.doc = upd s.base.doc k (some m) ∧ s'.base.ro = s.base.ro ∧
      (∀ i, i ≠ m → i ≠ k → i ∉ s.base.kids m → node s' i = node s i) ∧ s'.base.parent = upd s.base.parent k (some m) := by
  have hfr : s.base.kind k ≠ .fragment := by intro e; rw [e] at hal; cases hal
  have hg := h.good
  obtain ⟨u, e, i2, hs, hkk, hf, hr, hda, hrt, hdt, hdo, hki, hpa, hor, hpn⟩ :=
    dom_append hg.dom hg.live h.lt hk (by omega) ⟨by rw [h.kind]; rfl, fun t => t.2.2 (h1 t.2.1), fun t => t.2.2 (h2 t.2.1), h.ro⟩
      hfr hpk h.parent h.doc (hdk.imp (fun t => ⟨by rw [t, h.doc], by rw [h.kind]; exact hal⟩) id)
  obtain ⟨a1, a2, a3, a4, a5, a6, a7, a8, a9, a10, a11, a12, a13, a14⟩ := docInserted_doc (u := u) (m := m) (k := k)
  rw [h.doc] at hdo
  have hdoi : ∀ i, i ≠ k → u.doc i = s.base.doc i := fun i hi => by rw [hdo, upd_ne _ _ hi]
  have hm := h.lt
  have hbnd : Bnd (Dom.docInserted u m k) := by
    refine bnd_docInserted (by rw [hs]; exact hm) (by rw [hs]; exact hk) ?_
    unfold Bnd
    rw [hs, hdt, hrt]; exact hg.bnd
  have g : Good C { s with base := Dom.docInserted u m k } := by
    refine hg.tame ⟨by rw [a1, hs], by rw [a2, hkk], by rw [a3, hf], ?_⟩ (inv2_docInserted i2 m k) hbnd
    intro n d hd
    rw [a6, hdo]
    by_cases x : n = k
    · subst x
      rw [upd_same]
      rcases hdk with t | ⟨t, _⟩
      · rw [hd] at t; exact t.symm
      · rw [hd] at t; cases t
    · rw [upd_ne _ _ x]; exact hd
  refine ⟨{ s with base := Dom.docInserted u m k }, ?_, ⟨g, h.id, ?_, ?_, ?_, ?_, ?_, ?_, ?_, h.owner, ?_⟩, ?_, ?_, ?_, ?_, rfl, ?_, ?_, ?_, ?_, a8.trans hpa⟩
  · unfold append; rw [e]
  · show m < (Dom.docInserted u m k).size; rw [a1, hs]; exact hm
  · intro i hi
    have x : i ≠ k := by omega
    have y : i ≠ m := by omega
    have z : i ∉ s.base.kids m := fun t => by have := h.up m i (Nat.le_refl _) (.inl t); omega
    obtain ⟨p1, p2⟩ := hpn i x z
    obtain ⟨r1, r2⟩ := a12 i y
    rw [← h.low i hi]
    simp only [node, a2, a3, a4, a5, a6, a7, a8, a9, a10, a11, r1, r2, hdoi i x, hkk, hf, hr, hda, hrt, hdt, hki, hpa, hor, upd_ne _ _ x, upd_ne _ _ y, p1, p2]
  · intro i j hi hj
    rcases hj with hj | hj
    · have hj : j ∈ (Dom.docInserted u m k).kids i := hj
      rw [a7, hki] at hj
      by_cases y : i = m
      · subst y
        rw [upd_same] at hj
        rcases List.mem_append.mp hj with hj | hj
        · exact h.up i j hi (.inl hj)
        · rw [List.mem_singleton] at hj; subst hj; exact hmk
      · rw [upd_ne _ _ y] at hj; exact h.up i j hi (.inl hj)
    · exact h.up i j hi (.inr hj)
  · show (Dom.docInserted u m k).kind m = _; rw [a2, hkk]; exact h.kind
  · show (Dom.docInserted u m k).doc m = _; rw [a6, hdoi m (by omega)]; exact h.doc
  · show (Dom.docInserted u m k).ro m = _; rw [a4, hr]; exact h.ro
  · show (Dom.docInserted u m k).parent m = _; rw [a8, hpa, upd_ne _ _ (by omega : m ≠ k)]; exact h.parent
  · intro x hx
    have hx : (Dom.docInserted u m k).root m = some x := hx
    rcases a13 with e1 | ⟨e1, _⟩
    · rw [e1, hrt] at hx; exact h.root x hx
    · rw [e1] at hx; cases hx; exact hmk
  · show (Dom.docInserted u m k).size = _; rw [a1, hs]
  · show (Dom.docInserted u m k).kids m = _; rw [a7, hki, upd_same]
  · intro i y
    simp only [view, a2, a5, a7, hkk, hda, hki, upd_ne _ _ y]
  · intro hne
    show (Dom.docInserted u m k).root m = _
    rcases a13 with e1 | ⟨_, e2⟩
    · rw [e1, hrt]
    · rw [hkk] at e2; exact absurd e2 hne
  · show (Dom.docInserted u m k).dtype m = _ ∨ (Dom.docInserted u m k).dtype m = _ ∧ _
    rw [hdt, hkk] at a14; exact a14
  · show (Dom.docInserted u m k).doc = _; rw [a6, hdo]
  · show (Dom.docInserted u m k).ro = _; rw [a4, hr]
  · intro i y x z
    obtain ⟨p1, p2⟩ := hpn i x z
    obtain ⟨r1, r2⟩ := a12 i y
    simp only [node, a2, a3, a4, a5, a6, a7, a8, a9, a10, a11, r1, r2, hdoi i x, hkk, hf, hr, hda, hrt, hdt, hki, hpa, hor, upd_ne _ _ x, upd_ne _ _ y, p1, p2]

/-- Importing never gives a document type. -/
theorem import_kind {C : Chars} {fuel d : Nat} {s s' : St} {n m : Nat} {deep : Bool} (he : copyNode C fuel (.into d) s n deep = .ok s' m) :
    s.base.kind n ≠ .doctype := by
  intro e
  cases fuel with
  | zero => rw [copyNode] at he; cases he
  | succ f =>
    rw [copyNode, if_neg (by rw [e]; nofun)] at he
    obtain ⟨s1, m1, e1, _⟩ := bind_ok he
    unfold make at e1
    rw [e] at e1
    cases e1

/-- If an element is there already, there is no second. -/
theorem append_second {s : St} {m k : Nat} (hm : s.base.kind m = .document) (hk : s.base.kind k = .element) (hr : s.base.root m ≠ none) :
    append s m k = .err .hierarchy := by
  have : Dom.appendChild s.base m k = .err .hierarchy s.base := by
    unfold Dom.appendChild Dom.insertBefore
    rw [Dom.insertV, if_neg (by rw [hm]; simp [Dom.hasKids]), if_pos ⟨hm, hk, hr⟩]
  unfold append
  rw [this]

theorem D.kid {C : Chars} {s0 s s1 : St} {m k n c : Nat} (h : D C s0 m s) (hn : n < m) (hkn : s0.base.kind n = .document)
    (hc : c ∈ s0.base.kids n) (hnd : s.base.kind c ≠ .doctype) (q : Q C s (s.base.kind c) (some m) s1 k)
    (hr : s.base.kind c = .element → s.base.root m = none) :
    ∃ s2, append s1 m k = .ok s2 () ∧ D C s0 m s2 ∧ s2.base.kids m = s.base.kids m ++ [k] ∧ (∀ i, i ≠ m → view s2 i = view s1 i) ∧
      (s.base.kind c ≠ .element → s2.base.root m = s.base.root m) ∧ (NoEnt s m → NoEnt s2 m) := by
  have hm := h.lt
  have hkid := q.id
  have hkl := q.lt
  obtain ⟨f1, f2, f3, f4, f5, f6, f7, f8, f9, f10, f11, f12, f13, f14, f15⟩ := node_fields (q.low m h.lt)
  obtain ⟨g1, g2, g3, g4, g5, g6⟩ := node_fields (h.low n hn)
  have hc' : c ∈ s.base.kids n := by rw [g5]; exact hc
  have hal := h.good.dom.allow n c hc' hnd
  rw [g1, hkn] at hal
  obtain ⟨s2, e1, e2, e3, e4, e5, e6, e7, e8, _⟩ := append_doc (h.of_Q q) (k := k) (by omega) hkl (by rw [q.kind]; exact hal) q.parent (.inl q.doc)
    (by rw [q.kind, node_root (q.low m h.lt)]; exact hr) (by rw [q.kind]; exact fun t => absurd t hnd)
  refine ⟨s2, e1, e2, by rw [e4, f5], e5, ?_, ?_⟩
  · intro hne
    rw [e6 (by rw [q.kind]; exact hne), node_root (q.low m h.lt)]
  · intro hne t ht
    rw [e7]
    rcases e8 with e8 | ⟨_, e8⟩
    · rw [e8] at ht; exact hne.of_upto h.good h.lt q.low t ht
    · rw [q.kind] at e8; exact absurd e8 hnd

/-- The document, then its document type. -/
theorem doc_begun {C : Chars} {s : St} (h : Good C s) (s1 : St) (e : s1 = new s .document (some s.base.size) (plain []) false [] [] false) :
    D C s s.base.size s1 ∧ s1.base.kids s.base.size = [] ∧ s1.base.size = s.base.size + 1 ∧ s1.base.root s.base.size = none ∧
      s1.base.dtype s.base.size = none := by
  have hgood : Good C s1 := by
    subst e; exact h.new (by nofun) (fun _ => rfl) (fun x hx => by cases hx; exact .inl ⟨rfl, rfl⟩) trivial
  have hlow : Upto s.base.size s s1 := by subst e; intro i hi; exact node_new (Nat.ne_of_lt hi)
  have hup : Up s.base.size s1 := by subst e; exact up_new h
  obtain ⟨f1, f2, f3, f4, f5, f6, f7, f8, f9, f10, f11, f12⟩ := fresh_fields h s1 e
  have hsz : s1.base.size = s.base.size + 1 := by subst e; rfl
  have hf := node_fresh h (k := .document) (d := some s.base.size) (r := plain []) (ns := false) (data := []) (ids := []) (o := false)
  rw [← e] at hf
  simp only [node, Node.mk.injEq] at hf
  have hrt : s1.base.root s.base.size = none := hf.2.2.2.2.2.2.2.2.2.2.1
  have hdt : s1.base.dtype s.base.size = none := hf.2.2.2.2.2.2.2.2.2.2.2.1
  exact ⟨⟨hgood, rfl, by omega, hlow, hup, f1, f2, f6, f3, f4, fun x hx => (by rw [hrt] at hx; cases hx)⟩,
    f8, hsz, hrt, hdt⟩

theorem doctype_added {C : Chars} {s0 s : St} {m t : Nat} (h : D C s0 m s) (ht : t < m)
    (hdt : s.base.dtype m = none) :
    ∃ s2, append (new s .doctype (some m) (plain (s.nm t).name) false [] (s.ids t) false) m s.base.size = .ok s2 () ∧
      D C s0 m s2 ∧ s2.base.kids m = s.base.kids m ++ [s.base.size] ∧ s2.base.root m = s.base.root m ∧
      (s.base.kind t = .doctype → ∀ tr, Shows s tr t → Shows s2 tr s.base.size) ∧ (∀ i, i ≠ m → i < s.base.size → view s2 i = view s i) ∧ NoEnt s2 m := by
  obtain ⟨s1, e⟩ : ∃ s1, s1 = new s .doctype (some m) (plain (s.nm t).name) false [] (s.ids t) false := ⟨_, rfl⟩
  rw [← e]
  have hm := h.lt
  have hgood : Good C s1 := by
    subst e; exact h.good.new (by nofun) (by nofun) (fun x hx => by cases hx; exact .inr ⟨h.lt, h.kind⟩) trivial
  have hlow : Upto s.base.size s s1 := by subst e; intro i hi; exact node_new (Nat.ne_of_lt hi)
  have hup : Up s.base.size s1 := by subst e; exact up_new h.good
  have hsz : s1.base.size = s.base.size + 1 := by subst e; rfl
  obtain ⟨f1, f2, f3, f4, f5, f6, f7, f8, f9, f10, f11, f12⟩ := fresh_fields h.good s1 e
  have d1 := h.of_upto hgood hlow (by omega) hup
  obtain ⟨g1, g2, g3, g4, g5, g6, g7, g8, g9⟩ := node_fields (hlow m h.lt)
  have hent : s1.entities s.base.size = [] := by subst e; exact upd_same _ _ _
  obtain ⟨s2, e1, e2, e3, e4, e5, e6, e7, e8, _⟩ := append_doc d1 (k := s.base.size) hm (by omega) (by rw [f1]; rfl) f3 (.inl f2) (by rw [f1]; nofun)
    (fun _ => by rw [g8]; exact hdt)
  refine ⟨s2, e1, e2, by rw [e4, g5], by rw [e6 (by rw [f1]; nofun), node_root (hlow m h.lt)], ?_, ?_, ?_⟩
  · intro hkt tr hs
    obtain ⟨v1, v2, v3, v4, v5, v6, v7⟩ := view_fields (e5 s.base.size (by omega))
    obtain ⟨kd, r, v, i, as, ks⟩ := tr
    rw [Shows] at hs ⊢
    obtain ⟨x1, x2, x3, x4, x5, x6⟩ := hs
    have hkd : kd = .doctype := by rw [← x1]; exact hkt
    subst hkd
    refine ⟨by rw [v1, f1], ?_, ?_, ?_, ?_, ?_⟩
    · unfold nameOf at x2 ⊢; rw [v1, f1, v2, f10]; rw [hkt] at x2; exact x2
    · unfold valueOf at x3 ⊢; rw [v1, f1]; rw [hkt] at x3; exact x3
    · unfold idsOf at x4 ⊢; rw [v1, f1, v4, f12]; rw [hkt] at x4; exact x4
    · unfold attrsOf at x5 ⊢
      rw [h.good.attrs_nil (by rw [hkt]; nofun)] at x5
      rw [v5, f9]
      have := showsAll_nil (by simpa using x5)
      rw [this]; simp only [List.filter_nil, ShowsAll]
    · have : s.base.kids t = [] := by
        cases ek : s.base.kids t with
        | nil => rfl
        | cons c l =>
          have := (h.good.dom.inv.kinds t c (by rw [ek]; exact List.mem_cons_self)).1
          rw [hkt] at this; cases this
      rw [this] at x6
      rw [v6, f8, showsAll_nil x6]; simp only [ShowsAll]
  · intro i hi hl
    rw [e5 i hi]; exact view_of_node (hlow i hl)
  · intro t ht
    rw [e7]
    rcases e8 with e8 | ⟨e8, _⟩
    · rw [e8, g8, hdt] at ht; cases ht
    · rw [e8] at ht; cases ht; exact hent

theorem cloneDocKids_safe {C : Chars} {s0 : St} {m n : Nat} (hn : n < m) (hkn : s0.base.kind n = .document)
    (hlt : ∀ c ∈ s0.base.kids n, c < m) :
    ∀ (fuel : Nat) (cs don : List Nat) (s s' : St), D C s0 m s → s0.base.kids n = don ++ cs →
      cloneDocKids C fuel s n m cs.head? = .ok s' () → D C s0 m s'
  | 0, _, _, s, s', _, _, he => by rw [cloneDocKids] at he; cases he
  | fuel + 1, [], _, s, s', h, _, he => by
    rw [List.head?_nil, cloneDocKids] at he; cases he; exact h
  | fuel + 1, c :: cs, don, s, s', h, hc, he => by
    rw [List.head?_cons, cloneDocKids] at he
    obtain ⟨s2, _, e1, he⟩ := bind_ok he
    have hm0 : c ∈ s0.base.kids n := by rw [hc]; simp
    have hcm := hlt c hm0
    have hmlt := h.lt
    have d2 : D C s0 m s2 := by
      by_cases hx : s.base.dtype n ≠ some c ∧ s.base.root m ≠ some c
      · rw [if_pos hx] at e1
        obtain ⟨s1, k, e2, e3⟩ := bind_ok e1
        have hnd := import_kind e2
        have q := copyNode_safe h.good (Nat.lt_trans hcm hmlt) (fun d t => by cases t; exact ⟨h.lt, h.kind⟩) e2
        unfold docOf at q
        rw [if_neg hnd] at q
        by_cases hr : s.base.kind c = .element ∧ s.base.root m ≠ none
        · have := append_second (s := s1) (m := m) (k := k) (by rw [(node_fields (q.low m h.lt)).1]; exact h.kind) (by rw [q.kind]; exact hr.1)
            (by rw [node_root (q.low m h.lt)]; exact hr.2)
          rw [this] at e3; cases e3
        · obtain ⟨s2', e4, e5, _⟩ := h.kid hn hkn hm0 hnd q (fun t => Decidable.of_not_not fun u => hr ⟨t, u⟩)
          rw [e3] at e4; cases e4; exact e5
      · rw [if_neg hx] at e1; cases e1; exact h
    have hnx : s2.base.next c = cs.head? := by
      rw [(node_fields (d2.low c hcm)).2.2.2.1]
      have : s.base.kids n = don ++ c :: cs := by rw [(node_fields (h.low n hn)).2.2.2.2.1]; exact hc
      have hn2 := h.good.dom.inv.next_eq this
      rw [(node_fields (h.low c hcm)).2.2.2.1] at hn2
      exact hn2
    rw [hnx] at he
    exact cloneDocKids_safe hn hkn hlt fuel cs (don ++ [c]) s2 s' d2 (by rw [hc]; simp) he

/-- Whatever comes out of `cloneDocument`. -/
theorem cloneDocument_safe {C : Chars} {s s' : St} (h : Good C s) {n m : Nat} (hn : n < s.base.size) (hk : s.base.kind n = .document)
    {fuel : Nat} {deep : Bool} (he : cloneDocument C fuel s n deep = .ok s' m) : D C s m s' := by
  unfold cloneDocument at he
  simp only [] at he
  obtain ⟨s1, e1⟩ : ∃ s1, s1 = new s .document (some s.base.size) (plain []) false [] [] false := ⟨_, rfl⟩
  rw [← e1] at he
  obtain ⟨d1, _, hsz, _, hdt1⟩ := doc_begun h s1 e1
  obtain ⟨s2, _, e2, he⟩ := bind_ok he
  obtain ⟨s3, _, e3, he⟩ := bind_ok he
  cases he
  obtain ⟨g1, g2, g3, g4, g5, g6, g7, g8, g9⟩ := node_fields (d1.low n hn)
  have d2 : D C s s.base.size s2 := by
    cases ht : s1.base.dtype n with
    | none => rw [ht] at e2; simp only [] at e2; cases e2; exact d1
    | some t =>
      rw [ht] at e2
      simp only [] at e2
      have ht0 : s.base.dtype n = some t := by rw [← g8]; exact ht
      have htl := (h.dt n t ht0).2
      obtain ⟨s2', e4, e5, _⟩ := doctype_added d1 htl hdt1
      rw [e2] at e4; cases e4; exact e5
  by_cases hd : deep = true
  · rw [if_pos hd] at e3
    have hkk : s2.base.kids n = s.base.kids n := (node_fields (d2.low n hn)).2.2.2.2.1
    rw [hkk] at e3
    exact cloneDocKids_safe hn hk (fun c hc => (h.dom.inv.lt n c hc).1) fuel (s.base.kids n) [] s2 s' d2 rfl e3
  · rw [if_neg hd] at e3; cases e3; exact d2

theorem NoEnt.exp {s : St} {m : Nat} (h : NoEnt s m) : ∀ name ks, noEntities name ks → Expansion s m name ks := by
  intro name ks hk
  have : entityNamed s m name = none := by
    unfold entityNamed
    cases e : s.base.dtype m with
    | none => rfl
    | some t => simp only []; rw [h t e]; rfl
  unfold Expansion
  rw [this]; exact hk

theorem cloneDocKids_shows {C : Chars} {s0 : St} (hg0 : Good C s0) {m n : Nat} (hn : n < m) (hm0 : m = s0.base.size) (hkn : s0.base.kind n = .document)
    (hlt : ∀ c ∈ s0.base.kids n, c < m) :
    ∀ (ts : List Tree) (cs don : List Nat) (us : List Tree) (s : St), D C s0 m s → NoEnt s m → s0.base.kids n = don ++ cs →
      ShowsAll s0 ts cs → (∀ c ∈ cs, s0.base.kind c = .doctype ↔ s0.base.dtype n = some c) →
      (∀ t ∈ ts, t.notType = true → Copyable C noEntities true t) → (ts.filter Tree.isElem).length ≤ 1 →
      (s.base.root m ≠ none → ts.filter Tree.isElem = []) → ShowsAll s us (s.base.kids m) →
      ∃ f0 s', (∀ fuel, f0 ≤ fuel → cloneDocKids C fuel s n m cs.head? = .ok s' ()) ∧
        ShowsAll s' (us ++ ts.filter Tree.notType) (s'.base.kids m)
  | [], [], don, us, s, h, _, _, _, _, _, _, _, hu => by
    refine ⟨1, s, ?_, by simpa using hu⟩
    intro fuel hf
    obtain ⟨f, rfl⟩ : ∃ f, fuel = f + 1 := ⟨fuel - 1, by omega⟩
    rw [List.head?_nil, cloneDocKids]
  | [], _ :: _, _, _, _, _, _, _, hs, _, _, _, _, _ => by simp only [ShowsAll] at hs
  | _ :: _, [], _, _, _, _, _, _, hs, _, _, _, _, _ => by simp only [ShowsAll] at hs
  | t :: ts, c :: cs, don, us, s, h, hne, hc, hs, hdt, hco, hel, hrt, hu => by
    rw [ShowsAll] at hs
    have hmem : c ∈ s0.base.kids n := by rw [hc]; simp
    have hcm := hlt c hmem
    have hmlt := h.lt
    have hkc : s0.base.kind c = t.kind := shows_kind hs.1
    have hkc' : s.base.kind c = s0.base.kind c := (node_fields (h.low c hcm)).1
    have hdn : s.base.dtype n = s0.base.dtype n := (node_fields (h.low n hn)).2.2.2.2.2.2.2.1
    have hrm : s.base.root m ≠ some c := fun e => absurd (h.root c e) (Nat.not_lt.mpr (Nat.le_of_lt hcm))
    have hnext : ∀ s2, D C s0 m s2 → s2.base.next c = cs.head? := by
      intro s2 d2
      rw [(node_fields (d2.low c hcm)).2.2.2.1]
      exact hg0.dom.inv.next_eq hc
    by_cases hx : s0.base.kind c = .doctype
    · have h1 : t.notType = false := by unfold Tree.notType; rw [← hkc, hx]; rfl
      have h2 : t.isElem = false := by unfold Tree.isElem; rw [← hkc, hx]; rfl
      rw [List.filter_cons, h2] at hel hrt
      obtain ⟨f0, s', e1, e2⟩ := cloneDocKids_shows hg0 hn hm0 hkn hlt ts cs (don ++ [c]) us s h hne (by rw [hc]; simp) hs.2
        (fun x hx => hdt x (List.mem_cons_of_mem _ hx)) (fun x hx => hco x (List.mem_cons_of_mem _ hx)) hel hrt hu
      refine ⟨f0 + 1, s', ?_, by rw [List.filter_cons, h1]; exact e2⟩
      intro fuel hf
      obtain ⟨f, rfl⟩ : ∃ f, fuel = f + 1 := ⟨fuel - 1, by omega⟩
      rw [List.head?_cons, cloneDocKids, if_neg (fun y => y.1 (by rw [hdn]; exact (hdt c List.mem_cons_self).mp hx))]
      show cloneDocKids C f s n m (s.base.next c) = _
      rw [hnext s h]
      exact e1 f (by omega)
    · have h1 : t.notType = true := by unfold Tree.notType; rw [← hkc]; exact decide_eq_true hx
      have hxs : s.base.kind c ≠ .doctype := by rw [hkc']; exact hx
      have hmo : ModeOk s (.into m) := fun d t => by cases t; exact ⟨h.lt, h.kind⟩
      have hsc : Shows s t c := by
        refine hg0.shows_upto ?_ (hm0 ▸ hcm) hs.1
        rw [← hm0]; exact h.low
      obtain ⟨f1, s1, k, c1, c2, _⟩ := copies C noEntities t (.into m) s c m true h.good (Nat.lt_trans hcm hmlt) hmo rfl hsc
        (hco t List.mem_cons_self h1) hne.exp
      rw [if_pos rfl] at c2
      have q := copyNode_safe h.good (Nat.lt_trans hcm hmlt) hmo (c1 f1 (Nat.le_refl _))
      unfold docOf at q
      rw [if_neg hxs] at q
      have hroot : s.base.kind c = .element → s.base.root m = none := by
        intro e
        have h2 : t.isElem = true := by unfold Tree.isElem; rw [← hkc, ← hkc', e]; rfl
        refine Decidable.of_not_not fun hr => ?_
        have := hrt hr
        rw [List.filter_cons, h2] at this
        cases this
      obtain ⟨s2, e1, d2, hk2, hv2, hr2, hne2⟩ := h.kid hn hkn hmem hxs q hroot
      have hkid := q.id
      have hkl := q.lt
      have hu1 : ShowsAll s1 us (s.base.kids m) := by
        refine showsAll_congr (X := fun i => i < s.base.size) (fun i hi j hj => h.good.closed i hi j hj)
          (fun i hi => view_of_node (q.low i hi)) us _ ?_ hu
        intro j hj; exact (h.good.dom.inv.lt m j hj).1
      have hd1 := h.of_Q q
      have hu2 : ShowsAll s2 (us ++ [t]) (s2.base.kids m) := by
        rw [hk2]
        refine showsAll_above (C := C) hd1.up hv2 ?_ (showsAll_append hu1 ?_)
        · intro x hx
          rcases List.mem_append.mp hx with hx | hx
          · exact h.up m x (Nat.le_refl _) (.inl hx)
          · rw [List.mem_singleton] at hx; subst hx; omega
        · simp only [ShowsAll, and_true]; exact c2
      have helt : (ts.filter Tree.isElem).length ≤ 1 := by
        rw [List.filter_cons] at hel
        cases hti : t.isElem
        · rw [hti] at hel; exact hel
        · rw [hti, if_pos rfl, List.length_cons] at hel; omega
      have hrtt : s2.base.root m ≠ none → ts.filter Tree.isElem = [] := by
        intro hr
        by_cases he : s.base.kind c = .element
        · have h2 : t.isElem = true := by unfold Tree.isElem; rw [← hkc, ← hkc', he]; rfl
          rw [List.filter_cons, if_pos h2] at hel
          exact List.eq_nil_of_length_eq_zero (by rw [List.length_cons] at hel; omega)
        · rw [hr2 he] at hr
          have := hrt hr
          rw [List.filter_cons, if_neg ?_] at this
          · exact this
          · unfold Tree.isElem; rw [← hkc, ← hkc']; simpa using he
      obtain ⟨f0, s', x1, x2⟩ := cloneDocKids_shows hg0 hn hm0 hkn hlt ts cs (don ++ [c]) (us ++ [t]) s2 d2 (hne2 hne) (by rw [hc]; simp) hs.2
        (fun x hx => hdt x (List.mem_cons_of_mem _ hx)) (fun x hx => hco x (List.mem_cons_of_mem _ hx)) helt hrtt hu2
      refine ⟨f0 + f1 + 1, s', ?_, ?_⟩
      · intro fuel hf
        obtain ⟨f, rfl⟩ : ∃ f, fuel = f + 1 := ⟨fuel - 1, by omega⟩
        rw [List.head?_cons, cloneDocKids, if_pos ⟨fun y => hx ((hdt c List.mem_cons_self).mpr (by rw [← hdn]; exact y)), hrm⟩, c1 f (by omega)]
        show Out.bind (append s1 m k) _ = _
        rw [e1]
        show cloneDocKids C f s2 n m (s2.base.next c) = _
        rw [hnext s2 d2]
        exact x1 f (by omega)
      · rw [List.filter_cons, if_pos h1]
        simpa using x2

theorem filter_kind {s : St} : ∀ {ts : List Tree} {ns : List Nat}, ShowsAll s ts ns →
    ShowsAll s (ts.filter fun t => !t.notType) (ns.filter fun n => decide (s.base.kind n = .doctype))
  | [], [], _ => trivial
  | [], _ :: _, h => by simp only [ShowsAll] at h
  | _ :: _, [], h => by simp only [ShowsAll] at h
  | t :: ts, n :: ns, h => by
    rw [ShowsAll] at h
    have e := shows_kind h.1
    by_cases hk : s.base.kind n = .doctype
    · rw [List.filter_cons, List.filter_cons, if_pos (by simp [Tree.notType, ← e, hk]), if_pos (by simp [hk]), ShowsAll]
      exact ⟨h.1, filter_kind h.2⟩
    · rw [List.filter_cons, List.filter_cons, if_neg (by simp [Tree.notType, ← e, hk]), if_neg (by simp [hk])]
      exact filter_kind h.2

/-- A deep clone of a document: the document type, then all else. -/
theorem cloneDocument_shows {C : Chars} {s : St} (h : Good C s) {n : Nat} (hn : n < s.base.size) (hk : s.base.kind n = .document)
    {ts : List Tree} (hs : ShowsAll s ts (s.base.kids n))
    (hdt : (s.base.kids n).filter (fun c => decide (s.base.kind c = .doctype)) = (s.base.dtype n).toList)
    (hco : ∀ t ∈ ts, t.notType = true → Copyable C noEntities true t) (hel : (ts.filter Tree.isElem).length ≤ 1) :
    ∃ f0 s' m, (∀ fuel, f0 ≤ fuel → cloneDocument C fuel s n true = .ok s' m) ∧
      ShowsAll s' (ts.filter (fun t => !t.notType) ++ ts.filter Tree.notType) (s'.base.kids m) := by
  obtain ⟨s1, e1⟩ : ∃ s1, s1 = new s .document (some s.base.size) (plain []) false [] [] false := ⟨_, rfl⟩
  obtain ⟨d1, hk1, hsz, hrt1, hdt1⟩ := doc_begun h s1 e1
  obtain ⟨g1, g2, g3, g4, g5, g6, g7, g8, g9⟩ := node_fields (d1.low n hn)
  have hiff : ∀ c ∈ s.base.kids n, s.base.kind c = .doctype ↔ s.base.dtype n = some c := by
    intro c hc
    constructor
    · intro e
      have : c ∈ (s.base.dtype n).toList := by rw [← hdt]; exact List.mem_filter.mpr ⟨hc, by simp [e]⟩
      simpa using this
    · intro e
      have : c ∈ (s.base.kids n).filter (fun c => decide (s.base.kind c = .doctype)) := by rw [hdt, e]; simp
      simpa using (List.mem_filter.mp this).2
  have hft := filter_kind hs
  rw [hdt] at hft
  have hb : ∃ s2, (match s1.base.dtype n with
      | none => (.ok s1 () : Out Unit)
      | some t => append (new s1 .doctype (some s.base.size) (plain (s1.nm t).name) false [] (s1.ids t) false) s.base.size s1.base.size) = .ok s2 () ∧
      D C s s.base.size s2 ∧ NoEnt s2 s.base.size ∧ s2.base.root s.base.size = none ∧ ShowsAll s2 (ts.filter fun t => !t.notType) (s2.base.kids s.base.size) := by
    rw [g8]
    cases ht : s.base.dtype n with
    | none =>
      refine ⟨s1, rfl, d1, (fun t ht => by rw [hdt1] at ht; cases ht), hrt1, ?_⟩
      rw [ht] at hft
      rw [showsAll_nil hft, hk1]; simp only [ShowsAll]
    | some t =>
      have htl := (h.dt n t ht).2
      rw [ht] at hft
      obtain ⟨s2, e4, e5, e6, e7, e8, e9, e10⟩ := doctype_added d1 htl hdt1
      refine ⟨s2, e4, e5, e10, by rw [e7]; exact hrt1, ?_⟩
      rw [e6, hk1]
      have hkt : s1.base.kind t = .doctype := by
        rw [(node_fields (d1.low t htl)).1]
        have : t ∈ (s.base.kids n).filter (fun c => decide (s.base.kind c = .doctype)) := by rw [hdt, ht]; simp
        simpa using (List.mem_filter.mp this).2
      generalize (ts.filter fun t => !t.notType) = L at hft ⊢
      match L, hft with
      | [], hft => simp only [ShowsAll, Option.toList] at hft
      | [x], hft =>
        simp only [Option.toList, ShowsAll, and_true, List.nil_append] at hft ⊢
        exact e8 hkt x (h.shows_upto d1.low htl hft)
      | x :: y :: z, hft => simp only [ShowsAll, Option.toList, and_false] at hft
  obtain ⟨s2, e2, d2, hne2, hr2, hu2⟩ := hb
  obtain ⟨f0, s', x1, x2⟩ := cloneDocKids_shows h hn rfl hk (fun c hc => (h.dom.inv.lt n c hc).1) ts (s.base.kids n) []
    _ s2 d2 hne2 rfl hs hiff hco hel (fun t => absurd hr2 t) hu2
  refine ⟨f0, s', s.base.size, ?_, x2⟩
  intro fuel hf
  unfold cloneDocument
  simp only []
  rw [← e1]
  refine (congrArg (fun o => Out.bind o _) e2).trans ?_
  show Out.bind (if True then cloneDocKids C fuel s2 n s.base.size (s2.base.kids n).head? else _) _ = _
  rw [if_pos trivial, (node_fields (d2.low n hn)).2.2.2.2.1, x1 fuel hf]
  rfl

end Verif.Clone
