import Verif.Lemmas.Sax2Dom2
set_option autoImplicit false
set_option linter.unusedSimpArgs false
set_option linter.unusedVariables false
namespace Verif.Sax2Dom
open Verif.Dom (Str Kind Err upd upd_ne upd_same)
open Verif.DomNames (NsName plain)
open Verif.Clone
open Verif.SaxFilter (Ev run coalesce flush)

/-! ## children of the document -/

/-- The document `d` got one more child. -/
structure Adds (C : Chars) (s0 : St) (d : Nat) (s : St) (us : List Tree) (s' : St) (us' : List Tree) : Prop where
  here : D C s0 d s'
  size : s.base.size < s'.base.size
  kids : s'.base.kids d = s.base.kids d ++ [s.base.size]
  kept : ∀ i, i ≠ d → i < s.base.size → view s' i = view s i
  self : s'.specified d = s.specified d
  same : ∀ i, i < s.base.size → i ≠ d → i ∉ s.base.kids d → node s' i = node s i
  shows : ShowsAll s us (s.base.kids d) → ShowsAll s' us' (s'.base.kids d)
  spec : NewSpec s s'
  dtype : s'.base.dtype d = s.base.dtype d

theorem D_nest {C : Chars} {s0 s s' : St} {d m : Nat} (h : D C s0 d s) (l : L C m s s') (hm : d < m) : D C s0 d s' := by
  obtain ⟨f1, f2, f3, f4, f5, f6, f7, f8, f9, f10, f11, f12, f13, f14, f15⟩ := node_fields (l.low d hm)
  have := h.lt
  have := l.size
  refine ⟨l.good, h.id, by omega, h.low.trans (l.low.mono (by omega)), ?_, by rw [f1]; exact h.kind, by rw [f2]; exact h.doc,
    by rw [f6]; exact h.ro, by rw [f3]; exact h.parent, by rw [f12]; exact h.owner, ?_⟩
  · intro i j hi hj
    by_cases hx : i < m
    · obtain ⟨_, _, _, _, k, _, _, _, _, _, a, _⟩ := node_fields (l.low i hx)
      rw [k, a] at hj
      exact h.up i j hi hj
    · exact l.up i j (by omega) hj
  · rw [node_root (l.low d hm)]; exact h.root

theorem D_kids {C : Chars} {s0 s : St} {d : Nat} (h : D C s0 d s) : ∀ j ∈ s.base.kids d, d < j ∧ j < s.base.size :=
  fun j hj => ⟨h.up d j (Nat.le_refl _) (.inl hj), h.good.closed d h.lt j (.inl hj)⟩

theorem D_shows {C : Chars} {s0 s s' : St} {d : Nat} (h : D C s0 d s) (hv : ∀ i, i ≠ d → i < s.base.size → view s' i = view s i)
    {us : List Tree} {ns : List Nat} (hn : ∀ j ∈ ns, d < j ∧ j < s.base.size) (hs : ShowsAll s us ns) : ShowsAll s' us ns := by
  refine showsAll_congr (X := fun i => d < i ∧ i < s.base.size) ?_ ?_ us ns hn hs
  · intro i hi j hj
    have h1 : i < j := h.up i j (by omega) hj
    exact ⟨by omega, h.good.closed i hi.2 j hj⟩
  · exact fun i hi => hv i (by omega) hi.2

/-- A new node as the last child of the document. -/
theorem doc_append {C : Chars} {s0 s : St} {d : Nat} (h : D C s0 d s) {k : Kind} {dc : Option Nat} {r : NsName} {ns : Bool} {data : Str}
    {ids : List Str} {o : Bool} (hal : Dom.childAllowed .document k = true) (hmd : Made C k ns r)
    (hdc : dc = some d ∨ dc = none ∧ k = .doctype) (h1 : k = .element → s.base.root d = none)
    (h2 : k = .doctype → s.base.dtype d = none) :
    ∃ s', Clone.append (Clone.new s k dc r ns data ids o) d s.base.size = .ok s' () ∧ D C s0 d s' ∧
      s'.base.size = s.base.size + 1 ∧ s'.base.kids d = s.base.kids d ++ [s.base.size] ∧
      view s' s.base.size = ⟨k, r, data, ids, [], [], true⟩ ∧ (∀ i, i ≠ d → i ≠ s.base.size → view s' i = view s i) ∧
      s'.base.parent s.base.size = some d ∧ s'.base.doc s.base.size = some d ∧ s'.base.ro s.base.size = false ∧
      (∀ i, i < s.base.size → i ≠ d → i ∉ s.base.kids d → node s' i = node s i) ∧
      (k ≠ .element → s'.base.root d = s.base.root d) ∧ (k ≠ .doctype → s'.base.dtype d = s.base.dtype d) ∧
      s'.specified d = s.specified d ∧ s'.entities s.base.size = [] := by
  obtain ⟨s1, e⟩ : ∃ s1, s1 = Clone.new s k dc r ns data ids o := ⟨_, rfl⟩
  rw [← e]
  have hd := h.lt
  have hkd : k ≠ .document := by intro t; rw [t] at hal; cases hal
  have hg : Good C s1 := by
    subst e
    refine h.good.new ?_ (fun t => absurd t hkd) ?_ hmd
    · rcases hdc with t | t
      · intro x; rw [t] at x; cases x
      · exact fun _ => t.2
    · intro x hx
      rcases hdc with t | t
      · rw [t] at hx; cases hx; exact .inr ⟨h.lt, h.kind⟩
      · rw [t.1] at hx; cases hx
  have hlow : Upto s.base.size s s1 := by subst e; intro i hi; exact node_new (Nat.ne_of_lt hi)
  have hup : Up s.base.size s1 := by subst e; exact up_new h.good
  have hsz : s1.base.size = s.base.size + 1 := by subst e; rfl
  obtain ⟨g1, g2, g3, g4, g5, g6, g7, g8, g9, g10, g11, g12⟩ := fresh_fields h.good s1 e
  have hent : s1.entities s.base.size = [] := by subst e; exact upd_same _ _ _
  have d1 := h.of_upto hg hlow (by omega) hup
  obtain ⟨n1, n2, n3, n4, n5, n6, n7, n8, n9, n10, n11, n12, n13, _⟩ := node_fields (hlow d hd)
  have hsp : s1.specified d = s.specified d := n13
  obtain ⟨s2, a1, a2, a3, a4, a5, a6, a7, a8, a9, a10, a11, a12⟩ := append_doc d1 (k := s.base.size) hd (by omega) (by rw [g1]; exact hal) g3
    (by rw [g2, g1]; exact hdc) (by rw [g1, node_root (hlow d hd)]; exact h1) (by rw [g1, n8]; exact h2)
  refine ⟨s2, a1, a2, by omega, by rw [a4, n5], ?_, ?_, by rw [a12, upd_same], by rw [a9, upd_same], by rw [a10, g6], ?_, ?_, ?_, ?_, ?_⟩
  · rw [a5 _ (by omega)]
    simp only [view, g1, g7, g8, g9, g10, g11, g12]
  · intro i hi hk
    rw [a5 i hi]
    subst e
    exact view_of_node (node_new hk)
  · intro i hi h1 h2
    rw [a11 i h1 (by omega) (by rw [n5]; exact h2)]
    exact hlow i hi
  · intro hk
    rw [a6 (by rw [g1]; exact hk), node_root (hlow d hd)]
  · intro hk
    rcases a8 with a8 | ⟨_, a8⟩
    · rw [a8, n8]
    · rw [g1] at a8; exact absurd a8 hk
  · have : s2.specified = s1.specified := by
      unfold Clone.append at a1
      revert a1
      cases Dom.appendChild s1.base d s.base.size <;> intro a1 <;> cases a1
      rfl
    rw [this]; exact hsp
  · rw [a7]; exact hent

theorem doc_leaf {C : Chars} {s0 s : St} {d : Nat} (h : D C s0 d s) {k : Kind} {r : NsName} {data : Str} (hk : k = .comment ∨ k = .pi)
    (hmd : Made C k false r) (hr : k = .pi → r = plain r.name) (us : List Tree) :
    ∃ s', Clone.append (Clone.new s k (some d) r false data [] true) d s.base.size = .ok s' () ∧
      Adds C s0 d s us s' (us ++ [.node k (if k = .pi then r else plain []) data [] [] []]) ∧ s'.base.root d = s.base.root d := by
  have hne : k ≠ .element ∧ k ≠ .doctype ∧ leafKind k = true ∧ Dom.childAllowed .document k = true := by
    rcases hk with rfl | rfl
    · exact ⟨nofun, nofun, rfl, rfl⟩
    · exact ⟨nofun, nofun, rfl, rfl⟩
  obtain ⟨s', a1, a2, a3, a4, a5, a6, a7, a8, a9, a10, a11, a12, a13, _⟩ := doc_append h (ns := false) (data := data) (ids := []) (o := true) hne.2.2.2
    hmd (.inl rfl) (fun t => absurd t hne.1) (fun t => absurd t hne.2.1)
  refine ⟨s', a1, ⟨a2, by omega, a4, fun i h1 h2 => a6 i h1 (by omega), a13, a10, ?_, ?_, a12 hne.2.1⟩, a11 hne.1⟩
  · intro hs
    rw [a4]
    refine showsAll_append (D_shows h (fun i h1 h2 => a6 i h1 (by omega)) (D_kids h) hs) ?_
    rw [ShowsAll]
    exact ⟨shows_leaf hne.2.2.1 a5 hr, by simp [ShowsAll]⟩
  · intro i h1 h2
    have : i = s.base.size := by omega
    subst this
    simp only [view, View.mk.injEq] at a5
    exact a5.2.2.2.2.2.2

/-- The entities, apart from the document and its children. -/
def EnvD (d : Nat) (es : List (Str × Str)) (V : Str → Str) (decl : List (Str × Nat)) (s : St) : Prop :=
  ∀ n v, (n, v) ∈ es → ∃ e x, lookup n decl = some e ∧ e < s.base.size ∧ x < s.base.size ∧ s.base.kids e = [x] ∧
    s.base.kind x = .text ∧ s.base.data x = V n ∧ s.base.kids x = [] ∧ s.base.next x = none ∧ s.base.doc x = some d ∧
    e ≠ d ∧ x ≠ d ∧ e ∉ s.base.kids d ∧ x ∉ s.base.kids d

theorem EnvD.env {d : Nat} {es : List (Str × Str)} {V : Str → Str} {decl : List (Str × Nat)} {s : St} (h : EnvD d es V decl s) :
    Env d es V decl s s.base.size := by
  intro n v hn
  obtain ⟨e, x, h1, h2, h3, h4, h5, h6, h7, h8, h9, _⟩ := h n v hn
  exact ⟨e, x, h1, h2, h3, h4, h5, h6, h7, h8, h9⟩

theorem EnvD.step {d : Nat} {es : List (Str × Str)} {V : Str → Str} {decl : List (Str × Nat)} {s s' : St} (h : EnvD d es V decl s)
    (hs : s.base.size ≤ s'.base.size) (hk : ∀ j ∈ s'.base.kids d, j ∈ s.base.kids d ∨ s.base.size ≤ j)
    (hn : ∀ i, i < s.base.size → i ≠ d → i ∉ s.base.kids d → node s' i = node s i) : EnvD d es V decl s' := by
  intro n v hnv
  obtain ⟨e, x, h1, h2, h3, h4, h5, h6, h7, h8, h9, h10, h11, h12, h13⟩ := h n v hnv
  obtain ⟨f1, f2, f3, f4, f5, f6, f7, _⟩ := node_fields (hn x h3 h11 h13)
  obtain ⟨_, _, _, _, g5, _⟩ := node_fields (hn e h2 h10 h12)
  refine ⟨e, x, h1, Nat.lt_of_lt_of_le h2 hs, Nat.lt_of_lt_of_le h3 hs, by rw [g5]; exact h4, by rw [f1]; exact h5, by rw [f7]; exact h6,
    by rw [f5]; exact h7, by rw [f4]; exact h8, by rw [f2]; exact h9, h10, h11, ?_, ?_⟩
  · intro t
    rcases hk e t with t | t
    · exact h12 t
    · exact absurd h2 (Nat.not_lt.mpr t)
  · intro t
    rcases hk x t with t | t
    · exact h13 t
    · exact absurd h3 (Nat.not_lt.mpr t)

theorem Adds.env {C : Chars} {s0 s s' : St} {d : Nat} {us us' : List Tree} (h : Adds C s0 d s us s' us') {es : List (Str × Str)}
    {V : Str → Str} {decl : List (Str × Nat)} (he : EnvD d es V decl s) : EnvD d es V decl s' := by
  refine he.step (Nat.le_of_lt h.size) ?_ h.same
  intro j hj
  rw [h.kids] at hj
  rcases List.mem_append.mp hj with hj | hj
  · exact .inl hj
  · cases List.mem_singleton.mp hj; exact .inr (Nat.le_refl _)

/-- One of the things that may be in a document. -/
theorem doc_item {C : Chars} {fuel d : Nat} (hf : 3 ≤ fuel) {s0 s : St} {es : List (Str × Str)} {V : Str → Str} {i : Item} (hi : i.top = true)
    (ho : ItemOk C es i) {b : Parser} (h : D C s0 d s) (hb : At d d b) (he : EnvD d es V b.declared s)
    (hr : i.isElement = true → s.base.root d = none) (us : List Tree) :
    ∃ s' c, Feeds C fuel [] s b (itemEvents i) [] s' { b with cached := c } ∧ Adds C s0 d s us s' (us ++ [itemTree V i]) ∧
      (i.isElement = false → s'.base.root d = s.base.root d) := by
  cases i with
  | text _ => cases hi
  | cdata _ => cases hi
  | ref _ _ => cases hi
  | comment t =>
    obtain ⟨s1, a1, a2, a3⟩ := doc_leaf h (k := .comment) (r := plain []) (data := t) (.inl rfl) trivial (by nofun) us
    refine ⟨s1, b.cached, ?_, by simpa [itemTree, leaf] using a2, fun _ => a3⟩
    rw [itemEvents]
    refine Feeds.event (b2 := b) rfl rfl ?_
    simp only [handle, hb.current, hb.document, addData, a1, call]
  | pi t v =>
    rw [ItemOk] at ho
    obtain ⟨o1, o2, o3⟩ := ho
    have hc : DomNames.checkName C.name t = true := by
      unfold DomNames.checkName
      cases t with
      | nil => exact absurd rfl o1
      | cons _ _ => simpa using o2
    obtain ⟨s1, a1, a2, a3⟩ := doc_leaf h (k := .pi) (r := plain t) (data := v) (.inr rfl) hc (fun _ => rfl) us
    refine ⟨s1, b.cached, ?_, by simpa [itemTree] using a2, fun _ => a3⟩
    rw [itemEvents]
    refine Feeds.event (b2 := b) rfl rfl ?_
    simp only [handle, hb.current, hb.document, hc, o3, Bool.and_self, if_true, a1, call]
  | element maps u p l atts kids =>
    have ho' := ho
    rw [ItemOk] at ho'
    obtain ⟨o1, o2, _, _, o5⟩ := ho'
    have hmade := element_made o1 o2
    obtain ⟨s2, b1, b2, b3, b4, b6, b7, b8, b9, b10, b11, b12, b13, b14, _⟩ := doc_append h (k := .element) (r := nameOf u p l) (ns := true) (data := [])
      (ids := []) (o := true) rfl hmade (.inl rfl) (fun _ => hr rfl) (by nofun)
    have hd := h.lt
    have v6 := b6
    simp only [view, View.mk.injEq] at v6
    have g2 : F C d s2 s.base.size :=
      ⟨b2.good, by omega, fun i j hi hj => b2.up i j (by omega) hj, by rw [v6.1]; rfl, by rw [v6.1]; nofun, b10, b9⟩
    have he1 : EnvD d es V b.declared s2 := by
      refine he.step (by omega) ?_ b11
      intro j hj
      rw [b4] at hj
      rcases List.mem_append.mp hj with hj | hj
      · exact .inl hj
      · cases List.mem_singleton.mp hj; exact .inr (Nat.le_refl _)
    have he2 : Env d es V b.declared s2 s.base.size := by
      intro n v hn
      obtain ⟨e, x, h1, h2, h3, h4, h5, h6, h7, h8, h9, h10, h11, h12, h13⟩ := he n v hn
      obtain ⟨f1, f2, f3, f4, f5, f6, f7, _⟩ := node_fields (b11 x h3 h11 h13)
      obtain ⟨_, _, _, _, g5, _⟩ := node_fields (b11 e h2 h10 h12)
      exact ⟨e, x, h1, h2, h3, by rw [g5]; exact h4, by rw [f1]; exact h5, by rw [f7]; exact h6,
        by rw [f5]; exact h7, by rw [f4]; exact h8, by rw [f2]; exact h9⟩
    obtain ⟨s3, c1, s4, c, c2, c3, c4, c5⟩ := element_within ho (fills_items hf kids o5) g2 b6 b8 hb he2
    have hev : element C s d d u (qname p l) (atts.map attEvent) = .ok s3 s.base.size := by
      unfold element
      rw [hmade]
      simp only [b1, Out.bind, c1]
    have hsz := c3.size
    have hkept : ∀ i, i ≠ d → i < s.base.size → view s4 i = view s i := fun i h1 h2 => by
      rw [view_of_node (c3.low i h2)]; exact b7 i h1 (by omega)
    obtain ⟨n1, n2, n3, n4, n5, n6, n7, n8, n9, n10, n11, n12, n13, _⟩ := node_fields (c3.low d hd)
    refine ⟨s4, c, ?_, ⟨D_nest b2 c3 hd, by omega, by rw [n5, b4], hkept, by rw [n13, b14], ?_, ?_, ?_, by rw [n8]; exact b13 nofun⟩, by nofun⟩
    · rw [itemEvents]
      have e0 : Feeds C fuel [] s b (maps.map (fun m => .startPrefixMapping m.1 m.2)) [] s b := by
        apply Feeds.maps
        intro e he
        obtain ⟨x, _, rfl⟩ := List.mem_map.mp he
        exact .inl ⟨_, _, rfl⟩
      have e1 : Feeds C fuel [] s b [.startElement u l (qname p l) (atts.map attEvent)] [] s3 { b with current := some s.base.size } := by
        refine Feeds.event (s1 := s) (b1 := b) rfl rfl ?_
        simp only [handle, hb.current, hb.document, hev]
      have e9 : Feeds C fuel [] s4 { b with cached := c } (maps.map (fun m => .endPrefixMapping m.1)) [] s4 { b with cached := c } := by
        apply Feeds.maps
        intro e he
        obtain ⟨x, _, rfl⟩ := List.mem_map.mp he
        exact .inr ⟨_, rfl⟩
      have := (e0.trans e1).trans (c2.trans e9)
      simpa using this
    · intro i h1 h2 h3
      rw [c3.low i h1]; exact b11 i h1 h2 h3
    · intro hs
      rw [n5, b4]
      refine showsAll_append (D_shows h hkept (D_kids h) hs) ?_
      rw [ShowsAll]
      exact ⟨c4, by simp [ShowsAll]⟩
    · intro i h1 h2
      by_cases hi : i < s2.base.size
      · have : i = s.base.size := by omega
        subst this
        rw [c3.fields.2.2.2.2.2.2.2.2.2.1]; exact v6.2.2.2.2.2.2
      · exact c5 i (by omega) h2

/-- All nodes of the document are specified. -/
def AllSpec (d : Nat) (s : St) : Prop := ∀ i, d ≤ i → i < s.base.size → s.specified i = true

theorem Adds.allSpec {C : Chars} {s0 s s' : St} {d : Nat} {us us' : List Tree} (h : Adds C s0 d s us s' us') (hs : AllSpec d s) (hd : d < s.base.size) :
    AllSpec d s' := by
  intro i h1 h2
  by_cases x : i < s.base.size
  · by_cases y : i = d
    · subst y; rw [h.self]; exact hs i h1 x
    · rw [(view_fields (h.kept i y x)).2.2.2.2.2.2]; exact hs i h1 x
  · exact h.spec i (by omega) h2

/-- What there is outside the document element. -/
theorem doc_items {C : Chars} {fuel d : Nat} (hf : 3 ≤ fuel) {s0 : St} {es : List (Str × Str)} {V : Str → Str} :
    ∀ (is : List Item) (s : St) (b : Parser) (us : List Tree), (∀ i ∈ is, i.top = true) → ItemsOk C es is → D C s0 d s → At d d b →
      EnvD d es V b.declared s → AllSpec d s → (is.filter Item.isElement).length ≤ 1 →
      (s.base.root d ≠ none → is.filter Item.isElement = []) → ShowsAll s us (s.base.kids d) →
      ∃ s' c, Feeds C fuel [] s b (itemsEvents is) [] s' { b with cached := c } ∧ D C s0 d s' ∧ EnvD d es V b.declared s' ∧ AllSpec d s' ∧
        (is.filter Item.isElement = [] → s'.base.root d = s.base.root d) ∧ s'.base.dtype d = s.base.dtype d ∧
        ShowsAll s' (us ++ itemsTrees V [] is) (s'.base.kids d)
  | [], s, b, us, _, _, h, hb, he, hs, _, _, hu =>
    ⟨s, b.cached, by rw [itemsEvents]; exact .nil, h, he, hs, fun _ => rfl, rfl, by simpa [itemsTrees, textTree] using hu⟩
  | i :: is, s, b, us, ht, ho, h, hb, he, hs, hc, hr, hu => by
    rw [ItemsOk] at ho
    have hti := ht i List.mem_cons_self
    obtain ⟨s1, c1, a1, a2, a3⟩ := doc_item hf hti ho.1 h hb he (fun t => by
      cases hx : s.base.root d with
      | none => rfl
      | some x =>
        have := hr (by rw [hx]; nofun)
        rw [List.filter_cons_of_pos t] at this
        cases this) us
    have hcc : (i.isElement = true → is.filter Item.isElement = []) ∧ (is.filter Item.isElement).length ≤ 1 := by
      cases e : i.isElement with
      | true =>
        rw [List.filter_cons_of_pos e, List.length_cons] at hc
        have : (is.filter Item.isElement).length = 0 := by omega
        exact ⟨fun _ => List.length_eq_zero_iff.mp this, by omega⟩
      | false =>
        rw [List.filter_cons_of_neg (by rw [e]; nofun)] at hc
        exact ⟨nofun, hc⟩
    obtain ⟨s2, c2, b1, b2, b3, b4, b5, b6, b7⟩ := doc_items hf is s1 { b with cached := c1 } (us ++ [itemTree V i])
      (fun j hj => ht j (List.mem_cons_of_mem _ hj)) ho.2 a2.here (hb.cached c1) (a2.env he) (a2.allSpec hs h.lt) hcc.2
      (fun t => by
        cases e : i.isElement with
        | true => exact hcc.1 e
        | false =>
          rw [a3 e] at t
          have := hr t
          rwa [List.filter_cons_of_neg (by rw [e]; nofun)] at this) (a2.shows hu)
    refine ⟨s2, c2, by rw [itemsEvents]; exact a1.trans b1, b2, b3, b4, ?_, b6.trans a2.dtype, ?_⟩
    · intro t
      cases e : i.isElement with
      | true => rw [List.filter_cons_of_pos e] at t; cases t
      | false =>
        rw [List.filter_cons_of_neg (by rw [e]; nofun)] at t
        rw [b5 t, a3 e]
    · rw [itemsTrees_cons (by intro ps e; subst e; cases hti)]
      simpa [textTree] using b7

end Verif.Sax2Dom
