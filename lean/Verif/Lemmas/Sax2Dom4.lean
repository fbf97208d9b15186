import Verif.Lemmas.Sax2Dom3
set_option autoImplicit false
set_option linter.unusedSimpArgs false
set_option linter.unusedVariables false
namespace Verif.Sax2Dom
open Verif.Dom (Str Kind Err upd upd_ne upd_same)
open Verif.DomNames (NsName plain)
open Verif.Clone
open Verif.SaxFilter (Ev run coalesce flush)

/-! ## the document type -/

theorem lookup_declare {n m : Str} {e : Nat} {l : List (Str × Nat)} (h : lookup n l = none) :
    lookup m (declare n e l) = if m = n then some e else lookup m l := by
  unfold declare
  rw [h]
  simp only [Option.isSome_none, Bool.false_eq_true, if_false]
  unfold lookup at h ⊢
  rw [List.find?_append]
  by_cases hm : m = n
  · subst hm
    rw [if_pos rfl]
    have : l.find? (fun e => e.1 == m) = none := by simpa using h
    rw [this]
    simp
  · rw [if_neg hm]
    have : ([(n, e)] : List (Str × Nat)).find? (fun e => e.1 == m) = none := by
      simp; exact fun t => hm t.symm
    rw [this]; simp

/-- The declarations `done` of the document type `t` have been seen. -/
structure T (C : Chars) (s0 : St) (d t : Nat) (V : Str → Str) (us : List Tree) (rt : Option Nat) (s : St) (decl : List (Str × Nat))
    (done : List Decl) : Prop where
  here : D C s0 d s
  above : d < t
  lt : t < s.base.size
  kind : s.base.kind t = .doctype
  doc : s.base.doc t = some d
  shows : ShowsAll s us (s.base.kids d)
  root : s.base.root d = rt
  spec : AllSpec d s
  ents : ∀ e ∈ s.entities t, (s.nm e).name ∈ declared done
  known : ∀ n, n ∉ declared done → lookup n decl = none
  env : EnvD d (internals done) V decl s

theorem declared_append (a b : List Decl) : declared (a ++ b) = declared a ++ declared b := by
  unfold declared; rw [List.filterMap_append]

theorem internals_append (a b : List Decl) : internals (a ++ b) = internals a ++ internals b := by
  unfold internals; rw [List.filterMap_append]

theorem entity_added {C : Chars} {s0 s : St} {d t : Nat} {V : Str → Str} {us : List Tree} {rt : Option Nat} {decl : List (Str × Nat)} {done : List Decl}
    (h : T C s0 d t V us rt s decl done) {n : Str} (hn : n ∉ declared done) (ids : List Str) :
    ∃ s', addEntity s t n ids = .ok s' () ∧ D C s0 d s' ∧ s'.base.size = s.base.size + 1 ∧ F C d s' s.base.size ∧
      s'.base.kids s.base.size = [] ∧ s'.base.kind s.base.size = .entity ∧ (∀ i, i < s.base.size → view s' i = view s i) ∧
      (∀ i, i < s.base.size → i ≠ t → node s' i = node s i) ∧ s'.base.kids d = s.base.kids d ∧ s'.specified s.base.size = true ∧
      s'.base.kind t = .doctype ∧ s'.base.doc t = some d ∧ (∀ e ∈ s'.entities t, (s'.nm e).name ∈ declared done ∨ (s'.nm e).name = n) ∧
      s'.specified d = s.specified d := by
  obtain ⟨s1, e⟩ : ∃ s1, s1 = Clone.new s .entity (some d) (plain n) false [] ids false := ⟨_, rfl⟩
  have hg1 := h.here.good
  have ht := h.lt
  have hdt := h.above
  have hlow : Upto s.base.size s s1 := by subst e; intro i hi; exact node_new (Nat.ne_of_lt hi)
  have hup : Up s.base.size s1 := by subst e; exact up_new hg1
  have hsz : s1.base.size = s.base.size + 1 := by subst e; rfl
  obtain ⟨g1, g2, g3, g4, g5, g6, g7, g8, g9, g10, g11, g12⟩ := fresh_fields hg1 s1 e
  obtain ⟨n1, n2, n3, n4, n5, n6, n7, n8, n9, n10, n11, n12, n13, n14, n15⟩ := node_fields (hlow t ht)
  have hnone : (s1.entities t).findIdx? (fun e => (s1.nm e).name == n) = none := by
    rw [List.findIdx?_eq_none_iff, n15]
    intro x hx
    have hxs := (hg1.ent t x hx).2.1
    rw [(node_fields (hlow x hxs)).2.2.2.2.2.2.2.2.1]
    have := h.ents x hx
    simp only [beq_eq_false_iff_ne]
    intro u
    rw [u] at this
    exact hn this
  obtain ⟨s2, e2⟩ : ∃ s2 : St, s2 = { s1 with entities := upd s1.entities t (s1.entities t ++ [s.base.size]) } := ⟨_, rfl⟩
  have hadd : addEntity s t n ids = .ok s2 () := by
    unfold addEntity
    rw [h.doc]
    simp only []
    rw [← e, hnone, e2]
  have hg2 : Good C s2 := addEntity_good hg1 (by unfold isKind; rw [h.kind]; simp; exact ht) hadd
  have hb : s2.base = s1.base := by rw [e2]
  have ha : s2.attrs = s1.attrs := by rw [e2]
  have hnode : ∀ i, i ≠ t → node s2 i = node s1 i := by
    intro i hi
    rw [e2]
    simp only [node, upd_ne _ _ hi]
  have d1 := h.here.of_upto (s1 := s1) (by
    subst e; exact hg1.new_doc ⟨h.here.lt, h.here.kind⟩ (by nofun) trivial) hlow (by omega) hup
  have hd2 : D C s0 d s2 := by
    refine ⟨hg2, d1.id, by rw [hb]; exact d1.lt, ?_, ?_, by rw [hb]; exact d1.kind, by rw [hb]; exact d1.doc, by rw [hb]; exact d1.ro,
      by rw [hb]; exact d1.parent, ?_, by rw [hb]; exact d1.root⟩
    · intro i hi
      rw [hnode i (by omega)]; exact d1.low i hi
    · intro i j hi hj
      rw [hb, ha] at hj
      exact d1.up i j hi hj
    · rw [e2]; exact d1.owner
  have hview : ∀ i, view s2 i = view s1 i := by intro i; rw [e2]; rfl
  refine ⟨s2, hadd, hd2, by rw [hb, hsz], ⟨hg2, by rw [hb]; omega, ?_, by rw [hb, g1]; rfl, by rw [hb, g1]; nofun, by rw [hb]; exact g6,
    by rw [hb]; exact g2⟩, by rw [hb]; exact g8, by rw [hb]; exact g1, ?_, ?_, ?_, ?_, by rw [hb, n1]; exact h.kind, by rw [hb, n2]; exact h.doc, ?_, ?_⟩
  · intro i j hi hj
    rw [hb, ha] at hj
    exact hup i j hi hj
  · intro i hi
    rw [hview]; exact view_of_node (hlow i hi)
  · intro i hi hit
    rw [hnode i hit]; exact hlow i hi
  · rw [hb]; exact (node_fields (hlow d h.here.lt)).2.2.2.2.1
  · rw [e2]; exact g7
  · intro x hx
    have hx : x ∈ s1.entities t ++ [s.base.size] := by rw [e2] at hx; simpa [upd_same] using hx
    have hnm : s2.nm = s1.nm := by rw [e2]
    rw [hnm]
    rcases List.mem_append.mp hx with hx | hx
    · left
      rw [n15] at hx
      rw [(node_fields (hlow x (hg1.ent t x hx).2.1)).2.2.2.2.2.2.2.2.1]
      exact h.ents x hx
    · cases List.mem_singleton.mp hx
      right; rw [g10]; rfl
  · rw [e2]; exact (node_fields (hlow d h.here.lt)).2.2.2.2.2.2.2.2.2.2.2.2.1

/-- The texts of entities declared before. -/
theorem env_decl {C : Chars} {s0 s s' : St} {d t : Nat} {V : Str → Str} {us : List Tree} {rt : Option Nat} {decl decl' : List (Str × Nat)} {done : List Decl}
    (h : T C s0 d t V us rt s decl done) (hs : s.base.size ≤ s'.base.size) (hk : s'.base.kids d = s.base.kids d)
    (hn : ∀ i, i < s.base.size → i ≠ t → node s' i = node s i)
    (hl : ∀ n, n ∈ declared done → lookup n decl' = lookup n decl) : EnvD d (internals done) V decl' s' := by
  intro n v hnv
  obtain ⟨e, x, h1, h2, h3, h4, h5, h6, h7, h8, h9, h10, h11, h12, h13⟩ := h.env n v hnv
  have hmem : n ∈ declared done := by
    unfold internals at hnv
    obtain ⟨y, hy, hy2⟩ := List.mem_filterMap.mp hnv
    unfold declared
    refine List.mem_filterMap.mpr ⟨y, hy, ?_⟩
    cases y with
    | internal a b => simp at hy2; simp [hy2.1]
    | external _ _ _ => cases hy2
    | other _ _ => cases hy2
  have ht : ∀ y, y ∈ s.base.kids t → False := by
    intro y hy
    have := (h.here.good.dom.inv.kinds t y hy).1
    rw [h.kind] at this; cases this
  have xe : e ≠ t := by intro u; rw [u] at h4; exact ht x (by rw [h4]; simp)
  have xx : x ≠ t := by intro u; rw [u, h.kind] at h5; cases h5
  obtain ⟨f1, f2, f3, f4, f5, f6, f7, _⟩ := node_fields (hn x h3 xx)
  obtain ⟨_, _, _, _, g5, _⟩ := node_fields (hn e h2 xe)
  exact ⟨e, x, by rw [hl n hmem]; exact h1, Nat.lt_of_lt_of_le h2 hs, Nat.lt_of_lt_of_le h3 hs, by rw [g5]; exact h4, by rw [f1]; exact h5,
    by rw [f7]; exact h6, by rw [f5]; exact h7, by rw [f4]; exact h8, by rw [f2]; exact h9, h10, h11, by rw [hk]; exact h12, by rw [hk]; exact h13⟩

theorem decl_external {C : Chars} {s0 s : St} {d t : Nat} {V : Str → Str} {us : List Tree} {rt : Option Nat} {decl : List (Str × Nat)} {done : List Decl}
    (h : T C s0 d t V us rt s decl done) {n p y : Str} (hn : n ∉ declared done) :
    ∃ s', addEntity s t n [p, y, []] = .ok s' () ∧ T C s0 d t V us rt s' (declare n s.base.size decl) (done ++ [.external n p y]) := by
  obtain ⟨s1, a1, a2, a3, a4, a5, a6, a7, a8, a9, a10, a11, a12, a13, a14⟩ := entity_added h hn [p, y, []]
  have hd1 : declared (done ++ [.external n p y]) = declared done ++ [n] := declared_append _ _
  have hi1 : internals (done ++ [.external n p y]) = internals done := by rw [internals_append]; simp [internals]
  have hlk := h.known n hn
  refine ⟨s1, a1, ⟨a2, h.above, by have := h.lt; omega, a11, a12, ?_, ?_, ?_, ?_, ?_, ?_⟩⟩
  · rw [a9]; exact D_shows h.here (fun i _ hi => a7 i hi) (D_kids h.here) h.shows
  · rw [node_root (a8 d h.here.lt (Nat.ne_of_lt h.above))]; exact h.root
  · intro i h1 h2
    by_cases x : i < s.base.size
    · rw [(view_fields (a7 i x)).2.2.2.2.2.2]; exact h.spec i h1 x
    · have : i = s.base.size := by omega
      subst this; exact a10
  · intro e he
    rw [hd1]
    rcases a13 e he with u | u
    · exact List.mem_append_left _ u
    · rw [u]; simp
  · intro m hm
    rw [hd1] at hm
    simp only [List.mem_append, List.mem_singleton, not_or] at hm
    rw [lookup_declare hlk, if_neg hm.2]; exact h.known m hm.1
  · rw [hi1]
    refine env_decl h (by omega) a9 a8 ?_
    intro m hm
    rw [lookup_declare hlk, if_neg (by intro u; subst u; exact hn hm)]

theorem decl_internal {C : Chars} {s0 s : St} {d t : Nat} {V : Str → Str} {us : List Tree} {rt : Option Nat} {decl : List (Str × Nat)} {done : List Decl}
    (h : T C s0 d t V us rt s decl done) {n v : Str} (hn : n ∉ declared done) (hv : V n = v) :
    ∃ s' s'', addEntity s t n [[], [], []] = .ok s' () ∧ addData s' d s.base.size .text v = .ok s'' () ∧
      T C s0 d t V us rt s'' (declare n s.base.size decl) (done ++ [.internal n v]) := by
  obtain ⟨s1, a1, a2, a3, a4, a5, a6, a7, a8, a9, a10, a11, a12, a13, a14⟩ := entity_added h hn [[], [], []]
  obtain ⟨s2, b1, b2, b3, b4, b5, b6, b7, b8, b9, b10⟩ := a4.append (k := .text) (r := plain []) (ns := false) (data := v) (ids := []) (o := true)
    (by rw [a6]; rfl) trivial
  have hd1 : declared (done ++ [.internal n v]) = declared done ++ [n] := declared_append _ _
  have hi1 : internals (done ++ [.internal n v]) = internals done ++ [(n, v)] := internals_append _ _
  have hlk := h.known n hn
  have ht := h.lt
  have hdt := h.above
  have hv2 : ∀ i, i < s.base.size → view s2 i = view s i := fun i hi => by rw [view_of_node (b2.low i hi)]; exact a7 i hi
  have hn2 : ∀ i, i < s.base.size → i ≠ t → node s2 i = node s i := fun i hi hit => by rw [b2.low i hi]; exact a8 i hi hit
  obtain ⟨n1, n2, n3, n4, n5, n6, n7, n8, n9, n10, n11, n12, n13, n14, n15⟩ := node_fields (b2.low t ht)
  obtain ⟨m1, m2, m3, m4, m5, m6, m7, m8, m9, m10, m11, m12, m13, m14, m15⟩ := node_fields (b2.low d (by omega))
  refine ⟨s1, s2, a1, b1, ⟨D_nest a2 b2 (by omega), h.above, by omega, by rw [n1]; exact a11, by rw [n2]; exact a12, ?_, ?_, ?_, ?_, ?_, ?_⟩⟩
  · rw [m5, a9]; exact D_shows h.here (fun i _ hi => hv2 i hi) (D_kids h.here) h.shows
  · rw [node_root (hn2 d h.here.lt (Nat.ne_of_lt h.above))]; exact h.root
  · intro i h1 h2
    by_cases x : i < s.base.size
    · rw [(view_fields (hv2 i x)).2.2.2.2.2.2]; exact h.spec i h1 x
    · by_cases y : i = s.base.size
      · subst y; rw [b2.fields.2.2.2.2.2.2.2.2.2.1]; exact a10
      · have : i = s1.base.size := by omega
        subst this
        simp only [view, View.mk.injEq] at b6
        exact b6.2.2.2.2.2.2
  · intro e he
    rw [hd1]
    rw [n15] at he
    have hes := (a2.good.ent t e he).2.1
    have hnm : s2.nm e = s1.nm e := by
      by_cases x : e = s.base.size
      · subst x; exact b2.fields.2.2.2.2.2.2.1
      · exact (view_fields (b7 e x (Nat.ne_of_lt hes))).2.1
    rw [hnm]
    rcases a13 e he with u | u
    · exact List.mem_append_left _ u
    · rw [u]; simp
  · intro m hm
    rw [hd1] at hm
    simp only [List.mem_append, List.mem_singleton, not_or] at hm
    rw [lookup_declare hlk, if_neg hm.2]; exact h.known m hm.1
  · rw [hi1]
    have hold := env_decl (s' := s2) (decl' := declare n s.base.size decl) h (by omega) (by rw [m5, a9]) hn2 (by
      intro m hm
      rw [lookup_declare hlk, if_neg (by intro u; subst u; exact hn hm)])
    intro m w hmw
    rcases List.mem_append.mp hmw with hmw | hmw
    · exact hold m w hmw
    · cases List.mem_singleton.mp hmw
      have hk2 : s2.base.kids s.base.size = [s1.base.size] := by rw [b4, a5]; rfl
      have v6 := b6
      simp only [view, View.mk.injEq] at v6
      have hnx : s2.base.next s1.base.size = none := by
        have := b2.good.dom.inv.next_eq (don := []) (r := []) (n := s.base.size) (c := s1.base.size) hk2
        simpa using this
      have hnot : ∀ i, s.base.size ≤ i → i ∉ s2.base.kids d := by
        intro i hi u
        rw [m5, a9] at u
        have : i < s.base.size := (D_kids h.here i u).2
        omega
      refine ⟨s.base.size, s1.base.size, by rw [lookup_declare hlk, if_pos rfl], ?_, ?_, hk2, v6.1, by rw [v6.2.2.1, hv], v6.2.2.2.2.2.1, hnx, b9, ?_, ?_,
        hnot _ (Nat.le_refl _), hnot _ (by omega)⟩
      · show s.base.size < s2.base.size; omega
      · show s1.base.size < s2.base.size; omega
      · show (s.base.size : Nat) ≠ d; omega
      · show (s1.base.size : Nat) ≠ d; omega

/-- The declarations are handled. -/
theorem decls_handled {C : Chars} {fuel : Nat} {s0 : St} {d t : Nat} {V : Str → Str} {us : List Tree} {rt : Option Nat} : ∀ (ds done : List Decl) (s : St) (b : Parser),
    T C s0 d t V us rt s b.declared done → b.document = some d → b.documentType = some t → (∀ x ∈ ds, DeclOk x) → (declared (done ++ ds)).Nodup →
    (∀ n v, (n, v) ∈ internals ds → V n = v) →
    ∃ s' l, Feeds C fuel [] s b (ds.map declEvent) [] s' { b with declared := l } ∧ T C s0 d t V us rt s' l (done ++ ds)
  | [], done, s, b, h, _, _, _, _, _ => ⟨s, b.declared, .nil, by rw [List.append_nil]; exact h⟩
  | x :: ds, done, s, b, h, hd, ht, ho, hn, hv => by
    have h1 : ∃ s' l, Feeds C fuel [] s b [declEvent x] [] s' { b with declared := l } ∧ T C s0 d t V us rt s' l (done ++ [x]) := by
      cases x with
      | internal n v =>
        have hnn : n ∉ declared done := by
          rw [declared_append] at hn
          have := (List.nodup_append.mp hn).2.2
          intro u
          exact this n u n (by simp [declared]) rfl
        obtain ⟨s1, s2, a1, a2, a3⟩ := decl_internal h hnn (hv n v (by simp [internals]))
        refine ⟨s2, _, Feeds.straight rfl ?_, a3⟩
        have hlt := ho _ List.mem_cons_self
        have hlt : '<' ∉ v := hlt
        show internalEntityDecl s b n v = _
        unfold internalEntityDecl
        simp only [ht, hd, a1, call, if_neg hlt, a2]
      | external n p y =>
        have hnn : n ∉ declared done := by
          rw [declared_append] at hn
          have := (List.nodup_append.mp hn).2.2
          intro u
          exact this n u n (by simp [declared]) rfl
        obtain ⟨s1, a1, a3⟩ := decl_external h (p := p) (y := y) hnn
        refine ⟨s1, _, Feeds.straight rfl ?_, a3⟩
        show externalEntityDecl s b n p y = _
        unfold externalEntityDecl
        simp only [ht, a1, call]
      | other c args =>
        have hc := ho _ List.mem_cons_self
        obtain ⟨c1, c2, c3, c4⟩ : c ≠ cStartDTD ∧ c ≠ cEndDTD ∧ c ≠ cInternal ∧ c ≠ cExternal := hc
        refine ⟨s, b.declared, Feeds.straight rfl ?_, ?_⟩
        · simp only [declEvent, handle, dtd, if_neg c1, if_neg c2, if_neg c3, if_neg c4]
        · have e1 : declared (done ++ [.other c args]) = declared done := by rw [declared_append]; simp [declared]
          have e2 : internals (done ++ [.other c args]) = internals done := by rw [internals_append]; simp [internals]
          exact ⟨h.here, h.above, h.lt, h.kind, h.doc, h.shows, h.root, h.spec, by rw [e1]; exact h.ents, by rw [e1]; exact h.known, by rw [e2]; exact h.env⟩
    obtain ⟨s1, l1, a1, a2⟩ := h1
    obtain ⟨s2, l2, b1, b2⟩ := decls_handled ds (done ++ [x]) s1 { b with declared := l1 } a2 hd ht
      (fun y hy => ho y (List.mem_cons_of_mem _ hy)) (by simpa using hn)
      (fun n v hnv => hv n v (by
        have : internals (x :: ds) = internals [x] ++ internals ds := internals_append [x] ds
        rw [this]; exact List.mem_append_right _ hnv))
    refine ⟨s2, l2, ?_, by simpa using b2⟩
    rw [List.map_cons]
    exact a1.trans b1

/-- `endDTD`. -/
theorem dtd_closed {C : Chars} {s0 s : St} {d t : Nat} {V : Str → Str} {us : List Tree} {rt : Option Nat} {decl : List (Str × Nat)} {done : List Decl}
    (h : T C s0 d t V us rt s decl done) :
    D C s0 d (setReadOnly s t) ∧ ShowsAll (setReadOnly s t) us ((setReadOnly s t).base.kids d) ∧ AllSpec d (setReadOnly s t) ∧
      EnvD d (internals done) V decl (setReadOnly s t) ∧ (setReadOnly s t).base.root d = rt := by
  have hk : s.base.kids t = [] := by
    cases e : s.base.kids t with
    | nil => rfl
    | cons y l =>
      have := (h.here.good.dom.inv.kinds t y (by rw [e]; exact List.mem_cons_self)).1
      rw [h.kind] at this; cases this
  have ha : s.attrs t = [] := h.here.good.attrs_nil (by rw [h.kind]; nofun)
  have hdt := h.above
  have hb : below s (s.base.size + 1) t = [t] := by rw [below, hk, ha]; rfl
  have hn : ∀ i, i ≠ t → node (setReadOnly s t) i = node s i := by
    intro i hi
    simp only [node, setReadOnly, hb, List.mem_singleton, if_neg hi]
  have hv : ∀ i, view (setReadOnly s t) i = view s i := fun i => rfl
  refine ⟨?_, ?_, h.spec, ?_, h.root⟩
  · refine ⟨setReadOnly_good h.here.good fun i j hi hj => h.here.up i j (by omega) hj, h.here.id, h.here.lt, ?_, h.here.up, h.here.kind, h.here.doc, ?_,
      h.here.parent, h.here.owner, h.here.root⟩
    · intro i hi
      rw [hn i (by omega)]; exact h.here.low i hi
    · rw [(node_fields (hn d (by omega))).2.2.2.2.2.1]; exact h.here.ro
  · exact D_shows h.here (fun i _ _ => hv i) (D_kids h.here (s := s)) h.shows
  · exact env_decl h (Nat.le_refl _) rfl (fun i _ hi => hn i hi) (fun _ _ => rfl)

theorem valueIn_mem : ∀ (l : List (Str × Str)) (n v : Str), (l.map (·.1)).Nodup → (n, v) ∈ l → valueIn l n = v
  | [], n, v, _, h => by cases h
  | (a, b) :: l, n, v, hn, h => by
    unfold valueIn
    rw [List.map_cons, List.nodup_cons] at hn
    rcases List.mem_cons.mp h with h | h
    · cases h
      simp
    · have : a ≠ n := by
        intro u; subst u
        exact hn.1 (List.mem_map_of_mem (f := (·.1)) h)
      rw [List.find?_cons_of_neg (by simpa using this)]
      exact valueIn_mem l n v hn.2 h

theorem internals_names (ds : List Decl) : ((internals ds).map (·.1)).Sublist (declared ds) := by
  induction ds with
  | nil => exact .refl _
  | cons x ds ih =>
    cases x with
    | internal n v => simp only [internals, declared, List.filterMap_cons, List.map_cons] at ih ⊢; exact .cons₂ _ ih
    | external n p y => simp only [internals, declared, List.filterMap_cons] at ih ⊢; exact .cons _ ih
    | other c args => simp only [internals, declared, List.filterMap_cons] at ih ⊢; exact ih

/-- The document type as a whole. -/
theorem dtd_handled {C : Chars} {fuel d : Nat} {s0 s : St} {t : Dtd} (ho : DtdOk t) {b : Parser} (h : D C s0 d s) (hb : At d d b)
    (hl : b.declared = []) (hs : AllSpec d s) (hdt : s.base.dtype d = none) {us : List Tree} (hu : ShowsAll s us (s.base.kids d)) :
    ∃ s' b', Feeds C fuel [] s b (dtdEvents (some t)) [] s' b' ∧ At d d b' ∧ D C s0 d s' ∧ AllSpec d s' ∧ s'.base.root d = s.base.root d ∧
      ShowsAll s' (us ++ dtdTree (some t)) (s'.base.kids d) ∧ EnvD d (entities (some t)) (valueIn (entities (some t))) b'.declared s' := by
  obtain ⟨q1, q2, q3, q4⟩ := hb
  obtain ⟨bd, bt, bc, bh, bi, bj, be, bl⟩ := b
  simp only [] at q1 q2 q3 q4 hl
  subst q1 q2 q3 q4 hl
  obtain ⟨s1, a1, a2, a3, a4, a5, a6, a7, a8, a9, a10, a11, a12, a13, a14⟩ := doc_append h (k := .doctype) (dc := none) (r := plain t.name)
    (ns := false) (data := []) (ids := [t.pub, t.sys]) (o := false) rfl trivial (.inr ⟨rfl, rfl⟩) (by nofun) (fun _ => hdt)
  have hd := h.lt
  have v5 := a5
  simp only [view, View.mk.injEq] at v5
  obtain ⟨v1, v2, v3, v4, v5, v6, v7⟩ := v5
  have hT : T C s0 d s.base.size (valueIn (entities (some t))) (us ++ dtdTree (some t)) (s.base.root d) s1 [] [] := by
    refine ⟨a2, hd, by omega, v1, a8, ?_, a11 nofun, ?_, by rw [a14]; simp, fun _ _ => rfl, by intro n v hn; cases hn⟩
    · rw [a4]
      refine showsAll_append (D_shows h (fun i h1 h2 => a6 i h1 (by omega)) (D_kids h) hu) ?_
      unfold dtdTree
      simp only []
      rw [ShowsAll]
      refine ⟨?_, by simp [ShowsAll]⟩
      rw [Shows]
      unfold Clone.nameOf Clone.valueOf Clone.idsOf Clone.attrsOf
      rw [v1, v2, v4, v5, v6]
      exact ⟨rfl, rfl, rfl, rfl, by simp [ShowsAll], by simp [ShowsAll]⟩
    · intro i h1 h2
      by_cases x : i = s.base.size
      · subst x; exact v7
      · by_cases y : i = d
        · subst y; rw [a13]; exact hs i h1 hd
        · rw [(view_fields (a6 i y x)).2.2.2.2.2.2]; exact hs i h1 (by omega)
  have e1 : Feeds C fuel [] s ⟨some d, bt, some d, bh, false, bj, 0, []⟩ [.dtd cStartDTD [t.name, t.pub, t.sys]] [] s1
      ⟨some d, some s.base.size, some d, bh, false, true, 0, []⟩ := by
    refine Feeds.straight rfl ?_
    show startDTD s ⟨some d, bt, some d, bh, false, bj, 0, []⟩ t.name t.pub t.sys = _
    unfold startDTD
    simp only [a1, call]
  obtain ⟨o1, o2⟩ := ho
  have hval : ∀ n v, (n, v) ∈ internals t.all → valueIn (entities (some t)) n = v := fun n v hn =>
    valueIn_mem _ n v ((internals_names t.all).nodup o2) hn
  have hall : t.all = t.decls ++ t.subset.getD [] := rfl
  obtain ⟨s2, l2, b1, b2⟩ := decls_handled (fuel := fuel) t.decls [] s1 ⟨some d, some s.base.size, some d, bh, false, true, 0, []⟩ hT rfl rfl
    (fun x hx => o1 x (by rw [hall]; exact List.mem_append_left _ hx))
    (by rw [List.nil_append]; rw [hall, declared_append] at o2; exact (List.nodup_append.mp o2).1)
    (fun n v hn => hval n v (by rw [hall, internals_append]; exact List.mem_append_left _ hn))
  rw [List.nil_append] at b2
  -- the external subset
  have hsub : ∃ s3 c l, Feeds C fuel [] s2 ⟨some d, some s.base.size, some d, bh, false, true, 0, l2⟩
      (match t.subset with
        | none => []
        | some ds => .startEntity dtdEntity :: ds.map declEvent ++ [.endEntity dtdEntity]) [] s3
      ⟨some d, some s.base.size, some d, c, false, true, 0, l⟩ ∧
      T C s0 d s.base.size (valueIn (entities (some t))) (us ++ dtdTree (some t)) (s.base.root d) s3 l t.all := by
    rw [hall]
    cases hsu : t.subset with
    | none => exact ⟨s2, bh, l2, .nil, by simpa using b2⟩
    | some ds =>
      simp only [Option.getD_some]
      obtain ⟨cu, hcu⟩ : ∃ cu, cu = (lookup dtdEntity l2).filter fun e => (s2.base.kids e).isEmpty := ⟨_, rfl⟩
      have f1 : Feeds C fuel [] s2 ⟨some d, some s.base.size, some d, bh, false, true, 0, l2⟩ [.startEntity dtdEntity] [] s2
          ⟨some d, some s.base.size, cu, some d, false, true, 1, l2⟩ := by
        refine Feeds.event (s1 := s2) rfl rfl ?_
        simp [handle, hcu]
      obtain ⟨s3, l3, f2, f3⟩ := decls_handled (fuel := fuel) ds t.decls s2 ⟨some d, some s.base.size, cu, some d, false, true, 1, l2⟩ b2 rfl rfl
        (fun x hx => o1 x (by rw [hall, hsu]; exact List.mem_append_right _ hx))
        (by rw [hall, hsu] at o2; exact o2)
        (fun n v hn => hval n v (by rw [hall, hsu, internals_append]; exact List.mem_append_right _ hn))
      have f4 : Feeds C fuel [] s3 ⟨some d, some s.base.size, cu, some d, false, true, 1, l3⟩ [.endEntity dtdEntity] [] s3
          ⟨some d, some s.base.size, some d, some d, false, true, 0, l3⟩ := by
        refine Feeds.event (s1 := s3) rfl rfl ?_
        simp [handle]
      exact ⟨s3, some d, l3, (f1.trans f2).trans f4, f3⟩
  obtain ⟨s3, c, l, c1, c2⟩ := hsub
  obtain ⟨d1, d2, d3, d4, d5⟩ := dtd_closed c2
  have e4 : Feeds C fuel [] s3 ⟨some d, some s.base.size, some d, c, false, true, 0, l⟩ [.dtd cEndDTD []] [] (setReadOnly s3 s.base.size)
      ⟨some d, some s.base.size, some d, c, false, false, 0, l⟩ := Feeds.straight rfl rfl
  refine ⟨setReadOnly s3 s.base.size, ⟨some d, some s.base.size, some d, c, false, false, 0, l⟩, ?_, ⟨rfl, rfl, rfl, rfl⟩, d1, d3, d5, d2, d4⟩
  unfold dtdEvents
  exact ((e1.trans b1).trans c1).trans e4

end Verif.Sax2Dom
