import Verif.Spec.Sax2Dom
import Verif.Lemmas.Clone12
import Verif.Lemmas.SaxFilter
set_option autoImplicit false
set_option linter.unusedSimpArgs false
set_option linter.unusedVariables false
namespace Verif.Sax2Dom
open Verif.Dom (Str Kind Err upd upd_ne upd_same)
open Verif.DomNames (NsName plain)
open Verif.Clone
open Verif.SaxFilter (Ev run coalesce flush)

/-! ## nodes being filled -/

/-- The node `m` of the document `d` is being filled. -/
structure F (C : Chars) (d : Nat) (s : St) (m : Nat) : Prop where
  good : Good C s
  lt : m < s.base.size
  up : Up m s
  has : Dom.hasKids (s.base.kind m) = true
  nd : s.base.kind m ≠ .document
  ro : s.base.ro m = false
  doc : s.base.doc m = some d

theorem F.step {C : Chars} {d m : Nat} {s s' : St} (h : F C d s m) (l : L C m s s') : F C d s' m := by
  obtain ⟨f1, f2, f3, f4, _⟩ := l.fields
  have := l.size
  have := h.lt
  exact ⟨l.good, by omega, l.up, by rw [f1]; exact h.has, by rw [f1]; exact h.nd, by rw [f4]; exact h.ro, by rw [f2]; exact h.doc⟩

/-- All new nodes are specified. -/
def NewSpec (s s' : St) : Prop := ∀ i, s.base.size ≤ i → i < s'.base.size → s'.specified i = true

/-- Filling a node that is new. -/
theorem L_nest {C : Chars} {p m : Nat} {a b c : St} (h : L C p a b) (k : L C m b c) (hpm : p < m) (hm : a.base.size ≤ m) :
    L C p a c := by
  refine ⟨k.good, Nat.le_trans h.size k.size, h.low.trans (k.low.mono (by omega)), ?_, ?_, ?_⟩
  · rw [k.low p hpm]; exact h.self
  · intro i h1 h2
    rw [view_of_node (k.low i (by omega))]; exact h.kept i h1 h2
  · intro i j hi hj
    by_cases hx : i < m
    · obtain ⟨_, _, _, _, x, _, _, _, _, _, y, _⟩ := node_fields (k.low i hx)
      rw [x, y] at hj
      exact h.up i j hi hj
    · exact k.up i j (by omega) hj

theorem L_shows {C : Chars} {m : Nat} {s s' : St} (hg : Good C s) (hu : Up m s) (l : L C m s s') {us : List Tree} {ns : List Nat}
    (hn : ∀ j ∈ ns, m < j ∧ j < s.base.size) (h : ShowsAll s us ns) : ShowsAll s' us ns := by
  refine showsAll_congr (X := fun i => m < i ∧ i < s.base.size) ?_ ?_ us ns hn h
  · intro i hi j hj
    have h1 : i < j := hu i j (by omega) hj
    exact ⟨by omega, hg.closed i hi.2 j hj⟩
  · exact fun i hi => l.kept i hi.1 hi.2

theorem F.kids_in {C : Chars} {d m : Nat} {s : St} (h : F C d s m) : ∀ j ∈ s.base.kids m, m < j ∧ j < s.base.size :=
  fun j hj => ⟨h.up m j (Nat.le_refl _) (.inl hj), h.good.closed m h.lt j (.inl hj)⟩

theorem F.attrs_in {C : Chars} {d m : Nat} {s : St} (h : F C d s m) : ∀ j ∈ s.attrs m, m < j ∧ j < s.base.size :=
  fun j hj => ⟨h.up m j (Nat.le_refl _) (.inr hj), h.good.closed m h.lt j (.inr hj)⟩

theorem NewSpec.trans {C : Chars} {m : Nat} {a b c : St} (hm : m < a.base.size) (h : NewSpec a b) (k : NewSpec b c)
    (l : L C m b c) : NewSpec a c := by
  intro i h1 h2
  by_cases x : i < b.base.size
  · rw [(view_fields (l.kept i (by omega) x)).2.2.2.2.2.2]; exact h i h1 x
  · exact k i (by omega) h2

/-- The children of `m` showed `us` and now show `us'`. -/
structure Fills (C : Chars) (m : Nat) (s : St) (us : List Tree) (s' : St) (us' : List Tree) : Prop where
  l : L C m s s'
  attrs : s'.attrs m = s.attrs m
  shows : ShowsAll s us (s.base.kids m) → ShowsAll s' us' (s'.base.kids m)
  spec : NewSpec s s'

theorem Fills.refl {C : Chars} {d m : Nat} {s : St} (h : F C d s m) (us : List Tree) : Fills C m s us s us :=
  ⟨L.refl h.good h.up, rfl, id, fun i h1 h2 => by omega⟩

theorem Fills.trans {C : Chars} {d m : Nat} {s s1 s2 : St} {us us1 us2 : List Tree} (hf : F C d s m) (h : Fills C m s us s1 us1)
    (k : Fills C m s1 us1 s2 us2) : Fills C m s us s2 us2 :=
  ⟨h.l.trans k.l, k.attrs.trans h.attrs, fun t => k.shows (h.shows t), h.spec.trans hf.lt k.spec k.l⟩

/-- A new node as the last child. -/
theorem F.append {C : Chars} {d m : Nat} {s : St} (h : F C d s m) {k : Kind} {r : NsName} {ns : Bool} {data : Str} {ids : List Str}
    {o : Bool} (hal : Dom.childAllowed (s.base.kind m) k = true) (hmd : Made C k ns r) :
    ∃ s', Clone.append (Clone.new s k (some d) r ns data ids o) m s.base.size = .ok s' () ∧ L C m s s' ∧
      s'.base.size = s.base.size + 1 ∧ s'.base.kids m = s.base.kids m ++ [s.base.size] ∧ s'.attrs m = s.attrs m ∧
      view s' s.base.size = ⟨k, r, data, ids, [], [], true⟩ ∧ (∀ i, i ≠ m → i ≠ s.base.size → view s' i = view s i) ∧
      s'.base.parent s.base.size = some m ∧ s'.base.doc s.base.size = some d ∧ s'.base.ro s.base.size = false := by
  obtain ⟨s1, e⟩ : ∃ s1, s1 = Clone.new s k (some d) r ns data ids o := ⟨_, rfl⟩
  rw [← e]
  have hm := h.lt
  have hck := (Dom.childAllowed_kind hal).1
  have hkd : k ≠ .document := Dom.childKind_not_doc hck
  have hfr : k ≠ .fragment := by intro t; rw [t] at hal; revert hal; cases s.base.kind m <;> simp [Dom.childAllowed]
  have hg : Good C s1 := by subst e; exact h.good.new_doc (h.good.dom.inv.docok m d hm h.doc) hkd hmd
  have hlow : Upto s.base.size s s1 := by subst e; intro i hi; exact node_new (Nat.ne_of_lt hi)
  have hup : Up s.base.size s1 := by subst e; exact up_new h.good
  have hsz : s1.base.size = s.base.size + 1 := by subst e; rfl
  have l1 : L C m s s1 := L.of_upto hg (by omega) hm hlow h.up hup
  have f1 := h.step l1
  obtain ⟨g1, g2, g3, g4, g5, g6, g7, g8, g9, g10, g11, g12⟩ := fresh_fields h.good s1 e
  obtain ⟨n1, n2, n3, n4, n5, n6, n7, n8, n9, n10, n11, n12⟩ := node_fields (hlow m hm)
  obtain ⟨s2, a1, a2, a3, a4, a5, a6, a7, a8, a9⟩ := append_L' f1.good (k := s.base.size) f1.up hm (by omega) f1.has f1.nd f1.ro
    (by rw [g1]; exact hfr) g3 (anc_leaf f1.good.dom (by omega) g8) f1.doc (.inl ⟨by rw [g2, f1.doc], by rw [n1, g1]; exact hal⟩)
  refine ⟨s2, a1, l1.trans a2, by omega, by rw [a4, n5], by rw [a5, n11], ?_, ?_, ?_, ?_, ?_⟩
  · rw [a6 _ (by omega)]
    simp only [view, g1, g7, g8, g9, g10, g11, g12]
  · intro i hi hk
    rw [a6 i hi]
    subst e
    exact view_of_node (node_new hk)
  · rw [a7, upd_same]
  · rw [a8, upd_same]
  · rw [a9, g6]

/-- The kinds without children, attributes and identifiers. -/
def leafKind : Kind → Bool
  | .text | .cdata | .comment | .pi => true
  | _ => false

theorem shows_leaf {s : St} {n : Nat} {k : Kind} {r : NsName} {data : Str} (hk : leafKind k = true) (h : view s n = ⟨k, r, data, [], [], [], true⟩)
    (hr : k = .pi → r = plain r.name) : Shows s (.node k (if k = .pi then r else plain []) data [] [] []) n := by
  have h : view s n = ⟨k, r, data, [], [], [], true⟩ := h
  simp only [view, View.mk.injEq] at h
  obtain ⟨h1, h2, h3, h4, h5, h6, h7⟩ := h
  rw [Shows]
  unfold Clone.nameOf Clone.valueOf Clone.idsOf Clone.attrsOf
  rw [h1, h2, h3, h4, h5, h6]
  refine ⟨rfl, ?_, ?_, ?_, ?_, ?_⟩
  · cases k <;> simp [leafKind] at hk <;> simp
    exact (hr rfl).symm
  · cases k <;> simp [leafKind] at hk <;> simp
  · cases k <;> simp [leafKind] at hk <;> simp
  · simp [ShowsAll]
  · simp [ShowsAll]

theorem F.leaf {C : Chars} {d m : Nat} {s : St} (h : F C d s m) {k : Kind} {r : NsName} {data : Str} (hk : leafKind k = true)
    (hal : Dom.childAllowed (s.base.kind m) k = true) (hmd : Made C k false r) (hr : k = .pi → r = plain r.name) (us : List Tree) :
    ∃ s', Clone.append (Clone.new s k (some d) r false data [] true) m s.base.size = .ok s' () ∧
      Fills C m s us s' (us ++ [.node k (if k = .pi then r else plain []) data [] [] []]) := by
  obtain ⟨s', a1, a2, a3, a4, a5, a6, a7, a8, a9, a10⟩ := h.append (ns := false) (data := data) (ids := []) (o := true) hal hmd
  refine ⟨s', a1, a2, a5, ?_, ?_⟩
  · intro hs
    rw [a4]
    refine showsAll_append (L_shows h.good h.up a2 h.kids_in hs) ?_
    rw [ShowsAll]
    exact ⟨shows_leaf hk a6 hr, by simp [ShowsAll]⟩
  · intro i h1 h2
    have : i = s.base.size := by omega
    subst this
    simp only [view, View.mk.injEq] at a6
    exact a6.2.2.2.2.2.2

theorem F.data {C : Chars} {d m : Nat} {s : St} (h : F C d s m) {k : Kind} (hk : k = .text ∨ k = .cdata ∨ k = .comment)
    (hkm : s.base.kind m = .element) (data : Str) (us : List Tree) :
    ∃ s', addData s d m k data = .ok s' () ∧ Fills C m s us s' (us ++ [Sax2Dom.leaf k data]) := by
  unfold addData
  rcases hk with rfl | rfl | rfl
  · exact h.leaf (k := .text) rfl (by rw [hkm]; rfl) trivial (by nofun) us
  · exact h.leaf (k := .cdata) rfl (by rw [hkm]; rfl) trivial (by nofun) us
  · exact h.leaf (k := .comment) rfl (by rw [hkm]; rfl) trivial (by nofun) us

/-! ## attributes -/

theorem qname_cut {p l : Str} (hp : ':' ∉ p) (hl : ':' ∉ l) : DomNames.cut (qname p l) = if p = [] then none else some (p, l) := by
  have h1 : ∀ s : Str, ':' ∉ s → DomNames.cut s = none := by
    intro s
    induction s with
    | nil => intro _; rfl
    | cons c s ih =>
      intro h
      simp only [List.mem_cons, not_or] at h
      simp only [DomNames.cut, if_neg (Ne.symm h.1), ih h.2, Option.map_none]
  unfold qname
  by_cases h0 : p = []
  · rw [if_pos h0, if_pos h0]; exact h1 l hl
  · rw [if_neg h0, if_neg h0]
    clear h0
    induction p with
    | nil => rfl
    | cons c p ih =>
      simp only [List.mem_cons, not_or] at hp
      simp only [List.cons_append, DomNames.cut, if_neg (Ne.symm hp.1), ih hp.2, Option.map_some]

theorem qname_checked {C : Chars} {u p l : Str} (h : NameOk C u p l) : DomNames.checkName C.name (qname p l) = true := by
  obtain ⟨h1, h2, h3, h4, h5, h6, h7⟩ := h
  unfold DomNames.checkName qname
  by_cases h0 : p = []
  · rw [if_pos h0]
    cases l with
    | nil => exact absurd rfl h1
    | cons _ _ => simpa using h3
  · rw [if_neg h0]
    cases p with
    | nil => exact absurd rfl h0
    | cons a b =>
      simp only [List.cons_append, List.isEmpty_cons, Bool.not_false, Bool.true_and, List.all_cons, List.all_append,
        Bool.and_eq_true] at h2 ⊢
      exact ⟨h2.1, h2.2, h6 (by simp), h3⟩

theorem element_made {C : Chars} {u p l : Str} (h : NameOk C u p l) (hu : p ≠ [] → u ≠ []) :
    DomNames.createElementNS C.name u (qname p l) = .ok (nameOf u p l) := by
  unfold DomNames.createElementNS
  rw [if_pos (qname_checked h)]
  obtain ⟨h1, h2, h3, h4, h5, h6, h7⟩ := h
  unfold DomNames.elementNS
  rw [qname_cut h4 h5]
  by_cases h0 : p = []
  · subst h0
    simp [DomNames.checkPrefixAndNamespace, nameOf, qname]
  · have hn := hu h0
    have he : u.isEmpty = false := by cases u with | nil => exact absurd rfl hn | cons _ _ => rfl
    rw [if_neg h0]
    simp only [DomNames.checkPrefixAndNamespace, Bool.not_true, Bool.false_eq_true, if_false, if_neg h4, Bool.false_and, he, Bool.not_false,
      Bool.or_self, nameOf]
    by_cases hx : p = DomNames.xml
    · rw [if_pos hx, if_pos (h7 hx)]
    · rw [if_neg hx]

/-- The name of an attribute. -/
def attName (a : Att) : NsName := nameOf a.namespace a.prefix' a.localName

theorem xmlns_ne_xml : ¬ DomNames.xmlns = DomNames.xml := by decide

theorem att_made {C : Chars} {a : Att} (h : AttOk C a) : DomNames.attrNS a.uri (qname a.prefix' a.localName) = .ok (attName a) := by
  obtain ⟨⟨h1, h2, h3, h4, h5, h6, h7⟩, hu, hx, hs⟩ := h
  obtain ⟨u, p, l, ty, v, sh⟩ := a
  simp only [] at *
  unfold DomNames.attrNS
  rw [qname_cut h4 h5]
  unfold attName
  simp only [nameOf]
  unfold Att.namespace at *
  simp only [] at *
  by_cases h0 : p = []
  · subst h0
    rw [if_pos rfl]
    have hq : qname [] l = l := rfl
    by_cases hl : l = DomNames.xmlns
    · subst hl
      have hc : ([] : Str) = DomNames.xmlns ∨ ([] : Str) = [] ∧ DomNames.xmlns = DomNames.xmlns := .inr ⟨rfl, rfl⟩
      rw [if_pos hc] at *
      have : u = DomNames.xmlnsURI ∨ u = [] := by
        by_cases e : DomNames.xmlnsURI = u
        · exact .inl e.symm
        · exact .inr (hx e)
      simp [hq, DomNames.checkPrefixAndNamespace, h5, xmlns_ne_xml, this]
      decide
    · have hc : ¬ (([] : Str) = DomNames.xmlns ∨ ([] : Str) = [] ∧ l = DomNames.xmlns) := by
        rintro (e | e)
        · cases e
        · exact hl e.2
      rw [if_neg hc] at *
      simp [hq, hl, DomNames.checkPrefixAndNamespace]
  · rw [if_neg h0]
    by_cases hl : p = DomNames.xmlns
    · subst hl
      have hc : DomNames.xmlns = DomNames.xmlns ∨ DomNames.xmlns = [] ∧ l = DomNames.xmlns := .inl rfl
      rw [if_pos hc] at *
      have : u = DomNames.xmlnsURI ∨ u = [] := by
        by_cases e : DomNames.xmlnsURI = u
        · exact .inl e.symm
        · exact .inr (hx e)
      simp [DomNames.checkPrefixAndNamespace, h4, xmlns_ne_xml, this]
      decide
    · have hc : ¬ (p = DomNames.xmlns ∨ p = [] ∧ l = DomNames.xmlns) := by
        rintro (e | e)
        · exact hl e
        · exact h0 e.1
      rw [if_neg hc] at *
      have hn := hu h0
      have he : u.isEmpty = false := by cases u with | nil => exact absurd rfl hn | cons _ _ => rfl
      simp only [DomNames.checkPrefixAndNamespace, Bool.not_true, Bool.false_eq_true, if_false, if_neg h4, he, Bool.not_false,
        Bool.or_self, decide_eq_false hl, Bool.and_false]
      by_cases hx : p = DomNames.xml
      · rw [if_pos hx, if_pos (h7 hx)]
      · rw [if_neg hx]

theorem att_other {a : NsName} {b : Att} (hb : b.localName ≠ [])
    (h : (a.uri, a.localName) ≠ (b.namespace, b.localName)) :
    AttrMap.namespaceAndNameIs a.uri a.localName (attName b) = false := by
  unfold AttrMap.namespaceAndNameIs attName nameOf
  simp only []
  have hb' : b.localName.isEmpty = false := by cases e : b.localName with | nil => exact absurd e hb | cons _ _ => rfl
  simp only [hb', Bool.false_and, Bool.or_false, Bool.not_not]
  rw [Bool.or_eq_false_iff]
  have hne : a.uri = b.namespace → a.localName ≠ b.localName := fun e1 e2 => h (by rw [e1, e2])
  constructor
  · by_cases e : a.uri = [] ∧ b.namespace = []
    · have := hne (e.1.trans e.2.symm)
      have : (b.localName == a.localName) = false := by simpa using Ne.symm this
      rw [this]; simp
    · cases h1 : a.uri <;> cases h2 : b.namespace <;> simp [h1, h2] at e ⊢
  · by_cases e : b.namespace = a.uri
    · have := hne e.symm
      have : (b.localName == a.localName) = false := by simpa using Ne.symm this
      rw [this]; simp
    · have : (b.namespace == a.uri) = false := by simpa using e
      rw [this]; simp

theorem attEvent_name {C : Chars} {a : Att} (h : AttOk C a) :
    (if (attEvent a).qName.isEmpty then (attEvent a).localName else (attEvent a).qName) = qname a.prefix' a.localName := by
  obtain ⟨⟨h1, _⟩, _, _, hs⟩ := h
  unfold attEvent
  simp only []
  by_cases h0 : a.short = true
  · rw [if_pos h0, hs h0]; rfl
  · rw [if_neg h0]
    have : (qname a.prefix' a.localName).isEmpty = false := by
      unfold qname
      by_cases hp : a.prefix' = []
      · rw [if_pos hp]; cases e : a.localName with | nil => exact absurd e h1 | cons _ _ => rfl
      · rw [if_neg hp]; cases e : a.prefix' with | nil => exact absurd e hp | cons _ _ => rfl
    rw [this]; rfl

/-- What the attributes of an element being filled show. -/
structure Atts (s : St) (m : Nat) (as : List Att) : Prop where
  shows : ShowsAll s (as.map attTree) (s.attrs m)
  spec : ∀ a ∈ s.attrs m, s.specified a = true
  names : (s.attrs m).map s.nm = as.map attName

theorem attr_added {C : Chars} {d m : Nat} {s : St} (h : F C d s m) (hk : s.base.kind m = .element) {a : Att} (ha : AttOk C a)
    {as : List Att} (hb : ∀ b ∈ as, b.localName ≠ [] ∧ (b.namespace, b.localName) ≠ (a.namespace, a.localName)) (hs : Atts s m as) :
    ∃ s', setAttributeNS C s m a.uri (qname a.prefix' a.localName) a.value = .ok s' () ∧ L C m s s' ∧
      s'.base.kids m = s.base.kids m ∧ Atts s' m (as ++ [a]) ∧ NewSpec s s' := by
  have hc := qname_checked ha.1
  have hma := att_made ha
  have hmade : Made C .attr true (attName a) := by
    show DomNames.createAttributeNS C.name (attName a).uri (attName a).name = .ok (attName a)
    unfold DomNames.createAttributeNS
    have e1 : (attName a).name = qname a.prefix' a.localName := rfl
    rw [e1, if_pos hc]
    -- the namespace is kept
    have h2 : AttOk C { a with uri := a.namespace } := by
      obtain ⟨⟨h1, h2, h3, h4, h5, h6, h7⟩, hu, hx, hsh⟩ := ha
      have hn : Att.namespace { a with uri := a.namespace } = a.namespace := by
        unfold Att.namespace; simp only []; split <;> rfl
      refine ⟨⟨h1, h2, h3, h4, h5, h6, ?_⟩, ?_, ?_, hsh⟩
      · intro t
        have t : a.prefix' = DomNames.xml := t
        show a.namespace = _
        unfold Att.namespace
        rw [if_neg]
        · exact h7 t
        · rintro (e | e)
          · rw [t] at e; exact xmlns_ne_xml e.symm
          · rw [t] at e; exact absurd e.1 (by decide)
      · intro t; rw [hn]; exact hu t
      · intro t; rw [hn] at t; exact absurd rfl t
    have := att_made h2
    have hn : Att.namespace { a with uri := a.namespace } = a.namespace := by
      unfold Att.namespace; simp only []; split <;> rfl
    unfold attName at this ⊢
    rw [hn] at this
    exact this
  have hm := h.lt
  obtain ⟨s1, e⟩ : ∃ s1, s1 = Clone.new s .attr (some d) (attName a) true [] [] false := ⟨_, rfl⟩
  have hg : Good C s1 := by subst e; exact h.good.new_doc (h.good.dom.inv.docok m d hm h.doc) (by nofun) hmade
  have hlow : Upto s.base.size s s1 := by subst e; intro i hi; exact node_new (Nat.ne_of_lt hi)
  have hup : Up s.base.size s1 := by subst e; exact up_new h.good
  have hsz : s1.base.size = s.base.size + 1 := by subst e; rfl
  have l1 : L C m s s1 := L.of_upto hg (by omega) hm hlow h.up hup
  have f1 := h.step l1
  obtain ⟨g1, g2, g3, g4, g5, g6, g7, g8, g9, g10, g11, g12⟩ := fresh_fields h.good s1 e
  obtain ⟨n1, n2, n3, n4, n5, n6, n7, n8, n9, n10, n11, n12⟩ := node_fields (hlow m hm)
  have fa : F C d s1 s.base.size := ⟨hg, by omega, hup, by rw [g1]; rfl, by rw [g1]; nofun, g6, g2⟩
  obtain ⟨s2, a1, a2, a3, a4, a5, a6, a7, a8, a9, a10⟩ := fa.append (k := .text) (r := plain []) (ns := false) (data := a.value) (ids := []) (o := true)
    (by rw [g1]; rfl) trivial
  have l2 : L C m s s2 := L_nest l1 a2 hm (Nat.le_refl _)
  -- the owner
  obtain ⟨s3, e3⟩ : ∃ s3 : St, s3 = { s2 with owner := upd s2.owner s.base.size (some m) } := ⟨_, rfl⟩
  have l3 : L C m s2 s3 := by
    subst e3
    refine ⟨⟨a2.good.dom, a2.good.live, a2.good.attr, a2.good.made, a2.good.dt, a2.good.root, a2.good.ent⟩, Nat.le_refl _, ?_, ?_,
      fun _ _ _ => rfl, l2.up⟩
    · intro i hi
      simp only [node, upd_ne _ _ (show (i : Nat) ≠ s.base.size by omega)]
    · simp only [bare, node, upd_ne _ _ (show (m : Nat) ≠ s.base.size by omega)]
  have l13 := l2.trans l3
  have f3 := h.step l13
  have hsz3 : s3.base.size = s.base.size + 2 := by subst e3; show s2.base.size = _; omega
  obtain ⟨p1, p2, p3, p4, p5, p6, p7, p8, p9, p10, p11⟩ := a2.fields
  have k3 : s3.base.kind s.base.size = .attr := by subst e3; show s2.base.kind _ = _; rw [p1, g1]
  have d3 : s3.base.doc s.base.size = some d := by subst e3; show s2.base.doc _ = _; rw [p2, g2]
  have at3 : s3.attrs m = s.attrs m := by
    subst e3; show s2.attrs m = _
    rw [(node_fields (a2.low m hm)).2.2.2.2.2.2.2.2.2.2.1, n11]
  have nm3 : s3.nm s.base.size = attName a := by subst e3; show s2.nm _ = _; rw [p7, g10]
  have nmi : ∀ b ∈ s.attrs m, s3.nm b = s.nm b := fun b hb => by
    have := h.attrs_in b hb
    exact (view_fields (l13.kept b this.1 this.2)).2.1
  have hpos : (s3.attrs m).findIdx? (fun b => AttrMap.namespaceAndNameIs (attName a).uri (attName a).localName (s3.nm b)) = none := by
    rw [List.findIdx?_eq_none_iff]
    intro b hbm
    rw [at3] at hbm
    rw [nmi b hbm]
    have : s.nm b ∈ as.map attName := by rw [← hs.names]; exact List.mem_map_of_mem hbm
    obtain ⟨c, hc1, hc2⟩ := List.mem_map.mp this
    rw [← hc2]
    exact att_other (hb c hc1).1 (fun t => (hb c hc1).2 t.symm)
  obtain ⟨b1, b2, b3, b4, b5⟩ := setNode_L f3.good (m := m) (b := s.base.size) f3.up hm (by omega)
    (by rw [(l13.fields).1]; exact hk) k3 (by rw [d3, f3.doc]) none
  obtain ⟨s4, e4⟩ : ∃ s4, s4 = setNode s3 m s.base.size none := ⟨_, rfl⟩
  rw [← e4] at b1 b2 b3 b4 b5
  have b5 := b5 rfl
  have l14 := l13.trans b1
  have hra : s3.base.ro m = false := f3.ro
  have v4 : view s4 s.base.size = ⟨.attr, attName a, [], [], [], [s.base.size + 1], true⟩ := by
    rw [b4 _ (by omega)]
    have e1 : s3.base.kids s.base.size = [s.base.size + 1] := by
      subst e3; show s2.base.kids _ = _; rw [a4, g8, hsz]; rfl
    have e2 : s3.attrs s.base.size = [] := by subst e3; show s2.attrs _ = _; rw [a5, g9]
    have e5 : s3.base.data s.base.size = [] := by subst e3; show s2.base.data _ = _; rw [p6, g11]
    have e6 : s3.ids s.base.size = [] := by subst e3; show s2.ids _ = _; rw [p11, g12]
    have e7 : s3.specified s.base.size = true := by subst e3; show s2.specified _ = _; rw [p10, g7]
    simp only [view, k3, nm3, e1, e2, e5, e6, e7]
  have v4' : view s4 (s.base.size + 1) = ⟨.text, plain [], a.value, [], [], [], true⟩ := by
    rw [b4 _ (by omega)]
    rw [hsz] at a6
    subst e3; exact a6
  refine ⟨s4, ?_, l14, ?_, ⟨?_, ?_, ?_⟩, ?_⟩
  · unfold setAttributeNS
    rw [if_pos hc, hma]
    simp only [h.doc]
    rw [← e, ← hsz, a1]
    simp only [Out.bind]
    have r1 : s2.base.ro m = false := by rw [e3] at hra; exact hra
    have r2 : s3.nm = s2.nm ∧ s3.attrs = s2.attrs := by rw [e3]; exact ⟨rfl, rfl⟩
    rw [r2.1, r2.2] at hpos
    rw [← e3, if_neg (by rw [r1]; nofun), hpos, e4]
  · rw [b2]; subst e3; show s2.base.kids m = _; rw [(node_fields (a2.low m hm)).2.2.2.2.1, n5]
  · rw [b5, at3, List.map_append]
    refine showsAll_append (L_shows h.good h.up l14 h.attrs_in hs.shows) ?_
    simp only [List.map_cons, List.map_nil]
    rw [ShowsAll]
    refine ⟨?_, by simp [ShowsAll]⟩
    simp only [view, View.mk.injEq] at v4
    obtain ⟨w1, w2, w3, w4, w5, w6, w7⟩ := v4
    unfold attTree
    rw [Shows]
    unfold Clone.nameOf Clone.valueOf Clone.idsOf Clone.attrsOf
    rw [w1, w2, w5, w6]
    refine ⟨rfl, rfl, rfl, rfl, by simp [ShowsAll], ?_⟩
    rw [ShowsAll]
    exact ⟨shows_leaf (k := .text) rfl v4' (by nofun), by simp [ShowsAll]⟩
  · intro x hx
    rw [b5, at3] at hx
    rcases List.mem_append.mp hx with hx | hx
    · have := h.attrs_in x hx
      rw [(view_fields (l14.kept x this.1 this.2)).2.2.2.2.2.2]
      exact hs.spec x hx
    · cases List.mem_singleton.mp hx
      simp only [view, View.mk.injEq] at v4
      exact v4.2.2.2.2.2.2
  · rw [b5, at3, List.map_append, List.map_append, ← hs.names]
    congr 1
    · apply List.map_congr_left
      intro x hx
      have := h.attrs_in x hx
      exact (view_fields (l14.kept x this.1 this.2)).2.1
    · simp only [List.map_cons, List.map_nil]
      simp only [view, View.mk.injEq] at v4
      rw [v4.2.1]
  · intro i h1 h2
    rw [b3, hsz3] at h2
    have : i = s.base.size ∨ i = s.base.size + 1 := by omega
    rcases this with rfl | rfl
    · simp only [view, View.mk.injEq] at v4; exact v4.2.2.2.2.2.2
    · simp only [view, View.mk.injEq] at v4'; exact v4'.2.2.2.2.2.2

theorem attrs_added {C : Chars} {d m : Nat} : ∀ (todo done : List Att) (s : St), F C d s m → s.base.kind m = .element →
    (∀ a ∈ done ++ todo, AttOk C a) → (done ++ todo).Pairwise (fun a b => (a.namespace, a.localName) ≠ (b.namespace, b.localName)) →
    Atts s m done → ∃ s', addAttrs C m s (todo.map attEvent) = .ok s' () ∧ L C m s s' ∧
      s'.base.kids m = s.base.kids m ∧ Atts s' m (done ++ todo) ∧ NewSpec s s'
  | [], done, s, h, hk, ho, hp, hs => ⟨s, rfl, L.refl h.good h.up, rfl, by rw [List.append_nil]; exact hs, fun i h1 h2 => by omega⟩
  | a :: todo, done, s, h, hk, ho, hp, hs => by
    have ha := ho a (by simp)
    obtain ⟨s1, e1, l1, k1, t1, n1⟩ := attr_added h hk ha (as := done) (fun b hb => ⟨(ho b (by simp [hb])).1.1,
      (List.pairwise_append.mp hp).2.2 b hb a List.mem_cons_self⟩) hs
    obtain ⟨s2, e2, l2, k2, t2, n2⟩ := attrs_added todo (done ++ [a]) s1 (h.step l1) (by rw [l1.fields.1]; exact hk)
      (by simpa using ho) (by simpa using hp) t1
    refine ⟨s2, ?_, l1.trans l2, k2.trans k1, by simpa using t2, n1.trans h.lt n2 l2⟩
    rw [List.map_cons, addAttrs, attEvent_name ha]
    have : (attEvent a).uri = a.uri ∧ (attEvent a).value = a.value := ⟨rfl, rfl⟩
    rw [this.1, this.2, e1]
    exact e2

end Verif.Sax2Dom
