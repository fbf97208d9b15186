import Verif.Lemmas.Clone9
set_option autoImplicit false
set_option linter.unusedSimpArgs false
set_option linter.unusedVariables false
namespace Verif.Clone
open Verif.Dom (Str Kind Err upd upd_ne upd_same)
open Verif.DomNames (NsName plain)

/-! ## every history leaves a good state -/

/-- What editing the tree keeps. -/
structure Tame (s t : Dom.St) : Prop where
  size : t.size = s.size
  kind : t.kind = s.kind
  freed : t.freed = s.freed
  doc : ∀ n d, s.doc n = some d → t.doc n = some d

/-- The root and the document type are there. -/
def Bnd (b : Dom.St) : Prop :=
  (∀ d t, b.dtype d = some t → d < b.size ∧ t < b.size) ∧ (∀ d t, b.root d = some t → d < b.size)

theorem bnd_docInserted {s : Dom.St} {p c : Nat} (hp : p < s.size) (hc : c < s.size) (h : Bnd s) : Bnd (Dom.docInserted s p c) := by
  unfold Dom.docInserted
  have r : ∀ {s : Dom.St}, p < s.size → Bnd s → Bnd { s with root := upd s.root p (some c) } := by
    intro s hp h
    refine ⟨h.1, ?_⟩
    intro d t e
    have e : upd s.root p (some c) d = some t := e
    by_cases hx : d = p
    · rw [hx]; exact hp
    · rw [upd_ne _ _ hx] at e; exact h.2 d t e
  have q : ∀ {s : Dom.St}, p < s.size → c < s.size → Bnd s → Bnd { s with dtype := upd s.dtype p (some c) } := by
    intro s hp hc h
    refine ⟨?_, h.2⟩
    intro d t e
    have e : upd s.dtype p (some c) d = some t := e
    by_cases hx : d = p
    · rw [hx] at e ⊢; rw [upd_same] at e; cases e; exact ⟨hp, hc⟩
    · rw [upd_ne _ _ hx] at e; exact h.1 d t e
  by_cases hk : s.kind p = .document
  · rw [if_pos hk]
    simp only []
    by_cases h1 : s.kind c = .element ∧ s.root p = none
    · rw [if_pos h1]
      split
      · exact q hp hc (r hp h)
      · exact r hp h
    · rw [if_neg h1]
      split
      · exact q hp hc h
      · exact h
  · rw [if_neg hk]; exact h

theorem mc_more (s : Dom.St) (n : Nat) : (Dom.markChanged s n).size = s.size ∧ (Dom.markChanged s n).dtype = s.dtype ∧
    (Dom.markChanged s n).root = s.root := by
  unfold Dom.markChanged
  split <;> exact ⟨rfl, rfl, rfl⟩

theorem link_more {s s1 : Dom.St} {p c : Nat} {ref : Option Nat} (h : Dom.link s p c ref = .ok s1 ()) :
    s1.size = s.size ∧ s1.dtype = s.dtype ∧ s1.root = s.root := by
  unfold Dom.link at h
  cases ref with
  | some r =>
    simp only [] at h
    cases hi : Dom.insertChild c r (s.kids p) with
    | none => rw [hi] at h; cases h
    | some l =>
      rw [hi] at h
      simp only [] at h
      have e := (Dom.Out.ok.inj h).1
      rw [← e]
      exact mc_more _ _
  | none =>
    simp only [] at h
    have e := (Dom.Out.ok.inj h).1
    rw [← e]
    by_cases hl : (s.kids p).getLast? = none
    · rw [if_pos hl]; exact mc_more _ _
    · rw [if_neg hl]; exact mc_more _ _

theorem bnd_E {b : Bool} {s t : Dom.St} (hi : Dom.Inv s) (he : Dom.E b s t) (h : Bnd s) : Bnd t := by
  cases he with
  | adopt c d _ _ _ _ _ _ => exact h
  | remove p c l r h1 h2 h3 h4 h5 =>
    have fr := Dom.unlink_frame s p c l
    refine ⟨?_, ?_⟩
    · intro d t e
      have e : (Dom.unlink s p c l).dtype d = some t := e
      rw [Dom.unlink_dtype] at e
      show d < (Dom.unlink s p c l).size ∧ t < (Dom.unlink s p c l).size
      rw [fr.size]; exact h.1 d t e
    · intro d t e
      have e : r d = some t := e
      show d < (Dom.unlink s p c l).size
      rw [fr.size]
      rw [h5] at e
      by_cases hx : d = p ∧ s.kind p = .document ∧ s.root p = some c
      · rw [if_pos hx] at e; cases e
      · rw [if_neg hx] at e; exact h.2 d t e
  | insert s1 p c ref h1 h2 h3 h4 h5 h6 h7 h8 h9 h10 h11 h12 h13 =>
    obtain ⟨a, b, d⟩ := link_more h13
    refine bnd_docInserted (by rw [a]; exact h1) (by rw [a]; exact h2) ?_
    unfold Bnd
    rw [a, b, d]; exact h
  | replace p c o l1 l2 r h1 h2 h3 h4 h5 h6 h7 h8 h9 h10 h11 h12 h13 h14 =>
    have fr := Dom.sub_frame s p c o (l1 ++ c :: l2)
    refine ⟨?_, ?_⟩
    · intro d t e
      have e : (Dom.substitute s p c o (l1 ++ c :: l2)).dtype d = some t := e
      rw [Dom.sub_dtype] at e
      show d < (Dom.substitute s p c o (l1 ++ c :: l2)).size ∧ t < (Dom.substitute s p c o (l1 ++ c :: l2)).size
      rw [fr.size]; exact h.1 d t e
    · intro d t e
      have e : r d = some t := e
      show d < (Dom.substitute s p c o (l1 ++ c :: l2)).size
      rw [fr.size]
      rw [h13] at e
      by_cases hx : d = p ∧ s.kind p = .document ∧ s.kind c = .element
      · rw [hx.1]; exact h1
      · rw [if_neg hx] at e; exact h.2 d t e

theorem Tame.refl (s : Dom.St) : Tame s s := ⟨rfl, rfl, rfl, fun _ _ h => h⟩

theorem Tame.trans {a b c : Dom.St} (h : Tame a b) (k : Tame b c) : Tame a c :=
  ⟨k.size.trans h.size, k.kind.trans h.kind, k.freed.trans h.freed, fun n d e => k.doc n d (h.doc n d e)⟩

theorem After_tame {b : Bool} {s t : Dom.St} (h : Dom.After b s t) : Tame s t :=
  ⟨h.2.1.size, h.2.1.kind, h.2.1.freed, h.2.1.doc⟩

theorem Chain_tame {b : Bool} {s t : Dom.St} (h : Dom.Chain b s t) : Tame s t := by
  induction h with
  | refl => exact Tame.refl s
  | tree t u _ a ih => exact ih.trans (After_tame a)
  | data t d _ ih => exact ih.trans ⟨rfl, rfl, rfl, fun _ _ h => h⟩

theorem Good.bnd {C : Chars} {s : St} (h : Good C s) : Bnd s.base := ⟨h.dt, h.root⟩

theorem Good.tame {C : Chars} {s : St} (h : Good C s) {b : Dom.St} (ht : Tame s.base b) (h2 : Dom.Inv2 b) (hb : Bnd b) :
    Good C { s with base := b } := by
  refine ⟨h2, ?_, ?_, ?_, hb.1, hb.2, ?_⟩
  · intro n; show b.freed n = false; rw [ht.freed]; exact h.live n
  · intro e a ha
    obtain ⟨a1, a2, a3, a4, a5⟩ := h.attr e a ha
    show e < b.size ∧ a < b.size ∧ b.kind e = _ ∧ b.kind a = _ ∧ b.doc a = b.doc e
    rw [ht.size, ht.kind]
    refine ⟨a1, a2, a3, a4, ?_⟩
    cases hd : s.base.doc a with
    | none => have := h.dom.inv.nodoc a a2 hd; rw [this] at a4; cases a4
    | some d => rw [ht.doc a d hd, ht.doc e d (by rw [← a5]; exact hd)]
  · intro n hn
    have hn : n < b.size := hn
    rw [ht.size] at hn
    show Made C (b.kind n) _ _
    rw [ht.kind]; exact h.made n hn
  · intro t e he
    show t < b.size ∧ e < b.size ∧ b.kind e = _
    rw [ht.size, ht.kind]; exact h.ent t e he

/-- A new node without a name. -/
theorem Good.alloc {C : Chars} {s : St} (h : Good C s) {k : Kind} {d : Option Nat} {data : Str} {o : Bool}
    (h1 : d = none → k = .doctype) (h2 : k = .document → d = some s.base.size)
    (h3 : ∀ e, d = some e → (e = s.base.size ∧ k = .document) ∨ (e < s.base.size ∧ s.base.kind e = .document))
    (h4 : ∀ ns r, Made C k ns r) : Good C { s with base := Dom.alloc s.base k d data o false } := by
  have g := h.new (r := plain []) (ns := false) (ids := []) (data := data) (o := o) h1 h2 h3 (h4 _ _)
  refine ⟨g.dom, g.live, ?_, ?_, g.dt, g.root, ?_⟩
  · intro e a ha
    have ha : a ∈ s.attrs e := ha
    refine g.attr e a ?_
    show a ∈ upd s.attrs s.base.size [] e
    have := (h.attr e a ha).1
    rw [upd_ne _ _ (Nat.ne_of_lt this)]; exact ha
  · intro n hn
    have hn' : n < s.base.size + 1 := hn
    by_cases e : n = s.base.size
    · subst e
      show Made C (upd s.base.kind s.base.size k s.base.size) _ _
      rw [upd_same]; exact h4 _ _
    · have m := g.made n hn
      have m : Made C (upd s.base.kind s.base.size k n) (upd s.isNS s.base.size false n) (upd s.nm s.base.size (plain []) n) := m
      rw [upd_ne s.isNS _ e, upd_ne s.nm _ e] at m
      exact m
  · intro t e he
    have he : e ∈ s.entities t := he
    refine g.ent t e ?_
    show e ∈ upd s.entities s.base.size [] t
    have := (h.ent t e he).1
    rw [upd_ne _ _ (Nat.ne_of_lt this)]; exact he

theorem Good.after {C : Chars} {s : St} (h : Good C s) {c : Bool} {b : Dom.St} (ha : Dom.After c s.base b) :
    Good C { s with base := b } :=
  h.tame (After_tame ha) (ha.inv2 h.dom) (ha.2.2.induct (fun _ _ => bnd_E) h.bnd)

theorem Good.withData {C : Chars} {s : St} (h : Good C s) (d : Nat → Str) :
    Good C { s with base := { s.base with data := d } } :=
  h.tame ⟨rfl, rfl, rfl, fun _ _ h => h⟩ (h.dom.with_data d) h.bnd

theorem Good.effect {C : Chars} {s : St} (h : Good C s) {b : Dom.St} {op : Dom.Op} (hp : plainOp op = true)
    (he : Dom.Effect false s.base op b) : Good C { s with base := b } := by
  cases he with
  | newDocument => exact h.alloc (by nofun) (fun _ => rfl) (fun e he => by cases he; exact .inl ⟨rfl, rfl⟩) (fun _ _ => trivial)
  | newDoctype => cases hp
  | create d k data h1 h2 h3 =>
    have hk : k = .text ∨ k = .cdata ∨ k = .comment ∨ k = .fragment := by simpa [plainOp, or_assoc] using hp
    refine h.alloc (by nofun) (fun t => by subst t; simp at hk) (fun e he => by cases he; exact .inr ⟨h1, h2⟩) (fun _ _ => ?_)
    rcases hk with rfl | rfl | rfl | rfl <;> trivial
  | insert p n r _ _ _ a => exact h.after a
  | replace p n o _ _ _ a => exact h.after a
  | remove p o _ _ a => exact h.after a
  | purgeNot p c => cases hp
  | purge p c l _ _ _ _ _ _ => cases hp
  | setReadOnly n _ => cases hp
  | edits _ _ a =>
    exact h.tame (Chain_tame a) (a.inv2 h.dom) (a.induct (fun _ _ => bnd_E) (fun _ _ x => x) h.bnd)
  | splitIn n off d k e str t h1 h2 h3 h4 a =>
    have g := (h.withData d).alloc (k := k) (d := some e) (data := str) (o := true) (by nofun) (fun t => by subst t; simp at h2)
      (fun e he => by cases he; exact .inr ⟨h3, h4⟩) (fun _ _ => by rcases h2 with rfl | rfl <;> trivial)
    exact g.after a
  | splitLoose n off d k e str h1 h2 h3 h4 =>
    exact (h.withData d).alloc (k := k) (d := some e) (data := str) (o := false) (by nofun) (fun t => by subst t; simp at h2)
      (fun e he => by cases he; exact .inr ⟨h3, h4⟩) (fun _ _ => by rcases h2 with rfl | rfl <;> trivial)

/-! ### the other calls -/

theorem cpn_again {p a : Bool} {q u : Str} {h : Bool} {v : Str}
    (e : DomNames.checkPrefixAndNamespace p q (!u.isEmpty) u a = .ok (h, v)) :
    DomNames.checkPrefixAndNamespace p q (!v.isEmpty) v a = .ok (h, v) := by
  have e0 := e
  unfold DomNames.checkPrefixAndNamespace at e
  by_cases h1 : (!p) = true
  · rw [if_pos h1] at e; cases e; exact e0
  rw [if_neg h1] at e
  by_cases h2 : ':' ∈ q
  · rw [if_pos h2] at e; cases e
  rw [if_neg h2] at e
  by_cases h3 : q = DomNames.xml
  · rw [if_pos h3] at e
    by_cases h4 : u = DomNames.xmlURI
    · rw [if_pos h4] at e; cases e; exact e0
    · rw [if_neg h4] at e; cases e
  rw [if_neg h3] at e
  by_cases h4 : (a && decide (q = DomNames.xmlns)) = true
  · rw [if_pos h4] at e
    by_cases h5 : u = DomNames.xmlnsURI ∨ u = []
    · rw [if_pos h5] at e
      cases e
      unfold DomNames.checkPrefixAndNamespace
      rw [if_neg h1, if_neg h2, if_neg h3, if_pos h4, if_pos (.inl rfl)]
    · rw [if_neg h5] at e; cases e
  rw [if_neg h4] at e
  by_cases h5 : (!(!u.isEmpty) || u.isEmpty) = true
  · rw [if_pos h5] at e; cases e
  · rw [if_neg h5] at e; cases e; exact e0

theorem elementNS_again {u q : Str} {r : NsName} (h : DomNames.elementNS u q = .ok r) : r.name = q ∧ DomNames.elementNS r.uri q = .ok r := by
  unfold DomNames.elementNS at h ⊢
  cases hq : DomNames.cut q with
  | none =>
    rw [hq] at h
    simp only [] at h ⊢
    cases hx : DomNames.checkPrefixAndNamespace false [] (!u.isEmpty) u false with
    | error e => rw [hx] at h; cases h
    | ok v =>
      obtain ⟨a, b⟩ := v
      rw [hx] at h
      have e := Except.ok.inj h
      have e2 : r.uri = b := by rw [← e]
      refine ⟨by rw [← e], ?_⟩
      rw [e2, cpn_again hx]; exact h
  | some w =>
    obtain ⟨p, l⟩ := w
    rw [hq] at h
    simp only [] at h ⊢
    cases hx : DomNames.checkPrefixAndNamespace true p (!u.isEmpty) u false with
    | error e => rw [hx] at h; cases h
    | ok v =>
      obtain ⟨a, b⟩ := v
      rw [hx] at h
      have e := Except.ok.inj h
      have e2 : r.uri = b := by rw [← e]
      refine ⟨by rw [← e], ?_⟩
      rw [e2, cpn_again hx]; exact h

theorem attrNS_again {u q : Str} {r : NsName} (h : DomNames.attrNS u q = .ok r) : r.name = q ∧ DomNames.attrNS r.uri q = .ok r := by
  unfold DomNames.attrNS at h ⊢
  cases hq : DomNames.cut q with
  | none =>
    rw [hq] at h
    simp only [] at h ⊢
    cases hx : DomNames.checkPrefixAndNamespace (decide (q = DomNames.xmlns)) (if q = DomNames.xmlns then q else []) (!u.isEmpty) u true with
    | error e => rw [hx] at h; cases h
    | ok v =>
      obtain ⟨a, b⟩ := v
      rw [hx] at h
      have e := Except.ok.inj h
      have e2 : r.uri = b := by rw [← e]
      refine ⟨by rw [← e], ?_⟩
      rw [e2, cpn_again hx]; exact h
  | some w =>
    obtain ⟨p, l⟩ := w
    rw [hq] at h
    simp only [] at h ⊢
    cases hx : DomNames.checkPrefixAndNamespace true p (!u.isEmpty) u true with
    | error e => rw [hx] at h; cases h
    | ok v =>
      obtain ⟨a, b⟩ := v
      rw [hx] at h
      have e := Except.ok.inj h
      have e2 : r.uri = b := by rw [← e]
      refine ⟨by rw [← e], ?_⟩
      rw [e2, cpn_again hx]; exact h

theorem made_createNS {C : Chars} {u q : Str} {r : NsName} (h : DomNames.createElementNS C.name u q = .ok r) :
    Made C .element true r := by
  show DomNames.createElementNS C.name r.uri r.name = .ok r
  unfold DomNames.createElementNS at h ⊢
  by_cases hc : DomNames.checkName C.name q = true
  · rw [if_pos hc] at h
    obtain ⟨e1, e2⟩ := elementNS_again h
    rw [e1, if_pos hc]; exact e2
  · rw [if_neg hc] at h; cases h

theorem made_createAttrNS {C : Chars} {u q : Str} {r : NsName} (h : DomNames.createAttributeNS C.name u q = .ok r) :
    Made C .attr true r := by
  show DomNames.createAttributeNS C.name r.uri r.name = .ok r
  unfold DomNames.createAttributeNS at h ⊢
  by_cases hc : DomNames.checkName C.name q = true
  · rw [if_pos hc] at h
    obtain ⟨e1, e2⟩ := attrNS_again h
    rw [e1, if_pos hc]; exact e2
  · rw [if_neg hc] at h; cases h

theorem made_create {C : Chars} {n : Str} {r : NsName} (h : DomNames.createElement C.name n = .ok r) :
    Made C .element false r ∧ Made C .attr false r := by
  have e : DomNames.createElement C.name r.name = .ok r := by
    unfold DomNames.createElement at h ⊢
    by_cases hc : DomNames.checkName C.name n = true
    · rw [if_pos hc] at h
      cases h
      show (if DomNames.checkName C.name n = true then _ else _) = _
      rw [if_pos hc]; rfl
    · rw [if_neg hc] at h; cases h
  exact ⟨e, e⟩

theorem isKind_iff {s : St} {n : Nat} {k : Kind} (h : isKind s n k = true) : n < s.base.size ∧ s.base.kind n = k := by
  simpa [isKind] using h

theorem created_good {C : Chars} {s s' : St} (h : Good C s) {k : Kind} {d : Nat} {ns : Bool} {x : Except Err NsName}
    (hd : isKind s d .document = true) (hk : k ≠ .document) (hm : ∀ r, x = .ok r → Made C k ns r)
    (he : created s k d ns x = .ok s' ()) : Good C s' := by
  cases x with
  | error e => cases he
  | ok r =>
    cases he
    exact h.new_doc (isKind_iff hd) hk (hm r rfl)

theorem Good.orphan {C : Chars} {s : St} (h : Good C s) (o : Nat → Bool) :
    Good C { s with base := { s.base with orphan := o } } :=
  ⟨orphan_inv2 h.dom o, h.live, h.attr, h.made, h.dt, h.root, h.ent⟩

theorem Good.withAttrs {C : Chars} {s : St} (h : Good C s) {e : Nat} {l : List Nat} (hl : ∀ a ∈ l, a ∈ s.attrs e ∨
      (e < s.base.size ∧ a < s.base.size ∧ s.base.kind e = .element ∧ s.base.kind a = .attr ∧ s.base.doc a = s.base.doc e)) :
    Good C { s with attrs := upd s.attrs e l } := by
  refine ⟨h.dom, h.live, ?_, h.made, h.dt, h.root, h.ent⟩
  intro x a ha
  have ha : a ∈ upd s.attrs e l x := ha
  by_cases hx : x = e
  · subst hx
    rw [upd_same] at ha
    rcases hl a ha with h1 | h1
    · exact h.attr x a h1
    · exact h1
  · rw [upd_ne _ _ hx] at ha
    exact h.attr x a ha

theorem setNode_good {C : Chars} {s : St} (h : Good C s) {e a : Nat} (e1 : e < s.base.size) (a1 : a < s.base.size)
    (e2 : s.base.kind e = .element) (a2 : s.base.kind a = .attr) (h4 : s.base.doc a = s.base.doc e) (pos : Option Nat) :
    Good C (setNode s e a pos) := by
  have g := h.orphan (upd s.base.orphan a false)
  cases pos with
  | none =>
    refine g.withAttrs ?_
    intro x hx
    rcases List.mem_append.mp hx with hx | hx
    · exact .inl hx
    · cases List.mem_singleton.mp hx
      exact .inr ⟨e1, a1, e2, a2, h4⟩
  | some i =>
    unfold setNode
    simp only []
    cases hr : (s.attrs e)[i]? with
    | none => exact g
    | some r =>
      simp only []
      have g := g.orphan (upd (upd s.base.orphan a false) r true)
      refine g.withAttrs ?_
      intro x hx
      rcases mem_set hx with hx | hx
      · exact .inl hx
      · subst hx; exact .inr ⟨e1, a1, e2, a2, h4⟩

theorem setAttr_good {C : Chars} {s s' : St} (h : Good C s) {e a : Nat} {ns : Bool} (he : isKind s e .element = true)
    (ha : isKind s a .attr = true) (hs : setAttr s e a ns = .ok s' ()) : Good C s' := by
  obtain ⟨e1, e2⟩ := isKind_iff he
  obtain ⟨a1, a2⟩ := isKind_iff ha
  unfold setAttr at hs
  by_cases h1 : (!isOrphaned s a && s.owner a = some e) = true
  · rw [if_pos h1] at hs; cases hs; exact h
  rw [if_neg h1] at hs
  by_cases h2 : s.base.ro e = true
  · rw [if_pos h2] at hs; cases hs
  rw [if_neg h2] at hs
  by_cases h3 : (!isOrphaned s a && s.owner a ≠ some e) = true
  · rw [if_pos h3] at hs; cases hs
  rw [if_neg h3] at hs
  simp only [] at hs
  by_cases h4 : s.base.doc a ≠ s.base.doc e
  · rw [if_pos h4] at hs; cases hs
  rw [if_neg h4] at hs
  have h4 : s.base.doc a = s.base.doc e := Decidable.of_not_not h4
  have hs := (Out.ok.inj hs).1
  rw [← hs]
  have g : Good C { s with owner := upd s.owner a (some e), base := { s.base with orphan := upd s.base.orphan a false } } := by
    have := h.orphan (upd s.base.orphan a false)
    exact ⟨this.dom, this.live, this.attr, this.made, this.dt, this.root, this.ent⟩
  exact setNode_good g e1 a1 e2 a2 h4 _

theorem Good.withEnts {C : Chars} {s : St} (h : Good C s) {t : Nat} {l : List Nat} (hl : ∀ a ∈ l, a ∈ s.entities t ∨
      (t < s.base.size ∧ a < s.base.size ∧ s.base.kind a = .entity)) :
    Good C { s with entities := upd s.entities t l } := by
  refine ⟨h.dom, h.live, h.attr, h.made, h.dt, h.root, ?_⟩
  intro x a ha
  have ha : a ∈ upd s.entities t l x := ha
  by_cases hx : x = t
  · subst hx
    rw [upd_same] at ha
    rcases hl a ha with h1 | h1
    · exact h.ent x a h1
    · exact h1
  · rw [upd_ne _ _ hx] at ha
    exact h.ent x a ha

theorem addEntity_good {C : Chars} {s s' : St} (h : Good C s) {t : Nat} {name : Str} {ids : List Str}
    (ht : isKind s t .doctype = true) (hs : addEntity s t name ids = .ok s' ()) : Good C s' := by
  obtain ⟨t1, t2⟩ := isKind_iff ht
  unfold addEntity at hs
  cases hd : s.base.doc t with
  | none => rw [hd] at hs; cases hs
  | some d =>
    rw [hd] at hs
    simp only [] at hs
    have g : Good C (new s .entity (some d) (plain name) false [] ids false) :=
      h.new_doc (h.dom.inv.docok t d t1 hd) (by nofun) trivial
    have hm : s.base.size < (new s .entity (some d) (plain name) false [] ids false).base.size := Nat.lt_succ_self _
    have hk : (new s .entity (some d) (plain name) false [] ids false).base.kind s.base.size = .entity := upd_same _ _ _
    have hts : t < (new s .entity (some d) (plain name) false [] ids false).base.size := Nat.lt_succ_of_lt t1
    split at hs
    · have hs := (Out.ok.inj hs).1
      rw [← hs]
      refine g.withEnts ?_
      intro a ha
      rcases List.mem_append.mp ha with ha | ha
      · exact .inl ha
      · cases List.mem_singleton.mp ha; exact .inr ⟨hts, hm, hk⟩
    · rename_i i _
      split at hs
      · cases hs
      · rename_i r _
        have hs := (Out.ok.inj hs).1
        rw [← hs]
        refine setOrphan_good (g.withEnts ?_) r
        intro a ha
        rcases mem_set ha with ha | ha
        · exact .inl ha
        · subst ha; exact .inr ⟨hts, hm, hk⟩

theorem removeAttr_good {C : Chars} {s s' : St} (h : Good C s) {e a : Nat} (hs : removeAttr s e a = .ok s' ()) : Good C s' := by
  unfold removeAttr at hs
  repeat' split at hs
  all_goals first | (cases hs; done) | skip
  have hs := (Out.ok.inj hs).1
  rw [← hs]
  refine setOrphan_good (h.withAttrs ?_) _
  intro x hx
  exact .inl (List.mem_of_mem_eraseIdx hx)

theorem unit_ok {α : Type} {x : Out α} {s : St} (h : x.unit = .ok s ()) : ∃ a, x = .ok s a := by
  cases x with
  | ok t a => cases h; exact ⟨a, rfl⟩
  | err e => cases h
  | diverges => cases h
  | ub => cases h

theorem step_good {C : Chars} {s s' : St} (h : Good C s) {op : Op} {fuel : Nat} (he : step C fuel s op = .ok s' ()) :
    Good C s' := by
  cases op with
  | createDocumentType name ids =>
    have he := (Out.ok.inj he).1
    rw [← he]
    have g : Good C (new s .doctype none (plain name) false [] ids false) :=
      h.new (fun _ => rfl) (by nofun) (by nofun) trivial
    refine ⟨⟨g.dom.inv.of_tree rfl rfl rfl rfl rfl rfl rfl rfl, g.dom.allow, ?_, g.dom.fresh⟩, g.live, g.attr, g.made, g.dt, g.root, g.ent⟩
    intro p c hc hp
    have hk : c ∈ s.base.kids p := hc
    have h1 : p < s.base.size := (h.dom.inv.lt p c hk).2
    have h2 : c < s.base.size := (h.dom.inv.lt p c hk).1
    have hp : upd (new s .doctype none (plain name) false [] ids false).base.ro s.base.size true p = true := hp
    rw [upd_ne _ _ (Nat.ne_of_lt h1)] at hp
    show upd (new s .doctype none (plain name) false [] ids false).base.ro s.base.size true c = true
    rw [upd_ne _ _ (Nat.ne_of_lt h2)]
    exact g.dom.rodown p c hc hp
  | createElement d n =>
    simp only [step] at he
    split at he
    · rename_i hd
      exact created_good h hd (by nofun) (fun r hr => (made_create hr).1) he
    · cases he
  | createElementNS d u q =>
    simp only [step] at he
    split at he
    · rename_i hd
      exact created_good h hd (by nofun) (fun r hr => made_createNS hr) he
    · cases he
  | createAttribute d n =>
    simp only [step] at he
    split at he
    · rename_i hd
      exact created_good h hd (by nofun) (fun r hr => (made_create hr).2) he
    · cases he
  | createAttributeNS d u q =>
    simp only [step] at he
    split at he
    · rename_i hd
      exact created_good h hd (by nofun) (fun r hr => made_createAttrNS hr) he
    · cases he
  | createPI d target data =>
    simp only [step] at he
    split at he
    · rename_i hd
      split at he
      · rename_i hc
        cases he
        refine h.new_doc (isKind_iff hd) (by nofun) ?_
        simp only [Bool.and_eq_true] at hc
        exact hc.1
      · cases he
    · cases he
  | setPIData n data =>
    simp only [step] at he
    split at he
    · split at he
      · cases he
      · cases he; exact h.withData _
    · cases he
  | createEntityReference d name =>
    simp only [step] at he
    split at he
    · rename_i hd
      split at he
      · rename_i hc
        obtain ⟨m, e⟩ := unit_ok he
        exact ((safe_all C fuel).2.2.2 s d name s' m h (isKind_iff hd) hc e).good
      · cases he
    · cases he
  | setAttributeNode e a =>
    simp only [step] at he
    split at he
    · rename_i hd
      simp only [Bool.and_eq_true] at hd
      exact setAttr_good h hd.1 hd.2 he
    · cases he
  | setAttributeNodeNS e a =>
    simp only [step] at he
    split at he
    · rename_i hd
      simp only [Bool.and_eq_true] at hd
      exact setAttr_good h hd.1 hd.2 he
    · cases he
  | removeAttributeNode e a =>
    simp only [step] at he
    split at he
    · exact removeAttr_good h he
    · cases he
  | addEntity t name ids =>
    simp only [step] at he
    split at he
    · rename_i hd
      exact addEntity_good h hd he
    · cases he
  | cloneNode n deep =>
    simp only [step] at he
    split at he
    · rename_i hd
      obtain ⟨m, e⟩ := unit_ok he
      unfold cloneNode at e
      rw [if_neg hd.2] at e
      exact (copyNode_safe h hd.1 (fun d t => by cases t) e).good
    · cases he
  | importNode d n deep =>
    simp only [step] at he
    split at he
    · rename_i hd
      obtain ⟨m, e⟩ := unit_ok he
      simp only [Bool.and_eq_true, decide_eq_true_eq] at hd
      unfold importNode at e
      exact (copyNode_safe h hd.2 (fun x t => by cases t; exact isKind_iff hd.1) e).good
    · cases he

theorem empty_good (C : Chars) : Good C empty := by
  refine ⟨Dom.empty_inv2, fun _ => rfl, ?_, ?_, ?_, ?_, ?_⟩
  · intro e a h; cases h
  · intro n h; exact absurd h (Nat.not_lt_zero _)
  · intro d t h; cases h
  · intro d t h; cases h
  · intro d t h; cases h

theorem reach_good {C : Chars} {s : St} (h : Reach C s) : Good C s := by
  induction h with
  | empty => exact empty_good C
  | dom s b op _ hp hs he ih =>
    have := Dom.step_effect (b := false) ih.dom op hs (by intro t; cases t)
    rcases he with he | ⟨e, he⟩
    · rw [he] at this; exact ih.effect hp this
    · rw [he] at this; exact ih.effect hp this
  | call s s' op fuel _ he ih => exact step_good ih he

end Verif.Clone
