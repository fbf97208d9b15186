import Verif.Lemmas.Clone4
set_option autoImplicit false
set_option linter.unusedSimpArgs false
set_option linter.unusedVariables false
namespace Verif.Clone
open Verif.Dom (Str Kind Err upd upd_ne upd_same)
open Verif.DomNames (NsName plain)

/-! ## a copy that succeeds leaves everything else alone -/

/-- A copy `m` of kind `k` in the document `d` was made. -/
structure Q (C : Chars) (s : St) (k : Kind) (d : Option Nat) (s' : St) (m : Nat) : Prop where
  id : m = s.base.size
  lt : m < s'.base.size
  good : Good C s'
  low : Upto s.base.size s s'
  up : Up s.base.size s'
  kind : s'.base.kind m = k
  doc : s'.base.doc m = d
  parent : s'.base.parent m = none
  owner : s'.owner m = none
  orphan : k ≠ .doctype → s'.base.orphan m = true
  ro : k ≠ .entityRef → k ≠ .entity → s'.base.ro m = false
  specified : k ≠ .attr → s'.specified m = true

def IsDoc (s : St) (d : Nat) : Prop := d < s.base.size ∧ s.base.kind d = .document

def ModeOk (s : St) (mode : Mode) : Prop := ∀ d, mode = .into d → IsDoc s d

theorem ModeOk.upto {s s' : St} {mode : Mode} {lo : Nat} (h : ModeOk s mode) (hu : Upto lo s s') (hl : ∀ d, mode = .into d → d < lo)
    (hs : s.base.size ≤ s'.base.size) : ModeOk s' mode := by
  intro d e
  have := h d e
  exact ⟨Nat.lt_of_lt_of_le this.1 hs, by rw [(node_fields (hu d (hl d e))).1]; exact this.2⟩

theorem up_new {C : Chars} {s : St} (h : Good C s) {k : Kind} {d : Option Nat} {r : NsName} {ns : Bool} {data : Str}
    {ids : List Str} {o : Bool} : Up s.base.size (new s k d r ns data ids o) := by
  intro i j hi hj
  rcases hj with hj | hj
  · have hj : j ∈ s.base.kids i := hj
    have : i < s.base.size := (h.dom.inv.lt i j hj).2
    omega
  · have hj : j ∈ upd s.attrs s.base.size [] i := hj
    by_cases e : i = s.base.size
    · subst e; rw [upd_same] at hj; cases hj
    · rw [upd_ne _ _ e] at hj
      have : i < s.base.size := (h.attr i j hj).1
      omega

theorem goesTo_doc {C : Chars} {s : St} (h : Good C s) {n : Nat} (hn : n < s.base.size) {mode : Mode} (hm : ModeOk s mode)
    (hk : s.base.kind n ≠ .doctype) : ∃ d, goesTo s n mode = some d ∧ IsDoc s d := by
  cases mode with
  | into d => exact ⟨d, rfl, hm d rfl⟩
  | clone =>
    cases e : s.base.doc n with
    | none => exact absurd (h.dom.inv.nodoc n hn e) hk
    | some d => exact ⟨d, e, h.dom.inv.docok n d hn e⟩

theorem Good.new_doc {C : Chars} {s : St} (h : Good C s) {k : Kind} {d : Nat} {r : NsName} {ns : Bool} {data : Str}
    {ids : List Str} {o : Bool} (hd : IsDoc s d) (hk : k ≠ .document)
    (h4 : Made C k ns r) : Good C (Clone.new s k (some d) r ns data ids o) :=
  h.new (fun t => nomatch t) (fun t => absurd t hk) (fun e he => by cases he; exact .inr hd) h4

/-- The loops, and what they need to know of `m`. -/
structure Pre (C : Chars) (s : St) (mode : Mode) (p m : Nat) : Prop where
  good : Good C s
  lt : m < s.base.size
  low : p < m
  up : Up m s
  ro : s.base.ro m = false
  parent : s.base.parent m = none
  doc : s.base.doc m = goesTo s p mode
  mok : ModeOk s mode
  dlow : ∀ d, mode = .into d → d < m

theorem Pre.next {C : Chars} {s s' : St} {mode : Mode} {p m : Nat} (h : Pre C s mode p m) (l : L C m s s') : Pre C s' mode p m := by
  obtain ⟨f1, f2, f3, f4, _⟩ := l.fields
  refine ⟨l.good, Nat.lt_of_lt_of_le h.lt l.size, h.low, l.up, by rw [f4]; exact h.ro, by rw [f3]; exact h.parent, ?_,
    h.mok.upto l.low h.dlow l.size, h.dlow⟩
  rw [f2, h.doc]
  cases mode with
  | into d => rfl
  | clone => exact (node_fields (l.low p h.low)).2.1.symm

theorem Q.L {C : Chars} {s s' : St} {k : Kind} {d : Option Nat} {m b : Nat} (q : Q C s k d s' b) (hm : m < s.base.size)
    (hu : Up m s) : L C m s s' := by
  have := q.lt
  have := q.id
  exact L.of_upto q.good (by omega) hm q.low hu q.up

/-- One round of the loop over the children, after the copy. -/
theorem kid_round {C : Chars} {s s1 : St} {mode : Mode} {p m c k : Nat} (h : Pre C s mode p m)
    (hh : Dom.hasKids (s.base.kind m) = true) (hnd : s.base.kind m ≠ .document)
    (hc : c ∈ s.base.kids p) (hal : s.base.kind c ≠ .doctype → Dom.childAllowed (s.base.kind m) (s.base.kind c) = true)
    (q : Q C s (s.base.kind c) (docOf s c mode) s1 k) :
    ∃ s2, append s1 m k = .ok s2 () ∧ Clone.L C m s s2 ∧ s2.base.size = s1.base.size ∧
      s2.base.kids m = s.base.kids m ++ [k] ∧ s2.attrs m = s.attrs m ∧ (∀ i, i ≠ m → view s2 i = view s1 i) := by
  have l1 := q.L h.lt h.up
  have hm := h.lt
  have hid := q.id
  obtain ⟨f1, f2, f3, f4, f5, f6, f7, f8, f9, f10, f11, f12, f13, f14, f15⟩ := node_fields (q.low m h.lt)
  have hck := (h.good.dom.inv.kinds p c hc).2
  have hdoc : s.base.kind c ≠ .doctype → docOf s c mode = s.base.doc m := by
    intro e
    unfold docOf
    rw [if_neg e, h.doc]
    cases mode with
    | into d => rfl
    | clone => exact h.good.dom.inv.owner p c hc
  obtain ⟨d, hd⟩ : ∃ d, s.base.doc m = some d := by
    cases e : s.base.doc m with
    | some d => exact ⟨d, rfl⟩
    | none =>
      have := h.good.dom.inv.nodoc m h.lt e
      rw [this] at hh; cases hh
  obtain ⟨s2, e2, l2, z2, k2, a2, v2⟩ := append_L (k := k) (d := d) q.good l1.up (by omega) q.lt (by rw [f1]; exact hh)
    (by rw [f1]; exact hnd) (by rw [f6]; exact h.ro) (by
      rw [q.kind]; intro e; rw [e] at hck; cases hck) q.parent (by rw [f3]; exact h.parent) (by rw [f2]; exact hd) (by
      rw [q.doc, q.kind, f1, f2]
      by_cases e : s.base.kind c = .doctype
      · right; exact ⟨by unfold docOf; rw [if_pos e], e⟩
      · left; exact ⟨hdoc e, hal e⟩)
  refine ⟨s2, e2, l1.trans l2, z2, ?_, ?_, v2⟩
  · rw [k2, f5]
  · rw [a2, f11]

/-- One round of the loop over the attributes, after the copy. -/
theorem attr_round {C : Chars} {s s1 : St} {mode : Mode} {n m a b : Nat} (h : Pre C s mode n m)
    (hkm : s.base.kind m = .element) (ha : a ∈ s.attrs n) (ns : Bool)
    (q : Q C s (s.base.kind a) (docOf s a mode) s1 b) :
    ∃ s2, setAttr s1 m b ns = .ok s2 () ∧ Clone.L C m s s2 ∧ s2.base.size = s1.base.size ∧
      s2.base.kids m = s.base.kids m ∧ (∀ i, i ≠ m → view s2 i = view s1 i) ∧
      ((∀ x ∈ s.attrs m, (if ns then AttrMap.namespaceAndNameIs (s1.nm b).uri (s1.nm b).localName (s.nm x)
          else AttrMap.nameIs (s1.nm b).name (s.nm x)) = false) → s2.attrs m = s.attrs m ++ [b]) := by
  have l1 := q.L h.lt h.up
  have hm := h.lt
  have hid := q.id
  obtain ⟨f1, f2, f3, f4, f5, f6, f7, f8, f9, f10, f11, f12, f13, f14, f15⟩ := node_fields (q.low m h.lt)
  obtain ⟨a1, a2, a3, a4, a5⟩ := h.good.attr n a ha
  have hdoc : docOf s a mode = s.base.doc m := by
    unfold docOf
    rw [if_neg (by rw [a4]; nofun), h.doc]
    cases mode with
    | into d => rfl
    | clone => exact a5
  obtain ⟨s2, e2, l2, k2, z2, v2, t2⟩ := setAttr_L (b := b) q.good l1.up (by omega) q.lt (by rw [f1]; exact hkm)
    (by rw [q.kind]; exact a4) (by rw [f6]; exact h.ro) q.owner (by rw [q.doc, f2]; exact hdoc) ns
  refine ⟨s2, e2, l1.trans l2, z2, ?_, v2, ?_⟩
  · rw [k2, f5]
  · intro hn
    rw [t2, f11]
    intro x hx
    rw [f11] at hx
    have hxs : x < s.base.size := (h.good.attr m x hx).2.1
    rw [(node_fields (q.low x hxs)).2.2.2.2.2.2.2.2.1]
    exact hn x hx

theorem finish_Q {C : Chars} {s s3 : St} {n m : Nat} {mode : Mode} (hn : n < m)
    (hid : m = s.base.size) (hlt : m < s3.base.size) (hg : Good C s3) (hl : Upto m s s3) (hu : Up m s3)
    (hk : s3.base.kind m = s.base.kind n) (hd : s3.base.doc m = docOf s n mode) (hp : s3.base.parent m = none)
    (ho : s3.owner m = none) (hor : s.base.kind n ≠ .entity → s.base.kind n ≠ .doctype → s3.base.orphan m = true)
    (hro : s3.base.ro m = false) (hsp : s3.specified m = true) :
    Q C s (s.base.kind n) (docOf s n mode) (finish mode s3 n m) m ∧
      (finish mode s3 n m).base.kids = s3.base.kids ∧ (finish mode s3 n m).attrs = s3.attrs ∧
      (∀ i, i ≠ m → view (finish mode s3 n m) i = view s3 i) ∧ (s.base.kind n ≠ .attr → view (finish mode s3 n m) m = view s3 m) ∧
      nameOf (finish mode s3 n m) m = nameOf s3 m ∧
      valueOf (finish mode s3 n m) m = valueOf s3 m ∧ idsOf (finish mode s3 n m) m = idsOf s3 m ∧
      (finish mode s3 n m).base.size = s3.base.size ∧
      (s.base.kind n = .attr → s.specified n = true → (finish mode s3 n m).specified m = true) ∧
      (isClone mode = false → (finish mode s3 n m).specified m = true) := by
  have hkn : s3.base.kind n = s.base.kind n := (node_fields (hl n hn)).1
  have hspn : s3.specified n = s.specified n := (node_fields (hl n hn)).2.2.2.2.2.2.2.2.2.2.2.2.1
  have plain : s.base.kind n ≠ .entity → Q C s (s.base.kind n) (docOf s n mode) s3 m := fun hne =>
    ⟨hid, hlt, hg, hid ▸ hl, hid ▸ hu, hk, hd, hp, ho, fun t => hor hne t, fun _ _ => hro, fun _ => hsp⟩
  by_cases h1 : s.base.kind n = .attr
  · have hne : s.base.kind n ≠ .entity := by rw [h1]; nofun
    have q := plain hne
    cases hc : isClone mode with
    | false =>
      have hf : finish mode s3 n m = s3 := by
        unfold finish; rw [hkn, h1]; simp only []; rw [hc]; simp
      rw [hf]
      exact ⟨q, rfl, rfl, fun _ _ => rfl, fun _ => rfl, rfl, rfl, rfl, rfl, fun _ _ => hsp, fun _ => hsp⟩
    | true =>
      have hf : finish mode s3 n m = { s3 with specified := upd s3.specified m (s3.specified n) } := by
        unfold finish; rw [hkn, h1]; simp only []; rw [hc]; simp
      rw [hf]
      refine ⟨⟨hid, hlt, ⟨hg.dom, hg.live, hg.attr, hg.made, hg.dt, hg.root, hg.ent⟩, ?_, q.up, hk, hd, hp, ho, q.orphan, q.ro,
        fun t => absurd h1 t⟩, rfl, rfl, ?_, fun t => absurd h1 t, rfl, rfl, rfl, rfl, ?_, fun t => nomatch t⟩
      · intro i hi
        have x : i ≠ m := by omega
        have := hl i (by omega)
        rw [← this]
        simp only [node, upd_ne _ _ x]
      · intro i x
        simp only [view, upd_ne _ _ x]
      · intro _ t
        show upd s3.specified m (s3.specified n) m = true
        rw [upd_same, hspn]; exact t
  · by_cases h2 : s.base.kind n = .entity
    · have gen : ∀ s4, Good C s4 → s4.base.size = s3.base.size → s4.base.kind = s3.base.kind → s4.base.doc = s3.base.doc →
          s4.base.parent = s3.base.parent → s4.base.kids = s3.base.kids → s4.base.data = s3.base.data → s4.nm = s3.nm →
          s4.attrs = s3.attrs → s4.ids = s3.ids → s4.specified = s3.specified → s4.owner = s3.owner → Upto m s3 s4 →
          s4.base.orphan m = true → finish mode s3 n m = s4 →
          Q C s (s.base.kind n) (docOf s n mode) (finish mode s3 n m) m ∧
            (finish mode s3 n m).base.kids = s3.base.kids ∧ (finish mode s3 n m).attrs = s3.attrs ∧
            (∀ i, i ≠ m → view (finish mode s3 n m) i = view s3 i) ∧
            (s.base.kind n ≠ .attr → view (finish mode s3 n m) m = view s3 m) ∧ nameOf (finish mode s3 n m) m = nameOf s3 m ∧
            valueOf (finish mode s3 n m) m = valueOf s3 m ∧ idsOf (finish mode s3 n m) m = idsOf s3 m ∧
            (finish mode s3 n m).base.size = s3.base.size ∧
            (s.base.kind n = .attr → s.specified n = true → (finish mode s3 n m).specified m = true) ∧
            (isClone mode = false → (finish mode s3 n m).specified m = true) := by
        intro s4 g e1 e2 e3 e4 e5 e6 e7 e8 e9 e10 e11 u or hf
        rw [hf]
        have hv : ∀ i, view s4 i = view s3 i := fun i => by simp only [view, e2, e5, e6, e7, e8, e9, e10]
        refine ⟨⟨hid, by omega, g, hid ▸ hl.trans u, ?_, by rw [e2]; exact hk, by rw [e3]; exact hd, by rw [e4]; exact hp,
          by rw [e11]; exact ho, fun _ => or, fun _ t => absurd h2 t, fun _ => by rw [e10]; exact hsp⟩, e5, e8, fun i _ => hv i,
          fun _ => hv m, ?_, ?_, ?_, e1, fun t => absurd t h1, fun _ => by rw [e10]; exact hsp⟩
        · rw [← hid]; intro i j; rw [e5, e8]; exact hu i j
        · unfold nameOf; rw [e2, e7]
        · unfold valueOf; rw [e2, e6]
        · unfold idsOf; rw [e2, e9]
      rcases Bool.eq_false_or_eq_true (isClone mode) with hc | hc
      · refine gen (setOrphan s3 m) (setOrphan_good hg m) rfl rfl rfl rfl rfl rfl rfl rfl rfl rfl rfl setOrphan_low ?_ ?_
        · exact upd_same _ _ _
        · unfold finish; rw [hkn, h2]; simp only []; rw [hc]; simp
      · refine gen (setOrphan (setReadOnly s3 m) m) (setOrphan_good (setReadOnly_good hg hu) m) rfl rfl rfl rfl rfl rfl rfl rfl rfl
          rfl rfl ((setReadOnly_low hu).trans setOrphan_low) ?_ ?_
        · exact upd_same _ _ _
        · unfold finish; rw [hkn, h2]; simp only []; rw [hc]; simp
    · have hf : finish mode s3 n m = s3 := by
        unfold finish; rw [hkn]
        split
        · rename_i e; exact absurd e h1
        · rename_i e; exact absurd e h2
        · rfl
      rw [hf]
      exact ⟨plain h2, rfl, rfl, fun _ _ => rfl, fun _ => rfl, rfl, rfl, rfl, rfl, fun t => absurd t h1, fun _ => hsp⟩

end Verif.Clone
