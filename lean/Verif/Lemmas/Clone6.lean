import Verif.Lemmas.Clone5
set_option autoImplicit false
set_option linter.unusedSimpArgs false
set_option linter.unusedVariables false
namespace Verif.Clone
open Verif.Dom (Str Kind Err upd upd_ne upd_same)
open Verif.DomNames (NsName plain)

/-! ## the new node -/

structure Begun (C : Chars) (mode : Mode) (s : St) (n : Nat) (s1 : St) (m : Nat) : Prop where
  id : m = s.base.size
  notdoc : s.base.kind n ≠ .document
  good : Good C s1
  size : s1.base.size = m + 1
  low : Upto m s s1
  up : Up m s1
  pre : s.base.kind n ≠ .doctype → Pre C s1 mode n m
  kind : s1.base.kind m = s.base.kind n
  doc : s1.base.doc m = docOf s n mode
  parent : s1.base.parent m = none
  owner : s1.owner m = none
  orphan : s.base.kind n ≠ .entity → s.base.kind n ≠ .doctype → s1.base.orphan m = true
  ro : s1.base.ro m = false
  specified : s1.specified m = true
  kids : s1.base.kids m = []
  attrs : s1.attrs m = []
  name : ((s.base.kind n = .element ∨ s.base.kind n = .attr) →
    (isClone mode = true ∨ (s.nm n).localName ≠ [] ∨ s.nm n = plain (s.nm n).name)) → nameOf s1 m = nameOf s n
  value : valueOf s1 m = valueOf s n
  ids : idsOf s1 m = idsOf s n

theorem fresh_fields {C : Chars} {s : St} (h : Good C s) {k : Kind} {d : Option Nat} {r : NsName} {ns : Bool} {data : Str}
    {ids : List Str} {o : Bool} : ∀ s1, s1 = new s k d r ns data ids o →
      s1.base.kind s.base.size = k ∧ s1.base.doc s.base.size = d ∧ s1.base.parent s.base.size = none ∧
      s1.owner s.base.size = none ∧ s1.base.orphan s.base.size = o ∧ s1.base.ro s.base.size = false ∧
      s1.specified s.base.size = true ∧ s1.base.kids s.base.size = [] ∧ s1.attrs s.base.size = [] ∧
      s1.nm s.base.size = r ∧ s1.base.data s.base.size = data ∧ s1.ids s.base.size = ids := by
  intro s1 e
  subst e
  have := node_fresh h (k := k) (d := d) (r := r) (ns := ns) (data := data) (ids := ids) (o := o)
  simp only [node, Node.mk.injEq] at this
  obtain ⟨h1, h2, h3, h4, h5, h6, h7, h8, h9, h10, h11, h12, h13, h14, h15, h16, h17, h18, h19⟩ := this
  exact ⟨h1, h2, h3, h16, h8, h7, h17, h6, h15, h13, h10, h18⟩

theorem begun {C : Chars} {s : St} (h : Good C s) {n : Nat} (hn : n < s.base.size) {mode : Mode} (hm : ModeOk s mode)
    {s1 : St} {m : Nat} (hk : make C mode s n = .ok s1 m) : Begun C mode s n s1 m := by
  obtain ⟨e1, e2, e3, r, ns, data, ids, o, e4, e5, e6, e7, e8, e9, e10⟩ := make_spec h hn hk
  obtain ⟨f1, f2, f3, f4, f5, f6, f7, f8, f9, f10, f11, f12⟩ := fresh_fields h s1 e4
  have hlow : Upto s.base.size s s1 := by
    subst e4; intro i hi; exact node_new (Nat.ne_of_lt hi)
  have hup : Up s.base.size s1 := by subst e4; exact up_new h
  have hgood : Good C s1 := by
    subst e4
    by_cases hd : s.base.kind n = .doctype
    · have : docOf s n mode = none := by unfold docOf; rw [if_pos hd]
      rw [this]
      exact h.new (fun _ => hd) (fun t => absurd t e2) (fun e he => nomatch he) e5
    · have : docOf s n mode = goesTo s n mode := by unfold docOf; rw [if_neg hd]
      rw [this]
      obtain ⟨d, hd, hd2⟩ := goesTo_doc h hn hm hd
      rw [hd]
      exact h.new_doc hd2 e2 e5
  have hsz : s1.base.size = s.base.size + 1 := by subst e4; rfl
  have hnk : s.base.kids s.base.size = [] := h.no_kids
  subst e1
  refine ⟨rfl, e2, hgood, hsz, hlow, hup, ?_, f1, f2, f3, f4, ?_, f6, f7, f8, f9, ?_, ?_, ?_⟩
  · intro hd
    have hdl : ∀ d, mode = .into d → d < s.base.size := fun d e => (hm d e).1
    refine ⟨hgood, by omega, hn, hup, f6, f3, ?_, hm.upto hlow hdl (by omega), hdl⟩
    rw [f2]
    unfold docOf
    rw [if_neg hd]
    cases mode with
    | into d => rfl
    | clone => exact (node_fields (hlow n hn)).2.1.symm
  · intro a b; rw [f5]; exact e6 a b
  · intro hc
    unfold nameOf
    rw [f1, f10]
    by_cases h1 : s.base.kind n = .element ∨ s.base.kind n = .attr
    · rw [e7 h1 (hc h1)]
    · rw [e8 (fun t => h1 (.inl t)) (fun t => h1 (.inr t))]
      unfold nameOf
      cases hk : s.base.kind n <;> simp only [] <;> rw [hk] at h1 <;> first | rfl | exact absurd (.inl rfl) h1 | exact absurd (.inr rfl) h1
  · unfold valueOf
    rw [f1, f11, e9]
    unfold valueOf
    cases hk : s.base.kind n <;> rfl
  · unfold idsOf
    rw [f1, f12, e10]
    unfold idsOf
    cases hk : s.base.kind n <;> rfl

/-! ## the induction -/

theorem bind_ok {α β : Type} {x : Out α} {f : St → α → Out β} {s : St} {b : β} (h : x.bind f = .ok s b) :
    ∃ t a, x = .ok t a ∧ f t a = .ok s b := by
  cases x with
  | ok t a => exact ⟨t, a, rfl, h⟩
  | err e => cases h
  | diverges => cases h
  | ub => cases h

/-- `m` may have the kinds of children `p` has. -/
def SameKids (s : St) (p m : Nat) : Prop :=
  (s.base.kind m = s.base.kind p ∨ (s.base.kind m = .entityRef ∧ s.base.kind p = .entity)) ∧ s.base.kind m ≠ .document

theorem SameKids.has {C : Chars} {s : St} (h : Good C s) {p m c : Nat} (hs : SameKids s p m) (hc : c ∈ s.base.kids p) :
    Dom.hasKids (s.base.kind m) = true ∧
    (s.base.kind c ≠ .doctype → Dom.childAllowed (s.base.kind m) (s.base.kind c) = true) := by
  have h1 := (h.dom.inv.kinds p c hc).1
  have h2 := h.dom.allow p c hc
  rcases hs.1 with e | ⟨e1, e2⟩
  · rw [e]; exact ⟨h1, h2⟩
  · rw [e1]; rw [e2] at h2; exact ⟨rfl, h2⟩

theorem SameKids.next {C : Chars} {s s' : St} {p m : Nat} (h : SameKids s p m) (hp : p < m) (l : L C m s s') : SameKids s' p m := by
  unfold SameKids
  rw [l.fields.1, (node_fields (l.low p hp)).1]
  exact h

def S1 (C : Chars) (fuel : Nat) : Prop := ∀ mode s n deep s' m, Good C s → n < s.base.size → ModeOk s mode →
  copyNode C fuel mode s n deep = .ok s' m → Q C s (s.base.kind n) (docOf s n mode) s' m

def S2 (C : Chars) (fuel : Nat) : Prop := ∀ mode s n m i s', Pre C s mode n m → s.base.kind m = .element →
  (∀ a ∈ s.attrs n, a < m) → copyAttrs C fuel mode s n m i = .ok s' () → L C m s s' ∧ s'.base.kids m = s.base.kids m

def S3 (C : Chars) (fuel : Nat) : Prop := ∀ mode s p m (don cs : List Nat) s', Pre C s mode p m → SameKids s p m →
  (∀ c ∈ s.base.kids p, c < m) → s.base.kids p = don ++ cs → copyKids C fuel mode s m cs.head? = .ok s' () →
  L C m s s' ∧ s'.attrs m = s.attrs m

def S4 (C : Chars) (fuel : Nat) : Prop := ∀ s d name s' m, Good C s → IsDoc s d → DomNames.checkName C.name name = true →
  createEntityReference C fuel s d name = .ok s' m → Q C s .entityRef (some d) s' m

theorem begun_lt {C : Chars} {s : St} (h : Good C s) {n : Nat} {mode : Mode} (hn : n < s.base.size) {s1 : St} {m : Nat}
    (b : Begun C mode s n s1 m) : (∀ c ∈ s1.base.kids n, c < m) ∧ (∀ a ∈ s1.attrs n, a < m) := by
  have hid := b.id
  obtain ⟨_, _, _, _, k, _, _, _, _, _, a, _⟩ := node_fields (b.low n (by omega))
  rw [k, a, hid]
  exact ⟨fun c hc => (h.dom.inv.lt n c hc).1, fun x hx => (h.attr n x hx).2.1⟩

theorem safe1 {C : Chars} {fuel : Nat} (i2 : S2 C fuel) (i3 : S3 C fuel) (i4 : S4 C fuel) : S1 C (fuel + 1) := by
  intro mode s n deep s' m hg hn hm he
  rw [copyNode] at he
  by_cases hr : s.base.kind n = .entityRef
  · rw [if_pos hr, target_eq] at he
    obtain ⟨d, hd, hd2⟩ := goesTo_doc hg hn hm (by rw [hr]; nofun)
    rw [hd] at he
    simp only [] at he
    by_cases hc : (isClone mode && !DomNames.checkName C.name (s.nm n).name) = true
    · rw [if_pos hc] at he; cases he
    · rw [if_neg hc] at he
      have hmd := hg.made n hn
      rw [hr] at hmd
      have q := i4 s d _ s' m hg hd2 hmd he
      rw [hr]
      have : docOf s n mode = some d := by unfold docOf; rw [if_neg (by rw [hr]; nofun), hd]
      rw [this]; exact q
  · rw [if_neg hr] at he
    obtain ⟨s1, m1, e1, he⟩ := bind_ok he
    obtain ⟨s2, _, e2, he⟩ := bind_ok he
    obtain ⟨s3, _, e3, he⟩ := bind_ok he
    cases he
    have b := begun hg hn hm e1
    have hid := b.id
    have hlt := begun_lt hg hn b
    have hkn : s1.base.kind n = s.base.kind n := (node_fields (b.low n (by omega))).1
    by_cases hd : s.base.kind n = .doctype
    · rw [if_neg (by rw [hkn, hd]; nofun)] at e2
      cases e2
      have : s1.base.kids n = [] := by
        cases e : s1.base.kids n with
        | nil => rfl
        | cons c l =>
          have := (b.good.dom.inv.kinds n c (by rw [e]; exact List.mem_cons_self)).1
          rw [hkn, hd] at this; cases this
      have e4 : s3 = s1 := by
        by_cases hx : deep = true ∨ s1.base.kind n = .attr
        · rw [if_pos (by simpa using hx), this] at e3
          cases fuel with
          | zero => rw [copyKids] at e3; cases e3
          | succ f =>
            have : ([] : List Nat).head? = none := rfl
            simp only [List.head?_nil] at e3
            rw [copyKids] at e3; cases e3; rfl
        · rw [if_neg (by simpa using hx)] at e3; cases e3; rfl
      subst e4
      exact (finish_Q (by omega) hid (by rw [b.size]; omega) b.good b.low b.up b.kind b.doc b.parent b.owner b.orphan b.ro
        b.specified).1
    · have hp := b.pre hd
      have l2 : L C m s1 s2 := by
        by_cases he : s1.base.kind n = .element
        · rw [if_pos he] at e2
          exact (i2 mode s1 n m 0 s2 hp (by rw [b.kind, ← hkn]; exact he) hlt.2 e2).1
        · rw [if_neg he] at e2; cases e2; exact L.refl b.good b.up
      have hp2 := hp.next l2
      have hnm : n < m := by omega
      have hsk : SameKids s1 n m := ⟨.inl (by rw [b.kind, hkn]), by rw [b.kind]; exact b.notdoc⟩
      have hk2 : s2.base.kids n = s1.base.kids n := (node_fields (l2.low n hnm)).2.2.2.2.1
      have l3 : L C m s2 s3 := by
        by_cases hx : deep = true ∨ s2.base.kind n = .attr
        · rw [if_pos (by simpa using hx)] at e3
          exact (i3 mode s2 n m [] _ s3 hp2 (hsk.next hnm l2) (by rw [hk2]; exact hlt.1) rfl e3).1
        · rw [if_neg (by simpa using hx)] at e3; cases e3; exact L.refl l2.good l2.up
      have l := l2.trans l3
      obtain ⟨f1, f2, f3, f4, f5, f6, f7, f8, f9, f10, f11⟩ := l.fields
      exact (finish_Q hnm hid (Nat.lt_of_lt_of_le hp.lt l.size) l.good (b.low.trans l.low) l.up (by rw [f1]; exact b.kind)
        (by rw [f2]; exact b.doc) (by rw [f3]; exact b.parent) (by rw [f9]; exact b.owner)
        (fun t1 t2 => by rw [f5]; exact b.orphan t1 t2) (by rw [f4]; exact b.ro) (by rw [f10]; exact b.specified)).1

theorem safe2 {C : Chars} {fuel : Nat} (i1 : S1 C fuel) (i2 : S2 C fuel) : S2 C (fuel + 1) := by
  intro mode s n m i s' hp hk hlt he
  rw [copyAttrs] at he
  cases ha : (s.attrs n)[i]? with
  | none => rw [ha] at he; simp only [] at he; cases he; exact ⟨L.refl hp.good hp.up, rfl⟩
  | some a =>
    rw [ha] at he
    simp only [] at he
    have hma : a ∈ s.attrs n := List.mem_of_getElem? ha
    by_cases hs : s.specified a = true
    · rw [if_pos hs] at he
      obtain ⟨s1, b, e1, he⟩ := bind_ok he
      obtain ⟨s2, _, e2, he⟩ := bind_ok he
      have q := i1 mode s a true s1 b hp.good (hp.good.attr n a hma).2.1 hp.mok e1
      obtain ⟨s2', e2', l, _, k, _⟩ := attr_round hp hk hma _ q
      rw [e2] at e2'
      cases e2'
      obtain ⟨l2, k2⟩ := i2 mode s2 n m (i + 1) s' (hp.next l) (by rw [l.fields.1]; exact hk)
        (by rw [(node_fields (l.low n hp.low)).2.2.2.2.2.2.2.2.2.2.1]; exact hlt) he
      exact ⟨l.trans l2, by rw [k2, k]⟩
    · rw [if_neg hs] at he
      exact i2 mode s n m (i + 1) s' hp hk hlt he

theorem safe3 {C : Chars} {fuel : Nat} (i1 : S1 C fuel) (i3 : S3 C fuel) : S3 C (fuel + 1) := by
  intro mode s p m don cs s' hp hk hlt hc he
  cases cs with
  | nil =>
    simp only [List.head?_nil] at he
    rw [copyKids] at he; cases he; exact ⟨L.refl hp.good hp.up, rfl⟩
  | cons c r =>
    simp only [List.head?_cons] at he
    rw [copyKids] at he
    obtain ⟨s1, k, e1, he⟩ := bind_ok he
    obtain ⟨s2, _, e2, he⟩ := bind_ok he
    have hm : c ∈ s.base.kids p := by rw [hc]; simp
    have q := i1 mode s c true s1 k hp.good (hp.good.dom.inv.lt p c hm).1 hp.mok e1
    obtain ⟨h1, h2⟩ := hk.has hp.good hm
    obtain ⟨s2', e2', l, _, _, a, _⟩ := kid_round hp h1 hk.2 hm h2 q
    rw [e2] at e2'
    cases e2'
    have hkp : s2.base.kids p = s.base.kids p := (node_fields (l.low p hp.low)).2.2.2.2.1
    have hnx : s2.base.next c = r.head? := by
      rw [(node_fields (l.low c (hlt c hm))).2.2.2.1]
      exact hp.good.dom.inv.next_eq hc
    rw [hnx] at he
    obtain ⟨l2, a2⟩ := i3 mode s2 p m (don ++ [c]) r s' (hp.next l) (hk.next hp.low l) (by rw [hkp]; exact hlt)
      (by rw [hkp, hc]; simp) he
    exact ⟨l.trans l2, by rw [a2, a]⟩

theorem ref_Q {C : Chars} {s s1 : St} {d m : Nat} (hid : m = s.base.size) (hlt : m < s1.base.size) (hg : Good C s1)
    (hl : Upto m s s1) (hu : Up m s1) (hk : s1.base.kind m = .entityRef) (hd : s1.base.doc m = some d)
    (hp : s1.base.parent m = none) (ho : s1.owner m = none) (hs : s1.specified m = true) :
    Q C s .entityRef (some d) (setReadOnly (setOrphan s1 m) m) m := by
  have hu2 : Up m (setOrphan s1 m) := hu
  refine ⟨hid, hlt, setReadOnly_good (setOrphan_good hg m) hu2, ?_, hid ▸ hu, hk, hd, hp, ho, fun _ => ?_, fun t => absurd rfl t,
    fun _ => hs⟩
  · rw [← hid]; exact hl.trans (setOrphan_low.trans (setReadOnly_low hu2))
  · exact upd_same _ _ _

/-- The new entity reference. -/
theorem ref_begun {C : Chars} {s : St} (h : Good C s) {d : Nat} (hd : IsDoc s d) {name : Str}
    (hn : DomNames.checkName C.name name = true) (s1 : St) (e : s1 = new s .entityRef (some d) (plain name) false [] [] false) :
    Good C s1 ∧ Upto s.base.size s s1 ∧ Up s.base.size s1 ∧ s1.base.size = s.base.size + 1 ∧
    (∀ p, p < s.base.size → Pre C s1 (.into d) p s.base.size) := by
  have hgood : Good C s1 := by subst e; exact h.new_doc hd (by nofun) hn
  have hlow : Upto s.base.size s s1 := by subst e; intro i hi; exact node_new (Nat.ne_of_lt hi)
  have hup : Up s.base.size s1 := by subst e; exact up_new h
  obtain ⟨f1, f2, f3, f4, f5, f6, f7, f8, f9, f10, f11, f12⟩ := fresh_fields h s1 e
  have hsz : s1.base.size = s.base.size + 1 := by subst e; rfl
  refine ⟨hgood, hlow, hup, hsz, fun p hp => ⟨hgood, by omega, hp, hup, f6, f3, f2, ?_, ?_⟩⟩
  · intro x hx
    cases hx
    exact ⟨by have := hd.1; omega, by rw [(node_fields (hlow d hd.1)).1]; exact hd.2⟩
  · intro x hx; cases hx; exact hd.1

theorem findEntity_mem {C : Chars} {s : St} (h : Good C s) {d e : Nat} {name : Str} (hf : findEntity s d name = some e) :
    e < s.base.size ∧ s.base.kind e = .entity := by
  unfold findEntity at hf
  cases ht : s.base.dtype d with
  | none => rw [ht] at hf; cases hf
  | some t =>
    rw [ht] at hf
    exact (h.ent t e (List.mem_of_find?_eq_some hf)).2

theorem safe4 {C : Chars} {fuel : Nat} (i3 : S3 C fuel) : S4 C (fuel + 1) := by
  intro s d name s' m hg hd hn he
  rw [createEntityReference] at he
  obtain ⟨s2, _, e2, he⟩ := bind_ok he
  cases he
  obtain ⟨s1, e1⟩ : ∃ s1, s1 = new s .entityRef (some d) (plain name) false [] [] false := ⟨_, rfl⟩
  rw [← e1] at e2
  obtain ⟨g, lo, up, sz, pre⟩ := ref_begun hg hd hn s1 e1
  obtain ⟨f1, f2, f3, f4, f5, f6, f7, f8, f9, f10, f11, f12⟩ := fresh_fields hg s1 e1
  have l : L C s.base.size s1 s2 := by
    cases hf : findEntity s d name with
    | none => rw [hf] at e2; simp only [] at e2; cases e2; exact L.refl g up
    | some e =>
      rw [hf] at e2
      simp only [] at e2
      obtain ⟨a1, a2⟩ := findEntity_mem hg hf
      refine (i3 (.into d) s1 e s.base.size [] _ s2 (pre e a1) ⟨.inr ⟨f1, ?_⟩, by rw [f1]; nofun⟩ ?_ rfl e2).1
      · rw [(node_fields (lo e a1)).1]; exact a2
      · rw [(node_fields (lo e a1)).2.2.2.2.1]; exact fun c hc => (hg.dom.inv.lt e c hc).1
  obtain ⟨g1, g2, g3, g4, g5, g6, g7, g8, g9, g10, g11⟩ := l.fields
  exact ref_Q rfl (by have := l.size; omega) l.good (lo.trans l.low) l.up (by rw [g1, f1]) (by rw [g2, f2]) (by rw [g3, f3])
    (by rw [g9, f4]) (by rw [g10, f7])

theorem safe_all (C : Chars) : ∀ fuel, S1 C fuel ∧ S2 C fuel ∧ S3 C fuel ∧ S4 C fuel
  | 0 => by
    refine ⟨?_, ?_, ?_, ?_⟩
    · intro mode s n deep s' m _ _ _ he; rw [copyNode] at he; cases he
    · intro mode s n m i s' _ _ _ he; rw [copyAttrs] at he; cases he
    · intro mode s p m don cs s' _ _ _ _ he; rw [copyKids] at he; cases he
    · intro s d name s' m _ _ _ he; rw [createEntityReference] at he; cases he
  | fuel + 1 => by
    obtain ⟨i1, i2, i3, i4⟩ := safe_all C fuel
    exact ⟨safe1 i2 i3 i4, safe2 i1 i2, safe3 i1 i3, safe4 i3⟩

theorem copyNode_safe {C : Chars} {fuel : Nat} {mode : Mode} {s s' : St} {n m : Nat} {deep : Bool} (hg : Good C s)
    (hn : n < s.base.size) (hm : ModeOk s mode) (he : copyNode C fuel mode s n deep = .ok s' m) :
    Q C s (s.base.kind n) (docOf s n mode) s' m := (safe_all C fuel).1 mode s n deep s' m hg hn hm he

end Verif.Clone
