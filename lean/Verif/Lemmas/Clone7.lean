import Verif.Lemmas.Clone6
set_option autoImplicit false
set_option linter.unusedSimpArgs false
set_option linter.unusedVariables false
namespace Verif.Clone
open Verif.Dom (Str Kind Err upd upd_ne upd_same)
open Verif.DomNames (NsName plain)

/-! ## copies show what the originals show -/

theorem cpn_uri {p a : Bool} {q u : Str} {h : Bool} {v : Str}
    (e : DomNames.checkPrefixAndNamespace p q (!u.isEmpty) u a = .ok (h, v)) (hh : h = false) : v = [] := by
  unfold DomNames.checkPrefixAndNamespace at e
  subst hh
  repeat' split at e
  all_goals first | (cases e; done) | skip
  · simp only [Except.ok.injEq, Prod.mk.injEq] at e
    obtain ⟨e1, e2⟩ := e
    subst e2
    cases u with
    | nil => rfl
    | cons _ _ => simp at e1

theorem made_uri {C : Chars} {ns : Bool} {r : NsName} (h : Made C .attr ns r) (hh : r.hasUri = false) : r.uri = [] := by
  cases ns with
  | false =>
    have := made_plain h (.inr rfl)
    rw [this]; rfl
  | true =>
    have h : DomNames.createAttributeNS C.name r.uri r.name = .ok r := h
    unfold DomNames.createAttributeNS at h
    by_cases hc : DomNames.checkName C.name r.name = true
    · rw [if_pos hc] at h
      unfold DomNames.attrNS at h
      cases hq : DomNames.cut r.name with
      | none =>
        rw [hq] at h
        simp only [] at h
        cases hx : DomNames.checkPrefixAndNamespace (decide (r.name = DomNames.xmlns)) (if r.name = DomNames.xmlns then r.name else []) (!r.uri.isEmpty) r.uri true with
        | error e => rw [hx] at h; cases h
        | ok v =>
          rw [hx] at h
          obtain ⟨a, b⟩ := v
          have e := Except.ok.inj h
          have e1 : a = r.hasUri := by rw [← e]
          have e2 : b = r.uri := by rw [← e]
          rw [← e2]
          exact cpn_uri hx (by rw [e1]; exact hh)
      | some v =>
        rw [hq] at h
        obtain ⟨p, l⟩ := v
        simp only [] at h
        cases hx : DomNames.checkPrefixAndNamespace true p (!r.uri.isEmpty) r.uri true with
        | error e => rw [hx] at h; cases h
        | ok v =>
          rw [hx] at h
          obtain ⟨a, b⟩ := v
          have e := Except.ok.inj h
          have e1 : a = r.hasUri := by rw [← e]
          have e2 : b = r.uri := by rw [← e]
          rw [← e2]
          exact cpn_uri hx (by rw [e1]; exact hh)
    · rw [if_neg hc] at h; cases h

/-- The attribute that comes next replaces none. -/
theorem no_match {C : Chars} {ns : Bool} {r x : NsName} (hx : Made C .attr ns x)
    (h1 : x.name ≠ r.name) (h2 : Spec.AttrMap.expanded x ≠ Spec.AttrMap.expanded r) :
    (if decide (r.localName ≠ []) = true then AttrMap.namespaceAndNameIs r.uri r.localName x else AttrMap.nameIs r.name x) = false := by
  by_cases hl : r.localName = []
  · rw [if_neg (by simpa using hl)]
    unfold AttrMap.nameIs
    simpa using h1
  · rw [if_pos (by simpa using hl)]
    cases hv : AttrMap.namespaceAndNameIs r.uri r.localName x with
    | false => rfl
    | true =>
      exfalso
      apply h2
      unfold AttrMap.namespaceAndNameIs at hv
      unfold Spec.AttrMap.expanded
      rw [if_neg hl]
      simp only [Bool.or_eq_true, Bool.and_eq_true, Bool.not_eq_true', beq_iff_eq, List.isEmpty_iff] at hv
      rcases hv with ⟨hu, hhu, hv | ⟨hv1, hv2⟩⟩ | ⟨hu, hv⟩
      · rw [if_neg (by rw [hv]; exact hl), hv, hu, made_uri hx hhu]
      · rw [if_pos hv1, hv2, hu]
      · rw [if_neg (by rw [hv]; exact hl), hv, hu]

theorem make_ok {C : Chars} {s : St} (h : Good C s) {n : Nat} (hn : n < s.base.size) {mode : Mode}
    (h1 : s.base.kind n ≠ .document) (h2 : s.base.kind n ≠ .doctype) (h3 : s.base.kind n ≠ .entityRef)
    (h4 : isClone mode = true → s.base.kind n = .pi → (s.base.data n).all C.char = true) :
    ∃ s1 m, make C mode s n = .ok s1 m := by
  unfold make
  cases hk : s.base.kind n with
  | element =>
    obtain ⟨r, ns, e, _⟩ := remake_spec (isAttr := false) h hn mode hk
    simp only []
    rw [e]; exact ⟨_, _, rfl⟩
  | attr =>
    obtain ⟨r, ns, e, _⟩ := remake_spec (isAttr := true) h hn mode hk
    simp only []
    rw [e]; exact ⟨_, _, rfl⟩
  | pi =>
    simp only []
    have hmd := h.made n hn
    rw [hk] at hmd
    have hmd : DomNames.checkName C.name (s.nm n).name = true := hmd
    cases hc : isClone mode with
    | false => exact ⟨_, _, rfl⟩
    | true => rw [hmd, h4 hc hk]; exact ⟨_, _, rfl⟩
  | document => exact absurd hk h1
  | doctype => exact absurd hk h2
  | entityRef => exact absurd hk h3
  | text => exact ⟨_, _, rfl⟩
  | cdata => exact ⟨_, _, rfl⟩
  | comment => exact ⟨_, _, rfl⟩
  | fragment => exact ⟨_, _, rfl⟩
  | entity => exact ⟨_, _, rfl⟩
  | «notation» => exact ⟨_, _, rfl⟩

theorem expansion_upto {C : Chars} {s s' : St} (h : Good C s) (hu : Upto s.base.size s s') {d : Nat} (hd : d < s.base.size)
    {name : Str} {ks : List Tree} (he : Expansion s d name ks) : Expansion s' d name ks := by
  have e1 : s'.base.dtype d = s.base.dtype d := (node_fields (hu d hd)).2.2.2.2.2.2.2.1
  have e2 : entityNamed s' d name = entityNamed s d name := by
    unfold entityNamed
    rw [e1]
    cases ht : s.base.dtype d with
    | none => rfl
    | some t =>
      simp only []
      rw [(node_fields (hu t (h.dt d t ht).2)).2.2.2.2.2.2.2.2.2.2.2.2.2.2]
      have : ∀ (l : List Nat), (∀ e ∈ l, e < s.base.size) →
          (l.find? fun e => (s'.nm e).name == name) = l.find? fun e => (s.nm e).name == name := by
        intro l hl
        induction l with
        | nil => rfl
        | cons a r ih =>
          have ea : s'.nm a = s.nm a := (node_fields (hu a (hl a List.mem_cons_self))).2.2.2.2.2.2.2.2.1
          rw [List.find?_cons, List.find?_cons, ea, ih (fun e he => hl e (List.mem_cons_of_mem _ he))]
      exact this _ fun e he => (h.ent t e he).2.1
  unfold Expansion at he ⊢
  rw [e2]
  cases hn : entityNamed s d name with
  | none => rw [hn] at he; exact he
  | some e =>
    rw [hn] at he
    simp only [] at he ⊢
    obtain ⟨a1, _⟩ := findEntity_mem (d := d) (name := name) h (by
      unfold findEntity; unfold entityNamed at hn; exact hn)
    rw [(node_fields (hu e a1)).2.2.2.2.1]
    exact h.showsAll_upto hu (fun c hc => (h.dom.inv.lt e c hc).1) he

/-- Copies made so far stay. -/
theorem L.shows {C : Chars} {m : Nat} {s s' : St} (h : Good C s) (hu : Up m s) (l : L C m s s') {t : Tree} {k : Nat}
    (h1 : m < k) (h2 : k < s.base.size) (hs : Shows s t k) : Shows s' t k :=
  shows_congr (X := fun i => m < i ∧ i < s.base.size)
    (fun i hi j hj => ⟨by have := hu i j (by omega) hj; omega, h.closed i hi.2 j hj⟩)
    (fun i hi => l.kept i hi.1 hi.2) t k ⟨h1, h2⟩ hs

theorem L.showsAll {C : Chars} {m : Nat} {s s' : St} (h : Good C s) (hu : Up m s) (l : L C m s s') {ts : List Tree} {ks : List Nat}
    (hk : ∀ k ∈ ks, m < k ∧ k < s.base.size) (hs : ShowsAll s ts ks) : ShowsAll s' ts ks :=
  showsAll_congr (X := fun i => m < i ∧ i < s.base.size)
    (fun i hi j hj => ⟨by have := hu i j (by omega) hj; omega, h.closed i hi.2 j hj⟩)
    (fun i hi => l.kept i hi.1 hi.2) ts ks hk hs

theorem shows_views {s s' : St} (hv : ∀ i, view s' i = view s i) {t : Tree} {n : Nat} (h : Shows s t n) : Shows s' t n :=
  shows_congr (X := fun _ => True) (fun _ _ _ _ => trivial) (fun i _ => hv i) t n trivial h

theorem shows_kind {s : St} {t : Tree} {n : Nat} (h : Shows s t n) : s.base.kind n = t.kind := by
  cases t; rw [Shows] at h; exact h.1

theorem shows_name {s : St} {t : Tree} {n : Nat} (h : Shows s t n) : nameOf s n = t.name := by
  cases t; rw [Shows] at h; exact h.2.1

theorem name_attr {s : St} {n : Nat} (h : s.base.kind n = .attr) : nameOf s n = s.nm n := by
  unfold nameOf; rw [h]

theorem showsAll_mem {s : St} : ∀ {ts : List Tree} {ns : List Nat}, ShowsAll s ts ns → ∀ n ∈ ns, ∃ t ∈ ts, Shows s t n
  | [], [], _, n, h => by cases h
  | [], _ :: _, h, _, _ => by simp only [ShowsAll] at h
  | _ :: _, [], h, _, _ => by simp only [ShowsAll] at h
  | t :: ts, n :: ns, h, x, hx => by
    rw [ShowsAll] at h
    rcases List.mem_cons.mp hx with rfl | hx
    · exact ⟨t, List.mem_cons_self, h.1⟩
    · obtain ⟨u, hu, hs⟩ := showsAll_mem h.2 x hx
      exact ⟨u, List.mem_cons_of_mem _ hu, hs⟩

theorem copyableAll_mem {C : Chars} {E : Str → List Tree → Prop} {imp : Bool} : ∀ {ts : List Tree}, CopyableAll C E imp ts →
    ∀ t ∈ ts, Copyable C E imp t
  | [], _, t, h => by cases h
  | u :: ts, h, t, ht => by
    rw [CopyableAll] at h
    rcases List.mem_cons.mp ht with rfl | ht
    · exact h.1
    · exact copyableAll_mem h.2 t ht

/-- The tree `t` is copied faithfully. -/
def P (C : Chars) (E : Str → List Tree → Prop) (t : Tree) : Prop :=
  ∀ mode s n d deep, Good C s → n < s.base.size → ModeOk s mode → goesTo s n mode = some d → Shows s t n →
    Copyable C E (!isClone mode) t → (∀ name ks, E name ks → Expansion s d name ks) →
    ∃ f0 s' m, (∀ fuel, f0 ≤ fuel → copyNode C fuel mode s n deep = .ok s' m) ∧
      Shows s' (if deep then t else t.shallow) m ∧ (s.specified n = true → s'.specified m = true)

/-- What the loops are told of the state `s0` before the copy. -/
structure Env (C : Chars) (E : Str → List Tree → Prop) (mode : Mode) (d : Nat) (s0 : St) (m : Nat) (s : St) : Prop where
  good : Good C s0
  id : m = s0.base.size
  low : Upto m s0 s
  mok : ModeOk s0 mode
  doc : d < s0.base.size
  exp : ∀ name ks, E name ks → Expansion s0 d name ks

theorem Env.next {C : Chars} {E : Str → List Tree → Prop} {mode : Mode} {d m : Nat} {s0 s s' : St} (h : Env C E mode d s0 m s)
    (l : L C m s s') : Env C E mode d s0 m s' :=
  ⟨h.good, h.id, h.low.trans l.low, h.mok, h.doc, h.exp⟩

theorem Env.expn {C : Chars} {E : Str → List Tree → Prop} {mode : Mode} {d m : Nat} {s0 s : St} (h : Env C E mode d s0 m s) :
    ∀ name ks, E name ks → Expansion s d name ks :=
  fun name ks hk => expansion_upto h.good (h.id ▸ h.low) h.doc (h.exp name ks hk)

theorem goesTo_kid {C : Chars} {s : St} (h : Good C s) {p c d : Nat} {mode : Mode} (hc : c ∈ s.base.kids p)
    (hk : s.base.kind c ≠ .doctype) (hd : goesTo s p mode = some d) : goesTo s c mode = some d := by
  cases mode with
  | into x => exact hd
  | clone =>
    show s.base.doc c = some d
    rw [h.dom.inv.owner p c hc]; exact hd

theorem copyKids_shows {C : Chars} {E : Str → List Tree → Prop} {mode : Mode} {d : Nat} {s0 : St} {p m : Nat}
    (hd : goesTo s0 p mode = some d) (hlt : ∀ c ∈ s0.base.kids p, c < m) :
    ∀ (ts : List Tree) (cs don : List Nat) (dT : List Tree) (s : St), Env C E mode d s0 m s → Pre C s mode p m →
      SameKids s p m → s0.base.kids p = don ++ cs → ShowsAll s0 ts cs → (∀ t ∈ ts, P C E t) →
      CopyableAll C E (!isClone mode) ts → ShowsAll s dT (s.base.kids m) →
      ∃ f0 s', (∀ fuel, f0 ≤ fuel → copyKids C fuel mode s m cs.head? = .ok s' ()) ∧ ShowsAll s' (dT ++ ts) (s'.base.kids m)
  | [], [], don, dT, s, env, hp, hk, hc, hs, hP, hC, hdT => by
    refine ⟨1, s, ?_, by rw [List.append_nil]; exact hdT⟩
    intro fuel hf
    obtain ⟨f, rfl⟩ : ∃ f, fuel = f + 1 := ⟨fuel - 1, by omega⟩
    rw [List.head?_nil, copyKids]
  | [], _ :: _, _, _, _, _, _, _, _, hs, _, _, _ => by simp only [ShowsAll] at hs
  | _ :: _, [], _, _, _, _, _, _, _, hs, _, _, _ => by simp only [ShowsAll] at hs
  | t :: ts, c :: r, don, dT, s, env, hp, hk, hc, hs, hP, hC, hdT => by
    rw [ShowsAll] at hs
    rw [CopyableAll] at hC
    have hid := env.id
    have hlp := hp.low
    have hm0 : c ∈ s0.base.kids p := by rw [hc]; simp
    have hcl := hlt c hm0
    have hkp : s.base.kids p = s0.base.kids p := (node_fields (env.low p hp.low)).2.2.2.2.1
    have hm : c ∈ s.base.kids p := by rw [hkp]; exact hm0
    have hst : Shows s t c := env.good.shows_upto (hid ▸ env.low) (hid ▸ hcl) hs.1
    have hcs : c < s.base.size := (hp.good.dom.inv.lt p c hm).1
    have hkc : s.base.kind c ≠ .doctype := by
      rw [shows_kind hst]
      have := hC.1
      cases t; rw [Copyable] at this; exact this.2.1
    have hgp : goesTo s p mode = some d := by
      cases mode with
      | into x => exact hd
      | clone => show s.base.doc p = some d; rw [(node_fields (env.low p hp.low)).2.1]; exact hd
    obtain ⟨f1, s1, k, e1, hsk, hspec⟩ := hP t List.mem_cons_self mode s c d true hp.good hcs hp.mok
      (goesTo_kid hp.good hm hkc hgp) hst hC.1 env.expn
    have q := copyNode_safe hp.good hcs hp.mok (e1 f1 (Nat.le_refl _))
    obtain ⟨h1, h2⟩ := hk.has hp.good hm
    obtain ⟨s2, e2, l, z2, k2, a2, v2⟩ := kid_round hp h1 hk.2 hm h2 q
    have hmlt := hp.lt
    have hkid := q.id
    have hklt := q.lt
    have hkm : ∀ x ∈ s.base.kids m, m < x ∧ x < s.base.size := fun x hx =>
      ⟨hp.up m x (Nat.le_refl _) (.inl hx), (hp.good.dom.inv.lt m x hx).1⟩
    have hshow1 : ShowsAll s2 dT (s.base.kids m) := l.showsAll hp.good hp.up hkm hdT
    have hup1 : Up m s1 := (q.L hp.lt hp.up).up
    have hshow2 : Shows s2 t k := by
      refine shows_congr (X := fun i => m < i) ?_ ?_ t k (by omega) (by simpa using hsk)
      · intro i hi j hj; have := hup1 i j (by omega) hj; omega
      · intro i hi; exact v2 i (by omega)
    have hnx : s2.base.next c = r.head? := by
      rw [(node_fields (l.low c hcl)).2.2.2.1]
      exact hp.good.dom.inv.next_eq (by rw [hkp]; exact hc)
    obtain ⟨f2, s', e3, hfin⟩ := copyKids_shows hd hlt ts r (don ++ [c]) (dT ++ [t]) s2 (env.next l) (hp.next l) (hk.next hp.low l)
      (by rw [hc]; simp) hs.2 (fun u hu => hP u (List.mem_cons_of_mem _ hu)) hC.2 (by
        rw [k2]
        exact showsAll_append hshow1 (by simp only [ShowsAll]; exact ⟨hshow2, trivial⟩))
    refine ⟨max f1 f2 + 1, s', ?_, by simpa using hfin⟩
    intro fuel hf
    obtain ⟨f, rfl⟩ : ∃ f, fuel = f + 1 := ⟨fuel - 1, by omega⟩
    rw [List.head?_cons, copyKids, e1 f (by omega)]
    simp only [Out.bind]
    rw [e2]
    simp only []
    rw [hnx]
    exact e3 f (by omega)

end Verif.Clone
