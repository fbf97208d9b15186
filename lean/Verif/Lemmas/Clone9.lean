import Verif.Lemmas.Clone8
set_option autoImplicit false
set_option linter.unusedSimpArgs false
set_option linter.unusedVariables false
namespace Verif.Clone
open Verif.Dom (Str Kind Err upd upd_ne upd_same)
open Verif.DomNames (NsName plain)

theorem Good.attrs_nil {C : Chars} {s : St} (h : Good C s) {n : Nat} (hk : s.base.kind n ≠ .element) : s.attrs n = [] := by
  cases e : s.attrs n with
  | nil => rfl
  | cons a l => exact absurd (h.attr n a (by rw [e]; exact List.mem_cons_self)).2.2.1 hk

theorem showsAll_nil {s : St} {ts : List Tree} (h : ShowsAll s ts []) : ts = [] := by
  cases ts with
  | nil => rfl
  | cons _ _ => simp only [ShowsAll] at h

/-- What is below `m` is seen the same after a change of `m` itself. -/
theorem showsAll_above {C : Chars} {s s' : St} {m : Nat} (hu : Up m s) (hv : ∀ i, i ≠ m → view s' i = view s i) {ts : List Tree}
    {l : List Nat} (hl : ∀ k ∈ l, m < k) (h : ShowsAll s ts l) : ShowsAll s' ts l := by
  refine showsAll_congr (X := fun i => m < i) ?_ ?_ ts l hl h
  · intro i hi j hj; have := hu i j (by omega) hj; omega
  · intro i hi; exact hv i (by omega)

theorem ref_shows {C : Chars} {E : Str → List Tree → Prop} {s : St} {d : Nat} {name : Str} {ks : List Tree} (hg : Good C s)
    (hd : IsDoc s d) (hn : DomNames.checkName C.name name = true) (hE : Expansion s d name ks) (hP : ∀ t ∈ ks, P C E t)
    (hC : CopyableAll C E true ks) (hexp : ∀ name ks, E name ks → Expansion s d name ks) :
    ∃ f0 s' m, (∀ fuel, f0 ≤ fuel → createEntityReference C fuel s d name = .ok s' m) ∧
      Shows s' (.node .entityRef (plain name) [] [] [] ks) m ∧ s'.specified m = true := by
  obtain ⟨s1, e1⟩ : ∃ s1, s1 = new s .entityRef (some d) (plain name) false [] [] false := ⟨_, rfl⟩
  obtain ⟨g, lo, up, sz, pre⟩ := ref_begun hg hd hn s1 e1
  obtain ⟨f1, f2, f3, f4, f5, f6, f7, f8, f9, f10, f11, f12⟩ := fresh_fields hg s1 e1
  -- the end of the call
  have fin : ∀ s2, L C s.base.size s1 s2 → ShowsAll s2 ks (s2.base.kids s.base.size) →
      Shows (setReadOnly (setOrphan s2 s.base.size) s.base.size) (.node .entityRef (plain name) [] [] [] ks) s.base.size ∧
      (setReadOnly (setOrphan s2 s.base.size) s.base.size).specified s.base.size = true := by
    intro s2 l hs
    obtain ⟨g1, g2, g3, g4, g5, g6, g7, g8, g9, g10, g11⟩ := l.fields
    have hv : ∀ i, view (setReadOnly (setOrphan s2 s.base.size) s.base.size) i = view s2 i := fun _ => rfl
    refine ⟨shows_views hv ?_, by show s2.specified _ = true; rw [g10, f7]⟩
    rw [Shows]
    refine ⟨by rw [g1, f1], ?_, ?_, ?_, ?_, hs⟩
    · unfold nameOf; rw [g1, f1, g7, f10]; rfl
    · unfold valueOf; rw [g1, f1]
    · unfold idsOf; rw [g1, f1]
    · unfold attrsOf; rw [l.good.attrs_nil (by rw [g1, f1]; nofun)]; simp only [List.filter_nil, ShowsAll]
  cases hf : findEntity s d name with
  | none =>
    have hf' : entityNamed s d name = none := hf
    unfold Expansion at hE
    rw [hf'] at hE
    have hE : ks = [] := hE
    refine ⟨1, setReadOnly (setOrphan s1 s.base.size) s.base.size, s.base.size, ?_, fin s1 (L.refl g up) ?_⟩
    · intro fuel hfu
      obtain ⟨f, rfl⟩ : ∃ f, fuel = f + 1 := ⟨fuel - 1, by omega⟩
      rw [createEntityReference, hf, ← e1]
      rfl
    · rw [f8, hE]; simp only [ShowsAll]
  | some e =>
    have hf' : entityNamed s d name = some e := hf
    unfold Expansion at hE
    rw [hf'] at hE
    have hE : ShowsAll s ks (s.base.kids e) := hE
    obtain ⟨a1, a2⟩ := findEntity_mem hg hf
    have hkd : s1.base.kids e = s.base.kids e := (node_fields (lo e a1)).2.2.2.2.1
    have hsk : SameKids s1 e s.base.size := ⟨.inr ⟨f1, by rw [(node_fields (lo e a1)).1]; exact a2⟩, by rw [f1]; nofun⟩
    obtain ⟨f0, s2, h1, h2⟩ := copyKids_shows (mode := .into d) (d := d) (E := E) (s0 := s) (p := e) (m := s.base.size) rfl
      (fun c hc => (hg.dom.inv.lt e c hc).1) ks (s.base.kids e) [] [] s1
      ⟨hg, rfl, lo, fun x hx => by cases hx; exact hd, hd.1, hexp⟩ (pre e a1) hsk rfl hE hP hC
      (by rw [f8]; simp only [ShowsAll])
    have l : L C s.base.size s1 s2 := ((safe_all C f0).2.2.1 (.into d) s1 e s.base.size [] _ s2 (pre e a1) hsk
      (by rw [hkd]; exact fun c hc => (hg.dom.inv.lt e c hc).1) hkd (h1 f0 (Nat.le_refl _))).1
    refine ⟨f0 + 1, setReadOnly (setOrphan s2 s.base.size) s.base.size, s.base.size, ?_, fin s2 l (by simpa using h2)⟩
    intro fuel hfu
    obtain ⟨f, rfl⟩ : ∃ f, fuel = f + 1 := ⟨fuel - 1, by omega⟩
    rw [createEntityReference, hf, ← e1]
    simp only []
    rw [hkd, h1 f (by omega)]
    rfl

theorem core {C : Chars} {E : Str → List Tree → Prop} {k : Kind} {r : NsName} {v : Str} {i : List Str} {as ks : List Tree}
    (ha : ∀ t ∈ as, P C E t) (hk : ∀ t ∈ ks, P C E t) : P C E (.node k r v i as ks) := by
  intro mode s n d deep hg hn hm hd hs hC hexp
  have hs0 := hs
  rw [Shows] at hs
  rw [Copyable] at hC
  obtain ⟨s1, s2, s3, s4, s5, s6⟩ := hs
  obtain ⟨c1, c2, c3, c4, c5, c6, c7, c8⟩ := hC
  by_cases hr : k = .entityRef
  · subst hr
    have hat : s.attrs n = [] := hg.attrs_nil (by rw [s1]; nofun)
    unfold attrsOf at s5
    rw [hat] at s5
    have has := showsAll_nil (by simpa using s5)
    subst has
    have hr : r = plain (s.nm n).name := by rw [← s2]; unfold nameOf; rw [s1]
    have hv : v = [] := by rw [← s3]; unfold valueOf; rw [s1]
    have hi : i = [] := by rw [← s4]; unfold idsOf; rw [s1]
    subst hr; subst hv; subst hi
    have hmd := hg.made n hn
    rw [s1] at hmd
    have hmd : DomNames.checkName C.name (s.nm n).name = true := hmd
    obtain ⟨d', hd', hd2⟩ := goesTo_doc hg hn hm (by rw [s1]; nofun)
    rw [hd] at hd'
    cases hd'
    have hCk : CopyableAll C E true ks := by simpa using c8
    obtain ⟨f0, s', m, e1, e2, e3⟩ := ref_shows hg hd2 hmd (hexp _ _ (c6 rfl)) hk hCk hexp
    refine ⟨f0 + 1, s', m, ?_, ?_, fun _ => e3⟩
    · intro fuel hf
      obtain ⟨f, rfl⟩ : ∃ f, fuel = f + 1 := ⟨fuel - 1, by omega⟩
      rw [copyNode, if_pos s1, target_eq, hd]
      simp only []
      rw [if_neg (by rw [hmd]; simp)]
      exact e1 f (by omega)
    · have : (if deep then Tree.node .entityRef (plain (s.nm n).name) [] [] [] ks
          else (Tree.node .entityRef (plain (s.nm n).name) [] [] [] ks).shallow) =
          Tree.node .entityRef (plain (s.nm n).name) [] [] [] ks := by
        cases deep
        · simp [Tree.shallow]
        · rfl
      rw [this]; exact e2
  · have hkn : s.base.kind n ≠ .entityRef := by rw [s1]; exact hr
    obtain ⟨t1, m, em⟩ := make_ok hg hn (mode := mode) (by rw [s1]; exact c1) (by rw [s1]; exact c2) hkn (by
      intro h1 h2
      have hvd : v = s.base.data n := by rw [← s3]; unfold valueOf; rw [h2]
      rw [← hvd]
      exact c5 (by rw [h1]; rfl) (by rw [← s1]; exact h2))
    have b := begun hg hn hm em
    have hid := b.id
    have hlt := begun_lt hg hn b
    have hnm : n < m := by omega
    obtain ⟨n1, n2, n3, n4, n5, n6, n7, n8, n9, n10, n11, n12, n13, n14, n15⟩ := node_fields (b.low n hnm)
    have hp := b.pre (by rw [s1]; exact c2)
    have hdlt : d < s.base.size := by
      obtain ⟨d', hd', hd2⟩ := goesTo_doc hg hn hm (by rw [s1]; exact c2)
      rw [hd] at hd'; cases hd'; exact hd2.1
    have env : Env C E mode d s m t1 := ⟨hg, hid, b.low, hm, hdlt, hexp⟩
    have hsk : SameKids t1 n m := ⟨.inl (by rw [b.kind, n1]), by rw [b.kind]; exact b.notdoc⟩
    have hlk : ∀ c ∈ s.base.kids n, c < m := fun c hc => by rw [hid]; exact (hg.dom.inv.lt n c hc).1
    have hla : ∀ c ∈ s.attrs n, c < m := fun c hc => by rw [hid]; exact (hg.attr n c hc).2.1
    -- the attributes
    obtain ⟨f1, t2, e2, l2, a2, p2, k2⟩ : ∃ f0 t2, (∀ fuel, f0 ≤ fuel →
        (if t1.base.kind n = .element then copyAttrs C fuel mode t1 n m 0 else .ok t1 ()) = .ok t2 ()) ∧ L C m t1 t2 ∧
        ShowsAll t2 as (t2.attrs m) ∧ (∀ b ∈ t2.attrs m, t2.specified b = true) ∧ t2.base.kids m = [] := by
      by_cases he : t1.base.kind n = .element
      · obtain ⟨f0, t2, h1, h2, h3, h4, h5⟩ := copyAttrs_shows (E := E) hd hla (s.attrs n) [] as [] t1 env hp
          (by rw [b.kind, ← n1]; exact he) rfl s5 ha c7 (by rw [b.attrs]; simp only [ShowsAll]) (by rw [b.attrs]; simp) c3
        refine ⟨f0, t2, ?_, h2, by simpa using h3, h4, by rw [h5]; exact b.kids⟩
        intro fuel hf
        rw [if_pos he]; exact h1 fuel hf
      · have hat : s.attrs n = [] := hg.attrs_nil (by rw [← n1]; exact he)
        unfold attrsOf at s5
        rw [hat] at s5
        have has := showsAll_nil (by simpa using s5)
        refine ⟨0, t1, fun fuel _ => by rw [if_neg he], L.refl b.good b.up, ?_, ?_, b.kids⟩
        · rw [has, b.attrs]; simp only [ShowsAll]
        · rw [b.attrs]; simp
    have hp2 := hp.next l2
    have n1' : t2.base.kind n = s.base.kind n := by rw [(node_fields (l2.low n hnm)).1, n1]
    have n5' : t2.base.kids n = s.base.kids n := by rw [(node_fields (l2.low n hnm)).2.2.2.2.1, n5]
    -- the children
    obtain ⟨f2, t3, e3, l3, a3, k3⟩ : ∃ f0 t3, (∀ fuel, f0 ≤ fuel →
        (if deep || t2.base.kind n = .attr then copyKids C fuel mode t2 m (t2.base.kids n).head? else .ok t2 ()) = .ok t3 ()) ∧
        L C m t2 t3 ∧ t3.attrs m = t2.attrs m ∧
        ShowsAll t3 (if deep = true ∨ k = .attr then ks else []) (t3.base.kids m) := by
      by_cases hx : deep = true ∨ k = .attr
      · have hx' : (deep || decide (t2.base.kind n = .attr)) = true := by
          rw [n1', s1]; simpa using hx
        have c8' : CopyableAll C E (!isClone mode) ks := by
          have : (decide (k = .entityRef)) = false := by simpa using hr
          rw [this, Bool.or_false] at c8; exact c8
        obtain ⟨f0, t3, h1, h2⟩ := copyKids_shows (E := E) hd hlk ks (s.base.kids n) [] [] t2 (env.next l2) hp2
          (hsk.next hnm l2) rfl s6 hk c8' (by rw [k2]; simp only [ShowsAll])
        have l := (safe_all C f0).2.2.1 mode t2 n m [] _ t3 hp2 (hsk.next hnm l2) (by rw [n5']; exact hlk) n5' (h1 f0 (Nat.le_refl _))
        refine ⟨f0, t3, ?_, l.1, l.2, by rw [if_pos hx]; simpa using h2⟩
        intro fuel hf
        rw [if_pos hx', n5']; exact h1 fuel hf
      · have hx' : ¬ (deep || decide (t2.base.kind n = .attr)) = true := by
          rw [n1', s1]; simpa using hx
        refine ⟨0, t2, fun fuel _ => by rw [if_neg hx'], L.refl l2.good l2.up, rfl, ?_⟩
        rw [if_neg hx, k2]; simp only [ShowsAll]
    have l := l2.trans l3
    obtain ⟨g1, g2, g3, g4, g5, g6, g7, g8, g9, g10, g11⟩ := l.fields
    obtain ⟨q, r1, r2, r3, r4, r5, r6, r7, r8, r9, r10⟩ := finish_Q (C := C) (mode := mode) hnm hid (Nat.lt_of_lt_of_le hp.lt l.size)
      l.good (b.low.trans l.low) l.up (by rw [g1]; exact b.kind) (by rw [g2]; exact b.doc) (by rw [g3]; exact b.parent)
      (by rw [g9]; exact b.owner) (fun t1 t2 => by rw [g5]; exact b.orphan t1 t2) (by rw [g4]; exact b.ro)
      (by rw [g10]; exact b.specified)
    refine ⟨max f1 f2 + 1, finish mode t3 n m, m, ?_, ?_, ?_⟩
    · intro fuel hf
      obtain ⟨f, rfl⟩ : ∃ f, fuel = f + 1 := ⟨fuel - 1, by omega⟩
      rw [copyNode, if_neg hkn, em]
      simp only [Out.bind]
      rw [e2 f (by omega)]
      simp only []
      rw [e3 f (by omega)]
    · have hgood3 := l.good
      have hup3 := l.up
      have hatt : ShowsAll (finish mode t3 n m) as (attrsOf (finish mode t3 n m) m) := by
        have hlow : ∀ x ∈ t3.attrs m, m < x := fun x hx => hup3 m x (Nat.le_refl _) (.inr hx)
        have h1 : ShowsAll t3 as (t3.attrs m) := by
          rw [a3]
          refine l3.showsAll l2.good l2.up ?_ a2
          intro x hx
          exact ⟨l2.up m x (Nat.le_refl _) (.inr hx), (l2.good.attr m x hx).2.1⟩
        have h2 : attrsOf (finish mode t3 n m) m = t3.attrs m := by
          unfold attrsOf
          rw [r2, List.filter_eq_self]
          intro x hx
          have hxm := hlow x hx
          rw [(view_fields (r3 x (Nat.ne_of_gt hxm))).2.2.2.2.2.2]
          rw [a3] at hx
          rw [(view_fields (l3.kept x hxm (l2.good.attr m x hx).2.1)).2.2.2.2.2.2]
          exact p2 x hx
        rw [h2]
        exact showsAll_above (C := C) hup3 r3 hlow h1
      have hkid : ShowsAll (finish mode t3 n m) (if deep = true ∨ k = .attr then ks else []) ((finish mode t3 n m).base.kids m) := by
        rw [r1]
        exact showsAll_above (C := C) hup3 r3 (fun x hx => hup3 m x (Nat.le_refl _) (.inl hx)) k3
      have htree : (if deep then Tree.node k r v i as ks else (Tree.node k r v i as ks).shallow) =
          Tree.node k r v i as (if deep = true ∨ k = .attr then ks else []) := by
        cases deep
        · simp [Tree.shallow, hr]
        · simp
      rw [htree, Shows]
      refine ⟨by rw [q.kind]; exact s1, ?_, ?_, ?_, hatt, hkid⟩
      · rw [r5]
        have : nameOf t3 m = nameOf t1 m := by unfold nameOf; rw [g1, g7]
        rw [this, b.name ?_, s2]
        intro hka
        cases hcl : isClone mode with
        | true => exact .inl rfl
        | false =>
          have hnn : r = s.nm n := by
            rw [← s2]; unfold nameOf
            rcases hka with e | e <;> rw [e]
          rw [← hnn]
          exact .inr (c4 (by rw [hcl]; rfl) (by rw [← s1]; exact hka))
      · rw [r6]
        have : valueOf t3 m = valueOf t1 m := by unfold valueOf; rw [g1, g6]
        rw [this, b.value, s3]
      · rw [r7]
        have : idsOf t3 m = idsOf t1 m := by unfold idsOf; rw [g1, g11]
        rw [this, b.ids, s4]
    · intro hsp
      by_cases e : s.base.kind n = .attr
      · exact r9 e hsp
      · exact q.specified e

mutual

theorem copies (C : Chars) (E : Str → List Tree → Prop) : (t : Tree) → P C E t
  | .node _ _ _ _ as ks => core (copies_all C E as) (copies_all C E ks)

theorem copies_all (C : Chars) (E : Str → List Tree → Prop) : (ts : List Tree) → ∀ t ∈ ts, P C E t
  | [], _, h => by cases h
  | u :: us, t, h => by
    rcases List.mem_cons.mp h with e | h
    · rw [e]; exact copies C E u
    · exact copies_all C E us t h

end

end Verif.Clone
