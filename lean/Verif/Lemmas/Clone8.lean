import Verif.Lemmas.Clone7
set_option autoImplicit false
set_option linter.unusedSimpArgs false
set_option linter.unusedVariables false
namespace Verif.Clone
open Verif.Dom (Str Kind Err upd upd_ne upd_same)
open Verif.DomNames (NsName plain)

theorem goesTo_attr {C : Chars} {s : St} (h : Good C s) {e a d : Nat} {mode : Mode} (ha : a ∈ s.attrs e)
    (hd : goesTo s e mode = some d) : goesTo s a mode = some d := by
  cases mode with
  | into x => exact hd
  | clone =>
    show s.base.doc a = some d
    rw [(h.attr e a ha).2.2.2.2]; exact hd

theorem copyAttrs_shows {C : Chars} {E : Str → List Tree → Prop} {mode : Mode} {d : Nat} {s0 : St} {n m : Nat}
    (hd : goesTo s0 n mode = some d) (hlt : ∀ a ∈ s0.attrs n, a < m) :
    ∀ (as pre : List Nat) (ts dT : List Tree) (s : St), Env C E mode d s0 m s → Pre C s mode n m →
      s.base.kind m = .element → s0.attrs n = pre ++ as → ShowsAll s0 ts (as.filter s0.specified) → (∀ t ∈ ts, P C E t) →
      CopyableAll C E (!isClone mode) ts → ShowsAll s dT (s.attrs m) → (∀ b ∈ s.attrs m, s.specified b = true) →
      Apart (dT ++ ts) →
      ∃ f0 s', (∀ fuel, f0 ≤ fuel → copyAttrs C fuel mode s n m pre.length = .ok s' ()) ∧ L C m s s' ∧
        ShowsAll s' (dT ++ ts) (s'.attrs m) ∧ (∀ b ∈ s'.attrs m, s'.specified b = true) ∧ s'.base.kids m = s.base.kids m
  | [], pre, ts, dT, s, env, hp, hk, hc, hs, hP, hC, hdT, hsp, hA => by
    have hat : s.attrs n = s0.attrs n := (node_fields (env.low n hp.low)).2.2.2.2.2.2.2.2.2.2.1
    cases ts with
    | cons t ts => simp only [ShowsAll, List.filter_nil] at hs
    | nil =>
      refine ⟨1, s, ?_, L.refl hp.good hp.up, by rw [List.append_nil]; exact hdT, hsp, rfl⟩
      intro fuel hf
      obtain ⟨f, rfl⟩ : ∃ f, fuel = f + 1 := ⟨fuel - 1, by omega⟩
      rw [copyAttrs, hat, hc]
      simp
  | a :: as, pre, ts, dT, s, env, hp, hk, hc, hs, hP, hC, hdT, hsp, hA => by
    have hid := env.id
    have hat : s.attrs n = s0.attrs n := (node_fields (env.low n hp.low)).2.2.2.2.2.2.2.2.2.2.1
    have hget : (s.attrs n)[pre.length]? = some a := by rw [hat, hc]; simp
    have hma0 : a ∈ s0.attrs n := by rw [hc]; simp
    have hma : a ∈ s.attrs n := by rw [hat]; exact hma0
    have hal : a < m := hlt a hma0
    have hspa : s.specified a = s0.specified a := (node_fields (env.low a hal)).2.2.2.2.2.2.2.2.2.2.2.2.1
    cases hx : s0.specified a with
    | false =>
      rw [List.filter_cons_of_neg (by rw [hx]; nofun)] at hs
      obtain ⟨f1, s', e, r1, r2, r3, r4⟩ := copyAttrs_shows hd hlt as (pre ++ [a]) ts dT s env hp hk (by rw [hc]; simp) hs hP hC hdT hsp hA
      refine ⟨f1 + 1, s', ?_, r1, r2, r3, r4⟩
      intro fuel hf
      obtain ⟨f, rfl⟩ : ∃ f, fuel = f + 1 := ⟨fuel - 1, by omega⟩
      rw [copyAttrs, hget]
      simp only []
      rw [if_neg (by rw [hspa, hx]; nofun)]
      have := e f (by omega)
      rw [List.length_append] at this
      exact this
    | true =>
      rw [List.filter_cons_of_pos (by exact hx)] at hs
      cases ts with
      | nil => simp only [ShowsAll] at hs
      | cons t ts =>
        rw [ShowsAll] at hs
        rw [CopyableAll] at hC
        have hst : Shows s t a := env.good.shows_upto (hid ▸ env.low) (hid ▸ hal) hs.1
        obtain ⟨a1, a2, a3, a4, a5⟩ := hp.good.attr n a hma
        have hgn : goesTo s n mode = some d := by
          cases mode with
          | into x => exact hd
          | clone => show s.base.doc n = some d; rw [(node_fields (env.low n hp.low)).2.1]; exact hd
        obtain ⟨f1, s1, b, e1, hsb, hspec⟩ := hP t List.mem_cons_self mode s a d true hp.good a2 hp.mok
          (goesTo_attr hp.good hma hgn) hst hC.1 env.expn
        have hsb : Shows s1 t b := by simpa using hsb
        have q := copyNode_safe hp.good a2 hp.mok (e1 f1 (Nat.le_refl _))
        obtain ⟨s2, e2, l, z2, k2, v2, t2⟩ := attr_round hp hk hma (decide ((s1.nm a).localName ≠ [])) q
        have hmlt := hp.lt
        have hbid := q.id
        have hblt := q.lt
        have hna : s1.nm a = s.nm a := (node_fields (q.low a a2)).2.2.2.2.2.2.2.2.1
        have hnb : s1.nm b = t.name := by
          rw [← name_attr (by rw [q.kind]; exact a4)]; exact shows_name hsb
        have hnat : s.nm a = t.name := by rw [← name_attr a4]; exact shows_name hst
        have hatm := t2 (by
          intro x hx
          obtain ⟨u, hu, hsu⟩ := showsAll_mem hdT x hx
          obtain ⟨x1, x2, x3, x4, x5⟩ := hp.good.attr m x hx
          have hnx : s.nm x = u.name := by rw [← name_attr x4]; exact shows_name hsu
          have hmd := hp.good.made x x2
          rw [x4, hnx] at hmd
          have hap := (List.pairwise_append.mp hA).2.2 u hu t List.mem_cons_self
          rw [hna, hnat, hnb, hnx]
          exact no_match hmd hap.1 hap.2)
        have hkm : ∀ x ∈ s.attrs m, m < x ∧ x < s.base.size := fun x hx =>
          ⟨hp.up m x (Nat.le_refl _) (.inr hx), (hp.good.attr m x hx).2.1⟩
        have hshow1 : ShowsAll s2 dT (s.attrs m) := l.showsAll hp.good hp.up hkm hdT
        have hup1 : Up m s1 := (q.L hp.lt hp.up).up
        have hshow2 : Shows s2 t b := by
          refine shows_congr (X := fun i => m < i) ?_ ?_ t b (by omega) hsb
          · intro i hi j hj; have := hup1 i j (by omega) hj; omega
          · intro i hi; exact v2 i (by omega)
        have hsp2 : ∀ x ∈ s2.attrs m, s2.specified x = true := by
          rw [hatm]
          intro x hy
          rcases List.mem_append.mp hy with hy | hy
          · have := hkm x hy
            rw [(view_fields (l.kept x this.1 this.2)).2.2.2.2.2.2]
            exact hsp x hy
          · cases List.mem_singleton.mp hy
            rw [(view_fields (v2 b (by omega))).2.2.2.2.2.2]
            exact hspec (by rw [hspa]; exact hx)
        obtain ⟨f2, s', e3, r1, r2, r3, r4⟩ := copyAttrs_shows hd hlt as (pre ++ [a]) ts (dT ++ [t]) s2 (env.next l) (hp.next l)
          (by rw [l.fields.1]; exact hk) (by rw [hc]; simp) hs.2 (fun u hu => hP u (List.mem_cons_of_mem _ hu)) hC.2 (by
            rw [hatm]
            exact showsAll_append hshow1 (by simp only [ShowsAll]; exact ⟨hshow2, trivial⟩)) hsp2 (by
            simpa using hA)
        refine ⟨max f1 f2 + 1, s', ?_, l.trans r1, by simpa using r2, r3, by rw [r4, k2]⟩
        intro fuel hf
        obtain ⟨f, rfl⟩ : ∃ f, fuel = f + 1 := ⟨fuel - 1, by omega⟩
        rw [copyAttrs, hget]
        simp only []
        rw [if_pos (by rw [hspa]; exact hx), e1 f (by omega)]
        simp only [Out.bind]
        rw [e2]
        simp only []
        have := e3 f (by omega)
        rw [List.length_append] at this
        exact this

end Verif.Clone
