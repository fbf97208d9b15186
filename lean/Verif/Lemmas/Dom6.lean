import Verif.Lemmas.Dom5
set_option autoImplicit false
set_option linter.unusedSimpArgs false
set_option linter.unusedVariables false
namespace Verif.Dom
open Verif.Spec.Dom (Anc)

theorem anc_keep {par : Id → Option Id} (hac : ∀ c, ¬ Anc par c c) {c n : Id} (h : Anc par c n) :
    Anc (upd par c none) c n := by
  induction h with
  | parent x hx =>
    refine .parent _ _ ?_
    rw [upd_ne _ _ (by rintro rfl; exact hac x (.parent _ _ hx))]; exact hx
  | above q x hx h ih =>
    refine .above _ q _ ?_ ih
    rw [upd_ne _ _ (by rintro rfl; exact hac x (.above _ _ _ hx h))]; exact hx

/-! ## replacement -/

/-- The tests at the start of `replaceChild`. -/
def replaceOk (s : St) (p c : Id) (old : Option Id) : Prop :=
  hasKids (s.kind p) = true ∧ ¬ (s.kind p = .document ∧ childAllowed .document (s.kind c) = false) ∧
  ¬ (s.kind p = .document ∧ s.kind c = .doctype ∧ s.dtype p = old) ∧
  ¬ (s.kind p = .document ∧ s.kind c = .element ∧ s.root p ≠ none ∧ s.root p ≠ old) ∧ s.ro p = false

theorem replaceV_fail {fuel : Nat} {s : St} {p c : Id} {old : Option Id} (h : ¬ replaceOk s p c old) :
    ∃ e, replaceV (fuel + 1) s p c old = .err e s := by
  rw [replaceV]
  by_cases h1 : hasKids (s.kind p) = false
  · rw [if_pos h1]; exact ⟨_, rfl⟩
  rw [if_neg h1]
  by_cases h2 : s.kind p = .document ∧ childAllowed .document (s.kind c) = false
  · rw [if_pos h2]; exact ⟨_, rfl⟩
  rw [if_neg h2]
  by_cases h3 : s.kind p = .document ∧ s.kind c = .doctype ∧ s.dtype p = old
  · rw [if_pos h3]; exact ⟨_, rfl⟩
  rw [if_neg h3]
  by_cases h4 : s.kind p = .document ∧ s.kind c = .element ∧ s.root p ≠ none ∧ s.root p ≠ old
  · rw [if_pos h4]; exact ⟨_, rfl⟩
  rw [if_neg h4]
  by_cases h5 : s.ro p = true
  · rw [if_pos h5]; exact ⟨_, rfl⟩
  exact absurd ⟨by simpa using h1, h2, h3, h4, by simpa using h5⟩ h

theorem replaceV_go {fuel : Nat} {s : St} {p c : Id} {old : Option Id} (h : replaceOk s p c old) :
    replaceV (fuel + 1) s p c old =
      if s.kind c = .fragment then
        (removeChild s c (s.kids c).getLast?).bind fun s1 _ =>
        match (s.kids c).getLast? with
        | none => .ub
        | some x =>
          (replaceV fuel s1 p x old).bind fun s2 _ =>
          insertV fuel s2 p c (some x)
      else (replacePlain s p c old).bind fun s _ => .ok (docReplaced s p c old) () := by
  obtain ⟨h1, h2, h3, h4, h5⟩ := h
  rw [replaceV, if_neg (by simp [h1]), if_neg h2, if_neg h3, if_neg h4, if_neg (by simp [h5])]
  rfl

theorem replaceV_plain_cases {s : St} (h : Inv s) {p c : Id} (old : Option Id) (fuel : Nat)
    (hp : p < s.size) (hc : c < s.size) (fp : s.freed p = false) (fc : s.freed c = false)
    (hfrag : s.kind c ≠ .fragment) :
    (∃ e s', replaceV (fuel + 1) s p c old = .err e s' ∧ Inv s' ∧ Frame s s' ∧
      (SameTree s s' ∨ (s.parent c ≠ none ∧ ∀ o, old = some o → o ∉ (s.kids p).erase c)) ∧
      (s.doc c ≠ none → (∃ o, old = some o ∧ o ∈ (s.kids p).erase c) → s' = s)) ∨
    (∃ o s', old = some o ∧ o ∈ (s.kids p).erase c ∧
      replaceV (fuel + 1) s p c old = .ok s' () ∧ Inv s' ∧ Frame s s' ∧ replaceOk s p c old ∧
      o ≠ c ∧ s'.kids = Spec.Dom.replaced s.kids p c o ∧
      s'.parent = upd (upd s.parent c (some p)) o none ∧ ¬ AncEq s.parent c p ∧
      (s.doc c ≠ none → s.doc c = s.doc p ∧ childAllowed (s.kind p) (s.kind c) = true) ∧
      (∀ q, s.parent c = some q → s.ro q = false ∧ ¬ (s.kind q = .document ∧ s.dtype q = some c))) := by
  by_cases hok : replaceOk s p c old
  · rw [replaceV_go hok, if_neg hfrag]
    have hself : ¬ (p = c ∧ s.kind c = .document) := by
      rintro ⟨e1, e2⟩
      subst e1
      exact hok.2.1 ⟨e2, by rw [e2]; rfl⟩
    rcases replacePlain_cases (b := false) h old ⟨hp, hc, fp, fc, hok.2.2.2.2, hok.1, hself, hfrag⟩ hok.2.2.2.1
        (by simp) with
      ⟨e, s', he, i, f, _, t⟩ | ⟨o, s', ho, hm, he, i, f, _, t⟩
    · left; exact ⟨e, s', he, i, f, t⟩
    · right; exact ⟨o, s', ho, hm, he, i, f, hok, t⟩
  · obtain ⟨e, he⟩ := replaceV_fail (fuel := fuel) hok
    left; exact ⟨e, s, he, h, Frame.refl s, Or.inl (SameTree.refl s), fun _ _ => rfl⟩

theorem replaceV_succeeds {s : St} (h : Inv s) {p c o : Id} (fuel : Nat)
    (hp : p < s.size) (hc : c < s.size) (fp : s.freed p = false) (fc : s.freed c = false)
    (hok : replaceOk s p c (some o)) (hd : s.doc c ≠ none) (hdoc : s.doc c = s.doc p)
    (hall : childAllowed (s.kind p) (s.kind c) = true) (hanc : ¬ AncEq s.parent c p)
    (hpar : ∀ q, s.parent c = some q → s.ro q = false ∧ ¬ (s.kind q = .document ∧ s.dtype q = some c))
    (href : o ∈ (s.kids p).erase c) : ∃ s', replaceV (fuel + 1) s p c (some o) = .ok s' () := by
  have hck := (childAllowed_kind hall).1
  have hfrag : s.kind c ≠ .fragment := by intro e; rw [e] at hck; cases hck
  obtain ⟨d, hd'⟩ : ∃ d, s.doc c = some d := by
    cases hx : s.doc c with
    | none => exact absurd hx hd
    | some d => exact ⟨d, rfl⟩
  rw [replaceV_go hok, if_neg hfrag]
  unfold replacePlain
  rw [checkCanAdd_ok h hp hd' (by rw [← hdoc]; exact hd') (childKind_not_doc hck) hanc hok.2.2.2.2 hall]
  simp only [Out.bind]
  obtain ⟨s2, h2⟩ := removeIf_ok h hpar
  rcases removeIf_cases (b := false) h c fc with ⟨e2, he2⟩ | ⟨s2', he2, i2, r2, _, _, _⟩
  · rw [h2] at he2; cases he2
  rw [he2]
  simp only []
  cases hs : substChild c o (s2'.kids p) with
  | none =>
    have := (substChild_none c o _).mp hs
    rw [r2.kids] at this
    exact absurd href this
  | some l => exact ⟨_, rfl⟩

/-! ## every call ends -/

/-- No call loops or has undefined behaviour. -/
def Out.Ends {α : Type} : Out α → Prop
  | .ok _ _ => True
  | .err _ _ => True
  | .diverges => False
  | .ub => False

theorem doRemove_ends (s : St) (p : Id) (o : Option Id) : (doRemove s p o).Ends := by
  unfold doRemove
  split
  · trivial
  · cases o with
    | none => trivial
    | some c => simp only []; split <;> trivial

theorem removeChild_ends (s : St) (p : Id) (o : Option Id) : (removeChild s p o).Ends := by
  unfold removeChild
  split
  · trivial
  · split
    · split
      · trivial
      · have := doRemove_ends s p o
        cases hd : doRemove s p o with
        | ok s' a => trivial
        | err e s' => trivial
        | diverges => rw [hd] at this; cases this
        | ub => rw [hd] at this; cases this
    · exact doRemove_ends s p o

theorem insertV_ends : ∀ (n fuel : Nat) (s : St) (p c : Id) (ref : Option Id), Inv s → p < s.size → c < s.size →
    s.freed p = false → s.freed c = false → ¬ (p = c ∧ s.kind c = .document) → (s.kind c = .fragment → p ≠ c) →
    (s.kids c).length = n → n + 2 ≤ fuel → (insertV fuel s p c ref).Ends := by
  intro n
  induction n with
  | zero =>
    intro fuel s p c ref h hp hc fp fc hself hfr hn hf
    obtain ⟨k, rfl⟩ : ∃ k, fuel = k + 1 := ⟨fuel - 1, by omega⟩
    by_cases hk : s.kind c = .fragment
    · by_cases hok : insertOk s p c
      · rw [insertV_go hok, if_pos hk, List.length_eq_zero_iff.mp hn]; trivial
      · obtain ⟨e, t⟩ := insertV_fail (fuel := k) (ref := ref) hok
        rw [t]; trivial
    · rcases insertV_plain_cases h ref k hp hc fp fc hself hk with ⟨e, u, t, _⟩ | ⟨u, t, _⟩ <;> rw [t] <;> trivial
  | succ n ih =>
    intro fuel s p c ref h hp hc fp fc hself hfr hn hf
    obtain ⟨k, rfl⟩ : ∃ k, fuel = k + 1 := ⟨fuel - 1, by omega⟩
    by_cases hk : s.kind c = .fragment
    · by_cases hok : insertOk s p c
      · rw [insertV_go hok, if_pos hk]
        cases hkf : s.kids c with
        | nil => trivial
        | cons x l =>
          simp only []
          have hxm : x ∈ s.kids c := by rw [hkf]; simp
          have hx := h.lt c x hxm
          have hxk := (h.kinds c x hxm).2
          rcases removeChild_cases' (b := false) h c (some x) fc with ⟨e, t⟩ | ⟨c', s1, hc', _, t, i1, r1, _⟩
          · rw [t]; trivial
          cases hc'
          rw [t]
          simp only [Out.bind]
          have f1 := r1.frame
          obtain ⟨k', rfl⟩ : ∃ k', k = k' + 1 := ⟨k - 1, by omega⟩
          rcases insertV_plain_cases i1 (p := p) (c := x) ref k'
            (by rw [f1.size]; exact hp) (by rw [f1.size]; exact hx.1)
            (by rw [f1.freed]; exact fp) (by rw [f1.freed, h.closed c x hxm]; exact fc)
            (by rw [f1.kind]; rintro ⟨_, e⟩; rw [e] at hxk; cases hxk)
            (by rw [f1.kind]; intro e; rw [e] at hxk; cases hxk) with ⟨e, u, t, _⟩ | ⟨u, t, i2, f2, _, k2, _⟩
          · rw [t]; trivial
          rw [t]
          simp only []
          have f12 := f1.trans f2
          refine ih _ u p c ref i2 (by rw [f12.size]; exact hp) (by rw [f12.size]; exact hc)
            (by rw [f12.freed]; exact fp) (by rw [f12.freed]; exact fc) (by rw [f12.kind]; exact hself)
            (fun _ => hfr hk) ?_ (by omega)
          have hxl : x ∉ l := by
            have := h.nodup c
            rw [hkf, List.nodup_cons] at this
            exact this.1
          rw [k2]
          unfold Spec.Dom.inserted
          rw [if_neg (Ne.symm (hfr hk)), r1.kids, hkf]
          rw [hkf] at hn
          simp [List.erase_of_not_mem hxl]
          simpa using hn
      · obtain ⟨e, t⟩ := insertV_fail (fuel := k) (ref := ref) hok
        rw [t]; trivial
    · rcases insertV_plain_cases h ref k hp hc fp fc hself hk with ⟨e, u, t, _⟩ | ⟨u, t, _⟩ <;> rw [t] <;> trivial

theorem dropLast_of_getLast? {l : List Id} {x : Id} (h : l.getLast? = some x) : l = l.dropLast ++ [x] := by
  have hne : l ≠ [] := by rintro rfl; cases h
  rw [List.getLast?_eq_some_getLast hne] at h
  cases h
  exact (List.dropLast_concat_getLast hne).symm

/-- The last child of a fragment has left it. -/
theorem erase_last {s : St} (h : Inv s) {f x : Id} (hl : (s.kids f).getLast? = some x) :
    (s.kids f).erase x = (s.kids f).dropLast := by
  have hd := dropLast_of_getLast? hl
  have hn := h.nodup f
  rw [hd] at hn
  have : x ∉ (s.kids f).dropLast := by
    intro hm
    rw [List.nodup_append] at hn
    exact hn.2.2 x hm x (by simp) rfl
  conv => lhs; rw [hd]
  rw [List.erase_append_right _ this]; simp

theorem replaceV_ends {fuel : Nat} {s : St} {p c : Id} {old : Option Id} (h : Inv s) (hp : p < s.size) (hc : c < s.size)
    (fp : s.freed p = false) (fc : s.freed c = false) (hfr : s.kind c = .fragment → p ≠ c)
    (hf : (s.kids c).length + 2 ≤ fuel) : (replaceV fuel s p c old).Ends := by
  obtain ⟨k, rfl⟩ : ∃ k, fuel = k + 1 := ⟨fuel - 1, by omega⟩
  by_cases hk : s.kind c = .fragment
  · by_cases hok : replaceOk s p c old
    · rw [replaceV_go hok, if_pos hk]
      cases hl : (s.kids c).getLast? with
      | none =>
        rcases removeChild_cases' (b := false) h c none fc with ⟨e, t⟩ | ⟨c', s1, hc', _⟩
        · rw [t]; trivial
        · cases hc'
      | some x =>
        have hxm : x ∈ s.kids c := getLast?_mem' hl
        have hx := h.lt c x hxm
        have hxk := (h.kinds c x hxm).2
        rcases removeChild_cases' (b := false) h c (some x) fc with ⟨e, t⟩ | ⟨c', s1, hc', _, t, i1, r1, _⟩
        · rw [t]; trivial
        cases hc'
        rw [t]
        simp only [Out.bind]
        have f1 := r1.frame
        have hlen : 1 ≤ (s.kids c).length := List.length_pos_of_mem hxm
        obtain ⟨k', rfl⟩ : ∃ k', k = k' + 1 := ⟨k - 1, by omega⟩
        rcases replaceV_plain_cases i1 (p := p) (c := x) old k'
            (by rw [f1.size]; exact hp) (by rw [f1.size]; exact hx.1)
            (by rw [f1.freed]; exact fp) (by rw [f1.freed, h.closed c x hxm]; exact fc)
            (by rw [f1.kind]; intro e; rw [e] at hxk; cases hxk) with ⟨e, u, t, _⟩ | ⟨o, u, _, _, t, i2, f2, _, _, k2, _⟩
        · rw [t]; trivial
        rw [t]
        simp only []
        have f12 := f1.trans f2
        refine insertV_ends ((s.kids c).length - 1) _ u p c (some x) i2 (by rw [f12.size]; exact hp) (by rw [f12.size]; exact hc)
            (by rw [f12.freed]; exact fp) (by rw [f12.freed]; exact fc) (by rw [f12.kind, hk]; simp)
            (fun _ => hfr hk) ?_ (by omega)
        rw [k2]
        unfold Spec.Dom.replaced
        rw [if_neg (Ne.symm (hfr hk)), r1.kids, erase_last h hl]
        rw [List.erase_of_not_mem]
        · simp
        · intro hm
          have hd := dropLast_of_getLast? hl
          have hn := h.nodup c
          rw [hd, List.nodup_append] at hn
          exact hn.2.2 x hm x (by simp) rfl
    · obtain ⟨e, t⟩ := replaceV_fail (fuel := k) hok
      rw [t]; trivial
  · rcases replaceV_plain_cases h old k hp hc fp fc hk with ⟨e, u, t, _⟩ | ⟨o, u, _, _, t, _⟩ <;> rw [t] <;> trivial

/-! ## a fragment in the place of a child -/

theorem beforeAll_map (fs : List Id) (c o : Id) : ∀ (l : List Id), l.Nodup → c ∉ l →
    Spec.Dom.beforeAll fs c (l.map (fun x => if x = o then c else x)) =
      l.flatMap (fun x => if x = o then fs ++ [c] else [x])
  | [], _, _ => rfl
  | a :: l, hn, hc => by
    rw [List.nodup_cons] at hn
    have hca : a ≠ c := fun e => hc (by rw [e]; simp)
    have hcl : c ∉ l := fun e => hc (by simp [e])
    simp only [List.map_cons, List.flatMap_cons]
    by_cases e : a = o
    · rw [if_pos e, if_pos e]
      unfold Spec.Dom.beforeAll
      rw [if_pos rfl]
      have h1 : l.map (fun x => if x = o then c else x) = l := by
        conv => rhs; rw [← List.map_id l]
        apply List.map_congr_left
        intro x hx
        rw [if_neg (by rintro rfl; exact hn.1 (e ▸ hx))]; rfl
      have h2 : l.flatMap (fun x => if x = o then fs ++ [c] else [x]) = l := by
        have : l.flatMap (fun x => if x = o then fs ++ [c] else [x]) = l.flatMap (fun x => [x]) := by
          unfold List.flatMap
          congr 1
          apply List.map_congr_left
          intro x hx
          rw [if_neg (by rintro rfl; exact hn.1 (e ▸ hx))]
        rw [this]; simp
      rw [h1, h2]; simp
    · rw [if_neg e, if_neg e]
      unfold Spec.Dom.beforeAll
      rw [if_neg hca, beforeAll_map fs c o l hn.2 hcl]; rfl

theorem replaceV_fragment {fuel : Nat} {s s' : St} {p f : Id} {old : Option Id} (h : Inv s) (hp : p < s.size)
    (hf : f < s.size) (fp : s.freed p = false) (ff : s.freed f = false) (hk : s.kind f = .fragment)
    (he : replaceV fuel s p f old = .ok s' ()) :
    ∃ o, old = some o ∧ o ∈ s.kids p ∧ p ≠ f ∧ s'.kids = Spec.Dom.splicedOver s.kids p f o := by
  cases fuel with
  | zero => cases he
  | succ k =>
    by_cases hok : replaceOk s p f old
    · rw [replaceV_go hok, if_pos hk] at he
      cases hl : (s.kids f).getLast? with
      | none =>
        rw [hl] at he
        rcases removeChild_cases' (b := false) h f none ff with ⟨e, t⟩ | ⟨c', s1, hc', _⟩
        · rw [t] at he; cases he
        · cases hc'
      | some x =>
        rw [hl] at he
        have hxm : x ∈ s.kids f := getLast?_mem' hl
        have hx := h.lt f x hxm
        have hxk := (h.kinds f x hxm).2
        rcases removeChild_cases' (b := false) h f (some x) ff with ⟨e, t⟩ | ⟨c', s1, hc', _, t, i1, r1, _⟩
        · rw [t] at he; cases he
        cases hc'
        rw [t] at he
        simp only [Out.bind] at he
        have f1 := r1.frame
        cases k with
        | zero => cases he
        | succ k =>
        rcases replaceV_plain_cases i1 (p := p) (c := x) old k
            (by rw [f1.size]; exact hp) (by rw [f1.size]; exact hx.1)
            (by rw [f1.freed]; exact fp) (by rw [f1.freed, h.closed f x hxm]; exact ff)
            (by rw [f1.kind]; intro e; rw [e] at hxk; cases hxk) with
          ⟨e, u, t, _⟩ | ⟨o, u, ho, hm, t, i2, f2, _, hox, k2, _⟩
        · rw [t] at he; cases he
        rw [t] at he
        simp only [] at he
        have f12 := f1.trans f2
        have fr := insertV_fragment (k + 1) u s' p f (some x) i2 (by rw [f12.size]; exact hp) (by rw [f12.size]; exact hf)
            (by rw [f12.freed]; exact fp) (by rw [f12.freed]; exact ff) (by rw [f12.kind]; exact hk) he
        have hmem : x ∈ u.kids p := by
          rw [k2]; unfold Spec.Dom.replaced
          rw [if_pos rfl]
          exact List.mem_map.mpr ⟨o, hm, by simp⟩
        have hpf : p ≠ f := by
          intro e
          refine fr.2 ?_ e
          rw [← e]
          exact List.ne_nil_of_mem hmem
        have hxp : x ∉ s.kids p := h.other hxm hpf
        have k1p : s1.kids p = s.kids p := by
          rw [r1.kids]; exact List.erase_of_not_mem hxp
        have hxd : x ∉ (s.kids f).dropLast := by
          intro hm'
          have hd := dropLast_of_getLast? hl
          have hn := h.nodup f
          rw [hd, List.nodup_append] at hn
          exact hn.2.2 x hm' x (by simp) rfl
        have kuf : u.kids f = (s.kids f).dropLast := by
          rw [k2]; unfold Spec.Dom.replaced
          rw [if_neg (Ne.symm hpf), r1.kids, erase_last h hl, List.erase_of_not_mem hxd]
        have hmo : o ∈ s.kids p := by rw [← k1p]; exact List.mem_of_mem_erase hm
        refine ⟨o, ho, hmo, hpf, ?_⟩
        rw [fr.1]
        funext q
        unfold Spec.Dom.spliced Spec.Dom.splicedOver
        by_cases e1 : q = f
        · rw [if_pos e1, if_pos e1]
        · rw [if_neg e1, if_neg e1]
          by_cases e2 : q = p
          · rw [if_pos e2, if_pos e2, e2, kuf]
            have : u.kids p = (s.kids p).map (fun y => if y = o then x else y) := by
              rw [k2]; unfold Spec.Dom.replaced
              rw [if_pos rfl, k1p, List.erase_of_not_mem hxp]
            rw [this]
            show Spec.Dom.beforeAll _ _ _ = _
            rw [beforeAll_map _ _ _ _ (h.nodup p) hxp, ← dropLast_of_getLast? hl]
          · rw [if_neg e2, if_neg e2, k2]
            unfold Spec.Dom.replaced
            rw [if_neg e2, r1.kids, List.erase_of_not_mem (h.other hxm e1), List.erase_of_not_mem (h.other hxm e1)]
    · obtain ⟨e, t⟩ := replaceV_fail (fuel := k) hok
      rw [t] at he; cases he

end Verif.Dom
