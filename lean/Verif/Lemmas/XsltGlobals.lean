import Verif.Lemmas.XsltVariables
import Verif.Spec.XsltGlobals
set_option autoImplicit false
set_option linter.unusedSimpArgs false
set_option linter.unusedVariables false
/-! Lemmas about global variables. -/
namespace Verif.Xslt
open Verif.Spec.XsltGlobals

/-- `a` refers to `b`. -/
def Dep (gs : List Global) (a b : VName) : Prop := ∃ g ∈ gs, g.name = a ∧ ∃ r ∈ g.refs, r.name = b

/-- A chain of references. -/
inductive Reach (gs : List Global) : VName → VName → Prop
  | refl (a : VName) : Reach gs a a
  | step (a b c : VName) (h : Dep gs a b) (t : Reach gs b c) : Reach gs a c

theorem Reach.snoc (gs : List Global) (a b c : VName) (h : Reach gs a b) (d : Dep gs b c) : Reach gs a c := by
  induction h with
  | refl a => exact .step _ _ _ d (.refl _)
  | step a b' c' h t ih => exact .step _ _ _ h (ih d)

theorem global_unique (gs : List Global) (hn : (gs.map Global.name).Nodup) (g g' : Global) (h : g ∈ gs)
    (h' : g' ∈ gs) (e : g.name = g'.name) : g = g' := by
  induction gs with
  | nil => cases h
  | cons x gs ih =>
    rw [List.map_cons, List.nodup_cons] at hn
    rcases List.mem_cons.mp h with rfl | h
    · rcases List.mem_cons.mp h' with rfl | h'
      · rfl
      · exact absurd (List.mem_map.mpr ⟨g', h', e.symm⟩) hn.1
    · rcases List.mem_cons.mp h' with rfl | h'
      · exact absurd (List.mem_map.mpr ⟨g, by assumption, e⟩) hn.1
      · exact ih hn.2 (by assumption) (by assumption)

theorem findGlobal_some (gs : List Global) (n : VName) (g : Global) (h : findGlobal gs n = some g) :
    g ∈ gs ∧ g.name = n := by
  unfold findGlobal at h
  exact ⟨List.mem_of_find?_eq_some h, by simpa using List.find?_some h⟩

theorem findGlobal_none (gs : List Global) (n : VName) (h : findGlobal gs n = none) : ∀ g ∈ gs, g.name ≠ n := by
  unfold findGlobal at h
  rw [List.find?_eq_none] at h
  intro g hg; simpa using h g hg

/-- What has a value is not part of a circle. -/
theorem no_circle (gs : List Global) (hn : (gs.map Global.name).Nodup) (n : VName) (v : List Char)
    (h : HasValue gs n v) : ∀ m, Reach gs n m → ¬ Dep gs m n := by
  refine HasValue.rec (motive_1 := fun n v _ => ∀ m, Reach gs n m → ¬ Dep gs m n)
    (motive_2 := fun ns vs _ => ∀ n ∈ ns, ∀ m, Reach gs n m → ¬ Dep gs m n) ?_ ?_ ?_ h
  · intro g vs hg h ih m hr hd
    have hsub : ∀ b, Dep gs g.name b → b ∈ g.refs.map (·.name) := by
      rintro b ⟨g', hg', e, r, hr, rfl⟩
      rw [global_unique gs hn g' g hg' hg e] at hr
      exact List.mem_map.mpr ⟨r, hr, rfl⟩
    cases hr with
    | refl => exact ih g.name (hsub _ hd) g.name (.refl _) hd
    | step _ b _ hab hbc => exact ih b (hsub _ hab) g.name (Reach.snoc _ _ _ _ hbc hd) hab
  · intro n hn; cases hn
  · intro n v ns vs h hs ih1 ih2 x hx
    rcases List.mem_cons.mp hx with rfl | hx
    · exact ih1
    · exact ih2 x hx

/-- All values kept are right. -/
def CacheOk (gs : List Global) (c : VCache) : Prop := ∀ e ∈ c, HasValue gs e.1 e.2

theorem get_mem {υ : Type} (n : VName) (c : List (VName × υ)) (v : υ) (h : get n c = some v) : (n, v) ∈ c := by
  induction c with
  | nil => cases h
  | cons e c ih =>
    rw [get] at h
    by_cases he : e.1 = n
    · rw [if_pos he] at h
      cases h
      have : e = (n, e.2) := by rw [← he]
      rw [← this]; simp
    · rw [if_neg he] at h; exact List.mem_cons_of_mem _ (ih h)

theorem evalRefs_ok (gs : List Global) (ev : List (VName × VName) → VCache → VName → Outcome (List Char × VCache))
    (hev : ∀ a c n v c', CacheOk gs c → ev a c n = .ok (v, c') → HasValue gs n v ∧ CacheOk gs c')
    (self : VName) (active : List (VName × VName)) (rs : List GRef) (c c' : VCache) (vs : List (List Char))
    (hc : CacheOk gs c) (h : evalRefs ev self active rs c = .ok (vs, c')) :
    HaveValues gs (rs.map (·.name)) vs ∧ CacheOk gs c' := by
  induction rs generalizing c vs with
  | nil => cases h; exact ⟨.nil, hc⟩
  | cons r rs ih =>
    rw [evalRefs] at h
    by_cases hg : (r.guarded && decide ((self, r.name) ∈ active)) = true
    · rw [if_pos hg] at h; cases h
    · rw [if_neg hg] at h
      cases he : ev (if r.guarded = true then (self, r.name) :: active else active) c r.name with
      | throws => simp [he] at h
      | deep => simp [he] at h
      | ok x =>
        obtain ⟨v, c1⟩ := x
        simp only [he] at h
        obtain ⟨hv, hc1⟩ := hev _ _ _ _ _ hc he
        cases hr : evalRefs ev self active rs c1 with
        | throws => simp [hr] at h
        | deep => simp [hr] at h
        | ok y =>
          obtain ⟨vs', c2⟩ := y
          simp only [hr, Outcome.ok.injEq, Prod.mk.injEq] at h
          obtain ⟨rfl, rfl⟩ := h
          obtain ⟨h1, h2⟩ := ih c1 vs' hc1 hr
          exact ⟨.cons _ _ _ _ hv h1, h2⟩

theorem evalGlobal_ok (gs : List Global) (k : Nat) (a : List (VName × VName)) (c c' : VCache) (n : VName)
    (v : List Char) (hc : CacheOk gs c) (h : evalGlobal gs k a c n = .ok (v, c')) :
    HasValue gs n v ∧ CacheOk gs c' := by
  induction k generalizing a c c' n v with
  | zero => cases h
  | succ k ih =>
    rw [evalGlobal] at h
    cases hg : get n c with
    | some x =>
      simp only [hg, Outcome.ok.injEq, Prod.mk.injEq] at h
      obtain ⟨rfl, rfl⟩ := h
      exact ⟨hc _ (get_mem _ _ _ hg), hc⟩
    | none =>
      simp only [hg] at h
      cases hf : findGlobal gs n with
      | none => simp [hf] at h
      | some g =>
        simp only [hf] at h
        cases hr : evalRefs (evalGlobal gs k) n a g.refs c with
        | throws => simp [hr] at h
        | deep => simp [hr] at h
        | ok y =>
          obtain ⟨vs, c1⟩ := y
          simp only [hr, Outcome.ok.injEq, Prod.mk.injEq] at h
          obtain ⟨rfl, rfl⟩ := h
          obtain ⟨h1, h2⟩ := evalRefs_ok gs _ (fun a c n v c' hc h => ih a c c' n v hc h) n a g.refs c c1 vs hc hr
          obtain ⟨hm, hname⟩ := findGlobal_some gs n g hf
          have hv : HasValue gs n (g.make vs) := hname ▸ HasValue.make g vs hm h1
          refine ⟨hv, ?_⟩
          intro e he
          rcases List.mem_cons.mp he with rfl | he
          · exact hv
          · exact h2 e he

/-- The references being resolved lead to `n`. -/
def ActiveOk (gs : List Global) (a : List (VName × VName)) (n : VName) : Prop := ∀ p ∈ a, Reach gs p.2 n

theorem evalRefs_nothrow (gs : List Global)
    (ev : List (VName × VName) → VCache → VName → Outcome (List Char × VCache))
    (hev : ∀ a c n v, ActiveOk gs a n → HasValue gs n v → ev a c n ≠ .throws)
    (hn : (gs.map Global.name).Nodup) (self : VName) (v0 : List Char) (hself : HasValue gs self v0)
    (active : List (VName × VName)) (ha : ActiveOk gs active self)
    (rs : List GRef) (hrs : ∀ r ∈ rs, Dep gs self r.name) (vs : List (List Char))
    (hv : HaveValues gs (rs.map (·.name)) vs) (c : VCache) :
    evalRefs ev self active rs c ≠ .throws := by
  induction rs generalizing vs c with
  | nil => rw [evalRefs]; intro h; cases h
  | cons r rs ih =>
    rw [evalRefs]
    have hd := hrs r (by simp)
    have hnot : ¬ (r.guarded && decide ((self, r.name) ∈ active)) = true := by
      intro h
      simp only [Bool.and_eq_true, decide_eq_true_eq] at h
      have hreach := ha _ h.2
      exact no_circle gs hn self v0 hself self (.refl _)
        (by
          exfalso
          cases hv with
          | cons _ v _ vs' h1 h2 =>
            exact no_circle gs hn r.name v h1 self hreach hd)
    rw [if_neg hnot]
    rw [List.map_cons] at hv
    cases hv with
    | cons _ v _ vs' h1 h2 =>
      have hact : ActiveOk gs (if r.guarded = true then (self, r.name) :: active else active) r.name := by
        intro p hp
        have hold : ∀ q ∈ active, Reach gs q.2 r.name := fun q hq => Reach.snoc _ _ _ _ (ha q hq) hd
        by_cases hg : r.guarded = true
        · rw [if_pos hg] at hp
          rcases List.mem_cons.mp hp with rfl | hp
          · exact .refl _
          · exact hold p hp
        · rw [if_neg hg] at hp; exact hold p hp
      have := hev _ c r.name v hact h1
      cases he : ev (if r.guarded = true then (self, r.name) :: active else active) c r.name with
      | throws => exact absurd he this
      | deep => simp
      | ok x =>
        obtain ⟨w, c1⟩ := x
        simp only
        have := ih (fun q hq => hrs q (List.mem_cons_of_mem _ hq)) vs' h2 c1
        cases hr : evalRefs ev self active rs c1 with
        | throws => exact absurd hr this
        | deep => simp
        | ok y => simp

theorem evalGlobal_nothrow (gs : List Global) (hn : (gs.map Global.name).Nodup) (k : Nat)
    (a : List (VName × VName)) (c : VCache) (n : VName) (v : List Char) (ha : ActiveOk gs a n)
    (hv : HasValue gs n v) : evalGlobal gs k a c n ≠ .throws := by
  induction k generalizing a c n v with
  | zero => intro h; cases h
  | succ k ih =>
    rw [evalGlobal]
    cases hg : get n c with
    | some x => simp
    | none =>
      simp only
      have hself := hv
      cases hv with
      | make g vs hm hvs =>
        cases hf : findGlobal gs g.name with
        | none => exact absurd rfl (findGlobal_none gs _ hf g hm)
        | some g' =>
          obtain ⟨hm', hname⟩ := findGlobal_some gs _ g' hf
          have := global_unique gs hn g' g hm' hm hname
          subst this
          simp only
          have := evalRefs_nothrow gs (evalGlobal gs k) (fun a c n v h1 h2 => ih a c n v h1 h2) hn g'.name _ hself a ha
            g'.refs (fun r hr => ⟨g', hm, rfl, r, hr, rfl⟩) vs hvs c
          cases hr : evalRefs (evalGlobal gs k) g'.name a g'.refs c with
          | throws => exact absurd hr this
          | deep => simp
          | ok y => simp

/-- All pairs of a global and a reference. -/
def allRefs (gs : List Global) : List (VName × VName) := gs.flatMap fun g => g.refs.map fun r => (g.name, r.name)

theorem nodup_length {α : Type} [DecidableEq α] (a l : List α) (hn : a.Nodup) (hs : ∀ x ∈ a, x ∈ l) :
    a.length ≤ l.length := by
  induction a generalizing l with
  | nil => simp
  | cons x a ih =>
    rw [List.nodup_cons] at hn
    have hx : x ∈ l := hs x (by simp)
    have := ih (l.erase x) hn.2 (fun y hy => by
      have hne : y ≠ x := fun e => hn.1 (e ▸ hy)
      exact (List.mem_erase_of_ne hne).mpr (hs y (List.mem_cons_of_mem _ hy)))
    rw [List.length_erase_of_mem hx] at this
    have hpos : 0 < l.length := List.length_pos_of_mem hx
    simp only [List.length_cons]
    omega

theorem evalRefs_ends (gs : List Global)
    (ev : List (VName × VName) → VCache → VName → Outcome (List Char × VCache)) (self : VName)
    (active : List (VName × VName)) (hn : active.Nodup) (hs : ∀ x ∈ active, x ∈ allRefs gs)
    (hev : ∀ p c n, (p :: active).Nodup → p ∈ allRefs gs → ev (p :: active) c n ≠ .deep)
    (rs : List GRef) (hrs : ∀ r ∈ rs, r.guarded = true ∧ (self, r.name) ∈ allRefs gs) (c : VCache) :
    evalRefs ev self active rs c ≠ .deep := by
  induction rs generalizing c with
  | nil => rw [evalRefs]; intro h; cases h
  | cons r rs ih =>
    rw [evalRefs]
    obtain ⟨hg, hm⟩ := hrs r (by simp)
    by_cases hin : (self, r.name) ∈ active
    · rw [if_pos (by simp [hg, hin])]; intro h; cases h
    · rw [if_neg (by simp [hg, hin]), if_pos hg]
      have := hev (self, r.name) c r.name (List.nodup_cons.mpr ⟨hin, hn⟩) hm
      cases he : ev ((self, r.name) :: active) c r.name with
      | throws => simp
      | deep => exact absurd he this
      | ok x =>
        obtain ⟨w, c1⟩ := x
        simp only
        have := ih (fun q hq => hrs q (List.mem_cons_of_mem _ hq)) c1
        cases hr : evalRefs ev self active rs c1 with
        | throws => simp
        | deep => exact absurd hr this
        | ok y => simp

theorem evalGlobal_ends (gs : List Global) (hg : ∀ g ∈ gs, ∀ r ∈ g.refs, r.guarded = true) (k : Nat)
    (a : List (VName × VName)) (ha : a.Nodup) (hs : ∀ x ∈ a, x ∈ allRefs gs)
    (hk : (allRefs gs).length < k + a.length) (c : VCache) (n : VName) : evalGlobal gs k a c n ≠ .deep := by
  induction k generalizing a c n with
  | zero => have := nodup_length a _ ha hs; omega
  | succ k ih =>
    rw [evalGlobal]
    cases hg' : get n c with
    | some x => simp
    | none =>
      simp only
      cases hf : findGlobal gs n with
      | none => simp
      | some g =>
        simp only
        obtain ⟨hm, hname⟩ := findGlobal_some gs n g hf
        have := evalRefs_ends gs (evalGlobal gs k) n a ha hs
          (fun p c m hp hm => ih (p :: a) hp
            (by
              intro x hx
              rcases List.mem_cons.mp hx with rfl | hx
              · exact hm
              · exact hs x hx)
            (by simp only [List.length_cons]; omega) c m)
          g.refs (fun r hr => ⟨hg g hm r hr, List.mem_flatMap.mpr ⟨g, hm, List.mem_map.mpr ⟨r, hr, by rw [hname]⟩⟩⟩) c
        cases hr : evalRefs (evalGlobal gs k) n a g.refs c with
        | throws => simp
        | deep => exact absurd hr this
        | ok y => simp

theorem get_cons_ne {υ : Type} (n m : VName) (v : υ) (c : List (VName × υ)) (h : m ≠ n) :
    get n ((m, v) :: c) = get n c := by rw [get, if_neg h]

/-! The cache only grows. -/
def Grows (c c' : VCache) : Prop := ∀ e ∈ c, e ∈ c'

theorem evalRefs_grows (ev : List (VName × VName) → VCache → VName → Outcome (List Char × VCache))
    (hev : ∀ a c n v c', ev a c n = .ok (v, c') → Grows c c' ∧ (n, v) ∈ c') (self : VName)
    (active : List (VName × VName)) (rs : List GRef) (c c' : VCache) (vs : List (List Char))
    (h : evalRefs ev self active rs c = .ok (vs, c')) : Grows c c' := by
  induction rs generalizing c vs with
  | nil => cases h; exact fun e he => he
  | cons r rs ih =>
    rw [evalRefs] at h
    by_cases hg : (r.guarded && decide ((self, r.name) ∈ active)) = true
    · rw [if_pos hg] at h; cases h
    · rw [if_neg hg] at h
      cases he : ev (if r.guarded = true then (self, r.name) :: active else active) c r.name with
      | throws => simp [he] at h
      | deep => simp [he] at h
      | ok x =>
        obtain ⟨v, c1⟩ := x
        simp only [he] at h
        have hg1 := hev _ _ _ _ _ he
        cases hr : evalRefs ev self active rs c1 with
        | throws => simp [hr] at h
        | deep => simp [hr] at h
        | ok y =>
          obtain ⟨vs', c2⟩ := y
          simp only [hr, Outcome.ok.injEq, Prod.mk.injEq] at h
          obtain ⟨rfl, rfl⟩ := h
          exact fun e he => ih c1 vs' hr e (hg1.1 e he)

theorem evalGlobal_grows (gs : List Global) (k : Nat) (a : List (VName × VName)) (c c' : VCache) (n : VName)
    (v : List Char) (h : evalGlobal gs k a c n = .ok (v, c')) : Grows c c' ∧ (n, v) ∈ c' := by
  induction k generalizing a c c' n v with
  | zero => cases h
  | succ k ih =>
    rw [evalGlobal] at h
    cases hg : get n c with
    | some x =>
      simp only [hg, Outcome.ok.injEq, Prod.mk.injEq] at h
      obtain ⟨rfl, rfl⟩ := h
      exact ⟨fun e he => he, get_mem _ _ _ hg⟩
    | none =>
      simp only [hg] at h
      cases hf : findGlobal gs n with
      | none => simp [hf] at h
      | some g =>
        simp only [hf] at h
        cases hr : evalRefs (evalGlobal gs k) n a g.refs c with
        | throws => simp [hr] at h
        | deep => simp [hr] at h
        | ok y =>
          obtain ⟨vs, c1⟩ := y
          simp only [hr, Outcome.ok.injEq, Prod.mk.injEq] at h
          obtain ⟨rfl, rfl⟩ := h
          have := evalRefs_grows _ (fun a c n v c' h => ih a c c' n v h) n a g.refs c c1 vs hr
          exact ⟨fun e he => List.mem_cons_of_mem _ (this e he), by simp⟩

theorem freeze_ok (gs : List Global) (k : Nat) (xs : List VName) (c c' : VCache) (hc : CacheOk gs c)
    (h : freeze gs k xs c = .ok c') : CacheOk gs c' ∧ Grows c c' ∧ ∀ x ∈ xs, ∃ v, (x, v) ∈ c' := by
  induction xs generalizing c with
  | nil => cases h; exact ⟨hc, fun e he => he, fun x hx => by cases hx⟩
  | cons x xs ih =>
    rw [freeze] at h
    cases he : evalGlobal gs k [] c x with
    | throws => simp [he] at h
    | deep => simp [he] at h
    | ok y =>
      obtain ⟨v, c1⟩ := y
      simp only [he] at h
      obtain ⟨hv, hc1⟩ := evalGlobal_ok gs k [] c c1 x v hc he
      obtain ⟨hg1, hm1⟩ := evalGlobal_grows gs k [] c c1 x v he
      obtain ⟨h1, h2, h3⟩ := ih c1 hc1 h
      refine ⟨h1, fun e he => h2 e (hg1 e he), ?_⟩
      intro y hy
      rcases List.mem_cons.mp hy with rfl | hy
      · exact ⟨v, h2 _ hm1⟩
      · exact h3 y hy

theorem freeze_throws (gs : List Global) (hn : (gs.map Global.name).Nodup) (k : Nat) (xs : List VName) (c : VCache)
    (h : freeze gs k xs c = .throws) : ∃ x ∈ xs, ∀ v, ¬ HasValue gs x v := by
  induction xs generalizing c with
  | nil => cases h
  | cons x xs ih =>
    rw [freeze] at h
    cases he : evalGlobal gs k [] c x with
    | throws =>
      refine ⟨x, by simp, fun v hv => ?_⟩
      exact evalGlobal_nothrow gs hn k [] c x v (fun p hp => by cases hp) hv he
    | deep => simp [he] at h
    | ok y =>
      obtain ⟨v, c1⟩ := y
      simp only [he] at h
      obtain ⟨z, hz, hv⟩ := ih c1 h
      exact ⟨z, List.mem_cons_of_mem _ hz, hv⟩

theorem freeze_ends (gs : List Global) (hg : ∀ g ∈ gs, ∀ r ∈ g.refs, r.guarded = true) (k : Nat)
    (hk : (allRefs gs).length < k) (xs : List VName) (c : VCache) : freeze gs k xs c ≠ .deep := by
  induction xs generalizing c with
  | nil => rw [freeze]; intro h; cases h
  | cons x xs ih =>
    rw [freeze]
    have := evalGlobal_ends gs hg k [] (by simp) (fun x hx => by cases hx) (by simpa using hk) c x
    cases he : evalGlobal gs k [] c x with
    | throws => simp
    | deep => exact absurd he this
    | ok y => simpa using ih y.2

/-! Top-level declarations. -/

/-- The scope is right for the declarations seen so far. -/
def TopOk (ds : List TopDecl) (sc : VScope) : Prop :=
  ∀ n, match get n sc with
    | none => ∀ d ∈ ds, d.name ≠ n
    | some i => ∃ d ∈ ds, d.name = n ∧ d.inst = i ∧
        ∀ d' ∈ ds, d'.name = n → d' = d ∨ Spec.XsltVariables.Lower d'.inst.prec i.prec

theorem descendant_lower (p q : List Int) (h : isDescendant p q = true) : Spec.XsltVariables.Lower q p := by
  obtain ⟨c, hc, e⟩ := (isDescendant_iff p q).mp h
  exact Or.inl ⟨c, hc, e⟩

/-- A declaration as it takes effect. -/
theorem declare_step (ds : List TopDecl) (d : TopDecl) (sc : VScope) (hp : d.inst.prec ≠ []) (P : List VScope)
    (s' : VStack) (hok : TopOk ds sc) (h : declareVariable d.name d.inst ⟨[sc], P⟩ = some s') :
    ∃ sc', s' = ⟨[sc'], P⟩ ∧ TopOk (ds ++ [d]) sc' := by
  unfold declareVariable at h
  simp only [List.headD_cons, onTop, frozenPrecedence, hp, false_and, if_false] at h
  have hnew : (∀ x ∈ ds, x.name = d.name → Spec.XsltVariables.Lower x.inst.prec d.inst.prec) →
      TopOk (ds ++ [d]) (put d.name d.inst sc) := by
    intro hlow n
    rw [get_put]
    by_cases hn : n = d.name
    · rw [if_pos hn]
      refine ⟨d, by simp, hn.symm, rfl, ?_⟩
      intro x hx hxn
      rcases List.mem_append.mp hx with hx | hx
      · exact Or.inr (hlow x hx (hxn.trans hn))
      · exact Or.inl (List.mem_singleton.mp hx)
    · rw [if_neg hn]
      have h0 := hok n
      cases hg : get n sc with
      | none =>
        rw [hg] at h0
        intro x hx
        rcases List.mem_append.mp hx with hx | hx
        · exact h0 x hx
        · rw [List.mem_singleton.mp hx]; exact fun e => hn e.symm
      | some i =>
        rw [hg] at h0
        obtain ⟨e, he, h1, h2, h3⟩ := h0
        refine ⟨e, List.mem_append_left _ he, h1, h2, ?_⟩
        intro x hx hxn
        rcases List.mem_append.mp hx with hx | hx
        · exact h3 x hx hxn
        · rw [List.mem_singleton.mp hx] at hxn; exact absurd hxn.symm hn
  have hkeep : ∀ i, get d.name sc = some i → Spec.XsltVariables.Lower d.inst.prec i.prec → TopOk (ds ++ [d]) sc := by
    intro i hi hl n
    have h0 := hok n
    cases hg : get n sc with
    | none =>
      rw [hg] at h0
      intro x hx
      rcases List.mem_append.mp hx with hx | hx
      · exact h0 x hx
      · rw [List.mem_singleton.mp hx]
        intro e; rw [← e, hi] at hg; cases hg
    | some j =>
      rw [hg] at h0
      obtain ⟨e, he, h1, h2, h3⟩ := h0
      refine ⟨e, List.mem_append_left _ he, h1, h2, ?_⟩
      intro x hx hxn
      rcases List.mem_append.mp hx with hx | hx
      · exact h3 x hx hxn
      · rw [List.mem_singleton.mp hx] at hxn ⊢
        rw [← hxn, hi] at hg
        cases hg
        exact Or.inr hl
  have h1 := hok d.name
  cases hg : get d.name sc with
  | none =>
    rw [hg] at h1
    simp only [hg, Option.some.injEq] at h
    exact ⟨_, h.symm, hnew fun x hx hxn => absurd hxn (h1 x hx)⟩
  | some i =>
    rw [hg] at h1
    obtain ⟨e, he, k1, k2, k3⟩ := h1
    simp only [hg] at h
    by_cases heq : d.inst.prec = i.prec
    · rw [if_pos heq] at h; cases h
    · rw [if_neg heq] at h
      by_cases hdesc : isDescendant i.prec d.inst.prec = true
      · rw [if_pos hdesc] at h
        cases h
        exact ⟨sc, rfl, hkeep i hg (descendant_lower _ _ hdesc)⟩
      · rw [if_neg hdesc] at h
        by_cases hgt : precGt i.prec d.inst.prec = true
        · rw [if_pos hgt] at h
          cases h
          exact ⟨sc, rfl, hkeep i hg ((precLt_lower _ _).mp ((precGt_iff _ _).mp hgt))⟩
        · rw [if_neg hgt] at h
          simp only [Option.some.injEq] at h
          refine ⟨_, h.symm, hnew ?_⟩
          have hlt : Spec.XsltVariables.Lower i.prec d.inst.prec := by
            refine (precLt_lower _ _).mp ?_
            rcases precLt_total i.prec d.inst.prec with h' | h' | h'
            · exact absurd h'.symm heq
            · exact h'
            · exact absurd ((precGt_iff _ _).mpr h') hgt
          intro x hx hxn
          rcases k3 x hx hxn with rfl | h'
          · rw [k2]; exact hlt
          · exact lower_trans _ _ _ h' hlt

theorem declareTop_ok (ds ds0 : List TopDecl) (sc : VScope) (hp : ∀ d ∈ ds, d.inst.prec ≠ []) (s' : VStack)
    (hok : TopOk ds0 sc) (h : declareTop ds ⟨[sc], [[], []]⟩ = some s') :
    ∃ sc', s' = ⟨[sc'], [[], []]⟩ ∧ TopOk (ds0 ++ ds) sc' := by
  induction ds generalizing ds0 sc with
  | nil => cases h; exact ⟨sc, rfl, by simpa using hok⟩
  | cons d ds ih =>
    rw [declareTop] at h
    have e : (if d.isParam = true then declareParam d.name d.inst ⟨[sc], [[], []]⟩
        else declareVariable d.name d.inst ⟨[sc], [[], []]⟩) = declareVariable d.name d.inst ⟨[sc], [[], []]⟩ := by
      by_cases hpar : d.isParam = true
      · rw [if_pos hpar]; rfl
      · rw [if_neg hpar]
    rw [e] at h
    cases hd : declareVariable d.name d.inst ⟨[sc], [[], []]⟩ with
    | none => simp [hd] at h
    | some s1 =>
      simp only [hd] at h
      obtain ⟨sc1, rfl, hok1⟩ := declare_step ds0 d sc (hp d (by simp)) _ s1 hok hd
      obtain ⟨sc', h1, h2⟩ := ih (ds0 ++ [d]) sc1 (fun x hx => hp x (List.mem_cons_of_mem _ hx)) hok1 h
      exact ⟨sc', h1, by simpa using h2⟩

theorem declareTop_refused (ds ds0 : List TopDecl) (sc : VScope) (hp : ∀ d ∈ ds, d.inst.prec ≠ [])
    (hok : TopOk ds0 sc) (h : declareTop ds ⟨[sc], [[], []]⟩ = none) :
    ∃ l1 d l2 d', ds0 ++ ds = l1 ++ d :: l2 ∧ d' ∈ l1 ∧ d'.name = d.name ∧ d'.inst.prec = d.inst.prec := by
  induction ds generalizing ds0 sc with
  | nil => cases h
  | cons d ds ih =>
    rw [declareTop] at h
    have e : (if d.isParam = true then declareParam d.name d.inst ⟨[sc], [[], []]⟩
        else declareVariable d.name d.inst ⟨[sc], [[], []]⟩) = declareVariable d.name d.inst ⟨[sc], [[], []]⟩ := by
      by_cases hpar : d.isParam = true
      · rw [if_pos hpar]; rfl
      · rw [if_neg hpar]
    rw [e] at h
    cases hd : declareVariable d.name d.inst ⟨[sc], [[], []]⟩ with
    | some s1 =>
      simp only [hd] at h
      obtain ⟨sc1, rfl, hok1⟩ := declare_step ds0 d sc (hp d (by simp)) _ s1 hok hd
      have := ih (ds0 ++ [d]) sc1 (fun x hx => hp x (List.mem_cons_of_mem _ hx)) hok1 h
      simpa using this
    | none =>
      refine ⟨ds0, d, ds, ?_⟩
      have h1 := hok d.name
      unfold declareVariable at hd
      simp only [List.headD_cons, onTop, frozenPrecedence, hp d (by simp), false_and, if_false] at hd
      cases hg : get d.name sc with
      | none => simp [hg] at hd
      | some i =>
        rw [hg] at h1
        obtain ⟨e, he, k1, k2, k3⟩ := h1
        simp only [hg] at hd
        by_cases heq : d.inst.prec = i.prec
        · exact ⟨e, rfl, he, k1, by rw [k2]; exact heq.symm⟩
        · rw [if_neg heq] at hd
          by_cases hdesc : isDescendant i.prec d.inst.prec = true
          · rw [if_pos hdesc] at hd; cases hd
          · rw [if_neg hdesc] at hd
            by_cases hgt : precGt i.prec d.inst.prec = true
            · rw [if_pos hgt] at hd; cases hd
            · rw [if_neg hgt] at hd; cases hd

/-! Parameters of the stylesheet. -/

theorem declareTop_passed (ds : List TopDecl) (sc P : VScope) (hp : ∀ d ∈ ds, d.inst.prec ≠ [])
    (hP : ∀ e ∈ P, e.2.prec ≠ []) (hn : (ds.map TopDecl.name).Nodup) (hsc : ∀ d ∈ ds, get d.name sc = none) :
    ∃ sc', declareTop ds ⟨[sc], [[], P]⟩ = some ⟨[sc'], [[], P]⟩ ∧
      (∀ d ∈ ds, get d.name sc' = some (if d.isParam then (get d.name P).getD d.inst else d.inst)) ∧
      ∀ n, n ∉ ds.map TopDecl.name → get n sc' = get n sc := by
  induction ds generalizing sc with
  | nil => exact ⟨sc, rfl, fun d hd => (by cases hd), fun n _ => rfl⟩
  | cons d ds ih =>
    rw [List.map_cons, List.nodup_cons] at hn
    have hd := hsc d (by simp)
    have hdecl : ∀ i : Inst, i.prec ≠ [] → declareVariable d.name i ⟨[sc], [[], P]⟩ =
        some ⟨[put d.name i sc], [[], P]⟩ := by
      intro i hi
      unfold declareVariable
      simp [List.headD_cons, onTop, frozenPrecedence, hi, hd]
    let i := if d.isParam then (get d.name P).getD d.inst else d.inst
    have hi : i.prec ≠ [] := by
      show (if d.isParam = true then (get d.name P).getD d.inst else d.inst).prec ≠ []
      by_cases hpar : d.isParam = true
      · rw [if_pos hpar]
        cases hg : get d.name P with
        | none => exact hp d (by simp)
        | some x => exact hP _ (get_mem _ _ _ hg)
      · rw [if_neg hpar]; exact hp d (by simp)
    have hstep : (if d.isParam = true then declareParam d.name d.inst ⟨[sc], [[], P]⟩
        else declareVariable d.name d.inst ⟨[sc], [[], P]⟩) = some ⟨[put d.name i sc], [[], P]⟩ := by
      rw [← hdecl i hi]
      show _ = declareVariable d.name (if d.isParam = true then (get d.name P).getD d.inst else d.inst) _
      by_cases hpar : d.isParam = true
      · rw [if_pos hpar, if_pos hpar]
        unfold declareParam findPassed
        simp only [List.tail_cons, List.headD_cons]
        cases get d.name P <;> rfl
      · rw [if_neg hpar, if_neg hpar]
    rw [declareTop, hstep]
    simp only
    obtain ⟨sc', h1, h2, h3⟩ := ih (put d.name i sc) (fun x hx => hp x (List.mem_cons_of_mem _ hx)) hn.2 (by
      intro x hx
      rw [get_put, if_neg]
      · exact hsc x (List.mem_cons_of_mem _ hx)
      · intro e; exact hn.1 (List.mem_map.mpr ⟨x, hx, e⟩))
    refine ⟨sc', h1, ?_, ?_⟩
    · intro x hx
      rcases List.mem_cons.mp hx with rfl | hx
      · rw [h3 _ hn.1, get_put, if_pos rfl]
      · exact h2 x hx
    · intro n hnn
      rw [List.map_cons, List.mem_cons, not_or] at hnn
      rw [h3 n hnn.2, get_put, if_neg hnn.1]

theorem setParams_bottom (ps : List (VName × List Char)) (P : VScope) (hn : (ps.map Prod.fst).Nodup)
    (hd : ∀ p ∈ ps, get p.1 P = none) (hP : ∀ e ∈ P, e.2.prec ≠ []) (sc : VScope) :
    ∃ P', setParams ps ⟨[sc], [[], P]⟩ = ⟨[sc], [[], P']⟩ ∧ (∀ e ∈ P', e.2.prec ≠ []) ∧
      (∀ p ∈ ps, get p.1 P' = some ⟨[0], some p.2⟩) ∧ ∀ n, n ∉ ps.map Prod.fst → get n P' = get n P := by
  induction ps generalizing P with
  | nil => exact ⟨P, rfl, hP, fun p hp => (by cases hp), fun n _ => rfl⟩
  | cons p ps ih =>
    rw [List.map_cons, List.nodup_cons] at hn
    rw [setParams]
    have e : topLevelParam p.1 ⟨initialPrecedence.prec, some p.2⟩ ⟨[sc], [[], P]⟩ =
        ⟨[sc], [[], put p.1 ⟨[0], some p.2⟩ P]⟩ := rfl
    rw [e]
    obtain ⟨P', h1, h2, h3, h4⟩ := ih (put p.1 ⟨[0], some p.2⟩ P) hn.2 (by
      intro q hq
      rw [get_put, if_neg]
      · exact hd q (List.mem_cons_of_mem _ hq)
      · intro e; exact hn.1 (List.mem_map.mpr ⟨q, hq, e⟩))
      (by
        rw [put_absent _ _ _ (hd p (by simp))]
        intro e he
        rcases List.mem_append.mp he with he | he
        · exact hP e he
        · rw [List.mem_singleton.mp he]; simp)
    refine ⟨P', h1, h2, ?_, ?_⟩
    · intro q hq
      rcases List.mem_cons.mp hq with rfl | hq
      · rw [h4 _ hn.1, get_put, if_pos rfl]
      · exact h3 q hq
    · intro n hnn
      rw [List.map_cons, List.mem_cons, not_or] at hnn
      rw [h4 n hnn.2, get_put, if_neg hnn.1]

end Verif.Xslt
