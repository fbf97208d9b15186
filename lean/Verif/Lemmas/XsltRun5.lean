import Verif.Lemmas.XsltRun4
import Verif.Lemmas.XPathEvalVars
import Verif.Lemmas.XPathMentions
set_option autoImplicit false
set_option linter.unusedSimpArgs false
set_option linter.unusedVariables false
namespace Verif.XsltRun
open Verif.XTree Verif.XPath Verif.XPathEval
open Verif.Spec.XPathAxes Verif.Spec.XPathNodeSet Verif.Spec.XPathEval Verif.Spec.XsltRun
open Verif.XPathParse (Expr)
open Verif.Xslt (Instr Instrs execs)

/-! # Global variables and parameters -/

theorem lookup_mem {α : Type} : ∀ {l : List (VName × α)} {n : VName} {a : α}, l.lookup n = some a → (n, a) ∈ l
  | [], _, _, h => by cases h
  | (m, b) :: l, n, a, h => by
    rw [List.lookup_cons] at h
    split at h
    · rename_i e
      cases h
      rw [eq_of_beq e]
      exact List.mem_cons_self
    · exact List.mem_cons_of_mem _ (lookup_mem h)

theorem lookup_absent {α : Type} : ∀ {l : List (VName × α)} {n : VName}, n ∉ l.map (·.1) → l.lookup n = none
  | [], _, _ => rfl
  | (m, b) :: l, n, h => by
    rw [List.map_cons, List.mem_cons, not_or] at h
    rw [List.lookup_cons, beq_eq_false_iff_ne.mpr h.1]
    exact lookup_absent h.2

theorem lookup_distinct {α : Type} : ∀ {l : List (VName × α)} {n : VName} {a : α}, (l.map (·.1)).Nodup → (n, a) ∈ l →
    l.lookup n = some a
  | [], _, _, _, h => by cases h
  | (m, b) :: l, n, a, hd, h => by
    rw [List.map_cons, List.nodup_cons] at hd
    rcases List.mem_cons.mp h with h | h
    · cases h
      rw [List.lookup_cons, beq_self_eq_true]
    · have : n ≠ m := fun e => hd.1 (e ▸ List.mem_map_of_mem (f := (·.1)) h)
      rw [List.lookup_cons, beq_eq_false_iff_ne.mpr this]
      exact lookup_distinct hd.2 h

theorem lookup_append {α : Type} (n : VName) (r : List (VName × α)) : ∀ l : List (VName × α), n ∉ l.map (·.1) →
    (l ++ r).lookup n = r.lookup n
  | [], _ => rfl
  | (m, b) :: l, h => by
    rw [List.map_cons, List.mem_cons, not_or] at h
    rw [List.cons_append, List.lookup_cons, beq_eq_false_iff_ne.mpr h.1]
    exact lookup_append n r l h.2

theorem lookup_split {α : Type} {n : VName} {a : α} : ∀ {l : List (VName × α)}, l.lookup n = some a →
    ∃ before after, l = before ++ (n, a) :: after ∧ ∀ p ∈ before, p.1 ≠ n
  | [], h => by cases h
  | (m, b) :: l, h => by
    rw [List.lookup_cons] at h
    split at h
    · rename_i e
      cases h
      rw [eq_of_beq e]
      exact ⟨[], l, rfl, fun _ h => by cases h⟩
    · rename_i e
      obtain ⟨before, after, h1, h2⟩ := lookup_split h
      refine ⟨(m, b) :: before, after, by rw [h1]; rfl, fun p hp => ?_⟩
      rcases List.mem_cons.mp hp with rfl | hp
      · intro e'
        rw [show m = n from e', beq_self_eq_true] at e
        cases e
      · exact h2 p hp

theorem supplied_iff {given : List (VName × Argument)} {g : Global} {a : Argument} :
    Supplied given g a ↔ g.param = true ∧ given.reverse.lookup g.name = some a := by
  refine and_congr_right fun _ => ⟨fun ⟨before, after, h1, h2⟩ => ?_, fun h => ?_⟩
  · rw [h1, List.reverse_append, List.reverse_cons, List.append_assoc, lookup_append _ _ _ fun hm => ?_,
      List.cons_append, List.lookup_cons, beq_self_eq_true]
    obtain ⟨p, hp, e⟩ := List.mem_map.mp hm
    exact h2 p (List.mem_reverse.mp hp) e
  · obtain ⟨before, after, h1, h2⟩ := lookup_split h
    refine ⟨after.reverse, before.reverse, ?_, fun p hp => h2 p (List.mem_reverse.mp hp)⟩
    rw [← List.reverse_reverse given, h1, List.reverse_append, List.reverse_cons, List.append_assoc]
    rfl

theorem closure_supplied {given : List (VName × Argument)} {g : Global} {a : Argument} (h : Supplied given g a) :
    closureOf given g = .given a := by
  obtain ⟨h1, h2⟩ := supplied_iff.mp h
  rw [closureOf, if_pos h1, h2]

theorem closure_declared {given : List (VName × Argument)} {g : Global} (h : ¬ ∃ a, Supplied given g a) :
    closureOf given g = .declared g.value := by
  rw [closureOf]
  split
  · rename_i hp
    cases hl : given.reverse.lookup g.name with
    | none => rfl
    | some a => exact absurd ⟨a, supplied_iff.mpr ⟨hp, hl⟩⟩ h
  · rfl

theorem declare_all (given : List (VName × Argument)) : ∀ (gs : List Global) (sc : List (VName × Closure)),
    (gs.map (·.name)).Nodup → (∀ g ∈ gs, g.name ∉ sc.map (·.1)) →
    declareGlobals given gs sc = some ((gs.map fun g => (g.name, closureOf given g)).reverse ++ sc)
  | [], sc, _, _ => rfl
  | g :: gs, sc, hd, hs => by
    rw [List.map_cons, List.nodup_cons] at hd
    rw [declareGlobals, lookup_absent (hs g List.mem_cons_self), if_neg (by simp), declare_all given gs _ hd.2]
    · rw [List.map_cons, List.reverse_cons, List.append_assoc]
      rfl
    · intro k hk
      rw [List.map_cons, List.mem_cons, not_or]
      exact ⟨fun e => hd.1 ((show k.name = g.name from e) ▸ List.mem_map_of_mem (f := (·.name)) hk), hs k (List.mem_cons_of_mem _ hk)⟩

theorem globals_names {gs gs' : List Global} (h : LikeGlobals gs gs') : gs'.map (·.name) = gs.map (·.name) := by
  induction h with
  | nil => rfl
  | cons _ _ ih => rw [List.map_cons, List.map_cons, ih]

theorem globals_mem {gs gs' : List Global} (h : LikeGlobals gs gs') : ∀ g ∈ gs, ∃ e', Like g.value e' ∧
    ({ g with value := e' } : Global) ∈ gs' := by
  induction h with
  | nil => intro g hg; cases hg
  | @cons b n e e' gs gs' h _ ih =>
    intro g hg
    rcases List.mem_cons.mp hg with rfl | hg
    · exact ⟨e', h, List.mem_cons_self⟩
    · obtain ⟨e1, h1, h2⟩ := ih g hg
      exact ⟨e1, h1, List.mem_cons_of_mem _ h2⟩

/-- One bound for all. -/
theorem bound_all {α : Type} {Q : α → Nat → Prop} : ∀ l : List α, (∀ a ∈ l, ∃ F, ∀ f, F ≤ f → Q a f) →
    ∃ F, ∀ a ∈ l, ∀ f, F ≤ f → Q a f
  | [], _ => ⟨0, fun _ h => by cases h⟩
  | a :: l, h => by
    obtain ⟨F, hF⟩ := h a List.mem_cons_self
    obtain ⟨F', hF'⟩ := bound_all l fun b hb => h b (List.mem_cons_of_mem _ hb)
    refine ⟨max F F', fun b hb f hf => ?_⟩
    rcases List.mem_cons.mp hb with rfl | hb
    · exact hF f (by omega)
    · exact hF' b hb f (by omega)

section
variable {S : Setting} {x : XN} {given : List (VName × Argument)} {sc : List (VName × Closure)} {rank : VName → Nat}

/-- With fuel, depth and nothing later under way, the name is resolved to this. -/
def Resolves (S : Setting) (x : XN) (sc : List (VName × Closure)) (rank : VName → Nat) (r : Nat) (n : VName) (m : XVal)
    (F : Nat) : Prop :=
  ∀ f, F ≤ f → ∀ d, F ≤ d → ∀ active : List (VName × VName), (∀ p ∈ active, r ≤ rank p.1) →
    resolve S.E f x sc d active n = .val m

theorem argument_rep (a : Argument) : Rep S.E.w S.K a.value (argument a) := by
  cases a with
  | bool b => exact rep_bool b
  | num n => exact rep_num n
  | str s => exact ⟨rfl, fun l h => by cases h⟩

theorem resolve_one (hx : NodeIn S.E.w S.K x) (hg : GlobalsAre S.R x given S.P.globals S.G)
    (hrank : ∀ g ∈ S.P.globals, (¬ ∃ a, Supplied given g a) → ∀ n ∈ mentions g.value,
      (∃ h ∈ S.P.globals, h.name = n) ∧ rank n < rank g.name)
    (hsc : ∀ g ∈ S.P.globals, ∃ e', Like g.value e' ∧ sc.lookup g.name = some (closureOf given { g with value := e' }))
    {ms : VName → Option XVal} {F r : Nat}
    (h1 : ∀ n m, ms n = some m → ∃ v, S.G n = some v ∧ Rep S.E.w S.K m v ∧ Resolves S x sc rank r n m F)
    (h2 : ∀ g ∈ S.P.globals, rank g.name < r → ∃ m, ms g.name = some m)
    {g : Global} (hm : g ∈ S.P.globals) (hr : rank g.name = r) :
    ∃ m v, S.G g.name = some v ∧ Rep S.E.w S.K m v ∧ ∃ F', Resolves S x sc rank (r + 1) g.name m F' := by
  obtain ⟨e', he, hl⟩ := hsc g hm
  by_cases hs : ∃ a, Supplied given g a
  · obtain ⟨a, ha⟩ := hs
    refine ⟨a.value, argument a, hg.supplied g hm a ha, argument_rep a, 1, fun f _ d hd active _ => ?_⟩
    obtain ⟨d, rfl⟩ : ∃ k, d = k + 1 := ⟨d - 1, by omega⟩
    have : closureOf given { g with value := e' } = .given a :=
      closure_supplied (supplied_iff.mpr (supplied_iff.mp ha))
    rw [resolve, hl, this]
  · obtain ⟨v, hv, hval⟩ := hg.evaluated g hm hs
    have hc := S.hP.globals g hm _ _ 1 (-1) 1 (-1) _ hval
    have hclos : closureOf given { g with value := e' } = .declared e' :=
      closure_declared (g := { g with value := e' }) fun ⟨a, ha⟩ => hs ⟨a, supplied_iff.mpr (supplied_iff.mp ha)⟩
    rw [hclos] at hl
    have hsame : SameAt (fun u n => S.G (u, n)) (fun u n => if (ms (u, n)).isSome then S.G (u, n) else none)
        (mentions g.value) := by
      intro u n hn
      obtain ⟨⟨k, hk, e⟩, hlt⟩ := hrank g hm hs _ hn
      rw [hr, ← e] at hlt
      obtain ⟨m, hm'⟩ := h2 k hk hlt
      rw [e] at hm'
      simp only [hm', Option.isSome_some, if_true]
    have hc1 := hc.1
    have hc2 := hc.2
    rw [means_same _ hsame] at hc1
    rw [sound_same _ hsame] at hc2
    have c : Ctx (S.E.with fun u n => ms (u, n)) S.K (fun u n => if (ms (u, n)).isSome then S.G (u, n) else none) := by
      refine ⟨S.hw, S.hK, S.hsrt, fun u n v' hv' => ?_⟩
      cases hm' : ms (u, n) with
      | none => rw [hm'] at hv'; simp at hv'
      | some m =>
        rw [hm'] at hv'
        simp only [Option.isSome_some, if_true] at hv'
        obtain ⟨v2, g1, g2, _⟩ := h1 _ _ hm'
        rw [hv'] at g1
        cases g1
        exact ⟨m, hm', g2⟩
    obtain ⟨g1, g2⟩ := he.same c x (-1) (-1) hx
    obtain ⟨v', m, h3, h4, F', h5⟩ := c.good e' x (-1) (-1) hx (g1.1 hc2)
    cases means_unique S.hw e' ((g2 hc2 v).1 hc1) h3
    refine ⟨m, v, hv, h4, max F F' + 1, fun f hf d hd active ha => ?_⟩
    obtain ⟨d, rfl⟩ : ∃ k, d = k + 1 := ⟨d - 1, by omega⟩
    rw [resolve, hl]
    refine with_eval (E := S.E.with fun u n => ms (u, n)) (fun u n m0 hm0 => ?_) e' x (-1) (-1) m (h5 f (by omega))
    obtain ⟨_, _, _, hres⟩ := h1 (u, n) m0 hm0
    rw [if_neg fun hin => ?_, hres f (by omega) d (by omega) _ fun p hp => ?_]
    · rfl
    · rcases List.mem_cons.mp hp with rfl | hp
      · exact Nat.le_of_eq hr.symm
      · exact Nat.le_of_succ_le (ha p hp)
    · have := ha _ hin
      simp only [hr] at this
      omega

theorem resolve_all (hx : NodeIn S.E.w S.K x) (hg : GlobalsAre S.R x given S.P.globals S.G)
    (hrank : ∀ g ∈ S.P.globals, (¬ ∃ a, Supplied given g a) → ∀ n ∈ mentions g.value,
      (∃ h ∈ S.P.globals, h.name = n) ∧ rank n < rank g.name)
    (hsc : ∀ g ∈ S.P.globals, ∃ e', Like g.value e' ∧ sc.lookup g.name = some (closureOf given { g with value := e' })) :
    ∀ r, ∃ (ms : VName → Option XVal) (F : Nat),
      (∀ n m, ms n = some m → ∃ v, S.G n = some v ∧ Rep S.E.w S.K m v ∧ Resolves S x sc rank r n m F) ∧
      ∀ g ∈ S.P.globals, rank g.name < r → ∃ m, ms g.name = some m
  | 0 => ⟨fun _ => none, 0, fun _ _ h => (by cases h), fun _ _ h => absurd h (Nat.not_lt_zero _)⟩
  | r + 1 => by
    obtain ⟨ms, F, h1, h2⟩ := resolve_all hx hg hrank hsc r
    have h3 : ∀ n : VName, ∃ o : Option XVal, (∀ m, o = some m → ∃ v, S.G n = some v ∧ Rep S.E.w S.K m v ∧
        ∃ F', Resolves S x sc rank (r + 1) n m F') ∧ ((∃ g ∈ S.P.globals, g.name = n ∧ rank n < r + 1) → ∃ m, o = some m) := by
      intro n
      by_cases hn : ∃ g ∈ S.P.globals, g.name = n ∧ rank n < r + 1
      · obtain ⟨g, hm, rfl, hlt⟩ := hn
        by_cases hr : rank g.name = r
        · obtain ⟨m, v, k1, k2, k3⟩ := resolve_one hx hg hrank hsc h1 h2 hm hr
          exact ⟨some m, fun m' e => by cases e; exact ⟨v, k1, k2, k3⟩, fun _ => ⟨m, rfl⟩⟩
        · obtain ⟨m, hm'⟩ := h2 g hm (by omega)
          obtain ⟨v, k1, k2, k3⟩ := h1 _ _ hm'
          refine ⟨some m, fun m' e => by
            cases e
            exact ⟨v, k1, k2, F, fun f hf d hd active ha => k3 f hf d hd active fun p hp =>
              Nat.le_of_succ_le (ha p hp)⟩, fun _ => ⟨m, rfl⟩⟩
      · exact ⟨none, (fun m e => by cases e), fun h => absurd h hn⟩
    obtain ⟨ms', h4⟩ := Classical.axiomOfChoice h3
    have h5 : ∃ F', ∀ g ∈ S.P.globals, ∀ f, F' ≤ f → ∀ m, ms' g.name = some m → Resolves S x sc rank (r + 1) g.name m f := by
      refine bound_all _ fun g hm => ?_
      cases hm' : ms' g.name with
      | none => exact ⟨0, fun _ _ m e => by cases e⟩
      | some m =>
        obtain ⟨v, _, _, F', k⟩ := (h4 g.name).1 m hm'
        exact ⟨F', fun f hf m' e => by
          cases e
          exact fun f' hf' d hd => k f' (Nat.le_trans hf hf') d (Nat.le_trans hf hd)⟩
    obtain ⟨F', h5⟩ := h5
    refine ⟨ms', F', fun n m e => ?_, fun g hm hlt => (h4 g.name).2 ⟨g, hm, rfl, hlt⟩⟩
    obtain ⟨v, k1, k2, _⟩ := (h4 n).1 m e
    obtain ⟨g, hm, rfl⟩ := hg.only n v k1
    exact ⟨v, k1, k2, h5 g hm F' (Nat.le_refl _) m e⟩

theorem freeze_ends {ms : VName → XVal} {F : Nat} : ∀ (l : List (VName × Closure)),
    (∀ p ∈ l, ∀ f, F ≤ f → resolve S.E f x sc f [] p.1 = .val (ms p.1)) →
    ∀ f, F ≤ f → freezeTopLevel S.E f x sc l = .val (l.map fun p => (p.1, ms p.1))
  | [], _, _, _ => rfl
  | (n, c) :: l, h, f, hf => by
    rw [freezeTopLevel, h _ List.mem_cons_self f hf, Ev.bind, freeze_ends l (fun p hp => h p (List.mem_cons_of_mem _ hp)) f hf]
    rfl

theorem rank_bound (rank : VName → Nat) : ∀ gs : List Global, ∃ r, ∀ g ∈ gs, rank g.name < r
  | [] => ⟨0, fun _ h => by cases h⟩
  | g :: gs => by
    obtain ⟨r, h⟩ := rank_bound rank gs
    refine ⟨max r (rank g.name + 1), fun k hk => ?_⟩
    rcases List.mem_cons.mp hk with rfl | hk
    · omega
    · have := h k hk
      omega

/-- A whole transformation. -/
theorem transform_ends {out : List Instr} (hx : NodeIn S.E.w S.K x) (hg : GlobalsAre S.R x given S.P.globals S.G)
    (h : Gives S.E.w S.E.cv S.R S.P S.G (.rules [] [] [x] 1 1) out) :
    Ends (fun f => transformDocument S.E (S.M f) f given x) (execs { cdata := S.P.cdata } (seq out)) := by
  obtain ⟨gs', hlike, hM⟩ := S.hM.globals
  have hd : (gs'.map (·.name)).Nodup := by rw [globals_names hlike]; exact hg.distinct
  have hdecl := declare_all given gs' [] hd (fun _ _ h => by cases h)
  rw [List.append_nil] at hdecl
  have hnames : ((gs'.map fun g => (g.name, closureOf given g)).reverse.map (·.1)).Nodup := by
    rw [← List.map_reverse, List.map_map]
    show ((gs'.reverse).map (·.name)).Nodup
    rw [List.map_reverse]
    exact (List.reverse_perm _).nodup_iff.mpr hd
  obtain ⟨rank, hrank⟩ := hg.wellFounded
  obtain ⟨r, hr⟩ := rank_bound rank S.P.globals
  obtain ⟨ms, F, h1, h2⟩ := resolve_all (sc := (gs'.map fun g => (g.name, closureOf given g)).reverse) hx hg hrank
    (fun g hm => by
      obtain ⟨e', he, hm'⟩ := globals_mem hlike g hm
      exact ⟨e', he, lookup_distinct hnames (List.mem_reverse.mpr (List.mem_map.mpr ⟨_, hm', rfl⟩))⟩) r
  have hfreeze := freeze_ends (S := S) (x := x) (sc := (gs'.map fun g => (g.name, closureOf given g)).reverse)
    (ms := fun n => (ms n).getD (.bool true)) (F := F) (gs'.map fun g => (g.name, closureOf given g)).reverse fun p hp f hf => by
      obtain ⟨g, hm, rfl⟩ : ∃ g ∈ gs', (g.name, closureOf given g) = p := List.mem_map.mp (List.mem_reverse.mp hp)
      have : g.name ∈ S.P.globals.map (·.name) := by
        rw [← globals_names hlike]
        exact List.mem_map_of_mem (f := (·.name)) hm
      obtain ⟨k, hk, e⟩ := List.mem_map.mp this
      obtain ⟨m, hm'⟩ := h2 k hk (hr k hk)
      rw [e] at hm'
      obtain ⟨_, _, _, hres⟩ := h1 _ _ hm'
      simp only [hm', Option.getD_some]
      exact hres f hf f hf [] (fun _ h => by cases h)
  have hvars : SameVariables S.E.w S.K (fun u n => ((gs'.map fun g => (g.name, closureOf given g)).reverse.map fun p =>
      (p.1, (ms p.1).getD (.bool true))).lookup (u, n)) (fun u n => S.G (u, n)) := by
    intro u n v hv
    simp only at hv
    obtain ⟨g, hm, e⟩ := hg.only _ _ hv
    obtain ⟨m, hm'⟩ := h2 g hm (hr g hm)
    rw [e] at hm'
    obtain ⟨v', k1, k2, _⟩ := h1 _ _ hm'
    rw [hv] at k1
    cases k1
    refine ⟨m, lookup_distinct ?_ ?_, k2⟩
    · rw [List.map_map]
      exact hnames
    · obtain ⟨e', he, hg'⟩ := globals_mem hlike g hm
      refine List.mem_map.mpr ⟨(g.name, closureOf given { g with value := e' }), List.mem_reverse.mpr
        (List.mem_map.mpr ⟨_, hg', rfl⟩), ?_⟩
      simp only [e, hm', Option.getD_some]
  obtain ⟨F', hF'⟩ := started_ends (S := S) given hvars hx h
  refine ⟨max F F', fun f hf => ?_⟩
  have := hF' f (by omega)
  simp only at this ⊢
  rw [transformDocument, hM, hdecl]
  simp only
  rw [hfreeze f (by omega), Ev.bind]
  exact this

end

/-! ## There is one value for each -/

theorem globals_unique {w : World} {cv : Conv} {x : XN} {given : List (VName × Argument)} {gs : List Global}
    {G G' : VName → Option Val} (hw : Forest w) (h : GlobalsAre (byXPath w cv) x given gs G)
    (h' : GlobalsAre (byXPath w cv) x given gs G') : G = G' := by
  obtain ⟨rank, hrank⟩ := h.wellFounded
  have key : ∀ r, ∀ g ∈ gs, rank g.name < r → G g.name = G' g.name := by
    intro r
    induction r with
    | zero => exact fun _ _ h => absurd h (Nat.not_lt_zero _)
    | succ r ih =>
      intro g hg hr
      by_cases hs : ∃ a, Supplied given g a
      · obtain ⟨a, ha⟩ := hs
        rw [h.supplied g hg a ha, h'.supplied g hg a ha]
      · obtain ⟨v, k1, k2⟩ := h.evaluated g hg hs
        obtain ⟨v', k1', k2'⟩ := h'.evaluated g hg hs
        have hsame : SameAt (fun u n => G (u, n)) (fun u n => G' (u, n)) (mentions g.value) := by
          intro u n hn
          obtain ⟨⟨k, hk, e⟩, hlt⟩ := hrank g hg hs _ hn
          have := ih k hk (by rw [e]; omega)
          rw [e] at this
          exact this
        change Means w cv _ _ _ _ _ _ at k2 k2'
        rw [means_same _ hsame] at k2
        rw [k1, k1', means_unique hw g.value k2 k2']
  funext n
  obtain ⟨r, hr⟩ := rank_bound rank gs
  by_cases hn : ∃ g ∈ gs, g.name = n
  · obtain ⟨g, hg, rfl⟩ := hn
    exact key r g hg (hr g hg)
  · cases e : G n with
    | some v => exact absurd (h.only n v e) hn
    | none =>
      cases e' : G' n with
      | some v => exact absurd (h'.only n v e') hn
      | none => rfl

theorem globals_less {R R' : Reading} (h : Less R R') {x : XN} {given : List (VName × Argument)} {gs : List Global}
    {G : VName → Option Val} (hg : GlobalsAre R x given gs G) : GlobalsAre R' x given gs G where
  distinct := hg.distinct
  only := hg.only
  supplied := hg.supplied
  evaluated g hm hs := by
    obtain ⟨v, h1, h2⟩ := hg.evaluated g hm hs
    exact ⟨v, h1, h.value _ _ _ _ _ _ h2⟩
  wellFounded := hg.wellFounded

end Verif.XsltRun
