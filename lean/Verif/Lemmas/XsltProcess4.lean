import Verif.Lemmas.XsltProcess3
import Verif.Lemmas.XsltTemplates
import Verif.Props.XPathMatch
set_option autoImplicit false
set_option linter.unusedSimpArgs false
set_option linter.unusedVariables false
/-!
# The rule that is chosen
-/
namespace Verif.XsltProcess
open Verif.XTree (World XN Pred nodesLessThan)
open Verif.XPathEval (Env)
open Verif.XPathParse (Expr flat)
open Verif.XPathMatch (MatchExpr compileMatch)
open Verif.XsltCompile (Str Scope)
open Verif.XsltRun (VName Template Stylesheet LikeTemplate Alike Global LikeGlobals like_flat)
open Verif.XsltCompile (Code)
open Verif.Xslt (sortBy sortBy_eq)
open Verif.Spec.XsltProcess
open Verif.Spec.XPathMatch Verif.Spec.XPathEval Verif.Spec.XPathAxes Verif.Spec.XPathNodeSet

/-! ## The first match in a sorted list -/

def before (a b : Rule) : Bool := !decide (b.priority > a.priority)

theorem before_trans (a b c : Rule) (h1 : before a b = true) (h2 : before b c = true) : before a c = true := by
  simp only [before, Bool.not_eq_true', decide_eq_false_iff_not, gt_iff_lt] at *
  grind

theorem before_total (a b : Rule) : (before a b || before b a) = true := by
  simp only [before, Bool.or_eq_true, Bool.not_eq_true', decide_eq_false_iff_not, gt_iff_lt]
  grind

theorem prepareRules_eq (l : List Rule) : prepareRules l = l.reverse.mergeSort before :=
  sortBy_eq before before_trans before_total l.reverse

theorem prepareRules_mem (l : List Rule) (x : Rule) : x ∈ prepareRules l ↔ x ∈ l := by
  rw [prepareRules_eq, List.mem_mergeSort, List.mem_reverse]

theorem prepareRules_stable (l : List Rule) (p : Rule → Bool) (q : Rat) (hp : ∀ a, p a = true → a.priority = q) :
    (prepareRules l).filter p = l.reverse.filter p := by
  rw [prepareRules_eq]
  have hsub : (l.reverse.filter p).Sublist (l.reverse.mergeSort before) := by
    refine List.sublist_mergeSort (le := before) before_trans before_total ?_ List.filter_sublist
    rw [List.pairwise_iff_forall_sublist]
    intro a b hab
    have ha := hp _ (List.mem_filter.mp (hab.subset (List.mem_cons_self))).2
    have hb := hp _ (List.mem_filter.mp (hab.subset (by simp : b ∈ [a, b]))).2
    simp only [before, Bool.not_eq_true', decide_eq_false_iff_not, gt_iff_lt, ha, hb]
    grind
  have h2 := hsub.filter p
  rw [List.filter_filter] at h2
  simp only [Bool.and_self] at h2
  refine (h2.eq_of_length ?_).symm
  exact (((List.mergeSort_perm l.reverse _).filter p).length_eq).symm

theorem prepareRules_find (l : List Rule) (hit : Rule → Bool) (t : Rule) (h : (prepareRules l).find? hit = some t) :
    hit t = true ∧ ∃ l1 l2, l = l1 ++ t :: l2 ∧ (∀ x ∈ l1, hit x = true → x.priority ≤ t.priority) ∧
      (∀ x ∈ l2, hit x = true → x.priority < t.priority) := by
  obtain ⟨ht, s1, s2, hs, hn⟩ := List.find?_eq_some_iff_append.mp h
  refine ⟨ht, ?_⟩
  have hsort := List.pairwise_mergeSort (le := before) before_trans before_total l.reverse
  have hs' : l.reverse.mergeSort before = s1 ++ t :: s2 := by rw [← prepareRules_eq]; exact hs
  rw [hs', List.pairwise_append] at hsort
  have hle : ∀ x ∈ l, hit x = true → x.priority ≤ t.priority := by
    intro x hx hh
    rw [← prepareRules_mem, hs] at hx
    rcases List.mem_append.mp hx with hx | hx
    · have := hn x hx; rw [hh] at this; simp at this
    · rcases List.mem_cons.mp hx with rfl | hx
      · grind
      · have := (List.pairwise_cons.mp hsort.2.1).1 x hx
        simp only [before, Bool.not_eq_true', decide_eq_false_iff_not, gt_iff_lt] at this
        grind
  let p : Rule → Bool := fun x => hit x && decide (x.priority = t.priority)
  have hpt : p t = true := by simp [p, ht]
  have hf := prepareRules_stable l p t.priority (fun a ha => by
    simp only [p, Bool.and_eq_true, decide_eq_true_eq] at ha; exact ha.2)
  rw [hs, List.filter_append] at hf
  have e1 : s1.filter p = [] := by
    rw [List.filter_eq_nil_iff]
    intro a ha
    have := hn a ha
    simp only [p, Bool.and_eq_true, not_and]
    intro h'; rw [h'] at this; simp at this
  rw [e1, List.nil_append, List.filter_cons_of_pos hpt] at hf
  obtain ⟨m1, m2, hm, hm1, _⟩ := List.filter_eq_cons_iff.mp hf.symm
  have hl : l = m2.reverse ++ t :: m1.reverse := by
    have := congrArg List.reverse hm
    rw [List.reverse_reverse] at this
    rw [this]; simp
  refine ⟨m2.reverse, m1.reverse, hl, ?_, ?_⟩
  · intro x hx hh
    exact hle x (by rw [hl]; exact List.mem_append_left _ hx) hh
  · intro x hx hh
    have h1 := hle x (by rw [hl]; exact List.mem_append_right _ (List.mem_cons_of_mem _ hx)) hh
    have h2 := hm1 x (List.mem_reverse.mp hx)
    simp only [p, Bool.and_eq_true, decide_eq_true_eq, not_and] at h2
    have := h2 hh
    grind

/-- The rule that is found is the one that comes last among those with the highest priority. -/
theorem find_unique {l1 l2 : List Rule} {q : Rule} {hit : Rule → Bool} (hq : hit q = true)
    (h1 : ∀ x ∈ l1, hit x = true → x.priority ≤ q.priority) (h2 : ∀ x ∈ l2, hit x = true → x.priority < q.priority) :
    (prepareRules (l1 ++ q :: l2)).find? hit = some q := by
  cases hf : (prepareRules (l1 ++ q :: l2)).find? hit with
  | none =>
    rw [List.find?_eq_none] at hf
    exact absurd hq (hf q ((prepareRules_mem _ _).mpr (by simp)))
  | some t =>
    obtain ⟨ht, m1, m2, hm, h3, h4⟩ := prepareRules_find _ _ _ hf
    rcases List.append_eq_append_iff.mp hm with ⟨as, e1, e2⟩ | ⟨bs, e1, e2⟩
    · cases as with
      | nil => cases e2; rfl
      | cons a as =>
        cases e2
        have g1 := h3 q (by rw [e1]; simp) hq
        have g2 := h2 t (by simp) ht
        grind
    · cases bs with
      | nil => cases e2; rfl
      | cons b bs =>
        cases e2
        have g1 := h1 t (by rw [e1]; simp) ht
        have g2 := h4 q (by simp) hq
        grind

/-! ## Rules in pairs -/

inductive Pairs {α β : Type} (R : α → β → Prop) : List α → List β → Prop where
  | nil : Pairs R [] []
  | cons {a : α} {b : β} {as : List α} {bs : List β} (h : R a b) (hs : Pairs R as bs) : Pairs R (a :: as) (b :: bs)

theorem pairs_append {α β : Type} {R : α → β → Prop} {as as' : List α} {bs bs' : List β} (h : Pairs R as bs)
    (h' : Pairs R as' bs') : Pairs R (as ++ as') (bs ++ bs') := by
  induction h with
  | nil => exact h'
  | cons h _ ih => exact .cons h ih

theorem pairs_split {α β : Type} {R : α → β → Prop} {as : List α} {a : α} {as' : List α} {bs : List β}
    (h : Pairs R (as ++ a :: as') bs) : ∃ cs b cs', bs = cs ++ b :: cs' ∧ Pairs R as cs ∧ R a b ∧ Pairs R as' cs' := by
  induction as generalizing bs with
  | nil =>
    cases h with
    | cons h hs => exact ⟨[], _, _, rfl, .nil, h, hs⟩
  | cons c as ih =>
    cases h with
    | cons h hs =>
      obtain ⟨cs, b, cs', rfl, h1, h2, h3⟩ := ih hs
      exact ⟨_ :: cs, b, cs', rfl, .cons h h1, h2, h3⟩

theorem pairs_right {α β : Type} {R : α → β → Prop} {as : List α} {bs : List β} (h : Pairs R as bs) :
    ∀ b ∈ bs, ∃ a ∈ as, R a b := by
  induction h with
  | nil => exact (fun b hb => by cases hb)
  | cons h _ ih =>
    intro b hb
    rcases List.mem_cons.mp hb with rfl | hb
    · exact ⟨_, List.mem_cons_self, h⟩
    · obtain ⟨a, ha, hr⟩ := ih b hb
      exact ⟨a, List.mem_cons_of_mem _ ha, hr⟩

theorem pairs_of_get {α β : Type} {R : α → β → Prop} : ∀ {as : List α} {bs : List β}, bs.length = as.length →
    (∀ (i : Nat) a b, as[i]? = some a → bs[i]? = some b → R a b) → Pairs R as bs
  | [], [], _, _ => .nil
  | [], _ :: _, h, _ => by cases h
  | _ :: _, [], h, _ => by cases h
  | a :: as, b :: bs, h, hr => .cons (hr 0 a b rfl rfl) (pairs_of_get (Nat.succ.inj h) fun i x y hx hy =>
      hr (i + 1) x y (by simpa using hx) (by simpa using hy))

section
variable (E : Env) (ev : Expr → Pred) (K : Nat → Prop)

/-- A rule of the specification and one of the library. -/
structure Fits (r : Verif.Spec.XsltProcess.Rule) (q : Rule) : Prop where
  mode : q.mode = r.mode
  priority : q.priority = r.priority
  action : LikeTemplate r.action q.action
  ends : ∀ x, NodeIn E.w K x → ∃ F b, (∀ f, F ≤ f → q.pat.evaluate E.w ev E.srt f x = .done b) ∧
    (b = true ↔ Matches (bound r.scope) ev E.w x r.alternative)

/-- With this much fuel the rule of the library is for this node when the other one is. -/
structure FitsAt (f : Nat) (x : XN) (r : Verif.Spec.XsltProcess.Rule) (q : Rule) : Prop where
  mode : q.mode = r.mode
  priority : q.priority = r.priority
  action : LikeTemplate r.action q.action
  hit : Rule.hit E ev f x q = true ↔ Matches (bound r.scope) ev E.w x r.alternative

variable {E ev K}

theorem fits_at {rs : List Verif.Spec.XsltProcess.Rule} {qs : List Rule} (h : Pairs (Fits E ev K) rs qs) {x : XN}
    (hx : NodeIn E.w K x) : ∃ F, ∀ f, F ≤ f → Pairs (FitsAt E ev f x) rs qs := by
  induction h with
  | nil => exact ⟨0, fun _ _ => .nil⟩
  | cons h _ ih =>
    obtain ⟨F1, h1⟩ := ih
    obtain ⟨F2, b, h2, h3⟩ := h.ends x hx
    refine ⟨max F1 F2, fun f hf => .cons ⟨h.mode, h.priority, h.action, ?_⟩ (h1 f (Nat.le_trans (Nat.le_max_left _ _) hf))⟩
    rw [← h3, Rule.hit, h2 f (Nat.le_trans (Nat.le_max_right _ _) hf)]

theorem rule_some {f : Nat} {x : XN} {bef aft : List Verif.Spec.XsltProcess.Rule} {cs cs' : List Rule}
    {r : Verif.Spec.XsltProcess.Rule} {q : Rule} (g1 : Pairs (FitsAt E ev f x) bef cs) (g2 : FitsAt E ev f x r q)
    (g3 : Pairs (FitsAt E ev f x) aft cs') {mode : Str} (hr : r.For ev E.w mode x)
    (h1 : ∀ q ∈ bef, q.For ev E.w mode x → q.priority ≤ r.priority)
    (h2 : ∀ q ∈ aft, q.For ev E.w mode x → q.priority < r.priority) :
    (prepareRules ((cs ++ q :: cs').filter fun r => r.mode = mode)).find? (Rule.hit E ev f x) = some q := by
  obtain ⟨hm, hh⟩ := hr
  rw [List.filter_append, List.filter_cons_of_pos (by simp [g2.mode, hm])]
  refine find_unique (g2.hit.mpr hh) ?_ ?_
  · intro y hy hyh
    obtain ⟨hy, hym⟩ := List.mem_filter.mp hy
    obtain ⟨z, hz, hf⟩ := pairs_right g1 y hy
    rw [hf.priority, g2.priority]
    exact h1 z hz ⟨by rw [← hf.mode]; simpa using hym, hf.hit.mp hyh⟩
  · intro y hy hyh
    obtain ⟨hy, hym⟩ := List.mem_filter.mp hy
    obtain ⟨z, hz, hf⟩ := pairs_right g3 y hy
    rw [hf.priority, g2.priority]
    exact h2 z hz ⟨by rw [← hf.mode]; simpa using hym, hf.hit.mp hyh⟩

theorem rule_none {f : Nat} {x : XN} {rs : List Verif.Spec.XsltProcess.Rule} {qs : List Rule}
    (h : Pairs (FitsAt E ev f x) rs qs) {mode : Str} (hr : ∀ r ∈ rs, ¬ r.For ev E.w mode x) :
    (prepareRules (qs.filter fun r => r.mode = mode)).find? (Rule.hit E ev f x) = none := by
  rw [List.find?_eq_none]
  intro y hy hyh
  rw [prepareRules_mem] at hy
  obtain ⟨hy, hym⟩ := List.mem_filter.mp hy
  obtain ⟨z, hz, hf⟩ := pairs_right h y hy
  exact hr z hz ⟨by rw [← hf.mode]; simpa using hym, hf.hit.mp hyh⟩

/-! ## Patterns -/

/-- What a pattern is compiled to. -/
theorem pattern_compiles {fnNum : Str → Str → Bool} (hev : ∀ e e', flat e = flat e' → ev e = ev e') (hw : Forest E.w)
    (hK : Documents E.w K) (hsrt : StdSort (nodesLessThan E.w) E.srt) {t : Text} {p : List Alternative}
    (h : PatternIs ev fnNum t p) : ∃ ms, compileMatch (prefixes t.scope) fnNum t.text = .ok ms ∧
      ∀ (mode : Str) (q : Option Rat) (a a' : Template), LikeTemplate a a' →
        Pairs (Fits E ev K) (p.map fun b => ⟨mode, t.scope, b, q.getD b.priority, a⟩)
          (ms.map fun m => ⟨mode, m, q.getD m.priority, a'⟩) := by
  obtain ⟨r, hr1, hr2⟩ := h.reads
  obtain ⟨r', hc1, hc2, hc3⟩ := h.close
  obtain ⟨ms, e1, e2, e3⟩ := Verif.Props.XPathMatch.C71_partial (bound t.scope) fnNum p h.some h.ok t.text r hr1 hr2
  obtain ⟨ms', e4, e5⟩ := Verif.Props.XPathMatch.C72_partial (bound t.scope) fnNum p h.some h.ok h.ranked t.text r' hc1 hc2 hc3
  rw [e1] at e4
  cases e4
  refine ⟨ms, e1, fun mode q a a' ha => ?_⟩
  refine pairs_of_get (by simp [e2]) fun i r y hr hy => ?_
  rw [List.getElem?_map, Option.map_eq_some_iff] at hr hy
  obtain ⟨b, hb, rfl⟩ := hr
  obtain ⟨m, hm, rfl⟩ := hy
  refine ⟨rfl, ?_, ha, fun x hx => ?_⟩
  · have := congrArg (·[i]?) e5
    simp only [List.getElem?_map, hb, hm, Option.map_some, Option.some.injEq] at this
    show q.getD m.priority = q.getD b.priority
    rw [this]
  · exact e3 i b m hb hm E.w ev hev (h.plain b (List.mem_of_getElem? hb)) x hw (hK.dom _ hx.1) (hK.expanded _ hx.1)
      (.inl (hK.document _ hx.1)) (hK.small _ hx.1) hx.2 E.srt hsrt

/-! ## Templates -/

/-- A template with its name and what the library makes of it. -/
structure Bound (a : Option VName × Template) (l : Loaded) : Prop where
  name : l.name = a.1
  action : LikeTemplate a.2 l.action

theorem templates_load {fnNum : Str → Str → Bool} {num : Str → Option Rat} (hev : ∀ e e', flat e = flat e' → ev e = ev e')
    (hw : Forest E.w) (hK : Documents E.w K) (hsrt : StdSort (nodesLessThan E.w) E.srt)
    {ts : List (Verif.XsltCompile.Template Text Text VName Rat)} {names : List (Option VName × Template)}
    {rs : List Verif.Spec.XsltProcess.Rule} (h : TemplatesAre ev fnNum ts names rs) :
    ∃ ts' ls, TrRules fnNum num ts ts' ∧ loadRules ts' = some ls ∧ Pairs Bound names ls ∧
      Pairs (Fits E ev K) rs (ls.flatMap (·.rules)) := by
  induction h with
  | nil => exact ⟨[], [], .nil, rfl, .nil, .nil⟩
  | cons t a rs ts names rest ht hr _ ih =>
    obtain ⟨ts', ls, h1, h2, h3, h4⟩ := ih
    obtain ⟨b', a', g1, g2, g3⟩ := template_tr (fnNum := fnNum) (num := num) ht
    cases hr with
    | none hp =>
      refine ⟨⟨none, t.name, t.mode, t.priority, b'⟩ :: ts', ⟨t.name, [], a'⟩ :: ls,
        .cons ⟨.inl ⟨hp, rfl⟩, rfl, rfl, rfl, g1⟩ h1, ?_, .cons ⟨rfl, g3⟩ h3, h4⟩
      rw [loadRules, h2, loadRule, g2]
      rfl
    | pattern p as hp hpat =>
      obtain ⟨ms, e1, e2⟩ := pattern_compiles (E := E) (K := K) hev hw hK hsrt hpat
      refine ⟨⟨some ms, t.name, t.mode, t.priority, b'⟩ :: ts',
        ⟨t.name, ms.map fun m => ⟨modeName t.mode, m, t.priority.getD m.priority, a'⟩, a'⟩ :: ls,
        .cons ⟨.inr ⟨p, ms, hp, rfl, e1⟩, rfl, rfl, rfl, g1⟩ h1, ?_, .cons ⟨rfl, g3⟩ h3, ?_⟩
      · rw [loadRules, h2, loadRule, g2]
        rfl
      · rw [List.flatMap_cons]
        refine pairs_append ?_ h4
        rw [← modeName_text]
        exact e2 _ _ _ _ g3

/-- Global variables are loaded as they are written. -/
theorem globals_load {fnNum : Str → Str → Bool} {num : Str → Option Rat} {cs : List (Code Text VName)} {gs : List Global}
    (h : GlobalsStand cs gs) :
    ∃ cs' gs', TrGlobals fnNum num cs cs' ∧ loadGlobals cs' = some gs' ∧ LikeGlobals gs gs' := by
  induction h with
  | nil => exact ⟨[], [], .nil, rfl, .nil⟩
  | «variable» n v b x cs gs h _ ih =>
    obtain ⟨cs', gs', h1, h2, h3⟩ := ih
    obtain ⟨v', b', y, g1, g2, g3⟩ := value_tr (fnNum := fnNum) (num := num) h
    exact ⟨_, ⟨false, n, y⟩ :: gs', .variable n g1 h1, by rw [loadGlobals, g2, h2]; rfl, .cons (like_flat g3) h3⟩
  | param n v b x cs gs h _ ih =>
    obtain ⟨cs', gs', h1, h2, h3⟩ := ih
    obtain ⟨v', b', y, g1, g2, g3⟩ := value_tr (fnNum := fnNum) (num := num) h
    exact ⟨_, ⟨true, n, y⟩ :: gs', .param n g1 h1, by rw [loadGlobals, g2, h2]; rfl, .cons (like_flat g3) h3⟩

theorem names_of {fnNum : Str → Str → Bool} {ts : List (Verif.XsltCompile.Template Text Text VName Rat)}
    {names : List (Option VName × Template)} {rs : List Verif.Spec.XsltProcess.Rule} (h : TemplatesAre ev fnNum ts names rs) :
    names.filterMap (·.1) = ts.filterMap (·.name) := by
  induction h with
  | nil => rfl
  | cons t a rs ts names rest _ _ _ ih => rw [List.filterMap_cons, List.filterMap_cons, ih]

theorem named_find {names : List (Option VName × Template)} {ls : List Loaded} (h : Pairs Bound names ls) {n : VName}
    {t : Template} (hd : (names.filterMap (·.1)).Nodup) (hm : (some n, t) ∈ names) :
    ∃ l, LikeTemplate t l.action ∧ ls.find? (fun l => l.name = some n) = some l := by
  induction h with
  | nil => cases hm
  | @cons a l as ls h hs ih =>
    obtain ⟨a1, a2⟩ := a
    have hn : l.name = a1 := h.name
    rcases List.mem_cons.mp hm with e | hm'
    · cases e
      exact ⟨l, h.action, by rw [List.find?_cons_of_pos]; simp [hn]⟩
    · have hd' : (as.filterMap (·.1)).Nodup ∧ a1 ≠ some n := by
        cases a1 with
        | none => exact ⟨hd, (fun h => by cases h)⟩
        | some m =>
          rw [List.filterMap_cons] at hd
          have hd := List.nodup_cons.mp hd
          refine ⟨hd.2, fun e => ?_⟩
          cases e
          exact hd.1 (List.mem_filterMap.mpr ⟨(some n, t), hm', rfl⟩)
      obtain ⟨l', g1, g2⟩ := ih hd'.1 hm'
      refine ⟨l', g1, ?_⟩
      rw [List.find?_cons_of_neg]
      · exact g2
      · simp [hn, hd'.2]

/-- The stylesheet the library makes is like the one of the specification. -/
theorem sheet_alike {names : List (Option VName × Template)} {rs : List Verif.Spec.XsltProcess.Rule} {P : Stylesheet}
    {ls : List Loaded} {gs : List Global} (hg : LikeGlobals P.globals gs) (h1 : Pairs Bound names ls) (h2 : Pairs (Fits E ev K) rs (ls.flatMap (·.rules)))
    (hd : (names.filterMap (·.1)).Nodup) (h : Is ev E.w K names rs P) : Alike E.w K P (fun f => sheetOf E ev f ls gs) where
  rule mode x t hx ht := by
    obtain ⟨r, hr, rfl⟩ := h.rule mode x hx t ht
    obtain ⟨hfor, bef, aft, rfl, h3, h4⟩ := hr
    obtain ⟨cs, q, cs', e, g1, g2, g3⟩ := pairs_split h2
    obtain ⟨F1, hF1⟩ := fits_at g1 hx
    obtain ⟨F2, hF2⟩ := fits_at (Pairs.cons g2 .nil) hx
    obtain ⟨F3, hF3⟩ := fits_at g3 hx
    refine ⟨q.action, g2.action, max F1 (max F2 F3), fun f hf => ?_⟩
    have k2 : FitsAt E ev f x r q := by
      cases hF2 f (by omega) with
      | cons h _ => exact h
    show (List.find? _ _).map _ = _
    rw [e, rule_some (hF1 f (by omega)) k2 (hF3 f (by omega)) hfor h3 h4]
    rfl
  builtIn mode x hx hn := by
    obtain ⟨F, hF⟩ := fits_at h2 hx
    refine ⟨F, fun f hf => ?_⟩
    show (List.find? _ _).map _ = none
    rw [rule_none (hF f hf) (h.builtIn mode x hx hn)]
    rfl
  named n t ht := by
    obtain ⟨l, g1, g2⟩ := named_find h1 hd (h.named n t ht)
    refine ⟨l.action, g1, fun f => ?_⟩
    show (List.find? _ _).map _ = _
    rw [g2]
    rfl
  globals := ⟨gs, hg, fun _ => rfl⟩
  cdata f := h.cdata.symm

end

end Verif.XsltProcess
