import Verif.Lemmas.XsltTemplates
set_option autoImplicit false
set_option linter.unusedSimpArgs false
set_option linter.unusedVariables false
/-! Lemmas about template rules: the choice, named templates, running. -/
namespace Verif.Xslt
open Verif.Spec.XsltTemplates
variable {ν : Type}

theorem lookup_rules (ds : List (Decl ν)) (c : Compiled ν) (h : addTemplates {} (ds.map compile) = some c)
    (p : List Int) (m : List Char) :
    lookup2 p m (prepare c).templates = prepared
      (((rules ds).filter (fun r => decide (p = r.decl.prec ∧ m = r.decl.mode))).map toMatch) := by
  rw [prepare_lookup, addTemplates_lookup p m _ _ _ h, matchesOf_compile, List.filter_map]
  rfl

theorem keys_rules (ds : List (Decl ν)) (c : Compiled ν) (h : addTemplates {} (ds.map compile) = some c)
    (p : List Int) :
    p ∈ (prepare c).templates.map Prod.fst ↔ ∃ r ∈ rules ds, p = r.decl.prec := by
  rw [prepare_keys, addTemplates_keys p _ _ _ h, matchesOf_compile]
  constructor
  · rintro (h | ⟨y, hy, hp⟩)
    · simp at h
    · obtain ⟨r, hr, rfl⟩ := List.mem_map.mp hy
      exact ⟨r, hr, hp⟩
  · rintro ⟨r, hr, hp⟩
    exact Or.inr ⟨_, List.mem_map.mpr ⟨r, hr, rfl⟩, hp⟩

theorem search_chosen (ds : List (Decl ν)) (c : Compiled ν) (h : addTemplates {} (ds.map compile) = some c)
    (g : List Int) (m : List Char) (node : ν) (cur : List Int) (t : MatchTemplate ν)
    (hs : (search (prepare c).templates m node (lowerPrecedences g (prepare c).templates) cur).1 = some t) :
    ∃ r, t = toMatch r ∧ Chosen (rules ds) g m node r ∧
      (search (prepare c).templates m node (lowerPrecedences g (prepare c).templates) cur).2 = r.decl.prec := by
  obtain ⟨a, p, b, hps, hcur, hf, hn⟩ := search_some _ _ _ _ _ _ hs
  rw [lookup_rules ds c h] at hf
  obtain ⟨hhit, l1, l2, hl, h1, h2⟩ := find_some _ _ _ hf
  obtain ⟨f1, f23, hfe, hf1, hf23⟩ := List.map_eq_append_iff.mp hl
  obtain ⟨r, f3, hf3e, hr, hf3⟩ := List.map_eq_cons_iff.mp hf23
  subst hf1 hf3 hr hf3e
  obtain ⟨k1, k23, hk, hk1, hk23⟩ := List.filter_eq_append_iff.mp hfe
  obtain ⟨k2, k3, hk2, hk2n, hq, hk3⟩ := List.filter_eq_cons_iff.mp hk23
  have hq' : p = r.decl.prec ∧ m = r.decl.mode := of_decide_eq_true hq
  have hpm : p ∈ lowerPrecedences g (prepare c).templates := by rw [hps]; simp
  have hg := ((lower_mem g p _).mp hpm).2
  have huse : Usable g m node r := by
    refine ⟨hq'.2.symm, hhit, ?_⟩
    rw [← hq'.1]
    exact (isDescendant_iff g p).mp hg
  -- a usable rule is of the same precedence or lower
  have hprec : ∀ x ∈ rules ds, Usable g m node x → x.decl.prec = p ∨ Lower x.decl.prec p := by
    intro x hx hu
    have hxm : x.decl.prec ∈ lowerPrecedences g (prepare c).templates := by
      rw [lower_mem, keys_rules ds c h]
      exact ⟨⟨x, hx, rfl⟩, (isDescendant_iff _ _).mpr hu.2.2⟩
    rw [hps] at hxm
    rcases List.mem_append.mp hxm with hxa | hxb
    · have := hn _ hxa
      rw [lookup_rules ds c h] at this
      have hno := find_none _ _ this (toMatch x) (List.mem_map.mpr ⟨x, List.mem_filter.mpr
        ⟨hx, decide_eq_true ⟨rfl, hu.1.symm⟩⟩, rfl⟩)
      have : x.hit node = true := hu.2.1
      simp only [toMatch] at hno
      rw [this] at hno; cases hno
    · rcases List.mem_cons.mp hxb with hxb | hxb
      · exact Or.inl hxb
      · have hsort := lower_sorted g (prepare c).templates
        rw [hps, List.pairwise_append] at hsort
        rcases (List.pairwise_cons.mp hsort.2.1).1 _ hxb with h' | h'
        · exact Or.inl h'.symm
        · exact Or.inr ((precLt_lower _ _).mp h')
  have hR : rules ds = (k1 ++ k2) ++ r :: k3 := by rw [hk, hk2]; simp
  refine ⟨r, rfl, ⟨k1 ++ k2, k3, hR, huse, ?_, ?_⟩, by rw [hcur]; exact hq'.1⟩
  · intro x hx hu
    have hxr : x ∈ rules ds := by rw [hR]; exact List.mem_append_left _ hx
    rcases hprec x hxr hu with hp | hp
    · right
      refine ⟨hp.trans hq'.1, ?_⟩
      rcases List.mem_append.mp hx with hx | hx
      · exact h1 (toMatch x) (List.mem_map.mpr ⟨x, by
          rw [← hk1]; exact List.mem_filter.mpr ⟨hx, decide_eq_true ⟨hp.symm, hu.1.symm⟩⟩, rfl⟩) hu.2.1
      · exact absurd (decide_eq_true ⟨hp.symm, hu.1.symm⟩) (hk2n x hx)
    · left; rw [← hq'.1]; exact hp
  · intro x hx hu
    have hxr : x ∈ rules ds := by rw [hR]; exact List.mem_append_right _ (List.mem_cons_of_mem _ hx)
    rcases hprec x hxr hu with hp | hp
    · right
      refine ⟨hp.trans hq'.1, ?_⟩
      exact h2 (toMatch x) (List.mem_map.mpr ⟨x, by
          rw [← hk3]; exact List.mem_filter.mpr ⟨hx, decide_eq_true ⟨hp.symm, hu.1.symm⟩⟩, rfl⟩) hu.2.1
    · left; rw [← hq'.1]; exact hp

theorem search_unusable (ds : List (Decl ν)) (c : Compiled ν) (h : addTemplates {} (ds.map compile) = some c)
    (g : List Int) (m : List Char) (node : ν) (cur : List Int)
    (hs : (search (prepare c).templates m node (lowerPrecedences g (prepare c).templates) cur).1 = none) :
    ∀ r ∈ rules ds, ¬ Usable g m node r := by
  intro x hx hu
  have hxm : x.decl.prec ∈ lowerPrecedences g (prepare c).templates := by
    rw [lower_mem, keys_rules ds c h]
    exact ⟨⟨x, hx, rfl⟩, (isDescendant_iff _ _).mpr hu.2.2⟩
  have := search_none _ _ _ _ _ hs _ hxm
  rw [lookup_rules ds c h] at this
  have hno := find_none _ _ this (toMatch x) (List.mem_map.mpr ⟨x, List.mem_filter.mpr
    ⟨hx, decide_eq_true ⟨rfl, hu.1.symm⟩⟩, rfl⟩)
  have : x.hit node = true := hu.2.1
  simp only [toMatch] at hno
  rw [this] at hno; cases hno

theorem lower_irrefl (p : List Int) : ¬ Lower p p := by
  rw [← precLt_lower, precLt_irrefl]; simp

theorem lower_asymm (p q : List Int) (h : Lower p q) : ¬ Lower q p := by
  intro h'
  rw [← precLt_lower] at h h'
  have := precLt_trans p q p h h'
  rw [precLt_irrefl] at this; cases this

/-- There is only one rule to choose. -/
theorem chosen_unique (rs : List (Rule ν)) (g : List Int) (m : List Char) (node : ν) (r r' : Rule ν)
    (h : Chosen rs g m node r) (h' : Chosen rs g m node r') : r = r' := by
  obtain ⟨l1, l2, e, hu, a1, a2⟩ := h
  obtain ⟨k1, k2, e', hu', b1, b2⟩ := h'
  rw [e] at e'
  rcases List.append_eq_append_iff.mp e' with ⟨d, hd1, hd2⟩ | ⟨d, hd1, hd2⟩
  · cases d with
    | nil => simp only [List.nil_append, List.cons.injEq] at hd2; exact hd2.1
    | cons x d =>
      simp only [List.cons_append, List.cons.injEq] at hd2
      have m1 : r ∈ k1 := by rw [hd1, ← hd2.1]; simp
      have m2 : r' ∈ l2 := by rw [hd2.2]; simp
      have q1 := b1 r m1 hu
      have q2 := a2 r' m2 hu'
      exfalso
      rcases q1 with q1 | q1
      · rcases q2 with q2 | q2
        · exact lower_asymm _ _ q1 q2
        · rw [q2.1] at q1; exact lower_irrefl _ q1
      · rcases q2 with q2 | q2
        · rw [q1.1] at q2; exact lower_irrefl _ q2
        · have h1 := q1.2; have h2 := q2.2; grind
  · cases d with
    | nil => simp only [List.nil_append, List.cons.injEq] at hd2; exact hd2.1.symm
    | cons x d =>
      simp only [List.cons_append, List.cons.injEq] at hd2
      have m1 : r' ∈ l1 := by rw [hd1, ← hd2.1]; simp
      have m2 : r ∈ k2 := by rw [hd2.2]; simp
      have q1 := a1 r' m1 hu'
      have q2 := b2 r m2 hu
      exfalso
      rcases q1 with q1 | q1
      · rcases q2 with q2 | q2
        · exact lower_asymm _ _ q1 q2
        · rw [q2.1] at q1; exact lower_irrefl _ q1
      · rcases q2 with q2 | q2
        · rw [q1.1] at q2; exact lower_irrefl _ q2
        · have h1 := q1.2; have h2 := q2.2; grind

/-! Named templates. -/

/-- The named templates are right for the templates seen so far. -/
def NamedOk (ts : List (Templ ν)) (named : List (List Char × Templ ν)) : Prop :=
  ∀ n, n ≠ [] →
    match get n named with
    | none => ∀ t ∈ ts, t.name ≠ n
    | some e => e ∈ ts ∧ e.name = n ∧ ∀ t ∈ ts, t.name = n → t = e ∨ Lower t.prec e.prec

theorem lower_trans (p q r : List Int) (h : Lower p q) (h' : Lower q r) : Lower p r := by
  rw [← precLt_lower] at *
  exact precLt_trans p q r h h'

theorem addTemplate_named (c c' : Compiled ν) (t : Templ ν) (ts : List (Templ ν)) (hc : NamedOk ts c.named)
    (h : addTemplate c t = some c') : NamedOk (ts ++ [t]) c'.named := by
  unfold addTemplate at h
  by_cases hn : t.name.isEmpty
  · simp only [hn, if_true, Option.some.injEq] at h
    rw [← h]
    intro n hne
    have h0 := hc n hne
    have htn : t.name ≠ n := by
      intro e; rw [List.isEmpty_iff] at hn; exact hne (e.symm.trans hn)
    simp only
    cases hg : get n c.named with
    | none =>
      simp only [hg] at h0 ⊢
      intro x hx
      rcases List.mem_append.mp hx with hx | hx
      · exact h0 x hx
      · rw [List.mem_singleton.mp hx]; exact htn
    | some e =>
      simp only [hg] at h0 ⊢
      refine ⟨List.mem_append_left _ h0.1, h0.2.1, ?_⟩
      intro x hx hxn
      rcases List.mem_append.mp hx with hx | hx
      · exact h0.2.2 x hx hxn
      · rw [List.mem_singleton.mp hx] at hxn; exact absurd hxn htn
  · simp only [hn, Bool.false_eq_true, if_false] at h
    have hne0 : t.name ≠ [] := by simpa [List.isEmpty_iff] using hn
    have h1 := hc t.name hne0
    -- replacing
    have repl : (∀ x ∈ ts, x.name = t.name → Lower x.prec t.prec) →
        NamedOk (ts ++ [t]) (upd t.name t (fun _ => t) c.named) := by
      intro hlow n hne
      have h0 := hc n hne
      rw [get_upd]
      by_cases hnt : n = t.name
      · rw [if_pos hnt]
        simp only
        refine ⟨by simp, hnt.symm, ?_⟩
        intro x hx hxn
        rcases List.mem_append.mp hx with hx | hx
        · exact Or.inr (hlow x hx (hxn.trans hnt))
        · exact Or.inl (List.mem_singleton.mp hx)
      · rw [if_neg hnt]
        cases hg : get n c.named with
        | none =>
          simp only [hg] at h0 ⊢
          intro x hx
          rcases List.mem_append.mp hx with hx | hx
          · exact h0 x hx
          · rw [List.mem_singleton.mp hx]; exact fun e => hnt e.symm
        | some e =>
          simp only [hg] at h0 ⊢
          refine ⟨List.mem_append_left _ h0.1, h0.2.1, ?_⟩
          intro x hx hxn
          rcases List.mem_append.mp hx with hx | hx
          · exact h0.2.2 x hx hxn
          · rw [List.mem_singleton.mp hx] at hxn; exact absurd hxn.symm hnt
    cases hg : get t.name c.named with
    | none =>
      simp only [hg, Option.some.injEq] at h h1
      rw [← h]
      exact repl fun x hx hxn => absurd hxn (h1 x hx)
    | some e =>
      simp only [hg] at h h1
      by_cases hgt : precGt e.prec t.prec
      · rw [if_pos hgt] at h
        simp only [Option.some.injEq] at h
        rw [← h]
        have hlt : Lower t.prec e.prec := (precLt_lower _ _).mp ((precGt_iff _ _).mp hgt)
        intro n hne
        have h0 := hc n hne
        simp only
        cases hg' : get n c.named with
        | none =>
          simp only [hg'] at h0 ⊢
          intro x hx
          rcases List.mem_append.mp hx with hx | hx
          · exact h0 x hx
          · rw [List.mem_singleton.mp hx]
            intro e'; rw [← e', hg] at hg'; cases hg'
        | some e2 =>
          simp only [hg'] at h0 ⊢
          refine ⟨List.mem_append_left _ h0.1, h0.2.1, ?_⟩
          intro x hx hxn
          rcases List.mem_append.mp hx with hx | hx
          · exact h0.2.2 x hx hxn
          · rw [List.mem_singleton.mp hx] at hxn ⊢
            rw [← hxn, hg] at hg'
            cases hg'
            exact Or.inr hlt
      · rw [if_neg hgt] at h
        by_cases heq : e.prec = t.prec
        · rw [if_pos heq] at h; cases h
        · rw [if_neg heq] at h
          simp only [Option.some.injEq] at h
          rw [← h]
          apply repl
          have hlt : Lower e.prec t.prec := by
            rw [← precLt_lower]
            rcases precLt_total e.prec t.prec with h' | h' | h'
            · exact absurd h' heq
            · exact h'
            · exact absurd ((precGt_iff _ _).mpr h') hgt
          intro x hx hxn
          rcases h1.2.2 x hx hxn with rfl | h'
          · exact hlt
          · exact lower_trans _ _ _ h' hlt

theorem addTemplates_named (ts ts0 : List (Templ ν)) (c c' : Compiled ν) (hc : NamedOk ts0 c.named)
    (h : addTemplates c ts = some c') : NamedOk (ts0 ++ ts) c'.named := by
  induction ts generalizing c ts0 with
  | nil => simp only [addTemplates, Option.some.injEq] at h; subst h; simpa using hc
  | cons t ts ih =>
    rw [addTemplates] at h
    cases ha : addTemplate c t with
    | none => simp [ha] at h
    | some c1 =>
      simp only [ha] at h
      have := ih (ts0 ++ [t]) c1 (addTemplate_named c c1 t ts0 hc ha) h
      simpa using this

theorem addTemplates_refused (ts ts0 : List (Templ ν)) (c : Compiled ν) (hc : NamedOk ts0 c.named)
    (h : addTemplates c ts = none) :
    ∃ l1 t l2 t', ts0 ++ ts = l1 ++ t :: l2 ∧ t' ∈ l1 ∧ t.name ≠ [] ∧ t'.name = t.name ∧ t'.prec = t.prec := by
  induction ts generalizing c ts0 with
  | nil => simp [addTemplates] at h
  | cons t ts ih =>
    rw [addTemplates] at h
    cases ha : addTemplate c t with
    | some c1 =>
      simp only [ha] at h
      have := ih (ts0 ++ [t]) c1 (addTemplate_named c c1 t ts0 hc ha) h
      simpa using this
    | none =>
      refine ⟨ts0, t, ts, ?_⟩
      unfold addTemplate at ha
      by_cases hn : t.name.isEmpty
      · simp [hn] at ha
      · simp only [hn, Bool.false_eq_true, if_false] at ha
        have hne0 : t.name ≠ [] := by simpa [List.isEmpty_iff] using hn
        have h1 := hc t.name hne0
        cases hg : get t.name c.named with
        | none => simp [hg] at ha
        | some e =>
          simp only [hg] at ha h1
          by_cases hgt : precGt e.prec t.prec
          · rw [if_pos hgt] at ha; cases ha
          · rw [if_neg hgt] at ha
            by_cases heq : e.prec = t.prec
            · exact ⟨e, rfl, h1.1, hne0, h1.2.1, heq⟩
            · rw [if_neg heq] at ha; cases ha

/-! Running. -/

/-- The rule chosen, as the specification wants it. -/
def choice (c : Compiled ν) (g : List Int) (m : List Char) (node : ν) : Option (List (Act ν) × List Int) :=
  match search c.templates m node (lowerPrecedences g c.templates) [] with
  | (some t, p) => some (t.action.body, p)
  | (none, _) => none

theorem search_cur (ts : Templates ν) (m : List Char) (node : ν) (ps : List (List Int)) (cur cur' : List Int)
    (h : (search ts m node ps cur).1 ≠ none) : search ts m node ps cur = search ts m node ps cur' := by
  cases ps with
  | nil => simp [search] at h
  | cons p ps => rw [search_lookup, search_lookup]

theorem search_cur_none (ts : Templates ν) (m : List Char) (node : ν) (ps : List (List Int)) (cur cur' : List Int)
    (h : (search ts m node ps cur).1 = none) : (search ts m node ps cur').1 = none := by
  cases hs : (search ts m node ps cur').1 with
  | none => rfl
  | some t => rw [search_cur ts m node ps cur' cur (by rw [hs]; simp), h] at hs; cases hs

theorem together_append (a b : List (Option (List (List Char)))) :
    together (a ++ b) = match together a with
      | none => none
      | some o => (together b).map fun r => o ++ r := by
  induction a with
  | nil => simp [together]
  | cons x a ih =>
    cases x with
    | none => simp [together]
    | some o =>
      rw [List.cons_append, together, together, ih]
      cases together a with
      | none => simp
      | some o' => cases together b <;> simp

/-- `app` behaves as `f` says, whatever the current rule was. -/
def Agrees (app : Current → ν → List Char → List Int → Option (List (List Char) × Current))
    (f : List Int → List Char → ν → Option (List (List Char))) : Prop :=
  ∀ cur node m g, (app cur node m g).map Prod.fst = f g m node

theorem each_agrees (app : Current → ν → List Char → List Int → Option (List (List Char) × Current))
    (f : List Int → List Char → ν → Option (List (List Char))) (h : Agrees app f) (m : List Char) (l : List ν)
    (cur : Current) : (runBody.each app m l cur).map Prod.fst = together (l.map (f [] m)) := by
  induction l generalizing cur with
  | nil => simp [runBody.each, together]
  | cons n l ih =>
    have h1 := h cur n m frozenPrecedence.prec
    rw [runBody.each, List.map_cons]
    have h1' : (app cur n m frozenPrecedence.prec).map Prod.fst = f [] m n := h1
    cases ha : app cur n m frozenPrecedence.prec with
    | none =>
      rw [ha] at h1'
      rw [← h1']; simp [together]
    | some o =>
      rw [ha] at h1'
      rw [← h1']
      simp only [Option.map_some, together, ← ih o.2]
      cases runBody.each app m l o.2 <;> simp

/-- A step of the specification. -/
def stepOf (f : List Int → List Char → ν → Option (List (List Char))) (node : ν) (m : List Char) (p : List Int) :
    Act ν → Option (List (List Char))
  | .out s => some [s]
  | .applyTemplates sel m' => together ((sel node).map (f [] m'))
  | .applyImports => f p m node

theorem body_noImports (app : Current → ν → List Char → List Int → Option (List (List Char) × Current))
    (f : List Int → List Char → ν → Option (List (List Char))) (h : Agrees app f) (node : ν) (m : List Char)
    (p : List Int) (body : List (Act ν)) (hb : noImports body) (cur : Current) :
    (runBody app node body cur).map Prod.fst = together (body.map (stepOf f node m p)) := by
  induction body generalizing cur with
  | nil => simp [runBody, together]
  | cons a body ih =>
    cases a with
    | out s =>
      rw [noImports] at hb
      · rw [runBody, List.map_cons, stepOf, together, ← ih hb cur]
        cases runBody app node body cur <;> simp
      · simp
    | applyTemplates sel m' =>
      rw [noImports] at hb
      · rw [runBody, List.map_cons, stepOf]
        have he := each_agrees app f h m' (sel node) cur
        cases hx : runBody.each app m' (sel node) cur with
        | none => rw [hx] at he; rw [← he]; simp [together]
        | some o =>
          rw [hx] at he
          rw [← he]
          simp only [Option.map_some, together, ← ih hb o.2]
          cases runBody app node body o.2 <;> simp
      · simp
    | applyImports => rw [noImports] at hb; exact hb.elim

theorem body_agrees (app : Current → ν → List Char → List Int → Option (List (List Char) × Current))
    (f : List Int → List Char → ν → Option (List (List Char))) (h : Agrees app f) (node : ν) (m : List Char)
    (p : List Int) (body : List (Act ν)) (hb : importsFirst body) :
    (runBody app node body ⟨m, p⟩).map Prod.fst = together (body.map (stepOf f node m p)) := by
  induction body with
  | nil => simp [runBody, together]
  | cons a body ih =>
    cases a with
    | out s =>
      rw [importsFirst] at hb
      rw [runBody, List.map_cons, stepOf, together, ← ih hb]
      cases runBody app node body ⟨m, p⟩ <;> simp
    | applyTemplates sel m' =>
      rw [importsFirst] at hb
      · refine body_noImports app f h node m p (.applyTemplates sel m' :: body) ?_ _
        rw [noImports]
        · exact hb
        · simp
      · simp
    | applyImports =>
      rw [importsFirst] at hb
      · rw [runBody, List.map_cons, stepOf]
        have he := h ⟨m, p⟩ node m p
        simp only
        cases hx : app ⟨m, p⟩ node m p with
        | none => rw [hx] at he; rw [← he]; simp [together]
        | some o =>
          rw [hx] at he
          rw [← he]
          simp only [Option.map_some, together, ← body_noImports app f h node m p body hb o.2]
          cases runBody app node body o.2 <;> simp
      · simp

theorem run_agrees (c : Compiled ν) (src : Source ν)
    (hb : ∀ g m node t, (search c.templates m node (lowerPrecedences g c.templates) []).1 = some t →
      importsFirst t.action.body) (n : Nat) :
    Agrees (doApply c src n) (run (choice c) src n) := by
  induction n with
  | zero => intro cur node m g; simp [doApply, run]
  | succ n ih =>
    intro cur node m g
    rw [doApply, run]
    cases hs : (search c.templates m node (lowerPrecedences g c.templates) cur.generation).1 with
    | none =>
      have hs' := search_cur_none _ _ _ _ _ [] hs
      have hch : choice c g m node = none := by
        unfold choice
        cases hx : search c.templates m node (lowerPrecedences g c.templates) [] with
        | mk a b => rw [hx] at hs'; simp only at hs'; subst hs'; rfl
      simp only [hch]
      cases src.kids node with
      | none => simp
      | some kids =>
        simp only
        have hk := fun q => body_noImports (doApply c src n) (run (choice c) src n) ih node m []
          [.applyTemplates (fun _ => kids) m] (by simp [noImports]) q
        rw [hk]
        simp only [List.map_cons, List.map_nil, stepOf, together]
        cases together (kids.map (run (choice c) src n [] m)) <;> simp [together]
    | some t =>
      have e := search_cur c.templates m node (lowerPrecedences g c.templates) cur.generation [] (by rw [hs]; simp)
      rw [e] at hs ⊢
      have hch : choice c g m node =
          some (t.action.body, (search c.templates m node (lowerPrecedences g c.templates) []).2) := by
        unfold choice
        cases hx : search c.templates m node (lowerPrecedences g c.templates) [] with
        | mk a b => rw [hx] at hs; simp only at hs; subst hs; rfl
      simp only [hch, hs]
      rw [body_agrees _ _ ih node m _ _ (hb g m node t hs)]
      congr 2

theorem choice_chooses (ds : List (Decl ν)) (c : Compiled ν) (h : addTemplates {} (ds.map compile) = some c) :
    Chooses (rules ds) (choice (prepare c)) := by
  intro g m node
  unfold choice
  cases hx : search (prepare c).templates m node (lowerPrecedences g (prepare c).templates) [] with
  | mk a b =>
    cases a with
    | none => exact search_unusable ds c h g m node [] (by rw [hx])
    | some t =>
      obtain ⟨r, ht, hr, hp⟩ := search_chosen ds c h g m node [] t (by rw [hx])
      rw [hx] at hp
      exact ⟨r, hr, by rw [ht]; rfl, hp⟩

theorem chooses_unique (rs : List (Rule ν)) (f f' : List Int → List Char → ν → Option (List (Act ν) × List Int))
    (h : Chooses rs f) (h' : Chooses rs f') : f = f' := by
  funext g m node
  have h1 := h g m node
  have h2 := h' g m node
  cases hf : f g m node with
  | none =>
    cases hf' : f' g m node with
    | none => rfl
    | some x =>
      rw [hf] at h1; rw [hf'] at h2
      obtain ⟨r, ⟨l1, l2, e, hu, _⟩, _⟩ := h2
      exact absurd hu (h1 r (by rw [e]; simp))
  | some y =>
    cases hf' : f' g m node with
    | none =>
      rw [hf] at h1; rw [hf'] at h2
      obtain ⟨r, ⟨l1, l2, e, hu, _⟩, _⟩ := h1
      exact absurd hu (h2 r (by rw [e]; simp))
    | some x =>
      rw [hf] at h1; rw [hf'] at h2
      obtain ⟨r, hr, a, b⟩ := h1
      obtain ⟨r', hr', a', b'⟩ := h2
      have := chosen_unique rs g m node r r' hr hr'
      subst this
      have ea : y.1 = x.1 := a.trans a'.symm
      have eb : y.2 = x.2 := b.trans b'.symm
      rw [Prod.ext ea eb]

theorem chosen_mem (ds : List (Decl ν)) (g : List Int) (m : List Char) (node : ν) (r : Rule ν)
    (h : Chosen (rules ds) g m node r) : r.decl ∈ ds := by
  obtain ⟨l1, l2, e, _⟩ := h
  have hm : r ∈ rules ds := by rw [e]; simp
  unfold rules at hm
  obtain ⟨d, hd, hr⟩ := List.mem_flatMap.mp hm
  obtain ⟨p, _, rfl⟩ := List.mem_map.mp hr
  exact hd

end Verif.Xslt
