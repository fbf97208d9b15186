import Verif.Spec.XsltTemplates
import Verif.Lemmas.XsltPrecedence
set_option autoImplicit false
set_option linter.unusedSimpArgs false
set_option linter.unusedVariables false
/-! Lemmas about template rules. -/
namespace Verif.Xslt
open Verif.Spec.XsltTemplates
variable {ν : Type}

/-! Maps. -/

theorem get_upd {κ υ : Type} [DecidableEq κ] (k k' : κ) (d : υ) (f : υ → υ) (m : List (κ × υ)) :
    get k (upd k' d f m) = if k = k' then some (f ((get k m).getD d)) else get k m := by
  induction m with
  | nil =>
    rw [upd]
    by_cases h : k = k'
    · subst h; simp [get]
    · have h' : ¬ k' = k := fun e => h e.symm
      simp [get, h, h']
  | cons e m ih =>
    rw [upd]
    by_cases he : e.1 = k'
    · rw [if_pos he]
      by_cases h : k = k'
      · subst h; simp [get, he]
      · have h' : ¬ k' = k := fun e => h e.symm
        simp [get, h, h', he]
    · rw [if_neg he, get, ih]
      by_cases h : k = k'
      · subst h; simp [get, he]
      · rw [if_neg h, if_neg h, get]

theorem keys_upd {κ υ : Type} [DecidableEq κ] (k k' : κ) (d : υ) (f : υ → υ) (m : List (κ × υ)) :
    k ∈ (upd k' d f m).map Prod.fst ↔ k = k' ∨ k ∈ m.map Prod.fst := by
  induction m with
  | nil => simp [upd]
  | cons e m ih =>
    rw [upd]
    by_cases he : e.1 = k'
    · rw [if_pos he]; simp [he]
    · rw [if_neg he, List.map_cons, List.mem_cons, ih, List.map_cons, List.mem_cons]
      grind

theorem get_map {κ υ ω : Type} [DecidableEq κ] (g : υ → ω) (k : κ) (m : List (κ × υ)) :
    get k (m.map fun e => (e.1, g e.2)) = (get k m).map g := by
  induction m with
  | nil => rfl
  | cons e m ih =>
    rw [List.map_cons, get, get, ih]
    simp only
    split <;> rfl

/-- The rules of one precedence and mode. -/
def lookup2 (p : List Int) (m : List Char) (ts : Templates ν) : List (MatchTemplate ν) :=
  (get m ((get p ts).getD [])).getD []

theorem lookup2_addMatch (p : List Int) (m : List Char) (t : Templ ν) (ts : Templates ν) (x : Pattern ν) :
    lookup2 p m (addMatch t ts x) =
      lookup2 p m ts ++ if p = t.prec ∧ m = t.mode then [⟨x, t⟩] else [] := by
  unfold lookup2 addMatch
  rw [get_upd]
  by_cases hp : p = t.prec
  · rw [if_pos hp]
    simp only [Option.getD_some]
    rw [get_upd]
    by_cases hm : m = t.mode
    · simp [hp, hm]
    · simp [hp, hm]
  · simp [hp]

/-- The rules of a template. -/
def matchesOf (t : Templ ν) : List (MatchTemplate ν) := t.patterns.map fun x => ⟨x, t⟩

theorem lookup2_fold (p : List Int) (m : List Char) (t : Templ ν) (xs : List (Pattern ν)) (ts : Templates ν) :
    lookup2 p m (xs.foldl (addMatch t) ts) = lookup2 p m ts ++
      (xs.map fun x => (⟨x, t⟩ : MatchTemplate ν)).filter
        (fun y => decide (p = y.action.prec ∧ m = y.action.mode)) := by
  induction xs generalizing ts with
  | nil => simp
  | cons x xs ih =>
    rw [List.foldl_cons, ih, lookup2_addMatch, List.map_cons, List.filter_cons]
    by_cases h : p = t.prec ∧ m = t.mode
    · simp [h]
    · simp [h]

theorem keys_fold (p : List Int) (t : Templ ν) (xs : List (Pattern ν)) (ts : Templates ν) :
    p ∈ (xs.foldl (addMatch t) ts).map Prod.fst ↔ p ∈ ts.map Prod.fst ∨ (p = t.prec ∧ xs ≠ []) := by
  induction xs generalizing ts with
  | nil => simp
  | cons x xs ih =>
    rw [List.foldl_cons, ih, addMatch, keys_upd]
    by_cases hx : xs = [] <;> simp [hx] <;> grind

theorem addTemplate_templates (c c' : Compiled ν) (t : Templ ν) (h : addTemplate c t = some c') :
    c'.templates = t.patterns.foldl (addMatch t) c.templates := by
  unfold addTemplate at h
  by_cases hn : t.name.isEmpty
  · simp only [hn, if_true, Option.some.injEq] at h
    rw [← h]
  · simp only [hn, Bool.false_eq_true, if_false] at h
    cases hg : get t.name c.named with
    | none => simp only [hg, Option.some.injEq] at h; rw [← h]
    | some e =>
      simp only [hg] at h
      by_cases h1 : precGt e.prec t.prec
      · rw [if_pos h1] at h
        simp only [Option.some.injEq] at h; rw [← h]
      · rw [if_neg h1] at h
        by_cases h2 : e.prec = t.prec
        · rw [if_pos h2] at h; cases h
        · rw [if_neg h2] at h
          simp only [Option.some.injEq] at h; rw [← h]

theorem addTemplates_lookup (p : List Int) (m : List Char) (ts : List (Templ ν)) (c c' : Compiled ν)
    (h : addTemplates c ts = some c') :
    lookup2 p m c'.templates = lookup2 p m c.templates ++
      (ts.flatMap matchesOf).filter (fun y => decide (p = y.action.prec ∧ m = y.action.mode)) := by
  induction ts generalizing c with
  | nil => simp only [addTemplates, Option.some.injEq] at h; subst h; simp
  | cons t ts ih =>
    rw [addTemplates] at h
    cases ha : addTemplate c t with
    | none => simp [ha] at h
    | some c1 =>
      simp only [ha] at h
      rw [ih c1 h, addTemplate_templates c c1 t ha, lookup2_fold, List.flatMap_cons, List.filter_append,
        List.append_assoc]
      rfl

theorem addTemplates_keys (p : List Int) (ts : List (Templ ν)) (c c' : Compiled ν)
    (h : addTemplates c ts = some c') :
    p ∈ c'.templates.map Prod.fst ↔
      p ∈ c.templates.map Prod.fst ∨ ∃ y ∈ ts.flatMap matchesOf, p = y.action.prec := by
  induction ts generalizing c with
  | nil => simp only [addTemplates, Option.some.injEq] at h; subst h; simp
  | cons t ts ih =>
    rw [addTemplates] at h
    cases ha : addTemplate c t with
    | none => simp [ha] at h
    | some c1 =>
      simp only [ha] at h
      rw [ih c1 h, addTemplate_templates c c1 t ha, keys_fold, List.flatMap_cons]
      have : (∃ y ∈ matchesOf t, p = y.action.prec) ↔ (p = t.prec ∧ t.patterns ≠ []) := by
        unfold matchesOf
        constructor
        · rintro ⟨y, hy, hp⟩
          obtain ⟨x, hx, rfl⟩ := List.mem_map.mp hy
          exact ⟨hp, List.ne_nil_of_mem hx⟩
        · rintro ⟨hp, hne⟩
          obtain ⟨x, hx⟩ := List.exists_mem_of_ne_nil _ hne
          exact ⟨_, List.mem_map.mpr ⟨x, hx, rfl⟩, hp⟩
      simp only [List.mem_append]
      rw [or_assoc, ← this]
      grind

theorem insertSorted_append {α : Type} (le : α → α → Bool) (a : α) (l1 l2 : List α)
    (h : ∀ b, b ∈ l1 → le a b = false) (h2 : ∀ b ∈ l2, le a b = true) :
    insertSorted le a (l1 ++ l2) = l1 ++ a :: l2 := by
  induction l1 with
  | nil =>
    cases l2 with
    | nil => rfl
    | cons b l => simp [insertSorted, h2]
  | cons b l ih => simp [insertSorted, h]; exact ih (fun b hb => h b (List.mem_cons_of_mem _ hb))

theorem sortBy_eq {α : Type} (le : α → α → Bool)
    (tr : ∀ (a b c : α), le a b = true → le b c = true → le a c = true)
    (tot : ∀ (a b : α), (le a b || le b a) = true) (l : List α) : sortBy le l = l.mergeSort le := by
  induction l with
  | nil => simp [sortBy]
  | cons a l ih =>
    obtain ⟨l1, l2, h1, h2, h3⟩ := List.mergeSort_cons tr tot a l
    have hs := List.pairwise_mergeSort tr tot (a :: l)
    rw [h1, List.pairwise_append, List.pairwise_cons] at hs
    rw [sortBy, ih, h2, h1, insertSorted_append]
    · intro b hb; simpa using h3 b hb
    · exact hs.2.1.1

theorem le_trans' (a b c : MatchTemplate ν) (h1 : (!(MatchTemplate.lt b a)) = true) (h2 : (!(MatchTemplate.lt c b)) = true) :
    (!(MatchTemplate.lt c a)) = true := by
  simp only [MatchTemplate.lt, Bool.not_eq_true', decide_eq_false_iff_not, gt_iff_lt] at *
  grind

theorem le_total' (a b : MatchTemplate ν) : ((!(MatchTemplate.lt b a)) || (!(MatchTemplate.lt a b))) = true := by
  simp only [MatchTemplate.lt, Bool.or_eq_true, Bool.not_eq_true', decide_eq_false_iff_not, gt_iff_lt]
  grind

/-- What `prepare` does to a list of rules. -/
def prepared (l : List (MatchTemplate ν)) : List (MatchTemplate ν) :=
  l.reverse.mergeSort (fun a b => !(MatchTemplate.lt b a))

theorem prepare_lookup (p : List Int) (m : List Char) (c : Compiled ν) :
    lookup2 p m (prepare c).templates = prepared (lookup2 p m c.templates) := by
  unfold lookup2 prepare
  have e1 := get_map (fun v : List (List Char × List (MatchTemplate ν)) => v.map fun e => (e.1, prepared e.2)) p
    c.templates
  have e2 : (c.templates.map fun p =>
      (p.1, p.2.map fun m => (m.1, sortBy (fun a b => !(MatchTemplate.lt b a)) m.2.reverse))) =
      c.templates.map fun e => (e.1, e.2.map fun e => (e.1, prepared e.2)) := by
    simp only [sortBy_eq _ le_trans' le_total']
    rfl
  simp only [e2, e1]
  cases get p c.templates with
  | none => simp [get, prepared]
  | some v =>
    simp only [Option.map_some, Option.getD_some]
    rw [get_map]
    cases get m v <;> simp [prepared]

theorem prepare_keys (c : Compiled ν) : (prepare c).templates.map Prod.fst = c.templates.map Prod.fst := by
  unfold prepare
  simp [List.map_map, Function.comp_def]

/-! The first match in a sorted list. -/

theorem prepared_stable (l : List (MatchTemplate ν)) (p : MatchTemplate ν → Bool) (q : Rat)
    (hp : ∀ a, p a = true → a.pattern.priority = q) : (prepared l).filter p = l.reverse.filter p := by
  have hsub : (l.reverse.filter p).Sublist (prepared l) := by
    refine List.sublist_mergeSort (le := fun a b => !(MatchTemplate.lt b a)) le_trans' le_total' ?_
      List.filter_sublist
    rw [List.pairwise_iff_forall_sublist]
    intro a b hab
    have ha := hp _ (List.mem_filter.mp (hab.subset (List.mem_cons_self))).2
    have hb := hp _ (List.mem_filter.mp (hab.subset (by simp : b ∈ [a, b]))).2
    simp only [MatchTemplate.lt, Bool.not_eq_true', decide_eq_false_iff_not, gt_iff_lt, ha, hb]
    grind
  have h2 := hsub.filter p
  rw [List.filter_filter] at h2
  simp only [Bool.and_self] at h2
  refine (h2.eq_of_length ?_).symm
  exact (((List.mergeSort_perm l.reverse _).filter p).length_eq).symm

theorem prepared_mem (l : List (MatchTemplate ν)) (x : MatchTemplate ν) : x ∈ prepared l ↔ x ∈ l := by
  unfold prepared
  rw [List.mem_mergeSort, List.mem_reverse]

theorem find_none (l : List (MatchTemplate ν)) (hit : MatchTemplate ν → Bool)
    (h : (prepared l).find? hit = none) : ∀ x ∈ l, hit x = false := by
  intro x hx
  rw [List.find?_eq_none] at h
  simpa using h x ((prepared_mem l x).mpr hx)

theorem find_some (l : List (MatchTemplate ν)) (hit : MatchTemplate ν → Bool) (t : MatchTemplate ν)
    (h : (prepared l).find? hit = some t) :
    hit t = true ∧ ∃ l1 l2, l = l1 ++ t :: l2 ∧
      (∀ x ∈ l1, hit x = true → x.pattern.priority ≤ t.pattern.priority) ∧
      (∀ x ∈ l2, hit x = true → x.pattern.priority < t.pattern.priority) := by
  obtain ⟨ht, s1, s2, hs, hn⟩ := List.find?_eq_some_iff_append.mp h
  refine ⟨ht, ?_⟩
  have hsort := List.pairwise_mergeSort (le := fun a b => !(MatchTemplate.lt b a)) le_trans' le_total' l.reverse
  have hs' : l.reverse.mergeSort (fun a b => !(MatchTemplate.lt b a)) = s1 ++ t :: s2 := hs
  rw [hs', List.pairwise_append] at hsort
  have hle : ∀ x ∈ l, hit x = true → x.pattern.priority ≤ t.pattern.priority := by
    intro x hx hh
    rw [← prepared_mem, hs] at hx
    rcases List.mem_append.mp hx with hx | hx
    · have := hn x hx; rw [hh] at this; simp at this
    · rcases List.mem_cons.mp hx with rfl | hx
      · grind
      · have := (List.pairwise_cons.mp hsort.2.1).1 x hx
        simp only [MatchTemplate.lt, Bool.not_eq_true', decide_eq_false_iff_not, gt_iff_lt] at this
        grind
  let p : MatchTemplate ν → Bool := fun x => hit x && decide (x.pattern.priority = t.pattern.priority)
  have hpt : p t = true := by simp [p, ht]
  have hf := prepared_stable l p t.pattern.priority (fun a ha => by
    simp only [p, Bool.and_eq_true, decide_eq_true_eq] at ha; exact ha.2)
  rw [hs, List.filter_append] at hf
  have e1 : s1.filter p = [] := by
    rw [List.filter_eq_nil_iff]
    intro a ha
    have := hn a ha
    simp only [p, Bool.and_eq_true, not_and]
    intro h'; rw [h'] at this; simp at this
  rw [e1, List.nil_append, List.filter_cons_of_pos hpt] at hf
  obtain ⟨m1, m2, hm, hm1, _⟩ := List.filter_eq_cons_iff.mp hf.symm
  have hl : l = m2.reverse ++ t :: m1.reverse := by
    have := congrArg List.reverse hm
    rw [List.reverse_reverse] at this
    rw [this]; simp
  refine ⟨m2.reverse, m1.reverse, hl, ?_, ?_⟩
  · intro x hx hh
    exact hle x (by rw [hl]; exact List.mem_append_left _ hx) hh
  · intro x hx hh
    have h1 := hle x (by rw [hl]; exact List.mem_append_right _ (List.mem_cons_of_mem _ hx)) hh
    have h2 := hm1 x (List.mem_reverse.mp hx)
    simp only [p, Bool.and_eq_true, decide_eq_true_eq, not_and] at h2
    have := h2 hh
    grind

/-! The search. -/

theorem search_lookup (ts : Templates ν) (mode : List Char) (node : ν) (p : List Int) (ps : List (List Int))
    (cur : List Int) :
    search ts mode node (p :: ps) cur =
      match (lookup2 p mode ts).find? (fun t => t.pattern.hit node) with
      | some t => (some t, p)
      | none => search ts mode node ps p := by
  rw [search, lookup2]
  cases get p ts with
  | none => simp [get]
  | some ms =>
    simp only [Option.getD_some]
    cases get mode ms with
    | none => simp
    | some l => rfl

theorem search_some (ts : Templates ν) (mode : List Char) (node : ν) (ps : List (List Int)) (cur : List Int)
    (t : MatchTemplate ν) (h : (search ts mode node ps cur).1 = some t) :
    ∃ a p b, ps = a ++ p :: b ∧ (search ts mode node ps cur).2 = p ∧
      (lookup2 p mode ts).find? (fun t => t.pattern.hit node) = some t ∧
      ∀ q ∈ a, (lookup2 q mode ts).find? (fun t => t.pattern.hit node) = none := by
  induction ps generalizing cur with
  | nil => simp [search] at h
  | cons p ps ih =>
    rw [search_lookup] at h ⊢
    cases hf : (lookup2 p mode ts).find? (fun t => t.pattern.hit node) with
    | some t' =>
      simp only [hf] at h ⊢
      cases h
      exact ⟨[], p, ps, rfl, rfl, hf, by simp⟩
    | none =>
      simp only [hf] at h ⊢
      obtain ⟨a, p', b, h1, h2, h3, h4⟩ := ih p h
      refine ⟨p :: a, p', b, by rw [h1]; rfl, h2, h3, ?_⟩
      intro q hq
      rcases List.mem_cons.mp hq with rfl | hq
      · exact hf
      · exact h4 q hq

theorem search_none (ts : Templates ν) (mode : List Char) (node : ν) (ps : List (List Int)) (cur : List Int)
    (h : (search ts mode node ps cur).1 = none) :
    ∀ q ∈ ps, (lookup2 q mode ts).find? (fun t => t.pattern.hit node) = none := by
  induction ps generalizing cur with
  | nil => simp
  | cons p ps ih =>
    rw [search_lookup] at h
    cases hf : (lookup2 p mode ts).find? (fun t => t.pattern.hit node) with
    | some t' => simp [hf] at h
    | none =>
      simp only [hf] at h
      intro q hq
      rcases List.mem_cons.mp hq with rfl | hq
      · exact hf
      · exact ih p h q hq

theorem prec_le_trans (a b c : List Int) (h1 : (!(precLt b a)) = true) (h2 : (!(precLt c b)) = true) :
    (!(precLt c a)) = true := by
  simp only [Bool.not_eq_true'] at *
  cases hca : precLt c a with
  | false => rfl
  | true =>
    rcases precLt_total b c with rfl | h | h
    · rw [h1] at hca; cases hca
    · rw [precLt_trans b c a h hca] at h1; cases h1
    · rw [h2] at h; cases h

theorem prec_le_total (a b : List Int) : ((!(precLt b a)) || (!(precLt a b))) = true := by
  simp only [Bool.or_eq_true, Bool.not_eq_true']
  cases hab : precLt a b with
  | false => exact Or.inr rfl
  | true =>
    left
    cases hba : precLt b a with
    | false => rfl
    | true => have := precLt_trans a b a hab hba; rw [precLt_irrefl] at this; cases this

theorem lower_mem (g p : List Int) (ts : Templates ν) :
    p ∈ lowerPrecedences g ts ↔ p ∈ ts.map Prod.fst ∧ isDescendant g p = true := by
  unfold lowerPrecedences
  rw [sortBy_eq _ prec_le_trans prec_le_total, List.mem_reverse, List.mem_mergeSort, List.mem_reverse,
    List.mem_filter]

theorem lower_sorted (g : List Int) (ts : Templates ν) :
    (lowerPrecedences g ts).Pairwise (fun a b => a = b ∨ precLt b a = true) := by
  unfold lowerPrecedences
  rw [sortBy_eq _ prec_le_trans prec_le_total, List.pairwise_reverse]
  refine (List.pairwise_mergeSort (le := fun a b : List Int => !(precLt b a)) prec_le_trans prec_le_total
    (((ts.map Prod.fst).filter (isDescendant g)).reverse)).imp ?_
  intro a b h
  simp only [Bool.not_eq_true'] at h
  rcases precLt_total a b with h' | h' | h'
  · exact Or.inl h'.symm
  · exact Or.inr h'
  · rw [h] at h'; cases h'

/-- The order of precedences is the one of the specification. -/
theorem precLt_lower (p q : List Int) : precLt p q = true ↔ Lower p q := by
  induction p generalizing q with
  | nil =>
    rw [precLt_nil_left]
    simp only [Bool.false_eq_true, false_iff]
    rintro (⟨c, hc, h⟩ | ⟨c, x, y, l, r, h, _⟩)
    · have := (List.append_eq_nil_iff.mp h.symm).2
      exact hc this
    · simp at h
  | cons a p ih =>
    cases q with
    | nil =>
      rw [precLt_nil_right]
      simp only [true_iff]
      exact Or.inl ⟨a :: p, by simp, rfl⟩
    | cons b q =>
      rw [precLt_cons, ih]
      constructor
      · rintro (h | ⟨rfl, h⟩)
        · exact Or.inr ⟨[], a, b, p, q, rfl, rfl, h⟩
        · rcases h with ⟨c, hc, h⟩ | ⟨c, x, y, l, r, h1, h2, h3⟩
          · exact Or.inl ⟨c, hc, by rw [h]; rfl⟩
          · exact Or.inr ⟨a :: c, x, y, l, r, by rw [h1]; rfl, by rw [h2]; rfl, h3⟩
      · rintro (⟨c, hc, h⟩ | ⟨c, x, y, l, r, h1, h2, h3⟩)
        · simp only [List.cons_append, List.cons.injEq] at h
          exact Or.inr ⟨h.1, Or.inl ⟨c, hc, h.2⟩⟩
        · cases c with
          | nil =>
            simp only [List.nil_append, List.cons.injEq] at h1 h2
            rw [h1.1, h2.1]; exact Or.inl h3
          | cons d c =>
            simp only [List.cons_append, List.cons.injEq] at h1 h2
            exact Or.inr ⟨h1.1.trans h2.1.symm, Or.inr ⟨c, x, y, l, r, h1.2, h2.2, h3⟩⟩

/-! Templates as written. -/

/-- The template made from a declaration. -/
def compile (d : Decl ν) : Templ ν :=
  mkTempl (d.patterns.map fun p => ⟨p.1, p.2⟩) d.name d.mode d.priority d.prec d.body

/-- The rule as kept by the stylesheet. -/
def toMatch (r : Rule ν) : MatchTemplate ν := ⟨⟨r.hit, r.priority⟩, compile r.decl⟩

theorem matchesOf_compile (ds : List (Decl ν)) :
    (ds.map compile).flatMap matchesOf = (rules ds).map toMatch := by
  unfold rules
  rw [List.flatMap_map, List.map_flatMap]
  congr 1
  funext d
  unfold matchesOf compile mkTempl toMatch
  simp only [List.map_map]
  cases h : d.priority with
  | none => simp [compile, mkTempl, h, Function.comp_def]
  | some p => simp [compile, mkTempl, h, Function.comp_def]

end Verif.Xslt
