import Verif.Spec.XsltCompile
/- The attributes of an element of XSLT: what `gather` finds. -/
set_option autoImplicit false
set_option linter.unusedSimpArgs false
set_option linter.unusedVariables false

namespace Verif.Lemmas.XsltCompile

open Verif.XsltCompile
open Verif.Spec.XsltCompile (Src events eventsAll xsltNs xmlNs Tag tag Att attr only white nothing
  Regular TextWhole Plain Careful nodes nodesAll)

abbrev sneed := @Verif.Spec.XsltCompile.need

theorem blank_iff (s : Str) : blank s = true ↔ white s := by
  unfold blank white
  rw [List.all_eq_true]
  constructor
  · intro h c hc
    have := h c hc
    simpa [isSpace, or_assoc] using this
  · intro h c hc
    have := h c hc
    simpa [isSpace, or_assoc] using this

def Att.all : List Att :=
  [.caseOrder, .dataType, .disableOutputEscaping, .excludeResultPrefixes, .extensionElementPrefixes,
   .id, .lang, .match, .mode, .name, .namespace, .order, .priority, .select, .terminate, .test, .use,
   .useAttributeSets, .version]

theorem att_find (n : Att) : Att.all.find? (fun t => t.str = n.str) = some n := by
  cases n <;> decide +kernel

theorem att_inj {a b : Att} (h : a.str = b.str) : a = b := by
  have h1 := att_find a
  rw [h, att_find b] at h1
  exact (Option.some.inj h1).symm

theorem att_ne_nil (n : Att) : n.str ≠ [] := by
  cases n <;> decide +kernel

theorem tag_find (n : Tag) : Tag.all.find? (fun t => t.str = n.str) = some n := by
  cases n <;> decide +kernel

theorem tag_inj {a b : Tag} (h : a.str = b.str) : a = b := by
  have h1 := tag_find a
  rw [h, tag_find b] at h1
  exact (Option.some.inj h1).symm

theorem ns_eq : SC.xslt = xsltNs := rfl

theorem tag_some {el : El} {t : Tag} : tag el = some t ↔ el.uri = xsltNs ∧ el.loc = t.str := by
  unfold tag
  by_cases hu : el.uri = xsltNs
  · rw [if_pos hu]
    constructor
    · intro h
      have := List.find?_some h
      exact ⟨hu, (by simpa using this : t.str = el.loc).symm⟩
    · rintro ⟨_, h⟩
      rw [h]; exact tag_find t
  · rw [if_neg hu]
    constructor
    · intro h; cases h
    · rintro ⟨h, _⟩; exact absurd h hu

/-! `gather`. -/

/-- A rule about an attribute of XSLT. -/
structure ARule where
  att : Att
  required : Bool
  deflt : Option Str
  allowed : List Str

def ARule.rule (r : ARule) : Rule := ⟨r.att.str, r.required, r.deflt, r.allowed⟩

theorem attr_find (el : El) (n : Att) : attr el n =
    (el.atts.find? (fun a => decide (a.uri = [] ∧ a.loc = n.str))).map Attr.value := rfl

theorem getValue_eq {el : El} (h : Regular el) (n : Att) :
    getValue el.atts n.str = (attr el n).getD [] := by
  have h1 := h.unprefixed
  have h2 := h.foreign
  unfold getValue attr
  generalize el.atts = as at h1 h2
  induction as with
  | nil => rfl
  | cons a as ih =>
    have ih' := ih (fun x hx => h1 x (List.mem_cons_of_mem _ hx))
      (fun x hx => h2 x (List.mem_cons_of_mem _ hx))
    by_cases hu : a.uri = []
    · have hq := (h1 a (List.mem_cons_self)) hu
      by_cases hl : a.loc = n.str
      · simp [List.find?_cons, hu, hl, hq.1]
      · simp only [List.find?_cons, hu, hl, hq.1, decide_false, and_false, decide_eq_true_eq] at ih' ⊢
        exact ih'
    · have hq := h2 a (List.mem_cons_self) hu n
      simp only [List.find?_cons, hu, hq.2, decide_false, false_and, decide_eq_true_eq] at ih' ⊢
      exact ih'

theorem hasIndex_eq {el : El} (h : Regular el) (n : Att) :
    hasIndex el.atts n.str = (attr el n).isSome := by
  have h1 := h.unprefixed
  have h2 := h.foreign
  unfold hasIndex attr
  generalize el.atts = as at h1 h2
  induction as with
  | nil => rfl
  | cons a as ih =>
    have ih' := ih (fun x hx => h1 x (List.mem_cons_of_mem _ hx))
      (fun x hx => h2 x (List.mem_cons_of_mem _ hx))
    by_cases hu : a.uri = []
    · have hq := (h1 a (List.mem_cons_self)) hu
      by_cases hl : a.loc = n.str
      · simp [List.find?_cons, hu, hl, hq.1]
      · simp only [List.any_cons, List.find?_cons, hu, hl, hq.1, decide_false, and_false,
          Bool.false_or] at ih' ⊢
        exact ih'
    · have hq := h2 a (List.mem_cons_self) hu n
      simp only [List.any_cons, List.find?_cons, hu, hq.2, decide_false, false_and,
        Bool.false_or] at ih' ⊢
      exact ih'

/-- The map when all is valid. -/
def gathered (as : List Attr) (res : List (Str × Str)) : List (Str × Str) :=
  as.foldl (fun r a => if a.loc = [] then r else (a.loc, a.value) :: r) res

theorem foldlM_gather (rs : List Rule) (as : List Attr) (res : List (Str × Str)) :
    as.foldlM (gatherStep rs) res =
      if as.all (fun a => a.loc = [] || valid rs a) then some (gathered as res) else none := by
  induction as generalizing res with
  | nil => rfl
  | cons a as ih =>
    rw [List.foldlM_cons]
    unfold gatherStep
    by_cases hl : a.loc = []
    · rw [if_pos hl]
      show List.foldlM (gatherStep rs) res as = _
      rw [ih]; simp [hl, gathered]
    · rw [if_neg hl]
      by_cases hv : valid rs a = true
      · rw [if_pos hv]
        show List.foldlM (gatherStep rs) _ as = _
        rw [ih]; simp [hl, hv, gathered]
      · rw [if_neg hv]; simp [hl, hv]

theorem lookup_gathered {as : List Attr} (n : Att) (res : List (Str × Str))
    (h1 : ∀ a ∈ as, a.uri = [] → a.qn = a.loc ∧ a.loc ≠ [])
    (h2 : ∀ a ∈ as, a.uri ≠ [] → ∀ n : Att, a.loc ≠ n.str ∧ a.qn ≠ n.str)
    (h3 : as.Pairwise (fun a b => a.uri = [] → b.uri = [] → a.loc ≠ b.loc)) :
    (gathered as res).lookup n.str =
      match (as.find? (fun a => decide (a.uri = [] ∧ a.loc = n.str))) with
      | some a => some a.value
      | none => res.lookup n.str := by
  induction as generalizing res with
  | nil => rfl
  | cons a as ih =>
    have i1 := fun x hx => h1 x (List.mem_cons_of_mem _ hx)
    have i2 := fun x hx => h2 x (List.mem_cons_of_mem _ hx)
    rw [List.pairwise_cons] at h3
    have ih' := fun res => ih res i1 i2 h3.2
    have e : gathered (a :: as) res =
        gathered as (if a.loc = [] then res else (a.loc, a.value) :: res) := rfl
    rw [e, ih', List.find?_cons]
    by_cases hu : a.uri = []
    · have hq := h1 a List.mem_cons_self hu
      rw [if_neg hq.2]
      by_cases hl : a.loc = n.str
      · have hn : as.find? (fun b => decide (b.uri = [] ∧ b.loc = n.str)) = none := by
          rw [List.find?_eq_none]
          intro b hb hh
          have hh' : b.uri = [] ∧ b.loc = n.str := by simpa using hh
          exact h3.1 b hb hu hh'.1 (by rw [hl, hh'.2])
        rw [hn]
        simp [hu, hl]
      · have hb : (n.str == a.loc) = false := by simpa using fun h => hl h.symm
        simp only [hu, hl, and_false, decide_false, List.lookup_cons, hb]
    · have hq := (h2 a List.mem_cons_self hu n).1
      have hb : (n.str == a.loc) = false := by simpa using fun h => hq h.symm
      by_cases hl : a.loc = []
      · simp only [hu, false_and, decide_false, hl, if_true]
      · simp only [hu, false_and, decide_false, hl, if_false, List.lookup_cons, hb]

/-- The value `gather` finds for an attribute of XSLT. -/
theorem get_gathered {el : El} (h : Regular el) (n : Att) (res : List (Str × Str)) :
    get (gathered el.atts res) n.str = (attr el n).getD ((res.lookup n.str).getD []) := by
  unfold Verif.XsltCompile.get
  rw [lookup_gathered n res h.unprefixed h.foreign h.once]
  unfold attr
  cases el.atts.find? (fun a => decide (a.uri = [] ∧ a.loc = n.str)) <;> rfl

theorem find_rule (rs : List ARule) (l : Str) :
    (rs.map ARule.rule).find? (fun r => r.name = l) =
      (rs.find? (fun r => r.att.str = l)).map ARule.rule := by
  induction rs with
  | nil => rfl
  | cons r rs ih =>
    simp only [List.map_cons, List.find?_cons]
    have : (ARule.rule r).name = r.att.str := rfl
    rw [this]
    by_cases hl : r.att.str = l
    · simp [hl]
    · simp only [hl, decide_false]; exact ih

theorem rule_unique {rs : List ARule} (hd : (rs.map ARule.att).Nodup) {q r : ARule}
    (hqm : q ∈ rs) (hr : r ∈ rs) (hqr : q.att = r.att) : q = r := by
  induction rs with
  | nil => cases hr
  | cons x xs ih =>
    rw [List.map_cons, List.nodup_cons] at hd
    cases hr with
    | head =>
      cases hqm with
      | head => rfl
      | tail _ hm => exact absurd (List.mem_map.mpr ⟨q, hm, hqr⟩) hd.1
    | tail _ hr' =>
      cases hqm with
      | head => exact absurd (List.mem_map.mpr ⟨r, hr', hqr.symm⟩) hd.1
      | tail _ hm => exact ih hd.2 hm hr'

/-- `gather`, from the point of view of the document. -/
theorem gather_eq {el : El} (h : Regular el) (rs : List ARule) (hd : (rs.map ARule.att).Nodup) :
    gather (rs.map ARule.rule) el.atts =
      if (only el (rs.map ARule.att)).isSome ∧ (∀ r ∈ rs, r.required = true → attr el r.att ≠ none ∧ attr el r.att ≠ some [])
          ∧ (∀ r ∈ rs, ∀ v, attr el r.att = some v → isAllowed r.allowed v = true)
      then some (gathered el.atts (defaults (rs.map ARule.rule))) else none := by
  unfold gather
  have e1 : ((rs.map ARule.rule).any (fun r => r.required && (getValue el.atts r.name).isEmpty) = true) ↔
      ¬ (∀ r ∈ rs, r.required = true → attr el r.att ≠ none ∧ attr el r.att ≠ some []) := by
    rw [List.any_map, List.any_eq_true]
    constructor
    · rintro ⟨r, hr, hx⟩ hall
      have hx' : r.required = true ∧ (getValue el.atts r.att.str).isEmpty = true := by
        simpa [ARule.rule] using hx
      rw [getValue_eq h] at hx'
      have := hall r hr hx'.1
      cases ha : attr el r.att with
      | none => exact this.1 ha
      | some v =>
        rw [ha] at hx'
        have : v = [] := by simpa using hx'.2
        subst this
        exact (hall r hr hx'.1).2 ha
    · intro hn
      apply Classical.byContradiction
      intro hc
      apply hn
      intro r hr hq
      have hc' : ¬ (r.required = true ∧ (getValue el.atts r.att.str).isEmpty = true) := by
        intro hh; exact hc ⟨r, hr, by simpa [ARule.rule] using hh⟩
      rw [getValue_eq h] at hc'
      constructor
      · intro ha; rw [ha] at hc'; exact hc' ⟨hq, rfl⟩
      · intro ha; rw [ha] at hc'; exact hc' ⟨hq, rfl⟩
  have e2 : (el.atts.all (fun a => a.loc = [] || valid (rs.map ARule.rule) a) = true) ↔
      ((only el (rs.map ARule.att)).isSome ∧
        (∀ r ∈ rs, ∀ v, attr el r.att = some v → isAllowed r.allowed v = true)) := by
    rw [List.all_eq_true]
    constructor
    · intro hall
      constructor
      · unfold only
        rw [if_pos]
        · rfl
        · intro a ha hu
          have h1 := hall a ha
          have hl := (h.unprefixed a ha hu).2
          simp only [hl, decide_false, Bool.false_or] at h1
          unfold valid at h1
          rw [if_pos hu, find_rule] at h1
          cases hf : rs.find? (fun r => decide (r.att.str = a.loc)) with
          | none => rw [hf] at h1; simp at h1
          | some r =>
            have hm := List.mem_of_find?_eq_some hf
            have hs := List.find?_some hf
            exact ⟨r.att, List.mem_map.mpr ⟨r, hm, rfl⟩, by simpa using (by simpa using hs : r.att.str = a.loc).symm⟩
      · intro r hr v hv
        unfold attr at hv
        cases hf : el.atts.find? (fun a => decide (a.uri = [] ∧ a.loc = r.att.str)) with
        | none => rw [hf] at hv; cases hv
        | some a =>
          rw [hf] at hv
          have hv' : a.value = v := by simpa using hv
          have ha := List.mem_of_find?_eq_some hf
          have hs : a.uri = [] ∧ a.loc = r.att.str := by simpa using List.find?_some hf
          have h1 := hall a ha
          have hl := (h.unprefixed a ha hs.1).2
          simp only [hl, decide_false, Bool.false_or] at h1
          unfold valid at h1
          rw [if_pos hs.1, find_rule] at h1
          cases hg : rs.find? (fun q => decide (q.att.str = a.loc)) with
          | none => rw [hg] at h1; simp at h1
          | some q =>
            rw [hg] at h1
            have hq : q.att.str = a.loc := by simpa using List.find?_some hg
            have hqr : q.att = r.att := att_inj (by rw [hq, hs.2])
            have hqm := List.mem_of_find?_eq_some hg
            have : q = r := rule_unique hd hqm hr hqr
            subst this
            rw [← hv']
            exact h1
    · rintro ⟨ho, hv⟩ a ha
      by_cases hl : a.loc = []
      · simp [hl]
      simp only [hl, decide_false, Bool.false_or]
      unfold valid
      by_cases hu : a.uri = []
      · rw [if_pos hu, find_rule]
        unfold only at ho
        by_cases hc : ∀ a ∈ el.atts, a.uri = [] → ∃ n ∈ rs.map ARule.att, a.loc = n.str
        · obtain ⟨n, hn, hna⟩ := hc a ha hu
          obtain ⟨r, hr, hrn⟩ := List.mem_map.mp hn
          cases hg : rs.find? (fun q => decide (q.att.str = a.loc)) with
          | none =>
            rw [List.find?_eq_none] at hg
            exact absurd (by simp [hrn, hna]) (hg r hr)
          | some q =>
            have hq : q.att.str = a.loc := by simpa using List.find?_some hg
            have hqm := List.mem_of_find?_eq_some hg
            apply hv q hqm
            unfold attr
            have : el.atts.find? (fun b => decide (b.uri = [] ∧ b.loc = q.att.str)) = some a := by
              have h3 := h.once
              generalize el.atts = as at ha h3
              induction as with
              | nil => cases ha
              | cons b bs ih =>
                rw [List.pairwise_cons] at h3
                rw [List.find?_cons]
                cases ha with
                | head => simp [hu, hq]
                | tail _ ha' =>
                  by_cases hb : b.uri = [] ∧ b.loc = q.att.str
                  · exact absurd (by rw [hb.2, hq]) (h3.1 a ha' hb.1 hu)
                  · simp only [hb, decide_false]
                    exact ih ha' h3.2
            rw [this]; rfl
        · rw [if_neg hc] at ho; cases ho
      · rw [if_neg hu]
        have : ¬ (a.uri = SC.xml ∧ a.loc = SC.aSpace) := by
          rintro ⟨hx, hs⟩
          exact h.space a ha hx hs
        rw [if_neg (by simpa using this)]
  by_cases hA : ∀ r ∈ rs, r.required = true → attr el r.att ≠ none ∧ attr el r.att ≠ some []
  · rw [if_neg (by rw [e1]; exact fun hn => hn hA), foldlM_gather]
    by_cases hB : (only el (rs.map ARule.att)).isSome ∧
        (∀ r ∈ rs, ∀ v, attr el r.att = some v → isAllowed r.allowed v = true)
    · rw [if_pos (e2.mpr hB), if_pos ⟨hB.1, hA, hB.2⟩]
    · rw [if_neg (fun hh => hB (e2.mp hh)), if_neg (fun hh => hB ⟨hh.1, hh.2.2⟩)]
  · rw [if_pos (e1.mpr hA), if_neg (fun hh => hA hh.2.1)]

end Verif.Lemmas.XsltCompile
