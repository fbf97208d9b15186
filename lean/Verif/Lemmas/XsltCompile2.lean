import Verif.Lemmas.XsltCompile
/- The first call of each handler, from the point of view of the document. -/
set_option autoImplicit false
set_option linter.unusedSimpArgs false
set_option linter.unusedVariables false

namespace Verif.Lemmas.XsltCompile

open Verif.XsltCompile
open Verif.Spec.XsltCompile (Src events eventsAll xsltNs xmlNs Tag tag Att attr only white nothing
  Regular TextWhole Plain Careful nodes nodesAll select? name? avtOr sortOf nsOf literalAtts binding lang? priority? templateOf keyOf)

section
variable {ε μ ν π : Type}

/-- The handlers may use `current()`, or it makes no difference. -/
structure Calm (E : Ext ε μ ν π) (cur : Bool) : Prop where
  expr : E.expr cur = E.expr true
  avt : E.avt cur = E.avt true

theorem allowed_nil (v : Str) : isAllowed [] v = true := rfl

def rNeed (n : Att) : ARule := ⟨n, true, none, []⟩
def rMay (n : Att) : ARule := ⟨n, false, none, []⟩
def rMayBe (n : Att) (d : Str) : ARule := ⟨n, false, some d, []⟩
def rYesNo (n : Att) : ARule := ⟨n, false, some SC.no, [SC.yes, SC.no]⟩

theorem dn (n : Att) (rs : List ARule) :
    defaults ((rNeed n :: rs).map ARule.rule) = defaults (rs.map ARule.rule) := rfl
theorem dm (n : Att) (rs : List ARule) :
    defaults ((rMay n :: rs).map ARule.rule) = defaults (rs.map ARule.rule) := rfl
theorem db (n : Att) (d : Str) (rs : List ARule) :
    defaults ((rMayBe n d :: rs).map ARule.rule) = (n.str, d) :: defaults (rs.map ARule.rule) := rfl
theorem dy (n : Att) (rs : List ARule) :
    defaults ((rYesNo n :: rs).map ARule.rule) = (n.str, SC.no) :: defaults (rs.map ARule.rule) := rfl

theorem lookup_ne {n m : Att} (h : n ≠ m) (d : Str) (l : List (Str × Str)) :
    ((m.str, d) :: l).lookup n.str = l.lookup n.str := by
  have : (n.str == m.str) = false := by
    simpa using fun e => h (att_inj e)
  rw [List.lookup_cons, this]

theorem lookup_eq (n : Att) (d : Str) (l : List (Str × Str)) :
    ((n.str, d) :: l).lookup n.str = some d := by
  simp [List.lookup_cons]

theorem yes_ne : (SC.no = SC.yes) = False := by decide +kernel

/-- yes or no. -/
theorem yesNo_eq (el : El) (n : Att) :
    Verif.Spec.XsltCompile.yesNo el n =
      if (∀ v, attr el n = some v → isAllowed [SC.yes, SC.no] v = true)
      then some (decide ((attr el n).getD SC.no = SC.yes)) else none := by
  unfold Verif.Spec.XsltCompile.yesNo
  cases h : attr el n with
  | none =>
    rw [if_pos (by intro v hv; cases hv)]
    have : ((none : Option Str).getD SC.no = SC.yes) = False := yes_ne
    simp only [this, decide_false]
  | some v =>
    show (if v = SC.yes then some true else if v = SC.no then some false else none) = _
    by_cases h1 : v = SC.yes
    · rw [if_pos h1, if_pos]
      · simp [h1]
      · intro w hw; cases hw; simp [isAllowed, h1]
    · rw [if_neg h1]
      by_cases h2 : v = SC.no
      · rw [if_pos h2, if_pos]
        · simp [h1]
        · intro w hw; cases hw; simp [isAllowed, h2]
      · rw [if_neg h2, if_neg]
        intro hh
        have := hh v rfl
        simp [isAllowed, h1, h2] at this

theorem need_some {el : El} {n : Att} {v : Str} (h : attr el n = some v) (hv : v ≠ []) :
    Verif.Spec.XsltCompile.need el n = some v := by
  unfold Verif.Spec.XsltCompile.need
  rw [h]
  cases v with
  | nil => exact absurd rfl hv
  | cons c cs => rfl

theorem need_none {el : El} {n : Att} (h : ¬ (attr el n ≠ none ∧ attr el n ≠ some [])) :
    Verif.Spec.XsltCompile.need el n = none := by
  unfold Verif.Spec.XsltCompile.need
  cases h1 : attr el n with
  | none => rfl
  | some v =>
    cases v with
    | nil => rfl
    | cons c cs => exact absurd ⟨by rw [h1]; simp, by rw [h1]; simp⟩ h

/-- A required attribute is there. -/
theorem need_cases (el : El) (n : Att) :
    (Verif.Spec.XsltCompile.need el n = none ∧ ¬ (attr el n ≠ none ∧ attr el n ≠ some [])) ∨
    (∃ v, Verif.Spec.XsltCompile.need el n = some v ∧ attr el n = some v ∧ (attr el n ≠ none ∧ attr el n ≠ some [])) := by
  by_cases h : attr el n ≠ none ∧ attr el n ≠ some []
  · right
    cases h1 : attr el n with
    | none => exact absurd h1 h.1
    | some v =>
      have hv : v ≠ [] := fun e => h.2 (by rw [h1, e])
      exact ⟨v, need_some h1 hv, rfl, by simp, by simpa using hv⟩
  · exact Or.inl ⟨need_none h, h⟩

theorem sc1 : SC.aCaseOrder = Att.caseOrder.str := rfl
theorem sc2 : SC.aDataType = Att.dataType.str := rfl
theorem sc3 : SC.aDisableOutputEscaping = Att.disableOutputEscaping.str := rfl
theorem sc4 : SC.aExcludeResultPrefixes = Att.excludeResultPrefixes.str := rfl
theorem sc5 : SC.aExtensionElementPrefixes = Att.extensionElementPrefixes.str := rfl
theorem sc6 : SC.aId = Att.id.str := rfl
theorem sc7 : SC.aLang = Att.lang.str := rfl
theorem sc8 : SC.aMatch = Att.match.str := rfl
theorem sc9 : SC.aMode = Att.mode.str := rfl
theorem sc10 : SC.aName = Att.name.str := rfl
theorem sc11 : SC.aNamespace = Att.namespace.str := rfl
theorem sc12 : SC.aOrder = Att.order.str := rfl
theorem sc13 : SC.aPriority = Att.priority.str := rfl
theorem sc14 : SC.aSelect = Att.select.str := rfl
theorem sc15 : SC.aTerminate = Att.terminate.str := rfl
theorem sc16 : SC.aTest = Att.test.str := rfl
theorem sc17 : SC.aUse = Att.use.str := rfl
theorem sc18 : SC.aUseAttributeSets = Att.useAttributeSets.str := rfl
theorem sc19 : SC.aVersion = Att.version.str := rfl

theorem r1 (n : Att) : need n.str = (rNeed n).rule := rfl
theorem r2 (n : Att) : may n.str = (rMay n).rule := rfl
theorem r3 (n : Att) (d : Str) : mayBe n.str d = (rMayBe n d).rule := rfl
theorem r4 (n : Att) : yesNo n.str = (rYesNo n).rule := rfl

/-- What a rule checks. -/
def check (el : El) (r : ARule) : Option Unit :=
  if (r.required = true → attr el r.att ≠ none ∧ attr el r.att ≠ some []) ∧
     (∀ v, attr el r.att = some v → isAllowed r.allowed v = true) then some () else none

def checks (el : El) : List ARule → Option Unit
  | [] => some ()
  | r :: rs => (check el r).bind (fun _ => checks el rs)

theorem checks_eq (el : El) (rs : List ARule) :
    checks el rs = if (∀ r ∈ rs, r.required = true → attr el r.att ≠ none ∧ attr el r.att ≠ some [])
          ∧ (∀ r ∈ rs, ∀ v, attr el r.att = some v → isAllowed r.allowed v = true)
      then some () else none := by
  induction rs with
  | nil => simp [checks]
  | cons r rs ih =>
    rw [checks, ih]
    unfold check
    simp only [List.forall_mem_cons]
    by_cases h : (r.required = true → attr el r.att ≠ none ∧ attr el r.att ≠ some []) ∧
        (∀ v, attr el r.att = some v → isAllowed r.allowed v = true)
    · rw [if_pos h]
      simp only [Option.bind_some]
      by_cases h2 : (∀ r ∈ rs, r.required = true → attr el r.att ≠ none ∧ attr el r.att ≠ some [])
          ∧ (∀ r ∈ rs, ∀ v, attr el r.att = some v → isAllowed r.allowed v = true)
      · rw [if_pos h2, if_pos ⟨⟨h.1, h2.1⟩, h.2, h2.2⟩]
      · rw [if_neg h2, if_neg (fun hh => h2 ⟨hh.1.2, hh.2.2⟩)]
    · rw [if_neg h, Option.bind_none, if_neg (fun hh => h ⟨hh.1.1, hh.2.1⟩)]

theorem gather_bind {β : Type} {el : El} (h : Regular el) (rs : List ARule)
    (hd : (rs.map ARule.att).Nodup) (f : List (Str × Str) → Option β) :
    (gather (rs.map ARule.rule) el.atts).bind f =
      (only el (rs.map ARule.att)).bind (fun _ => (checks el rs).bind (fun _ =>
        f (gathered el.atts (defaults (rs.map ARule.rule))))) := by
  rw [gather_eq h rs hd, checks_eq]
  cases ho : only el (rs.map ARule.att) with
  | none => simp
  | some u =>
    simp only [Option.isSome_some, true_and, Option.bind_some]
    split <;> rfl

theorem check_need (el : El) (n : Att) :
    check el (rNeed n) = (Verif.Spec.XsltCompile.need el n).map (fun _ => ()) := by
  unfold check
  rcases need_cases el n with ⟨h1, h2⟩ | ⟨v, h1, h2, h3⟩
  · rw [h1, if_neg (fun hh => h2 (hh.1 rfl))]; rfl
  · rw [h1, if_pos ⟨fun _ => h3, fun _ _ => rfl⟩]; rfl

theorem check_may (el : El) (n : Att) : check el (rMay n) = some () := by
  unfold check
  rw [if_pos ⟨(fun h => by cases h), fun _ _ => rfl⟩]

theorem check_mayBe (el : El) (n : Att) (d : Str) : check el (rMayBe n d) = some () := by
  unfold check
  rw [if_pos ⟨(fun h => by cases h), fun _ _ => rfl⟩]

theorem check_yesNo (el : El) (n : Att) :
    check el (rYesNo n) = (Verif.Spec.XsltCompile.yesNo el n).map (fun _ => ()) := by
  unfold check
  rw [yesNo_eq]
  by_cases h : ∀ v, attr el n = some v → isAllowed [SC.yes, SC.no] v = true
  · rw [if_pos h, if_pos ⟨(fun h => by cases h), h⟩]; rfl
  · rw [if_neg h, if_neg (fun hh => h hh.2)]; rfl

theorem attr_need {el : El} {n : Att} {v : Str}
    (h : Verif.Spec.XsltCompile.need el n = some v) : attr el n = some v ∧ v ≠ [] := by
  unfold Verif.Spec.XsltCompile.need at h
  cases h1 : attr el n with
  | none => rw [h1] at h; cases h
  | some w =>
    rw [h1] at h
    cases w with
    | nil => cases h
    | cons c cs => cases h; exact ⟨rfl, by simp⟩

theorem yesNo_some {el : El} {n : Att} {b : Bool}
    (h : Verif.Spec.XsltCompile.yesNo el n = some b) :
    decide ((attr el n).getD SC.no = SC.yes) = b := by
  rw [yesNo_eq] at h
  split at h
  · exact Option.some.inj h
  · cases h

theorem openValueOf_eq {E : Ext ε μ ν π} {cur : Bool} {el : El} (hr : Regular el) (hc : Calm E cur) :
    openValueOf E cur el = (do
      only el [.select, .disableOutputEscaping]
      let e ← E.expr true true el.scope (← Verif.Spec.XsltCompile.need el .select)
      let b ← Verif.Spec.XsltCompile.yesNo el .disableOutputEscaping
      some (.leaf (.valueOf e b))) := by
  unfold openValueOf
  rw [sc14, sc3, r1, r4]
  refine (gather_bind hr [rNeed .select, rYesNo .disableOutputEscaping] (by decide) _).trans ?_
  simp only [List.map_cons, List.map_nil, checks, check_need, check_may, check_mayBe, check_yesNo, get_gathered hr, hc.expr]
  show (only el [.select, .disableOutputEscaping]).bind _ = (only el [.select, .disableOutputEscaping]).bind _
  cases ho : only el [.select, .disableOutputEscaping] with
  | none => rfl
  | some u =>
    cases hn : Verif.Spec.XsltCompile.need el .select with
    | none => rfl
    | some v =>
      cases hy : Verif.Spec.XsltCompile.yesNo el .disableOutputEscaping with
      | none =>
        show none = _
        simp
      | some b =>
        have := yesNo_some hy
        simp [(attr_need hn).1, defaults, ARule.rule, rYesNo, rNeed, lookup_eq, this]
theorem openCopyOf_eq {E : Ext ε μ ν π} {cur : Bool} {el : El} (hr : Regular el) (hc : Calm E cur) :
    openCopyOf E cur el = (do
      only el [.select]
      let e ← E.expr true true el.scope (← Verif.Spec.XsltCompile.need el .select)
      some (.leaf (.copyOf e))) := by
  unfold openCopyOf
  rw [sc14, r1]
  refine (gather_bind hr [rNeed .select] (by decide) _).trans ?_
  simp only [List.map_cons, List.map_nil, checks, check_need, get_gathered hr, hc.expr, hc.avt]
  show (only el [.select]).bind _ = (only el [.select]).bind _
  cases ho : only el [.select] with
  | none => rfl
  | some u =>
    cases hn : Verif.Spec.XsltCompile.need el .select with
    | none => rfl
    | some v => simp [(attr_need hn).1]

theorem openIf_eq {E : Ext ε μ ν π} {cur : Bool} {el : El} (hr : Regular el) (hc : Calm E cur) :
    openIf E cur el = (do
      only el [.test]
      let e ← E.expr true true el.scope (← Verif.Spec.XsltCompile.need el .test)
      some (.box (.ifThen e) [])) := by
  unfold openIf
  rw [sc16, r1]
  refine (gather_bind hr [rNeed .test] (by decide) _).trans ?_
  simp only [List.map_cons, List.map_nil, checks, check_need, get_gathered hr, hc.expr, hc.avt]
  show (only el [.test]).bind _ = (only el [.test]).bind _
  cases ho : only el [.test] with
  | none => rfl
  | some u =>
    cases hn : Verif.Spec.XsltCompile.need el .test with
    | none => rfl
    | some v => simp [(attr_need hn).1]

theorem openWhen_eq {E : Ext ε μ ν π} {cur : Bool} {el : El} (hr : Regular el) (hc : Calm E cur) :
    openWhen E cur el = (do
      only el [.test]
      let e ← E.expr true true el.scope (← Verif.Spec.XsltCompile.need el .test)
      some (.box (.when e) [])) := by
  unfold openWhen
  rw [sc16, r1]
  refine (gather_bind hr [rNeed .test] (by decide) _).trans ?_
  simp only [List.map_cons, List.map_nil, checks, check_need, get_gathered hr, hc.expr, hc.avt]
  show (only el [.test]).bind _ = (only el [.test]).bind _
  cases ho : only el [.test] with
  | none => rfl
  | some u =>
    cases hn : Verif.Spec.XsltCompile.need el .test with
    | none => rfl
    | some v => simp [(attr_need hn).1]

theorem openForEach_eq {E : Ext ε μ ν π} {cur : Bool} {el : El} (hr : Regular el) (hc : Calm E cur) :
    openForEach E cur el = (do
      only el [.select]
      let e ← E.expr true true el.scope (← Verif.Spec.XsltCompile.need el .select)
      some (.box (.forEach e [] false) [])) := by
  unfold openForEach
  rw [sc14, r1]
  refine (gather_bind hr [rNeed .select] (by decide) _).trans ?_
  simp only [List.map_cons, List.map_nil, checks, check_need, get_gathered hr, hc.expr, hc.avt]
  show (only el [.select]).bind _ = (only el [.select]).bind _
  cases ho : only el [.select] with
  | none => rfl
  | some u =>
    cases hn : Verif.Spec.XsltCompile.need el .select with
    | none => rfl
    | some v => simp [(attr_need hn).1]

theorem openProcInst_eq {E : Ext ε μ ν π} {cur : Bool} {el : El} (hr : Regular el) (hc : Calm E cur) :
    openProcInst E cur el = (do
      only el [.name]
      let e ← E.avt true el.scope (← Verif.Spec.XsltCompile.need el .name)
      some (.box (.procInst e) [])) := by
  unfold openProcInst
  rw [sc10, r1]
  refine (gather_bind hr [rNeed .name] (by decide) _).trans ?_
  simp only [List.map_cons, List.map_nil, checks, check_need, get_gathered hr, hc.expr, hc.avt]
  show (only el [.name]).bind _ = (only el [.name]).bind _
  cases ho : only el [.name] with
  | none => rfl
  | some u =>
    cases hn : Verif.Spec.XsltCompile.need el .name with
    | none => rfl
    | some v => simp [(attr_need hn).1]

theorem openCallTemplate_eq {E : Ext ε μ ν π} {el : El} (hr : Regular el) :
    openCallTemplate E el = (do
      only el [.name]
      let n ← E.name el.scope (← Verif.Spec.XsltCompile.need el .name)
      some (.callTemplate n [])) := by
  unfold openCallTemplate
  rw [sc10, r1]
  refine (gather_bind hr [rNeed .name] (by decide) _).trans ?_
  simp only [List.map_cons, List.map_nil, checks, check_need, get_gathered hr]
  show (only el [.name]).bind _ = (only el [.name]).bind _
  cases ho : only el [.name] with
  | none => rfl
  | some u =>
    cases hn : Verif.Spec.XsltCompile.need el .name with
    | none => rfl
    | some v => simp [(attr_need hn).1]

theorem openText_eq {el : El} (hr : Regular el) :
    (openText el : Option (Frame ε μ ν π)) = (do
      only el [.disableOutputEscaping]
      let b ← Verif.Spec.XsltCompile.yesNo el .disableOutputEscaping
      some (.text b [])) := by
  unfold openText
  rw [sc3, r4]
  refine (gather_bind hr [rYesNo .disableOutputEscaping] (by decide) _).trans ?_
  simp only [List.map_cons, List.map_nil, checks, check_yesNo, get_gathered hr]
  show (only el [.disableOutputEscaping]).bind _ = (only el [.disableOutputEscaping]).bind _
  cases ho : only el [.disableOutputEscaping] with
  | none => rfl
  | some u =>
    cases hy : Verif.Spec.XsltCompile.yesNo el .disableOutputEscaping with
    | none => rfl
    | some b =>
      have := yesNo_some hy
      simp [defaults, ARule.rule, rYesNo, lookup_eq, this]

theorem openMessage_eq {el : El} (hr : Regular el) :
    (openMessage el : Option (Frame ε μ ν π)) = (do
      only el [.terminate]
      let b ← Verif.Spec.XsltCompile.yesNo el .terminate
      some (.box (.message b) [])) := by
  unfold openMessage
  rw [sc15, r4]
  refine (gather_bind hr [rYesNo .terminate] (by decide) _).trans ?_
  simp only [List.map_cons, List.map_nil, checks, check_yesNo, get_gathered hr]
  show (only el [.terminate]).bind _ = (only el [.terminate]).bind _
  cases ho : only el [.terminate] with
  | none => rfl
  | some u =>
    cases hy : Verif.Spec.XsltCompile.yesNo el .terminate with
    | none => rfl
    | some b =>
      have := yesNo_some hy
      simp [defaults, ARule.rule, rYesNo, lookup_eq, this]

theorem openCopy_eq {el : El} (hr : Regular el) :
    (openCopy el : Option (Frame ε μ ν π)) = (do
      only el [.useAttributeSets]
      some (.box .copy [])) := by
  unfold openCopy
  rw [sc18, r2]
  refine (gather_bind hr [rMay .useAttributeSets] (by decide) _).trans ?_
  simp only [List.map_cons, List.map_nil, checks, check_may, get_gathered hr]
  show (only el [.useAttributeSets]).bind _ = (only el [.useAttributeSets]).bind _
  cases ho : only el [.useAttributeSets] with
  | none => rfl
  | some u => rfl

/-- An element that has no attributes in a namespace has no attributes when it may have none. -/
theorem bare_eq {el : El} (h : ∀ a ∈ el.atts, a.uri = []) :
    only el [] = if el.atts.isEmpty then some () else none := by
  unfold only
  cases ha : el.atts with
  | nil => simp
  | cons a as =>
    rw [if_neg]
    · rfl
    · intro hh
      obtain ⟨n, hn, _⟩ := hh a List.mem_cons_self (h a (by rw [ha]; exact List.mem_cons_self))
      cases hn

theorem openApplyImports_eq {el : El} (h : ∀ a ∈ el.atts, a.uri = []) :
    (openApplyImports el : Option (Frame ε μ ν π)) = (do
      only el []
      some (.leaf .applyImports)) := by
  rw [bare_eq h]; unfold openApplyImports
  split <;> rfl

theorem openChoose_eq {el : El} (h : ∀ a ∈ el.atts, a.uri = []) :
    (openChoose el : Option (Frame ε μ ν π)) = (do
      only el []
      some (.choose [] none false false)) := by
  rw [bare_eq h]; unfold openChoose
  split <;> rfl

theorem openOtherwise_eq {el : El} (h : ∀ a ∈ el.atts, a.uri = []) :
    (openOtherwise el : Option (Frame ε μ ν π)) = (do
      only el []
      some (.box .otherwise [])) := by
  rw [bare_eq h]; unfold openOtherwise
  split <;> rfl

theorem openComment_eq {el : El} (h : ∀ a ∈ el.atts, a.uri = []) :
    (openComment el : Option (Frame ε μ ν π)) = (do
      only el []
      some (.box .comment [])) := by
  rw [bare_eq h]; unfold openComment
  split <;> rfl

theorem optExpr_eq {E : Ext ε μ ν π} {cur : Bool} {el : El} (hc : Calm E cur)
    (hs : attr el .select ≠ some []) :
    optExpr E cur el.scope ((attr el .select).getD []) = select? E el := by
  unfold optExpr select?
  cases h : attr el .select with
  | none => rfl
  | some v =>
    cases v with
    | nil => exact absurd h hs
    | cons c cs => rw [hc.expr]; rfl

theorem optName_eq {E : Ext ε μ ν π} {el : El} {n : Att} (hs : attr el n ≠ some []) :
    optName E el.scope ((attr el n).getD []) = name? E el n := by
  unfold optName name?
  cases h : attr el n with
  | none => rfl
  | some v =>
    cases v with
    | nil => exact absurd h hs
    | cons c cs => rfl

theorem openApplyTemplates_eq {E : Ext ε μ ν π} {cur : Bool} {el : El} (hr : Regular el)
    (hc : Calm E cur) (hs : attr el .select ≠ some []) (hm : attr el .mode ≠ some []) :
    openApplyTemplates E cur el = (do
      only el [.select, .mode]
      let e ← select? E el
      let m ← name? E el .mode
      some (.applyTemplates e m [] [])) := by
  unfold openApplyTemplates
  rw [sc14, sc9, r2, r2]
  refine (gather_bind hr [rMay .select, rMay .mode] (by decide) _).trans ?_
  simp only [List.map_cons, List.map_nil, checks, check_may, get_gathered hr]
  show (only el [.select, .mode]).bind _ = (only el [.select, .mode]).bind _
  cases ho : only el [.select, .mode] with
  | none => rfl
  | some u =>
    simp only [Option.bind_some, defaults, ARule.rule, rMay, List.filterMap_cons, List.filterMap_nil,
      Option.map_none, List.lookup_nil, Option.getD_none, optExpr_eq hc hs, optName_eq hm]

theorem openVariable_eq {E : Ext ε μ ν π} {cur : Bool} {el : El} (hr : Regular el)
    (hc : Calm E cur) (hs : attr el .select ≠ some []) (mk : ν → Option ε → Maker ε μ ν π) :
    openVariable E cur mk el = (binding E el).map (fun ne => .box (mk ne.1 ne.2) []) := by
  unfold openVariable binding
  rw [sc14, sc10, r1, r2]
  refine (gather_bind hr [rNeed .name, rMay .select] (by decide) _).trans ?_
  simp only [List.map_cons, List.map_nil, checks, check_need, check_may, get_gathered hr, getValue_eq hr,
    optExpr_eq hc hs]
  show (only el [.name, .select]).bind _ = Option.map _ ((only el [.name, .select]).bind _)
  cases ho : only el [.name, .select] with
  | none => rfl
  | some u =>
    cases hn : Verif.Spec.XsltCompile.need el .name with
    | none => rfl
    | some v =>
      cases h1 : select? E el with
      | none =>
        cases h2 : E.name el.scope v <;> simp [h2]
      | some e =>
        cases h2 : E.name el.scope v <;> simp [h2, (attr_need hn).1]

theorem openSort_eq {E : Ext ε μ ν π} {cur : Bool} {el : El} (hr : Regular el)
    (hc : Calm E cur) (hl : attr el .lang = none) :
    openSort E cur el = (sortOf E el []).map (fun s => .sort s) := by
  unfold openSort sortOf
  rw [sc14, sc7, sc2, sc12, sc1, r3, r2, r3, r3, r3]
  refine (gather_bind hr [rMayBe .select SC.dot, rMay .lang, rMayBe .dataType SC.text,
    rMayBe .order SC.ascending, rMayBe .caseOrder SC.upperFirst] (by decide) _).trans ?_
  simp only [List.map_cons, List.map_nil, checks, check_mayBe, check_may, get_gathered hr, hc.expr, hc.avt]
  show (only el [.select, .lang, .dataType, .order, .caseOrder]).bind _ =
    Option.map _ ((only el [.select, .lang, .dataType, .order, .caseOrder]).bind _)
  cases ho : only el [.select, .lang, .dataType, .order, .caseOrder] with
  | none => rfl
  | some u =>
    have l1 : (defaults [(rMayBe .select SC.dot).rule, (rMay .lang).rule, (rMayBe .dataType SC.text).rule,
        (rMayBe .order SC.ascending).rule, (rMayBe .caseOrder SC.upperFirst).rule]).lookup Att.select.str
          = some SC.dot := by decide +kernel
    have l2 : (defaults [(rMayBe .select SC.dot).rule, (rMay .lang).rule, (rMayBe .dataType SC.text).rule,
        (rMayBe .order SC.ascending).rule, (rMayBe .caseOrder SC.upperFirst).rule]).lookup Att.dataType.str
          = some SC.text := by decide +kernel
    have l3 : (defaults [(rMayBe .select SC.dot).rule, (rMay .lang).rule, (rMayBe .dataType SC.text).rule,
        (rMayBe .order SC.ascending).rule, (rMayBe .caseOrder SC.upperFirst).rule]).lookup Att.order.str
          = some SC.ascending := by decide +kernel
    have l4 : (defaults [(rMayBe .select SC.dot).rule, (rMay .lang).rule, (rMayBe .dataType SC.text).rule,
        (rMayBe .order SC.ascending).rule, (rMayBe .caseOrder SC.upperFirst).rule]).lookup Att.caseOrder.str
          = some SC.upperFirst := by decide +kernel
    have l5 : lang? E el = some none := by unfold lang?; rw [hl]
    rw [l1, l2, l3, l4, l5]
    simp only [Option.bind_some, Option.getD_some, avtOr, nothing, if_true]
    show ((E.expr true true el.scope ((attr el .select).getD SC.dot)).bind _ : Option _) =
      Option.map _ ((E.expr true true el.scope ((attr el .select).getD SC.dot)).bind _)
    cases E.expr true true el.scope ((attr el .select).getD SC.dot) with
    | none => rfl
    | some e =>
      show ((E.avt true el.scope ((attr el .dataType).getD SC.text)).bind _ : Option _) =
        Option.map _ ((E.avt true el.scope ((attr el .dataType).getD SC.text)).bind _)
      cases E.avt true el.scope ((attr el .dataType).getD SC.text) with
      | none => rfl
      | some d =>
        show ((E.avt true el.scope ((attr el .order).getD SC.ascending)).bind _ : Option _) =
          Option.map _ ((E.avt true el.scope ((attr el .order).getD SC.ascending)).bind _)
        cases E.avt true el.scope ((attr el .order).getD SC.ascending) with
        | none => rfl
        | some o =>
          show ((E.avt true el.scope ((attr el .caseOrder).getD SC.upperFirst)).bind _ : Option _) =
            Option.map _ ((E.avt true el.scope ((attr el .caseOrder).getD SC.upperFirst)).bind _)
          cases E.avt true el.scope ((attr el .caseOrder).getD SC.upperFirst) <;> rfl

theorem sortOf_nil {E : Ext ε μ ν π} (el : El) (kids : List Src) :
    sortOf E el kids = (sortOf E el []).bind (fun s => if nothing kids then some s else none) := by
  unfold sortOf
  simp only [nothing, if_true]
  cases only el [.select, .lang, .dataType, .order, .caseOrder] with
  | none => rfl
  | some u =>
    show ((E.expr true true el.scope _).bind _ : Option _) = Option.bind ((E.expr true true el.scope _).bind _) _
    cases E.expr true true el.scope _ with
    | none => rfl
    | some e =>
      show (Option.bind (lang? E el) _ : Option _) = Option.bind (Option.bind (lang? E el) _) _
      cases lang? E el with
      | none => rfl
      | some l =>
        show ((avtOr E el .dataType "text").bind _ : Option _) =
          Option.bind ((avtOr E el .dataType "text").bind _) _
        cases avtOr E el .dataType "text" with
        | none => rfl
        | some d =>
          show ((avtOr E el .order "ascending").bind _ : Option _) =
            Option.bind ((avtOr E el .order "ascending").bind _) _
          cases avtOr E el .order "ascending" with
          | none => rfl
          | some o =>
            show ((avtOr E el .caseOrder "upper-first").bind _ : Option _) =
              Option.bind ((avtOr E el .caseOrder "upper-first").bind _) _
            cases avtOr E el .caseOrder "upper-first" <;> rfl

theorem openAttribute_eq {E : Ext ε μ ν π} {cur : Bool} {el : El} (hr : Regular el)
    (hc : Calm E cur) (hn : attr el .namespace ≠ some []) :
    openAttribute E cur el = (do
      only el [.name, .namespace]
      let n ← E.avt true el.scope (← Verif.Spec.XsltCompile.need el .name)
      let ns ← nsOf E el
      some (.box (.attribute n ns) [])) := by
  unfold openAttribute nsOf
  rw [sc10, sc11, r1, r3]
  refine (gather_bind hr [rNeed .name, rMayBe .namespace []] (by decide) _).trans ?_
  simp only [List.map_cons, List.map_nil, checks, check_need, check_mayBe, get_gathered hr, hc.avt]
  show (only el [.name, .namespace]).bind _ = (only el [.name, .namespace]).bind _
  cases ho : only el [.name, .namespace] with
  | none => rfl
  | some u =>
    have l1 : (defaults [(rNeed .name).rule, (rMayBe .namespace []).rule]).lookup Att.namespace.str
        = some [] := by decide +kernel
    cases hq : Verif.Spec.XsltCompile.need el .name with
    | none => rfl
    | some v =>
      rw [l1]
      cases ha : attr el .namespace with
      | none => simp [(attr_need hq).1]
      | some w =>
        cases w with
        | nil => exact absurd ha hn
        | cons c cs =>
          cases h1 : E.avt true el.scope v <;> cases h2 : E.avt true el.scope (c :: cs) <;>
            simp [(attr_need hq).1, h1, h2]

theorem openElement_eq {E : Ext ε μ ν π} {cur : Bool} {el : El} (hr : Regular el)
    (hc : Calm E cur) (hn : attr el .namespace ≠ some []) (hu : attr el .useAttributeSets = none) :
    openElement E cur el = (do
      only el [.name, .namespace, .useAttributeSets]
      let n ← E.avt true el.scope (← Verif.Spec.XsltCompile.need el .name)
      let ns ← nsOf E el
      some (.box (.element n ns) [])) := by
  unfold openElement nsOf
  rw [sc10, sc11, sc18, r1, r3, r2]
  refine (gather_bind hr [rNeed .name, rMayBe .namespace [], rMay .useAttributeSets] (by decide) _).trans ?_
  simp only [List.map_cons, List.map_nil, checks, check_need, check_mayBe, check_may, get_gathered hr, hc.avt]
  show (only el [.name, .namespace, .useAttributeSets]).bind _ =
    (only el [.name, .namespace, .useAttributeSets]).bind _
  cases ho : only el [.name, .namespace, .useAttributeSets] with
  | none => rfl
  | some u =>
    have l1 : (defaults [(rNeed .name).rule, (rMayBe .namespace []).rule,
        (rMay .useAttributeSets).rule]).lookup Att.namespace.str = some [] := by decide +kernel
    have l2 : (defaults [(rNeed .name).rule, (rMayBe .namespace []).rule,
        (rMay .useAttributeSets).rule]).lookup Att.useAttributeSets.str = none := by decide +kernel
    cases hq : Verif.Spec.XsltCompile.need el .name with
    | none => rfl
    | some v =>
      rw [l1, l2, hu]
      cases ha : attr el .namespace with
      | none => simp [(attr_need hq).1]
      | some w =>
        cases w with
        | nil => exact absurd ha hn
        | cons c cs =>
          cases h1 : E.avt true el.scope v <;> cases h2 : E.avt true el.scope (c :: cs) <;>
            simp [(attr_need hq).1, h1, h2]

theorem inlineAtts_eq {E : Ext ε μ ν π} {cur : Bool} {sc : Scope} (hc : Calm E cur) (as : List Attr)
    (h : ∀ a ∈ as, ¬ "xmlns:".toList <+: a.qn) :
    inlineAtts E cur sc as = literalAtts E sc as := by
  induction as with
  | nil => rfl
  | cons a as ih =>
    rw [inlineAtts, literalAtts]
    have hp : SC.xmlns.isPrefixOf a.qn = false := by
      rw [Bool.eq_false_iff]
      intro hh
      exact h a List.mem_cons_self (List.isPrefixOf_iff_prefix.mp hh)
    rw [if_neg (by rw [hp]; exact Bool.false_ne_true), ih (fun b hb => h b (List.mem_cons_of_mem _ hb)), hc.avt]
    rfl

theorem openLiteral_eq {E : Ext ε μ ν π} {cur : Bool} {el : El} (hc : Calm E cur)
    (h : ∀ a ∈ el.atts, ¬ "xmlns:".toList <+: a.qn) :
    openLiteral E cur el = (literalAtts E el.scope el.atts).map
      (fun as => .box (.literal el.qn el.uri as) []) := by
  unfold openLiteral
  rw [inlineAtts_eq hc el.atts h]
  cases literalAtts E el.scope el.atts <;> rfl

theorem openKey_eq {E : Ext ε μ ν π} {el : El} (hr : Regular el) :
    openKey E el = (do
      only el [.name, .match, .use]
      let n ← E.name el.scope (← Verif.Spec.XsltCompile.need el .name)
      let p ← E.pattern false el.scope (← Verif.Spec.XsltCompile.need el .match)
      let u ← E.expr true false el.scope (← Verif.Spec.XsltCompile.need el .use)
      some (.key n ⟨p, u⟩)) := by
  unfold openKey
  rw [sc10, sc8, sc17, r1, r1, r1]
  refine (gather_bind hr [rNeed .name, rNeed .match, rNeed .use] (by decide) _).trans ?_
  simp only [List.map_cons, List.map_nil, checks, check_need, get_gathered hr]
  show (only el [.name, .match, .use]).bind _ = (only el [.name, .match, .use]).bind _
  cases ho : only el [.name, .match, .use] with
  | none => rfl
  | some u =>
    cases h1 : Verif.Spec.XsltCompile.need el .name with
    | none => rfl
    | some v =>
      cases h2 : Verif.Spec.XsltCompile.need el .match with
      | none => simp
      | some w =>
        cases h3 : Verif.Spec.XsltCompile.need el .use with
        | none => simp
        | some x => simp [(attr_need h1).1, (attr_need h2).1, (attr_need h3).1]

/-- The attributes of `xsl:template`. -/
def templateHead (E : Ext ε μ ν π) (el : El) : Option (Option μ × Option ν × Option ν × Option π) := do
  only el [.match, .mode, .name, .priority]
  let n ← name? E el .name
  let m ← name? E el .mode
  if attr el .priority = some [] then none
  else match attr el .match with
    | none => if n.isNone ∨ m.isSome then none else some (none, n, m, none)
    | some [] => none
    | some (c :: cs) => do
      let p ← E.pattern true el.scope (c :: cs)
      let q ← priority? E el
      some (some p, n, m, q)

theorem templateOf_eq (E : Ext ε μ ν π) (el : El) (kids : List Src) :
    templateOf E el kids = (templateHead E el).bind (fun h =>
      (Verif.Spec.XsltCompile.parametrised E kids).map (fun b => ⟨h.1, h.2.1, h.2.2.1, h.2.2.2, b⟩)) := by
  unfold templateOf templateHead
  cases only el [.match, .mode, .name, .priority] with
  | none => rfl
  | some u =>
    cases name? E el .name with
    | none => rfl
    | some n =>
      cases name? E el .mode with
      | none => rfl
      | some m =>
        cases Verif.Spec.XsltCompile.parametrised E kids with
        | none => simp
        | some b =>
          by_cases hp : attr el .priority = some []
          · simp [hp]
          · simp only [hp, if_false, Option.bind_some, Option.map_some, bind]
            cases attr el .match with
            | none =>
              dsimp only
              split <;> rfl
            | some v =>
              cases v with
              | nil => rfl
              | cons c cs =>
                dsimp only
                cases E.pattern true el.scope (c :: cs) with
                | none => rfl
                | some p =>
                  cases priority? E el <;> rfl

theorem name?_none {E : Ext ε μ ν π} {el : El} {n : Att} (h : attr el n = none) :
    name? E el n = some none := by unfold name?; rw [h]

theorem name?_some {E : Ext ε μ ν π} {el : El} {n : Att} {v : Str} (h : attr el n = some v) (hv : v ≠ []) :
    name? E el n = (E.name el.scope v).map some := by
  unfold name?; rw [h]
  cases v with
  | nil => exact absurd rfl hv
  | cons c cs => rfl

theorem openTemplate_eq {E : Ext ε μ ν π} {el : El} (hr : Regular el)
    (hn : attr el .name ≠ some []) (hm : attr el .mode ≠ some []) (ht : attr el .match ≠ some []) :
    openTemplate E el = (templateHead E el).map
      (fun h => .box (.template h.1 h.2.1 h.2.2.1 h.2.2.2 false) []) := by
  unfold openTemplate templateHead
  rw [sc8, sc9, sc10, sc13, r2, r2, r2, r2]
  refine (gather_bind hr [rMay .match, rMay .mode, rMay .name, rMay .priority] (by decide) _).trans ?_
  simp only [List.map_cons, List.map_nil, checks, check_may, get_gathered hr, hasIndex_eq hr]
  show (only el [.match, .mode, .name, .priority]).bind _ =
    Option.map _ ((only el [.match, .mode, .name, .priority]).bind _)
  cases ho : only el [.match, .mode, .name, .priority] with
  | none => rfl
  | some u =>
    have ld : defaults [(rMay .match).rule, (rMay .mode).rule, (rMay .name).rule, (rMay .priority).rule]
        = [] := rfl
    simp only [Option.bind_some, ld, List.lookup_nil, Option.getD_none, bind, optName_eq hn, optName_eq hm]
    cases h1 : attr el .match with
    | none =>
      cases h2 : attr el .name with
      | none =>
        rw [name?_none h2]
        simp only [Option.getD_none, and_self, if_true, Option.bind_some, Option.isNone_none, true_or]
        cases name? E el .mode with
        | none => rfl
        | some m => simp
      | some n =>
        have hn' : n ≠ [] := fun e => hn (by rw [h2, e])
        rw [name?_some h2 hn']
        simp only [Option.getD_none, Option.getD_some, hn', and_false, if_false, or_true, and_true]
        cases h3 : attr el .mode with
        | some m =>
          have hm' : m ≠ [] := fun e => hm (by rw [h3, e])
          rw [name?_some h3 hm']
          simp only [Option.isSome_some, if_true]
          cases E.name el.scope n with
          | none => rfl
          | some x =>
            cases E.name el.scope m with
            | none => rfl
            | some y => simp
        | none =>
          rw [name?_none h3]
          simp only [Option.isSome_none, Bool.false_eq_true, if_false]
          cases h4 : attr el .priority with
          | none =>
            cases E.name el.scope n <;> simp
          | some q =>
            by_cases hq : q = []
            · subst hq
              cases E.name el.scope n <;> simp
            · cases E.name el.scope n <;> simp [hq]
    | some t =>
      have ht' : t ≠ [] := fun e => ht (by rw [h1, e])
      cases t with
      | nil => exact absurd rfl ht'
      | cons c cs =>
      simp only [Option.getD_some, ht', false_and, if_false, or_false]
      have e3 : ¬ ((attr el .mode).isSome = true ∧ (attr el .mode).getD [] = []) := by
        rintro ⟨h, h'⟩
        cases h3 : attr el .mode with
        | none => rw [h3] at h; cases h
        | some m => rw [h3] at h'; exact hm (by rw [h3]; simpa using h')
      rw [if_neg e3]
      cases h4 : attr el .priority with
      | none =>
        have hp : priority? E el = some none := by unfold priority?; rw [h4]
        rw [hp]
        cases name? E el .name with
        | none => simp
        | some n =>
          cases name? E el .mode with
          | none => simp
          | some m =>
            cases hpt : E.pattern true el.scope (c :: cs) <;> simp [hpt]
      | some q =>
        have hp : priority? E el = (E.priority q).map some := by unfold priority?; rw [h4]
        rw [hp]
        by_cases hq : q = []
        · subst hq
          cases name? E el .name with
          | none => simp
          | some n => cases name? E el .mode <;> simp
        · cases name? E el .name with
          | none => simp [hq]
          | some n =>
            cases name? E el .mode with
            | none => simp [hq]
            | some m =>
              cases hpt : E.pattern true el.scope (c :: cs) with
              | none => simp [hpt, hq]
              | some p => cases hpr : E.priority q <;> simp [hpt, hq, hpr]

end
end Verif.Lemmas.XsltCompile
