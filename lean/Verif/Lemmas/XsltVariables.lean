import Verif.Model.XsltVariables
import Verif.Spec.XsltVariables
import Verif.Lemmas.XsltTemplates2
set_option autoImplicit false
set_option linter.unusedSimpArgs false
set_option linter.unusedVariables false
/-! Lemmas about variables and parameters. -/
namespace Verif.Xslt
open Verif.Spec.XsltVariables

theorem get_put (n m : VName) (i : Inst) (s : VScope) :
    get m (put n i s) = if m = n then some i else get m s := by
  unfold put
  rw [get_upd]

theorem put_absent (n : VName) (i : Inst) (s : VScope) (h : get n s = none) : put n i s = s ++ [(n, i)] := by
  induction s with
  | nil => rfl
  | cons e s ih =>
    rw [get] at h
    by_cases he : e.1 = n
    · rw [if_pos he] at h; cases h
    · rw [if_neg he] at h
      have := ih h
      unfold put at this ⊢
      rw [upd, if_neg he, this]; rfl

theorem get_none_keys (n : VName) (s : VScope) : get n s = none ↔ n ∉ s.map Prod.fst := by
  induction s with
  | nil => simp [get]
  | cons e s ih =>
    rw [get]
    by_cases he : e.1 = n
    · rw [if_pos he]; simp [he]
    · rw [if_neg he, ih]
      simp only [List.map_cons, List.mem_cons, not_or]
      exact ⟨fun h => ⟨fun e' => he e'.symm, h⟩, fun h => h.2⟩

/-- The stack stands for the bindings, with the globals at the bottom. -/
structure Sim (g : VScope) (s : VStack) (l : Locals) : Prop where
  top : ∃ t r, s.stack = t :: r ∧ r.getLast? = some g ∧
    ∀ n, get n t = (binding n l).map (fun x => (⟨[], some x⟩ : Inst))

/-- The values of the globals. -/
def globalsOf (g : VScope) : VName → Option (List Char) := fun n => (get n g).bind Inst.value

/-- Running a template in the code agrees with the specification and leaves the stack as it was. -/
def AppOk (g : VScope) (app : VName → VStack → Option (List Char × VStack))
    (app' : List (VName × Option (List Char)) → VName → Option (List Char)) : Prop :=
  ∀ name s P ps, s.stack.getLast? = some g → s.params = P :: ps → (∀ e ∈ P, e.2.prec = []) →
    app name s = (app' (P.map fun e => (e.1, e.2.value)) name).map fun o => (o, s)

theorem sim_last (g : VScope) (s : VStack) (l : Locals) (h : Sim g s l) : s.stack.getLast? = some g := by
  obtain ⟨t, r, e, hr, _⟩ := h.top
  rw [e]
  cases r with
  | nil => cases hr
  | cons x r => rw [List.getLast?_cons_cons]; exact hr

theorem resolve_ok (g : VScope) (s : VStack) (l : Locals) (h : Sim g s l) (n : VName) :
    resolve n s = value (globalsOf g) l n := by
  have hl := sim_last g s l h
  obtain ⟨t, r, e, hr, ht⟩ := h.top
  unfold resolve value globalsOf
  rw [List.getLastD_eq_getLast?, hl, e]
  simp only [List.headD_cons, ht n, Option.getD_some]
  cases binding n l with
  | some x => simp
  | none => simp only [Option.map_none]; cases get n g <;> rfl

theorem evalExpr_ok (g : VScope) (s : VStack) (l : Locals) (h : Sim g s l) (e : Expr) :
    evalExpr s e = eval (globalsOf g) l e := by
  induction e with
  | lit t => rfl
  | ref n => exact resolve_ok g s l h n
  | concat a b iha ihb => rw [evalExpr, eval, iha, ihb]; cases eval (globalsOf g) l a <;> cases eval (globalsOf g) l b <;> rfl

theorem declare_ok (g : VScope) (s : VStack) (l : Locals) (h : Sim g s l) (n : VName) (x : Option (List Char)) :
    match Spec.XsltVariables.bind n x l with
    | some l' => ∃ s', declareVariable n ⟨[], x⟩ s = some s' ∧ Sim g s' l' ∧
        s'.params = s.params ∧ s'.stack.tail = s.stack.tail
    | none => declareVariable n ⟨[], x⟩ s = none := by
  obtain ⟨t, r, e, hr, ht⟩ := h.top
  unfold declareVariable Spec.XsltVariables.bind
  rw [e]
  simp only [List.headD_cons, ht n, frozenPrecedence]
  cases hb : binding n l with
  | some y => cases x <;> simp
  | none =>
    cases x with
    | none => simp
    | some y =>
      simp only [Option.map_none]
      refine ⟨_, rfl, ⟨⟨_, r, rfl, hr, ?_⟩⟩, rfl, rfl⟩
      intro m
      rw [get_put, ht m, binding]
      by_cases hm : m = n
      · rw [if_pos hm, if_pos hm.symm]; rfl
      · rw [if_neg hm, if_neg (fun e => hm e.symm)]

theorem each_ok (g : VScope) (app : VName → VStack → Option (List Char × VStack))
    (app' : List (VName × Option (List Char)) → VName → Option (List Char)) (ha : AppOk g app app')
    (s : VStack) (P : VScope) (ps : List VScope) (hs : s.stack.getLast? = some g) (hp : s.params = P :: ps)
    (hP : ∀ e ∈ P, e.2.prec = []) (ts : List VName) :
    invokeEach app ts s = (outputs (app' (P.map fun e => (e.1, e.2.value))) ts).map fun o => (o, s) := by
  induction ts with
  | nil => rfl
  | cons t ts ih =>
    rw [invokeEach, outputs, ha t s P ps hs hp hP]
    cases app' (P.map fun e => (e.1, e.2.value)) t with
    | none => rfl
    | some o =>
      simp only [Option.map_some, ih]
      cases outputs (app' (P.map fun e => (e.1, e.2.value))) ts <;> rfl

/-- The instances made of the parameters passed. -/
def insts (l : List (VName × Option (List Char))) : VScope := l.map fun e => (e.1, ⟨[], e.2⟩)

theorem insts_values (l : List (VName × Option (List Char))) :
    (insts l).map (fun e => (e.1, e.2.value)) = l := by
  unfold insts
  rw [List.map_map]
  simp [Function.comp_def]

theorem insts_prec (l : List (VName × Option (List Char))) : ∀ e ∈ insts l, e.2.prec = [] := by
  intro e he
  obtain ⟨x, _, rfl⟩ := List.mem_map.mp he
  rfl

theorem unpassAll_ok (app' : List (VName × Option (List Char)) → VName → Option (List Char))
    (G : VName → Option (List Char)) (pars : VPars) (l : Locals) (stk : List VScope) (ps : List VScope) :
    unpassAll pars ⟨stk, insts (passed app' G pars l) :: ps⟩ = ⟨stk, [] :: ps⟩ := by
  match pars with
  | .nil => rw [passed]; rfl
  | .cons n v rest =>
    rw [unpassAll, passed]
    have : unpassParam n ⟨stk, insts ((n, valueOf app' G v l) :: passed app' G rest l) :: ps⟩ =
        ⟨stk, insts (passed app' G rest l) :: ps⟩ := by
      simp [unpassParam, onTop, insts, eraseName]
    rw [this]
    exact unpassAll_ok app' G rest l stk ps

theorem passed_names (app' : List (VName × Option (List Char)) → VName → Option (List Char))
    (G : VName → Option (List Char)) (pars : VPars) (l : Locals) :
    (passed app' G pars l).map Prod.fst = names pars := by
  match pars with
  | .nil => rw [passed]; rfl
  | .cons n v rest => rw [passed, names, List.map_cons, passed_names app' G rest l]

mutual
theorem runV_ok (g : VScope) (app : VName → VStack → Option (List Char × VStack))
    (app' : List (VName × Option (List Char)) → VName → Option (List Char)) (ha : AppOk g app app')
    (i : VIns) (s : VStack) (l : Locals) (P : VScope) (ps : List VScope) (h : Sim g s l)
    (hp : s.params = P :: ps) (hc : P = [] ∨ CallFree i) (hg : Good i) :
    match run app' (globalsOf g) i l with
    | none => runV app i s = none
    | some (o, l') => ∃ s', runV app i s = some (o, s') ∧ Sim g s' l' ∧ s'.params = s.params ∧
        s'.stack.tail = s.stack.tail ∧ (Undeclaring i → s' = s) := by
  match i, hc, hg with
  | .valueOf e, hc, hg =>
    rw [run, runV, evalExpr_ok g s l h]
    cases eval (globalsOf g) l e with
    | none => rfl
    | some t => exact ⟨s, rfl, h, rfl, rfl, fun _ => rfl⟩
  | .variable n v, hc, hg =>
    rw [Good] at hg
    rw [CallFree] at hc
    rw [run, runV, valueV_ok g app app' ha v s l P ps h hp hc hg]
    have hd := declare_ok g s l h n (valueOf app' (globalsOf g) v l)
    simp only [frozenPrecedence]
    cases hb : Spec.XsltVariables.bind n (valueOf app' (globalsOf g) v l) l with
    | none =>
      simp only [hb] at hd
      rw [hd]; rfl
    | some l' =>
      simp only [hb] at hd
      obtain ⟨s', h1, h2, h3, h4⟩ := hd
      rw [h1]
      exact ⟨s', rfl, h2, h3, h4, fun hu => by rw [Undeclaring] at hu; exact hu.elim⟩
  | .framed b, hc, hg =>
    rw [Good] at hg
    rw [CallFree] at hc
    rw [run, runV]
    have hch : chainScope s = ⟨s.stack.headD [] :: s.stack, P :: s.params⟩ := by
      unfold chainScope; rw [hp]; rfl
    have hsim : Sim g (chainScope s) l := by
      rw [hch]
      have hl := sim_last g s l h
      obtain ⟨t, r, e, hr, ht⟩ := h.top
      exact ⟨⟨t, s.stack, by rw [e]; rfl, hl, ht⟩⟩
    have ih := runVs_ok g app app' ha b (chainScope s) l P s.params hsim (by rw [hch]) hc hg
    cases hr : runs app' (globalsOf g) b l with
    | none => rw [hr] at ih; simp only at ih; rw [ih]; rfl
    | some r =>
      obtain ⟨o, l'⟩ := r
      rw [hr] at ih
      obtain ⟨s', h1, h2, h3, h4, _⟩ := ih
      rw [h1]
      simp only [Option.map_some]
      have hpop : popScope s' = s := by
        unfold popScope
        rw [h3, h4, hch]
        rfl
      exact ⟨s, by rw [hpop], h, rfl, rfl, fun _ => rfl⟩
  | .unframed b, hc, hg =>
    rw [Good] at hg
    rw [CallFree] at hc
    rw [run, runV]
    have ih := runVs_ok g app app' ha b s l P ps h hp hc hg.1
    cases hr : runs app' (globalsOf g) b l with
    | none => rw [hr] at ih; simp only at ih; rw [ih]; rfl
    | some r =>
      obtain ⟨o, l'⟩ := r
      rw [hr] at ih
      obtain ⟨s', h1, h2, h3, h4, h5⟩ := ih
      have := h5 hg.2
      subst this
      exact ⟨s', h1, h, rfl, rfl, fun _ => rfl⟩
  | .invoke ts pars, hc, hg =>
    rw [Good] at hg
    rw [CallFree] at hc
    have hP : P = [] := by simpa using hc
    subst hP
    rw [run, runV]
    have ih := passV_ok g app app' ha pars s l [] ps h hp (Or.inl rfl) hg
    simp only [List.map_nil, List.not_mem_nil, not_false_eq_true, implies_true, and_true, List.nil_append] at ih
    rw [ih]
    by_cases hn : (names pars).Nodup
    · rw [if_pos hn, if_pos hn]
      simp only
      rw [each_ok g app app' ha _ (insts (passed app' (globalsOf g) pars l)) ps
        (by exact sim_last g s l h) rfl (insts_prec _), insts_values]
      cases outputs (app' (passed app' (globalsOf g) pars l)) ts with
      | none => rfl
      | some o =>
        simp only [Option.map_some, Option.map_map]
        rw [unpassAll_ok]
        have : (⟨s.stack, [] :: ps⟩ : VStack) = s := by rw [← hp]
        rw [this]
        exact ⟨s, rfl, h, rfl, rfl, fun _ => rfl⟩
    · rw [if_neg hn, if_neg hn]
theorem runVs_ok (g : VScope) (app : VName → VStack → Option (List Char × VStack))
    (app' : List (VName × Option (List Char)) → VName → Option (List Char)) (ha : AppOk g app app')
    (is : VInss) (s : VStack) (l : Locals) (P : VScope) (ps : List VScope) (h : Sim g s l)
    (hp : s.params = P :: ps) (hc : P = [] ∨ CallFrees is) (hg : Goods is) :
    match runs app' (globalsOf g) is l with
    | none => runVs app is s = none
    | some (o, l') => ∃ s', runVs app is s = some (o, s') ∧ Sim g s' l' ∧ s'.params = s.params ∧
        s'.stack.tail = s.stack.tail ∧ (Undeclarings is → s' = s) := by
  match is, hc, hg with
  | .nil, hc, hg => rw [runs, runVs]; exact ⟨s, rfl, h, rfl, rfl, fun _ => rfl⟩
  | .cons i rest, hc, hg =>
    rw [Goods] at hg
    rw [CallFrees] at hc
    rw [runs, runVs]
    have ih := runV_ok g app app' ha i s l P ps h hp (hc.imp id And.left) hg.1
    cases hr : run app' (globalsOf g) i l with
    | none => rw [hr] at ih; simp only at ih; rw [ih]
    | some r =>
      obtain ⟨o, l1⟩ := r
      rw [hr] at ih
      obtain ⟨s1, h1, h2, h3, h4, h5⟩ := ih
      rw [h1]
      simp only
      have ih2 := runVs_ok g app app' ha rest s1 l1 P ps h2 (h3.trans hp) (hc.imp id And.right) hg.2
      cases hr2 : runs app' (globalsOf g) rest l1 with
      | none => rw [hr2] at ih2; simp only at ih2; rw [ih2]; rfl
      | some r2 =>
        obtain ⟨o2, l2⟩ := r2
        rw [hr2] at ih2
        obtain ⟨s2, k1, k2, k3, k4, k5⟩ := ih2
        rw [k1]
        refine ⟨s2, rfl, k2, k3.trans h3, k4.trans h4, ?_⟩
        intro hu
        rw [Undeclarings] at hu
        rw [k5 hu.2, h5 hu.1]
theorem valueV_ok (g : VScope) (app : VName → VStack → Option (List Char × VStack))
    (app' : List (VName × Option (List Char)) → VName → Option (List Char)) (ha : AppOk g app app')
    (v : VVal) (s : VStack) (l : Locals) (P : VScope) (ps : List VScope) (h : Sim g s l)
    (hp : s.params = P :: ps) (hc : P = [] ∨ CallFreeV v) (hg : GoodV v) :
    valueV app v s = valueOf app' (globalsOf g) v l := by
  match v, hc, hg with
  | .select e, hc, hg => rw [valueV, valueOf, evalExpr_ok g s l h]
  | .content b, hc, hg =>
    rw [GoodV] at hg
    rw [CallFreeV] at hc
    rw [valueV, valueOf]
    have ih := runVs_ok g app app' ha b s l P ps h hp hc hg
    cases hr : runs app' (globalsOf g) b l with
    | none => rw [hr] at ih; simp only at ih; rw [ih]; rfl
    | some r =>
      obtain ⟨o, l'⟩ := r
      rw [hr] at ih
      obtain ⟨s', h1, _⟩ := ih
      rw [h1]; rfl
theorem passV_ok (g : VScope) (app : VName → VStack → Option (List Char × VStack))
    (app' : List (VName × Option (List Char)) → VName → Option (List Char)) (ha : AppOk g app app')
    (pars : VPars) (s : VStack) (l : Locals) (P : VScope) (ps : List VScope) (h : Sim g s l)
    (hp : s.params = P :: ps) (hc : P = [] ∨ CallFreeP pars) (hg : GoodP pars) :
    passV app pars s =
      if (names pars).Nodup ∧ ∀ n ∈ names pars, n ∉ P.map Prod.fst then
        some ⟨s.stack, (P ++ insts (passed app' (globalsOf g) pars l)) :: ps⟩
      else none := by
  match pars, hc, hg with
  | .nil, hc, hg =>
    rw [passV, passed]
    simp only [names, List.nodup_nil, List.not_mem_nil, false_imp_iff, implies_true, and_self, if_true, insts,
      List.map_nil, List.append_nil]
    rw [← hp]
  | .cons n v rest, hc, hg =>
    rw [GoodP] at hg
    rw [CallFreeP] at hc
    rw [passV, valueV_ok g app app' ha v s l P ps h hp (hc.imp id And.left) hg.1, passed]
    unfold passParam
    rw [hp]
    simp only [List.headD_cons, frozenPrecedence]
    cases hgt : get n P with
    | some x =>
      simp only
      rw [if_neg]
      rintro ⟨_, hd⟩
      have := hd n (by simp [names])
      rw [← get_none_keys, hgt] at this
      cases this
    | none =>
      simp only [onTop]
      rw [put_absent n _ P hgt]
      have hsim : Sim g ⟨s.stack, (P ++ [(n, ⟨[], valueOf app' (globalsOf g) v l⟩)]) :: ps⟩ l := ⟨h.top⟩
      have ih := passV_ok g app app' ha rest _ l _ ps hsim rfl (Or.inr hg.2.2) hg.2.1
      rw [ih]
      have hnk := (get_none_keys n P).mp hgt
      simp only [insts, List.map_cons, List.append_assoc, List.cons_append, List.nil_append, names,
        List.nodup_cons, List.map_append, List.mem_append, List.map_nil, List.mem_cons, List.not_mem_nil,
        or_false, not_or]
      by_cases hcond : (names rest).Nodup ∧ ∀ m ∈ names rest, m ∉ P.map Prod.fst ∧ ¬ m = n
      · rw [if_pos hcond]
        refine (if_pos ?_).symm
        rw [List.nodup_cons]
        simp only [List.mem_cons]
        refine ⟨⟨fun hm => (hcond.2 n hm).2 rfl, hcond.1⟩, ?_⟩
        rintro m (rfl | hm)
        · exact hnk
        · exact (hcond.2 m hm).1
      · rw [if_neg hcond]
        refine (if_neg ?_).symm
        rw [List.nodup_cons]
        simp only [List.mem_cons]
        rintro ⟨⟨h1, h2⟩, h3⟩
        exact hcond ⟨h2, fun m hm => ⟨h3 m (Or.inr hm), fun e => h1 (e ▸ hm)⟩⟩
end

theorem binding_insts (n : VName) (P : VScope) (hP : ∀ e ∈ P, e.2.prec = []) :
    get n P = (binding n (P.map fun e => (e.1, e.2.value))).map (fun x => (⟨[], x⟩ : Inst)) := by
  induction P with
  | nil => rfl
  | cons e P ih =>
    rw [get, List.map_cons, binding]
    simp only
    by_cases he : e.1 = n
    · rw [if_pos he, if_pos he]
      have := hP e (by simp)
      obtain ⟨k, p, v⟩ := e
      simp only at this
      subst this
      rfl
    · rw [if_neg he, if_neg he, ih (fun x hx => hP x (List.mem_cons_of_mem _ hx))]

theorem declareParams_ok (g : VScope) (app : VName → VStack → Option (List Char × VStack))
    (app' : List (VName × Option (List Char)) → VName → Option (List Char)) (ha : AppOk g app app')
    (pars : VPars) (s : VStack) (l : Locals) (P : VScope) (ps : List VScope) (h : Sim g s l)
    (hp : s.params = [] :: P :: ps) (hP : ∀ e ∈ P, e.2.prec = []) (hg : GoodD pars) :
    match bindParams app' (globalsOf g) (P.map fun e => (e.1, e.2.value)) pars l with
    | none => declareParams app pars s = none
    | some l' => ∃ s', declareParams app pars s = some s' ∧ Sim g s' l' ∧ s'.params = s.params ∧
        s'.stack.tail = s.stack.tail := by
  match pars, hg with
  | .nil, hg => rw [bindParams, declareParams]; exact ⟨s, rfl, h, rfl, rfl⟩
  | .cons n v rest, hg =>
    rw [GoodD] at hg
    rw [bindParams, declareParams, valueV_ok g app app' ha v s l [] (P :: ps) h hp (Or.inl rfl) hg.1]
    unfold declareParam findPassed
    rw [hp]
    simp only [List.tail_cons, List.headD_cons, binding_insts n P hP, frozenPrecedence]
    cases hbp : binding n (P.map fun e => (e.1, e.2.value)) with
    | some x =>
      simp only [Option.map_some]
      have hd := declare_ok g s l h n x
      cases hb : Spec.XsltVariables.bind n x l with
      | none =>
        simp only [hb] at hd
        simp only [hd]
      | some l1 =>
        simp only [hb] at hd
        obtain ⟨s1, h1, h2, h3, h4⟩ := hd
        simp only [h1]
        have ih := declareParams_ok g app app' ha rest s1 l1 P ps h2 (h3.trans hp) hP hg.2
        cases hr : bindParams app' (globalsOf g) (P.map fun e => (e.1, e.2.value)) rest l1 with
        | none => rw [hr] at ih; exact ih
        | some l' =>
          rw [hr] at ih
          obtain ⟨s', k1, k2, k3, k4⟩ := ih
          exact ⟨s', k1, k2, by rw [k3, h3, hp], k4.trans h4⟩
    | none =>
      simp only [Option.map_none]
      have hd := declare_ok g s l h n (valueOf app' (globalsOf g) v l)
      cases hb : Spec.XsltVariables.bind n (valueOf app' (globalsOf g) v l) l with
      | none =>
        simp only [hb] at hd
        simp only [hd]
      | some l1 =>
        simp only [hb] at hd
        obtain ⟨s1, h1, h2, h3, h4⟩ := hd
        simp only [h1]
        have ih := declareParams_ok g app app' ha rest s1 l1 P ps h2 (h3.trans hp) hP hg.2
        cases hr : bindParams app' (globalsOf g) (P.map fun e => (e.1, e.2.value)) rest l1 with
        | none => rw [hr] at ih; exact ih
        | some l' =>
          rw [hr] at ih
          obtain ⟨s', k1, k2, k3, k4⟩ := ih
          exact ⟨s', k1, k2, by rw [k3, h3, hp], k4.trans h4⟩

theorem callV_ok (g : VScope) (ts : VName → Option VTempl) (hts : ∀ n t, ts n = some t → GoodT t) (k : Nat) :
    AppOk g (callV ts k) (call ts (globalsOf g) k) := by
  induction k with
  | zero => intro name s P ps hs hp hP; rfl
  | succ k ih =>
    intro name s P ps hs hp hP
    rw [callV, call]
    cases ht : ts name with
    | none => rfl
    | some t =>
      simp only
      have hsim : Sim g (pushScope s) [] := by
        refine ⟨⟨[], s.stack, rfl, hs, ?_⟩⟩
        intro n; rfl
      have hpp : (pushScope s).params = [] :: P :: ps := by unfold pushScope; rw [hp]
      have hd := declareParams_ok g _ _ ih t.params (pushScope s) [] P ps hsim hpp hP (hts name t ht).1
      cases hb : bindParams (call ts (globalsOf g) k) (globalsOf g) (P.map fun e => (e.1, e.2.value)) t.params [] with
      | none => rw [hb] at hd; simp only at hd; rw [hd]; rfl
      | some l =>
        rw [hb] at hd
        obtain ⟨s1, h1, h2, h3, h4⟩ := hd
        rw [h1]
        simp only
        have hr := runVs_ok g _ _ ih t.body s1 l [] (P :: ps) h2 (h3.trans hpp) (Or.inl rfl) (hts name t ht).2
        cases hx : runs (call ts (globalsOf g) k) (globalsOf g) t.body l with
        | none => rw [hx] at hr; simp only at hr; rw [hr]; rfl
        | some r =>
          obtain ⟨o, l'⟩ := r
          rw [hx] at hr
          obtain ⟨s2, k1, k2, k3, k4, _⟩ := hr
          rw [k1]
          simp only [Option.map_some]
          have : popScope s2 = s := by
            unfold popScope
            rw [k4, h4, k3, h3]
            rfl
          rw [this]

end Verif.Xslt
