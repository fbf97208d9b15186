import Verif.Lemmas.XsltRun
import Verif.Lemmas.XsltSort2
set_option autoImplicit false
set_option linter.unusedSimpArgs false
set_option linter.unusedVariables false
namespace Verif.XsltRun
open Verif.XTree Verif.XPath Verif.XPathEval
open Verif.Spec.XPathAxes Verif.Spec.XPathNodeSet Verif.Spec.XPathPath Verif.Spec.XPath Verif.Spec.XPathEval
open Verif.Spec.XsltRun
open Verif.XPathParse (Expr flat)
open Verif.Xslt (Out Instr Instrs exec execs startElement endElement startAttribute endAttribute addAttribute characters
  startComment endComment startPI endPI)

/-! ## Instructions with the same expressions

What the library makes of the text of an expression may have brackets that say nothing (`flat`, C70), and what it makes
of a template may be cut in other pieces: the code runs instructions that are like those of the specification up to
that. -/

/-- Expressions that mean the same. -/
structure Like (e e' : Expr) : Prop where
  same : ∀ {E : Env} {K : Nat → Prop} {vars : Str → Str → Option Val}, Ctx E K vars → SameE E K vars e e'
  forward : ForwardPath e → flat e' = flat e

theorem like_flat {e e' : Expr} (h : flat e' = flat e) : Like e e' :=
  ⟨fun c => same_trans (same_flat c e) (by rw [← h]; exact same_symm (same_flat c e')), fun _ => h⟩

theorem like_refl (e : Expr) : Like e e := like_flat rfl

inductive LikeParams : Params → Params → Prop where
  | nil : LikeParams [] []
  | cons (n : VName) {e e' : Expr} {ps ps' : Params} (h : Like e e') (hs : LikeParams ps ps') :
      LikeParams ((n, e) :: ps) ((n, e') :: ps')

inductive LikeAttributes : List Attribute → List Attribute → Prop where
  | nil : LikeAttributes [] []
  | cons (p l u : Str) {e e' : Expr} {as as' : List Attribute} (h : Like e e') (hs : LikeAttributes as as') :
      LikeAttributes (⟨p, l, u, e⟩ :: as) (⟨p, l, u, e'⟩ :: as')

inductive LikeSorts : List SortKey → List SortKey → Prop where
  | nil : LikeSorts [] []
  | cons {s s' : SortKey} {ss ss' : List SortKey} (select : Like s.select s'.select) (dataType : Like s.dataType s'.dataType)
      (order : Like s.order s'.order) (caseOrder : Like s.caseOrder s'.caseOrder) (hs : LikeSorts ss ss') :
      LikeSorts (s :: ss) (s' :: ss')

mutual

inductive LikeItem : Item → Item → Prop where
  | text (s : Str) : LikeItem (.text s) (.text s)
  | valueOf {e e' : Expr} (h : Like e e') : LikeItem (.valueOf e) (.valueOf e')
  | current : LikeItem .valueOfCurrent .valueOfCurrent
  | ifThen {e e' : Expr} {b b' : Items} (h : Like e e') (hb : LikeItems b b') :
      LikeItem (.ifThen e b) (.ifThen e' b')
  | choose {ws ws' : Whens} (h : LikeWhens ws ws') : LikeItem (.choose ws) (.choose ws')
  | forEach {e e' : Expr} {ss ss' : List SortKey} {b b' : Items} (h : Like e e') (hs : LikeSorts ss ss')
      (hb : LikeItems b b') : LikeItem (.forEach e ss b) (.forEach e' ss' b')
  | applySelect {e e' : Expr} {ss ss' : List SortKey} (mode : Str) {ps ps' : Params} (h : Like e e') (hs : LikeSorts ss ss')
      (hp : LikeParams ps ps') : LikeItem (.applyTemplates (some e) ss mode ps) (.applyTemplates (some e') ss' mode ps')
  | applyChildren {ss ss' : List SortKey} (mode : Str) {ps ps' : Params} (hs : LikeSorts ss ss') (hp : LikeParams ps ps') :
      LikeItem (.applyTemplates none ss mode ps) (.applyTemplates none ss' mode ps')
  | call (n : VName) {ps ps' : Params} (hp : LikeParams ps ps') : LikeItem (.callTemplate n ps) (.callTemplate n ps')
  | variable (n : VName) {e e' : Expr} (h : Like e e') : LikeItem (.variable n e) (.variable n e')
  | element (p l u : Str) {as as' : List Attribute} {b b' : Items} (h : LikeAttributes as as') (hb : LikeItems b b') :
      LikeItem (.element p l u as b) (.element p l u as' b')
  | attribute (p l u : Str) {b b' : Items} (hb : LikeItems b b') : LikeItem (.attribute p l u b) (.attribute p l u b')
  | comment {b b' : Items} (hb : LikeItems b b') : LikeItem (.comment b) (.comment b')
  | pi (t : Str) {b b' : Items} (hb : LikeItems b b') : LikeItem (.pi t b) (.pi t b')
  | copy {b b' : Items} (hb : LikeItems b b') : LikeItem (.copy b) (.copy b')
  | copyOf {e e' : Expr} (h : Like e e') : LikeItem (.copyOf e) (.copyOf e')

inductive LikeItems : Items → Items → Prop where
  | nil : LikeItems .nil .nil
  | cons {i i' : Item} {r r' : Items} (h : LikeItem i i') (hr : LikeItems r r') : LikeItems (.cons i r) (.cons i' r')

inductive LikeWhens : Whens → Whens → Prop where
  | otherwise {b b' : Items} (hb : LikeItems b b') : LikeWhens (.otherwise b) (.otherwise b')
  | when {e e' : Expr} {b b' : Items} {r r' : Whens} (h : Like e e') (hb : LikeItems b b') (hr : LikeWhens r r') :
      LikeWhens (.when e b r) (.when e' b' r')

end

/-- Templates that are alike. -/
structure LikeTemplate (t t' : Template) : Prop where
  params : LikeParams t.params t'.params
  body : LikeItems t.body t'.body

theorem likeParams_refl : ∀ ps, LikeParams ps ps
  | [] => .nil
  | (n, e) :: ps => .cons n (like_refl _) (likeParams_refl ps)

theorem likeSorts_refl : ∀ ss, LikeSorts ss ss
  | [] => .nil
  | _ :: ss => .cons (like_refl _) (like_refl _) (like_refl _) (like_refl _) (likeSorts_refl ss)

theorem likeAttributes_refl : ∀ as, LikeAttributes as as
  | [] => .nil
  | ⟨p, l, u, e⟩ :: as => .cons p l u (like_refl _) (likeAttributes_refl as)

mutual

theorem likeItem_refl : ∀ i, LikeItem i i
  | .text s => .text s
  | .valueOf e => .valueOf (like_refl _)
  | .valueOfCurrent => .current
  | .ifThen e b => .ifThen (like_refl _) (likeItems_refl b)
  | .choose ws => .choose (likeWhens_refl ws)
  | .forEach e ss b => .forEach (like_refl _) (likeSorts_refl ss) (likeItems_refl b)
  | .applyTemplates (some e) ss mode ps => .applySelect mode (like_refl _) (likeSorts_refl ss) (likeParams_refl ps)
  | .applyTemplates none ss mode ps => .applyChildren mode (likeSorts_refl ss) (likeParams_refl ps)
  | .callTemplate n ps => .call n (likeParams_refl ps)
  | .variable n e => .variable n (like_refl _)
  | .element p l u as b => .element p l u (likeAttributes_refl as) (likeItems_refl b)
  | .attribute p l u b => .attribute p l u (likeItems_refl b)
  | .comment b => .comment (likeItems_refl b)
  | .pi t b => .pi t (likeItems_refl b)
  | .copy b => .copy (likeItems_refl b)
  | .copyOf e => .copyOf (like_refl _)

theorem likeItems_refl : ∀ is, LikeItems is is
  | .nil => .nil
  | .cons i r => .cons (likeItem_refl i) (likeItems_refl r)

theorem likeWhens_refl : ∀ ws, LikeWhens ws ws
  | .otherwise b => .otherwise (likeItems_refl b)
  | .when e b r => .when (like_refl _) (likeItems_refl b) (likeWhens_refl r)

end

/-- Global variables that are alike. -/
inductive LikeGlobals : List Global → List Global → Prop where
  | nil : LikeGlobals [] []
  | cons {b : Bool} {n : VName} {e e' : Expr} {gs gs' : List Global} (h : Like e e') (t : LikeGlobals gs gs') :
      LikeGlobals (⟨b, n, e⟩ :: gs) (⟨b, n, e'⟩ :: gs')

theorem likeGlobals_refl : ∀ gs, LikeGlobals gs gs
  | [] => .nil
  | _ :: gs => .cons (like_refl _) (likeGlobals_refl gs)

/-- A stylesheet of the code, which may need fuel to find a rule, has the templates of another one. -/
structure Alike (w : World) (K : Nat → Prop) (P : Stylesheet) (M : Nat → Stylesheet) : Prop where
  rule : ∀ mode x t, NodeIn w K x → P.rule mode x = some t →
    ∃ t', LikeTemplate t t' ∧ ∃ F, ∀ f, F ≤ f → (M f).rule mode x = some t'
  builtIn : ∀ mode x, NodeIn w K x → P.rule mode x = none → ∃ F, ∀ f, F ≤ f → (M f).rule mode x = none
  named : ∀ n t, P.named n = some t → ∃ t', LikeTemplate t t' ∧ ∀ f, (M f).named n = some t'
  globals : ∃ gs', LikeGlobals P.globals gs' ∧ ∀ f, (M f).globals = gs'
  cdata : ∀ f, (M f).cdata = P.cdata

theorem alike_refl (w : World) (K : Nat → Prop) (P : Stylesheet) : Alike w K P (fun _ => P) where
  rule _ _ t _ h := ⟨t, ⟨likeParams_refl _, likeItems_refl _⟩, 0, fun _ _ => h⟩
  builtIn _ _ _ h := ⟨0, fun _ _ => h⟩
  named _ t h := ⟨t, ⟨likeParams_refl _, likeItems_refl _⟩, fun _ => h⟩
  globals := ⟨_, likeGlobals_refl _, fun _ => rfl⟩
  cdata _ := rfl

/-- Everything there is. -/
structure Setting where
  E : Env
  K : Nat → Prop
  P : Stylesheet
  G : VName → Option Val
  free : VName → Prop
  hw : Forest E.w
  hK : Documents E.w K
  hsrt : StdSort (nodesLessThan E.w) E.srt
  hN : Named E.w K
  hP : Tidy (careful E.w E.cv) free P
  M : Nat → Stylesheet
  hM : Alike E.w K P M

/-- It ends with this, with enough fuel and depth. -/
def Ends2 {α : Type} (g : Nat → Nat → Ev α) (a : α) : Prop := ∃ F, ∀ f, F ≤ f → ∀ n, F ≤ n → g f n = .val a

theorem ends2_val {α : Type} (a : α) : Ends2 (fun _ _ => Ev.val a) a := ⟨0, fun _ _ _ _ => rfl⟩

theorem ends2_of {α : Type} {r : Nat → Ev α} {a : α} (h : Ends r a) : Ends2 (fun f _ => r f) a := by
  obtain ⟨F, h⟩ := h
  exact ⟨F, fun f hf n _ => h f hf⟩

theorem ends2_bind {α β : Type} {r : Nat → Nat → Ev α} {g : Nat → Nat → α → Ev β} {a : α} {b : β} (h : Ends2 r a)
    (h' : Ends2 (fun f n => g f n a) b) : Ends2 (fun f n => (r f n).bind (g f n)) b := by
  obtain ⟨F, h⟩ := h
  obtain ⟨F', h'⟩ := h'
  refine ⟨max F F', fun f hf n hn => ?_⟩
  simp only
  rw [h f (by omega) n (by omega)]
  exact h' f (by omega) n (by omega)

theorem ends2_congr {α : Type} {r s : Nat → Nat → Ev α} {a : α} (h : Ends2 r a) (e : ∀ f n, s f n = r f n) :
    Ends2 s a := by
  have : s = r := funext fun f => funext fun n => e f n
  rw [this]; exact h

section
variable (S : Setting)

abbrev Setting.R : Reading := careful S.E.w S.E.cv

/-- A scope has these variables. -/
def RepScope (sc : List (VName × XVal)) (L : Bindings) : Prop :=
  ∀ n, (∀ v, L.lookup n = some v → ∃ m, sc.lookup n = some m ∧ Rep S.E.w S.K m v) ∧
    (L.lookup n = none → sc.lookup n = none)

/-- Parameters that have been passed. -/
def RepGiven (g : List (VName × Ev XVal)) (given : Bindings) : Prop :=
  ∀ n, (∀ v, given.lookup n = some v → ∃ m, g.lookup n = some (.val m) ∧ Rep S.E.w S.K m v) ∧
    (given.lookup n = none → g.lookup n = none)

/-- The global variables are at the bottom. -/
def Globals (stack : List (List (VName × XVal))) : Prop :=
  stack ≠ [] ∧ SameVariables S.E.w S.K (fun u n => (stack.getLastD []).lookup (u, n)) (fun u n => S.G (u, n))

/-- The state while a sequence is instantiated. -/
structure Agree (φ : Focus) (L : Bindings) (b : Bool) (st : St) : Prop where
  node : NodeIn S.E.w S.K φ.node
  last : st.last = φ.size
  place : b = false → st.position = φ.position ∧ st.current = φ.node
  stack : ∃ sc below, st.stack = sc :: below ∧ RepScope S sc L ∧ Globals S below
  params : ∃ ps, st.params = [] :: ps

/-- The state when a template is about to be run. -/
structure Caller (given : Bindings) (st : St) : Prop where
  stack : Globals S st.stack
  params : ∃ g ps, st.params = g :: ps ∧ RepGiven S g given

/-- What is the same before and after, and what has been written. -/
structure After (st st' : St) (out : List Instr) : Prop where
  last : st'.last = st.last
  stack : st'.stack = st.stack
  params : st'.params = st.params
  out : st'.out = execs st.out (seq out)

end

section
variable {S : Setting}

theorem globals_cons {sc : List (VName × XVal)} {below : List (List (VName × XVal))} (h : Globals S below) :
    Globals S (sc :: below) := by
  refine ⟨by simp, ?_⟩
  have : (sc :: below).getLastD [] = below.getLastD [] := by
    obtain ⟨h1, _⟩ := h
    cases below with
    | nil => exact absurd rfl h1
    | cons a l => rfl
  rw [this]
  exact h.2

theorem Agree.congr {φ : Focus} {L : Bindings} {b : Bool} {st st' : St} (h : Agree S φ L b st) (h1 : st'.last = st.last)
    (h2 : st'.position = st.position) (h3 : st'.current = st.current) (h4 : st'.stack = st.stack)
    (h5 : st'.params = st.params) : Agree S φ L b st' :=
  ⟨h.node, by rw [h1]; exact h.last, fun hb => by rw [h2, h3]; exact h.place hb, by rw [h4]; exact h.stack,
    by rw [h5]; exact h.params⟩

theorem Agree.chain {φ : Focus} {L : Bindings} {b : Bool} {st : St} (h : Agree S φ L b st) : Agree S φ L b st.chain := by
  obtain ⟨sc, below, h1, h2, h3⟩ := h.stack
  obtain ⟨ps, h4⟩ := h.params
  refine ⟨h.node, h.last, h.place, ⟨sc, sc :: below, ?_, h2, globals_cons h3⟩, ⟨[] :: ps, ?_⟩⟩
  · simp [St.chain, h1]
  · simp [St.chain, h4]

theorem agree_vars {φ : Focus} {L : Bindings} {b : Bool} {st : St} (h : Agree S φ L b st) :
    SameVariables S.E.w S.K (envOf S.E st).vars (variables S.G L) := by
  obtain ⟨sc, below, h1, h2, h3⟩ := h.stack
  intro u n v hv
  have hb := (globals_cons (sc := sc) h3).2
  rw [← h1] at hb
  simp only [variables] at hv
  cases hl : L.lookup (u, n) with
  | some v' =>
    rw [hl] at hv
    cases hv
    obtain ⟨m, h4, h5⟩ := (h2 (u, n)).1 v hl
    exact ⟨m, by simp [envOf, St.resolve, h1, h4], h5.1, h5.2⟩
  | none =>
    rw [hl] at hv
    obtain ⟨m, h4, h5⟩ := hb u n v hv
    refine ⟨m, ?_, h5⟩
    have h6 := (h2 (u, n)).2 hl
    simp only [envOf, St.resolve]
    rw [h1] at h4 ⊢
    simp only [List.headD_cons, h6]
    exact h4

/-- The place for an expression. -/
theorem value_here {φ : Focus} {L : Bindings} {b : Bool} {st : St} (h : Agree S φ L b st) {e : Expr} {v : Val}
    (hs : Still S.R b e) (hv : HasValue S.R S.G φ L e v) :
    S.R.value (variables S.G L) e φ.node st.position st.last v := by
  rw [h.last]
  cases b with
  | false => rw [(h.place rfl).1]; exact hv
  | true => exact hs rfl _ _ _ _ _ _ hv

theorem evals {φ : Focus} {L : Bindings} {b : Bool} {st : St} (h : Agree S φ L b st) {e e' : Expr} {v : Val}
    (he : Like e e') (hs : Still S.R b e) (hv : HasValue S.R S.G φ L e v) :
    ∃ m, Rep S.E.w S.K m v ∧ Ends (fun f => value S.E f e' φ.node st) m := by
  obtain ⟨h1, h2⟩ := value_here h hs hv
  have c : Ctx (envOf S.E st) S.K (variables S.G L) := ⟨S.hw, S.hK, S.hsrt, agree_vars h⟩
  obtain ⟨g1, g2⟩ := he.same c φ.node st.position st.last h.node
  obtain ⟨v', m, h3, h4, h5⟩ := c.good e' φ.node st.position st.last h.node (g1.1 h2)
  cases means_unique S.hw e' ((g2 h2 v).1 h1) h3
  exact ⟨m, h4, h5⟩

theorem evals_string {φ : Focus} {L : Bindings} {b : Bool} {st : St} (h : Agree S φ L b st) {e e' : Expr} {v : Val}
    (he : Like e e') (hs : Still S.R b e) (hv : HasValue S.R S.G φ L e v) :
    Ends (fun f => stringFor S.E f e' φ.node st) (toString S.E.w S.E.cv v) := by
  obtain ⟨m, h1, h2⟩ := evals h he hs hv
  exact ends_bind h2 (string_ends (E := envOf S.E st) S.hK h1)

theorem evals_bool {φ : Focus} {L : Bindings} {b : Bool} {st : St} (h : Agree S φ L b st) {e e' : Expr} {v : Val}
    (he : Like e e') (hs : Still S.R b e) (hv : HasValue S.R S.G φ L e v) :
    ∃ c, (c = true ↔ toBoolean S.E.w v) ∧ Ends (fun f => boolFor S.E f e' φ.node st) c := by
  obtain ⟨m, h1, h2⟩ := evals h he hs hv
  exact ⟨m.isTrue, isTrue_iff h1, ends_bind h2 (ends_val _)⟩

theorem evals_nodes {φ : Focus} {L : Bindings} {b : Bool} {st : St} (h : Agree S φ L b st) {e e' : Expr} {l : List XN}
    (he : Like e e') (hs : Still S.R b e) (hv : HasValue S.R S.G φ L e (.nodes l)) :
    ∃ ns, ShowsNodes ns l ∧ (∀ x ∈ l, NodeIn S.E.w S.K x) ∧ Ends (fun f => value S.E f e' φ.node st) (.nodes ns) := by
  obtain ⟨m, h1, h2⟩ := evals h he hs hv
  cases m with
  | nodes ns => exact ⟨ns, h1.1, (h1.2 l rfl).2, h2⟩
  | bool _ => exact h1.1.elim
  | num _ => exact h1.1.elim
  | str _ => exact h1.1.elim

theorem evals_number {φ : Focus} {L : Bindings} {b : Bool} {st : St} (h : Agree S φ L b st) {e e' : Expr} {v : Val}
    (he : Like e e') (hs : Still S.R b e) (hv : HasValue S.R S.G φ L e v) :
    Ends (fun f => numberFor S.E f e' φ.node st) (toNumber S.E.w S.E.cv v) := by
  obtain ⟨m, h1, h2⟩ := evals h he hs hv
  exact ends_bind h2 (number_ends (E := envOf S.E st) S.hK h1)

/-! ## Sorting -/

/-- What the code has of a sort key. -/
def ofKey (k : Verif.Xslt.Key XN) (y : XN) : Num × Str := if k.number then (k.num y, []) else (.nan, k.str y)

/-- The keys the code chooses are those of the specification. -/
inductive Picked (S : Setting) (st : St) (l : List XN) : List (Verif.Xslt.Key XN) → List Chosen → Prop where
  | nil : Picked S st l [] []
  | cons {k : Verif.Xslt.Key XN} {c : Chosen} {ks : List (Verif.Xslt.Key XN)} {cs : List Chosen}
      (number : c.number = k.number) (ascending : c.ascending = k.ascending)
      (values : ∀ y ∈ l, if k.number then Ends (fun f => numberFor S.E f c.select y (st.setPosition y 1)) (k.num y)
        else Ends (fun f => stringFor S.E f c.select y (st.setPosition y 1)) (k.str y))
      (rest : Picked S st l ks cs) : Picked S st l (k :: ks) (c :: cs)

theorem setContext_ends {φ : Focus} {L : Bindings} {b : Bool} {st : St} (hA : Agree S φ L b st) {l : List XN}
    (hl : ∀ y ∈ l, NodeIn S.E.w S.K y) : ∀ (ss ss' : List SortKey) (ks : List (Verif.Xslt.Key XN)), LikeSorts ss ss' →
      TidySorts S.R b ss → KeysAre S.E.w S.E.cv S.R S.G φ L l ss ks →
      ∃ cs, Ends (fun f => setContext S.E f ss' φ.node st) cs ∧ Picked S st l ks cs
  | [], ss', ks, hlike, _, hk => by
    cases hlike
    rw [KeysAre] at hk
    subst hk
    exact ⟨[], ⟨0, fun f _ => by simp only; rw [setContext]⟩, .nil⟩
  | s :: ss, ss', ks, hlike, ht, hk => by
    cases hlike with | @cons _ s' _ ss' e1 e2 e3 e4 hlike => ?_
    rw [KeysAre] at hk
    obtain ⟨k, rest, rfl, hk, hrest⟩ := hk
    obtain ⟨t1, t2, t3, t4⟩ := ht s (by simp)
    obtain ⟨cs, ⟨F, hF⟩, hp⟩ := setContext_ends hA hl ss ss' rest hlike (fun q hq => ht q (by simp [hq])) hrest
    obtain ⟨vd, d1, d2⟩ := hk.dataType
    obtain ⟨vo, o1, o2⟩ := hk.order
    obtain ⟨vc, c1, c2⟩ := hk.caseOrder
    obtain ⟨Fd, hd⟩ := evals_string hA e2 t2 d1
    obtain ⟨Fo, ho⟩ := evals_string hA e3 t3 o1
    obtain ⟨Fc, hc⟩ := evals_string hA e4 t4 c1
    refine ⟨⟨s'.select, k.number, k.ascending⟩ :: cs, ⟨max (max F Fd) (max Fo Fc), fun f hf => ?_⟩, .cons rfl rfl ?_ hp⟩
    · simp only at hd ho hc hF ⊢
      rw [setContext, hd f (by omega), ho f (by omega), hc f (by omega)]
      simp only [Ev.bind]
      rw [hF f (by omega), d2, o2]
      simp only
      have n1 : (if k.number = true then "number".toList else "text".toList) = "text".toList ∨
          (if k.number = true then "number".toList else "text".toList) = "number".toList := by
        cases k.number <;> simp
      have n2 : (if k.ascending = true then "ascending".toList else "descending".toList) = "ascending".toList ∨
          (if k.ascending = true then "ascending".toList else "descending".toList) = "descending".toList := by
        cases k.ascending <;> simp
      rw [if_pos ⟨n1, n2, c2⟩]
      have n3 : decide ((if k.number = true then "number".toList else "text".toList) = "number".toList) = k.number := by
        cases k.number <;> decide
      have n4 : decide ((if k.ascending = true then "ascending".toList else "descending".toList) = "ascending".toList) =
          k.ascending := by
        cases k.ascending <;> decide
      rw [n3, n4]
    · intro y hy
      obtain ⟨i, hi⟩ := List.mem_iff_getElem?.1 hy
      obtain ⟨v, v1, v2⟩ := hk.values i y hi
      have hA' : Agree S ⟨y, 1, φ.size⟩ L false (st.setPosition y 1) :=
        ⟨hl y hy, hA.last, fun _ => ⟨rfl, rfl⟩, hA.stack, hA.params⟩
      have v3 : HasValue S.R S.G ⟨y, 1, φ.size⟩ L s.select v := t1 _ _ _ _ _ _ _ v1
      have hst : Still S.R false s.select := fun h => by cases h
      cases hn : k.number with
      | true =>
        rw [hn] at v2
        simp only [if_true] at v2 ⊢
        rw [v2]
        exact evals_number hA' e1 hst v3
      | false =>
        rw [hn] at v2
        simp only [Bool.false_eq_true, if_false] at v2 ⊢
        rw [v2]
        exact evals_string hA' e1 hst v3

theorem grab_ends {st : St} {l : List XN} {ks : List (Verif.Xslt.Key XN)} {cs : List Chosen} (h : Picked S st l ks cs)
    {y : XN} (hy : y ∈ l) : Ends (fun f => grab S.E f cs y st) (ks.map fun k => ofKey k y) := by
  induction h with
  | nil => exact ⟨0, fun f _ => by simp only; rw [grab]; rfl⟩
  | @cons k c ks cs h1 h2 h3 _ ih =>
    have := h3 y hy
    obtain ⟨F, hF⟩ := ih
    cases hn : k.number with
    | true =>
      simp only [hn, if_true] at this
      obtain ⟨F', hF'⟩ := this
      refine ⟨max F F', fun f hf => ?_⟩
      simp only at hF hF' ⊢
      rw [grab, h1, hn, if_pos rfl, hF' f (by omega)]
      simp only [Ev.bind]
      rw [hF f (by omega), List.map_cons, ofKey, hn]
      rfl
    | false =>
      simp only [hn, Bool.false_eq_true, if_false] at this
      obtain ⟨F', hF'⟩ := this
      refine ⟨max F F', fun f hf => ?_⟩
      simp only at hF hF' ⊢
      rw [grab, h1, hn, if_neg (by simp), hF' f (by omega)]
      simp only [Ev.bind]
      rw [hF f (by omega), List.map_cons, ofKey, hn]
      rfl

theorem grabAll_ends {st : St} {l : List XN} {ks : List (Verif.Xslt.Key XN)} {cs : List Chosen} (h : Picked S st l ks cs) :
    ∀ ys : List XN, (∀ y ∈ ys, y ∈ l) →
      Ends (fun f => grabAll S.E f cs ys st) (ys.map fun y => (y, ks.map fun k => ofKey k y))
  | [], _ => ⟨0, fun f _ => by simp only; rw [grabAll]; rfl⟩
  | y :: ys, hs => by
    obtain ⟨F, hF⟩ := grab_ends h (hs y (by simp))
    obtain ⟨F', hF'⟩ := grabAll_ends h ys fun z hz => hs z (by simp [hz])
    refine ⟨max F F', fun f hf => ?_⟩
    simp only at hF hF' ⊢
    rw [grabAll, hF f (by omega)]
    simp only [Ev.bind]
    rw [hF' f (by omega)]
    rfl

theorem grabbed_same {st : St} {l : List XN} {ks : List (Verif.Xslt.Key XN)} {cs : List Chosen} (h : Picked S st l ks cs) :
    ∀ pre : List (Verif.Xslt.Key XN), Verif.Xslt.SameOn l ((grabbed cs pre.length).map
      (Verif.Xslt.pull fun y => (y, (pre ++ ks).map fun k => ofKey k y))) ks := by
  induction h with
  | nil => intro pre; rw [grabbed]; exact .nil
  | @cons k c ks cs h1 h2 h3 _ ih =>
    intro pre
    rw [grabbed, List.map_cons]
    refine .cons h1 h2 (fun y hy => ?_) ?_
    · have : (((pre ++ k :: ks).map fun k => ofKey k y).getD pre.length (.nan, [])) = ofKey k y := by
        simp [List.getD]
      cases hn : k.number with
      | true =>
        simp only [Verif.Xslt.pull, h1, hn, if_true]
        rw [this, ofKey, hn]
        rfl
      | false =>
        simp only [Verif.Xslt.pull, h1, hn, Bool.false_eq_true, if_false]
        rw [this, ofKey, hn]
        rfl
    · have := ih (pre ++ [k])
      rw [List.length_append, List.append_assoc] at this
      exact this

/-- Nodes are sorted. -/
theorem sort_ends {φ : Focus} {L : Bindings} {b : Bool} {st : St} (hA : Agree S φ L b st) {l l' : List XN}
    {ss ss' : List SortKey} (hl : ∀ y ∈ l, NodeIn S.E.w S.K y) (hlike : LikeSorts ss ss') (ht : TidySorts S.R b ss)
    (h : SortedBy S.E.w S.E.cv S.R S.G φ L ss l l') : Ends (fun f => sortNodes S.E f ss' φ.node l st) l' := by
  obtain ⟨ks, h1, h2⟩ := h
  obtain ⟨cs, ⟨F, hF⟩, hp⟩ := setContext_ends hA hl ss ss' ks hlike ht h1
  obtain ⟨F', hF'⟩ := grabAll_ends hp l fun y hy => hy
  refine ⟨max F F', fun f hf => ?_⟩
  simp only at hF hF' ⊢
  rw [sortNodes, hF f (by omega)]
  simp only [Ev.bind]
  rw [hF' f (by omega)]
  simp only [Ev.val.injEq]
  rw [Verif.Xslt.stableSort_pull, List.map_map]
  have : ((fun x : XN × List (Num × Str) => x.1) ∘ fun y => (y, ks.map fun k => ofKey k y)) = id := rfl
  rw [this, List.map_id]
  exact Verif.Xslt.arranged_unique (Verif.Xslt.arranged_on (grabbed_same hp []) (Verif.Xslt.arranged_sort _ l)) h2

/-- Sorting looks only at the position, the size and the variables. -/
theorem sort_congr {E : Env} {f : Nat} {st st1 : St} (h1 : st1.last = st.last) (h2 : st1.position = st.position)
    (h3 : st1.stack = st.stack) (ss : List SortKey) (x : XN) (l : List XN) :
    sortNodes E f ss x l st1 = sortNodes E f ss x l st := by
  have hc : ∀ ss : List SortKey, setContext E f ss x st1 = setContext E f ss x st := by
    intro ss
    induction ss with
    | nil => rw [setContext, setContext]
    | cons s ss ih =>
      rw [setContext, setContext, ih]
      simp only [stringFor, envOf, St.resolve, h1, h2, h3]
  have hg : ∀ (cs : List Chosen) (y : XN), grab E f cs y st1 = grab E f cs y st := by
    intro cs y
    induction cs with
    | nil => rw [grab, grab]
    | cons c cs ih =>
      rw [grab, grab, ih]
      simp only [stringFor, numberFor, envOf, St.resolve, h1, h3, St.setPosition]
  have ha : ∀ (cs : List Chosen) (l : List XN), grabAll E f cs l st1 = grabAll E f cs l st := by
    intro cs l
    induction l with
    | nil => rw [grabAll, grabAll]
    | cons y l ih => rw [grabAll, grabAll, ih, hg]
  simp only [sortNodes, hc, ha]

/-- Without an `xsl:sort` nothing is sorted. -/
theorem sorted_none {w : World} {cv : Conv} {R : Reading} {G : VName → Option Val} {φ : Focus} {L : Bindings} {l l' : List XN}
    (h : SortedBy w cv R G φ L [] l l') : l' = l := by
  obtain ⟨ks, h1, h2⟩ := h
  rw [KeysAre] at h1
  subst h1
  exact Verif.Xslt.arranged_nil.1 h2

theorem sortedBy_none {w : World} {cv : Conv} {R : Reading} {G : VName → Option Val} {φ : Focus} {L : Bindings} (l : List XN) :
    SortedBy w cv R G φ L [] l l := ⟨[], by rw [KeysAre], Verif.Xslt.arranged_nil.2 rfl⟩

theorem sorted_nodes {w : World} {cv : Conv} {R : Reading} {G : VName → Option Val} {φ : Focus} {L : Bindings} {l l' : List XN}
    {ss : List SortKey} (h : SortedBy w cv R G φ L ss l l') : ∀ y ∈ l', y ∈ l := by
  obtain ⟨ks, _, h2⟩ := h
  exact fun y hy => h2.perm.mem_iff.1 hy

/-! ## Parameters -/

theorem unpass_filter (ps : Params) (g : List (VName × Ev XVal)) (tl : List (List (VName × Ev XVal))) (st : St) :
    unpassParams ps { st with params := g :: tl } =
      { st with params := g.filter (fun q => ps.all fun p => decide (q.1 ≠ p.1)) :: tl } := by
  induction ps generalizing g with
  | nil => rw [unpassParams, List.filter_eq_self.2 (by simp)]
  | cons p ps ih =>
    rw [unpassParams, St.unpassParam]
    simp only [List.headD_cons, List.tail_cons]
    rw [ih, List.filter_filter]
    simp only [List.all_cons, Bool.and_comm]

theorem lookup_none_cons {α : Type} {n k : VName} {a : α} {l : List (VName × α)} (h : ((k, a) :: l).lookup n = none) :
    n ≠ k ∧ l.lookup n = none := by
  rw [List.lookup_cons] at h
  by_cases e : n = k
  · subst e; simp at h
  · have : (n == k) = false := by simpa using e
    rw [this] at h
    exact ⟨e, h⟩

theorem lookup_ne {α : Type} {n k : VName} (a : α) (l : List (VName × α)) (h : n ≠ k) :
    ((k, a) :: l).lookup n = l.lookup n := by
  have : (n == k) = false := by simpa using h
  rw [List.lookup_cons, this]

theorem lookup_eq {α : Type} (n : VName) (a : α) (l : List (VName × α)) : ((n, a) :: l).lookup n = some a := by
  simp [List.lookup_cons]

theorem pass_ends {φ : Focus} {L : Bindings} {b : Bool} {st : St} (h : Agree S φ L b st)
    (tl : List (List (VName × Ev XVal))) :
    ∀ (ps ps' : Params) (given : Bindings) (g0 : List (VName × Ev XVal)), LikeParams ps ps' →
      (∀ p ∈ ps, Still S.R b p.2) → Passed S.R S.G φ L ps given → (∀ n, given.lookup n ≠ none → g0.lookup n = none) →
      ∃ new, (∀ q ∈ new, ∃ p ∈ ps', q.1 = p.1) ∧
        Ends (fun f => passParams S.E f ps' φ.node { st with params := g0 :: tl })
          { st with params := (new ++ g0) :: tl } ∧
        (∀ n v, given.lookup n = some v → ∃ m, (new ++ g0).lookup n = some (.val m) ∧ Rep S.E.w S.K m v) ∧
        ∀ n, given.lookup n = none → (new ++ g0).lookup n = g0.lookup n
  | [], ps', given, g0, hl, _, hp, _ => by
    cases hl
    rw [Passed] at hp
    subst hp
    exact ⟨[], by simp, ⟨0, fun f _ => by simp only; rw [passParams]; rfl⟩, by simp, by simp⟩
  | p :: ps, ps', given, g0, hl, hs, hp, hd => by
    cases hl with | @cons k e e' _ ps' he hl => ?_
    rw [Passed] at hp
    obtain ⟨v, rest, rfl, hv, hp, hn⟩ := hp
    obtain ⟨m, hm, F, hF⟩ := evals h he (hs (k, e) (by simp)) hv
    have hg0 : g0.lookup k = none := hd k (by rw [lookup_eq]; simp)
    obtain ⟨new, h1, ⟨F', h2⟩, h3, h4⟩ := pass_ends h tl ps ps' rest ((k, .val m) :: g0) hl
      (fun q hq => hs q (by simp [hq])) hp (by
        intro n hne
        have ek : n ≠ k := by rintro rfl; exact hne hn
        rw [lookup_ne _ _ ek]
        exact hd n (by rw [lookup_ne _ _ ek]; exact hne))
    refine ⟨new ++ [(k, .val m)], ?_, ⟨max F F', fun f hf => ?_⟩, ?_, ?_⟩
    · intro q hq
      rcases List.mem_append.1 hq with hq | hq
      · obtain ⟨p', h5, h6⟩ := h1 q hq
        exact ⟨p', by simp [h5], h6⟩
      · rw [List.mem_singleton] at hq
        exact ⟨(k, e'), by simp, by rw [hq]⟩
    · simp only
      rw [passParams, St.passParam]
      simp only [List.headD_cons, List.tail_cons, hg0, Option.isSome_none, Bool.false_eq_true, if_false, Ev.bind]
      have ev : value S.E f e' φ.node { st with params := g0 :: tl } = .val m := hF f (by omega)
      rw [ev]
      have := h2 f (by omega)
      simp only at this
      rw [this, List.append_assoc]
      rfl
    · intro n v' hv'
      rw [List.append_assoc]
      by_cases ek : n = k
      · subst ek
        rw [lookup_eq] at hv'
        cases hv'
        refine ⟨m, ?_, hm⟩
        rw [List.singleton_append, h4 _ hn, lookup_eq]
      · rw [lookup_ne _ _ ek] at hv'
        exact h3 n v' hv'
    · intro n hn'
      obtain ⟨e, hn'⟩ := lookup_none_cons hn'
      rw [List.append_assoc, List.singleton_append, h4 n hn', lookup_ne _ _ e]

/-- Passing the parameters, and taking them back. -/
theorem passed {φ : Focus} {L : Bindings} {b : Bool} {st : St} (h : Agree S φ L b st) {ps ps' : Params} {given : Bindings}
    (hlike : LikeParams ps ps') (hs : ∀ p ∈ ps, Still S.R b p.2) (hp : Passed S.R S.G φ L ps given) :
    ∃ st1, Ends (fun f => passParams S.E f ps' φ.node st) st1 ∧ Caller S given st1 ∧ st1.last = st.last ∧
      st1.out = st.out ∧ st1.position = st.position ∧ st1.current = st.current ∧ st1.stack = st.stack ∧
      ∀ st2, st2.params = st1.params → (unpassParams ps' st2).params = st.params ∧
        (unpassParams ps' st2).last = st2.last ∧ (unpassParams ps' st2).out = st2.out ∧
        (unpassParams ps' st2).stack = st2.stack := by
  obtain ⟨tl, htl⟩ := h.params
  obtain ⟨new, h1, h2, h3, h4⟩ := pass_ends h tl ps ps' given [] hlike hs hp (by simp)
  rw [List.append_nil] at h2 h3 h4
  have he : { st with params := [] :: tl } = st := by rw [← htl]
  rw [he] at h2
  obtain ⟨sc, below, g1, _, g2⟩ := h.stack
  refine ⟨_, h2, ⟨by simp only [g1]; exact globals_cons g2, new, tl, rfl, fun n => ⟨h3 n, h4 n⟩⟩, rfl, rfl, rfl, rfl, rfl, ?_⟩
  intro st2 hst2
  have hst2' : st2.params = new :: tl := hst2
  have e : st2 = { st2 with params := new :: tl } := by rw [← hst2']
  rw [e, unpass_filter]
  refine ⟨?_, rfl, rfl, rfl⟩
  simp only [htl]
  congr 1
  rw [List.filter_eq_nil_iff]
  intro q hq
  obtain ⟨p, h5, h6⟩ := h1 q hq
  simp only [List.all_eq_true, decide_eq_true_eq]
  intro hall
  exact hall p h5 h6

/-- A variable is declared. -/
theorem declare_ends {φ : Focus} {L : Bindings} {b : Bool} {st : St} (h : Agree S φ L b st) {n : VName} {v : Val} {m : XVal}
    (hm : Rep S.E.w S.K m v) (hn : L.lookup n = none) :
    ∃ sc, st.declareVariable n (.val m) = .val { st with stack := sc :: st.stack.tail } ∧
      Agree S φ ((n, v) :: L) b { st with stack := sc :: st.stack.tail } := by
  obtain ⟨sc, below, g1, g2, g3⟩ := h.stack
  refine ⟨(n, m) :: sc, ?_, h.node, h.last, h.place, ⟨(n, m) :: sc, below, by simp only [g1, List.tail_cons], ?_, g3⟩,
    h.params⟩
  · simp only [St.declareVariable, g1, List.headD_cons, (g2 n).2 hn, Option.isSome_none, Bool.false_eq_true, if_false,
      Ev.bind]
  · intro k
    by_cases e : k = n
    · subst e
      rw [lookup_eq, lookup_eq]
      exact ⟨fun v' hv' => by cases hv'; exact ⟨m, rfl, hm⟩, fun h => by cases h⟩
    · rw [lookup_ne _ _ e, lookup_ne _ _ e]
      exact g2 k

/-- The parameters of a template. -/
theorem bound_ends {φ : Focus} {b : Bool} {given : Bindings} {g : List (VName × Ev XVal)} (hg : RepGiven S g given) :
    ∀ (ps ps' : Params) (L L' : Bindings) (st : St) (tl : List (List (VName × Ev XVal))), LikeParams ps ps' →
      Agree S φ L b st → st.params = [] :: g :: tl → (∀ p ∈ ps, Still S.R b p.2) → Bound S.R S.G φ given ps L L' →
      ∃ sc, Ends (fun f => declareParams S.E f ps' φ.node st) { st with stack := sc :: st.stack.tail } ∧
        Agree S φ L' b { st with stack := sc :: st.stack.tail }
  | [], ps', L, L', st, tl, hl, h, hp, hs, hb => by
    cases hl
    rw [Bound] at hb
    subst hb
    obtain ⟨sc, below, g1, g2, g3⟩ := h.stack
    refine ⟨sc, ?_, ?_⟩
    · have : { st with stack := sc :: st.stack.tail } = st := by
        rw [g1, List.tail_cons, ← g1]
      rw [this]
      exact ⟨0, fun f _ => by simp only; rw [declareParams]⟩
    · exact h.congr rfl rfl rfl (by simp only [g1, List.tail_cons]) rfl
  | p :: ps, ps', L, L', st, tl, hl, h, hp, hs, hb => by
    cases hl with | @cons k e0 e' _ ps' he hl => ?_
    rw [Bound] at hb
    obtain ⟨hn, v, hv, hb⟩ := hb
    have key : ∃ m, Rep S.E.w S.K m v ∧
        ∃ F, ∀ f, F ≤ f → st.declareParam k (value S.E f e' φ.node st) = st.declareVariable k (.val m) := by
      rcases hv with hv | ⟨hv1, hv2⟩
      · obtain ⟨m, g1, g2⟩ := (hg k).1 v hv
        have e' : ∀ f, st.declareParam k (value S.E f e' φ.node st) = st.declareVariable k (.val m) := by
          intro f
          simp only [St.declareParam, hp, List.tail_cons, List.headD_cons, g1]
        exact ⟨m, g2, 0, fun f _ => e' f⟩
      · obtain ⟨m, g2, F, hF⟩ := evals h he (hs (k, e0) (by simp)) hv2
        have g1 := (hg k).2 hv1
        have e' : ∀ f, F ≤ f → st.declareParam k (value S.E f e' φ.node st) = st.declareVariable k (.val m) := by
          intro f hf
          have := hF f hf
          simp only at this
          simp only [St.declareParam, hp, List.tail_cons, List.headD_cons, g1, this]
        exact ⟨m, g2, F, e'⟩
    obtain ⟨m, hm, F, hF⟩ := key
    obtain ⟨sc, e, ha⟩ := declare_ends h hm hn
    obtain ⟨sc', ⟨F', h1⟩, h2⟩ := bound_ends hg ps ps' _ L' { st with stack := sc :: st.stack.tail } tl hl ha hp
      (fun q hq => hs q (by simp [hq])) hb
    refine ⟨sc', ⟨max F F', fun f hf => ?_⟩, h2⟩
    simp only
    rw [declareParams, hF f (by omega), e]
    exact h1 f (by omega)

end

end Verif.XsltRun
