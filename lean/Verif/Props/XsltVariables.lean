import Verif.Lemmas.XsltGlobals
set_option autoImplicit false
/-!
# C47, C59: variables and parameters
-/
namespace Verif.Props.XsltVariables
open Verif.Xslt Verif.Spec.XsltVariables Verif.Spec.XsltGlobals

/-- C47, for stylesheets that declare no variable directly in `xsl:copy`, `xsl:comment`,
`xsl:processing-instruction` or `xsl:message` and invoke no template in an `xsl:with-param` but the first:
running a template from the top, with any global variables, writes what the scoping rules say, and fails
exactly if they say so. -/
theorem C47_partial (ts : VName → Option VTempl) (hts : ∀ n t, ts n = some t → GoodT t) (globals passed : VScope)
    (depth : Nat) (name : VName) :
    (callV ts depth name ⟨[globals], [[], passed]⟩).map Prod.fst =
      call ts (fun n => (Verif.Xslt.get n globals).bind Inst.value) depth [] name := by
  have := callV_ok globals ts hts depth name ⟨[globals], [[], passed]⟩ [] [passed] rfl rfl (fun e he => by cases he)
  rw [this]
  show _ = call ts (globalsOf globals) depth [] name
  simp only [List.map_nil]
  cases call ts (globalsOf globals) depth [] name <;> rfl

/-- Names of the examples. -/
def x : VName := ['x']
def y : VName := ['y']
def main : VName := ['m']
def sub : VName := ['s']

/-- A template that shadows a global, passes it on, and sees its own variable again afterwards. -/
def exSheet : VName → Option VTempl := fun n =>
  if n = main then some ⟨.nil, .cons (.valueOf (.ref x)) <| .cons (.variable x (.select (.lit ['1']))) <|
    .cons (.framed (.cons (.variable y (.select (.ref x))) <| .cons (.invoke [sub, sub]
      (.cons y (.select (.concat (.ref x) (.ref y))) .nil)) .nil)) <|
    .cons (.valueOf (.ref x)) .nil⟩
  else if n = sub then some ⟨.cons y (.select (.lit ['d'])) <| .cons x (.select (.ref y)) .nil,
    .cons (.valueOf (.ref x)) <| .cons (.valueOf (.lit [','])) .nil⟩
  else none

example : (callV exSheet 3 main ⟨[[(x, ⟨[0], some ['g']⟩)]], [[], []]⟩).map Prod.fst =
    some ['g', '1', '1', ',', '1', '1', ',', '1'] := by decide +kernel
example : ∀ n t, exSheet n = some t → GoodT t := by
  intro n t h
  unfold exSheet at h
  by_cases h1 : n = main
  · rw [if_pos h1] at h; cases h
    simp [GoodT, GoodD, Goods, Good, GoodV, GoodP, CallFreeP]
  · rw [if_neg h1] at h
    by_cases h2 : n = sub
    · rw [if_pos h2] at h; cases h
      simp [GoodT, GoodD, Goods, Good, GoodV, GoodP, CallFreeP]
    · rw [if_neg h2] at h; cases h

/-- `<xsl:copy><xsl:variable name="x" select="'1'"/></xsl:copy><xsl:value-of select="$x"/>` -/
def leak : VName → Option VTempl := fun _ =>
  some ⟨.nil, .cons (.unframed (.cons (.variable x (.select (.lit ['1']))) .nil)) <| .cons (.valueOf (.ref x)) .nil⟩

/-- C47 is false of the code: a variable declared in `xsl:copy` (or a comment, a processing instruction, a
message) is still visible behind it. -/
theorem C47_violated_leak :
    (callV leak 1 main VStack.start).map Prod.fst = some ['1'] ∧ call leak (fun _ => none) 1 [] main = none :=
  ⟨by decide +kernel, by decide +kernel⟩

/-- Two comments, each with a variable `x` of its own. -/
def twice : VName → Option VTempl := fun _ =>
  some ⟨.nil, .cons (.unframed (.cons (.variable x (.select (.lit ['1']))) (.cons (.valueOf (.ref x)) .nil))) <|
    .cons (.unframed (.cons (.variable x (.select (.lit ['2']))) (.cons (.valueOf (.ref x)) .nil))) .nil⟩

/-- C47 is false of the code: two such siblings with a variable of the same name are refused. -/
theorem C47_violated_twice :
    (callV twice 1 main VStack.start).map Prod.fst = none ∧ call twice (fun _ => none) 1 [] main = some ['1', '2'] :=
  ⟨by decide +kernel, by decide +kernel⟩

/-- `main` calls `sub` with `x` = 1 and `y` = what a call of `u` without parameters writes; `u` has a
parameter `x` with default d. -/
def passing : VName → Option VTempl := fun n =>
  if n = main then some ⟨.nil, .cons (.invoke [sub] (.cons x (.select (.lit ['1'])) <|
    .cons y (.content (.cons (.invoke [['u']] .nil) .nil)) .nil)) .nil⟩
  else if n = sub then some ⟨.cons y (.select (.lit [])) .nil, .cons (.valueOf (.ref y)) .nil⟩
  else some ⟨.cons x (.select (.lit ['d'])) .nil, .cons (.valueOf (.ref x)) .nil⟩

/-- C47 is false of the code: a template called in the content of an `xsl:with-param` is given the
parameters of the same call that come before. -/
theorem C47_violated_with_param :
    (callV passing 3 main VStack.start).map Prod.fst = some ['1'] ∧
    call passing (fun _ => none) 3 [] main = some ['d'] :=
  ⟨by decide +kernel, by decide +kernel⟩

/-- C47: of the global declarations of a name the one of highest import precedence counts; a stylesheet is
refused only for two of one name and precedence. (No parameters are set from outside.) -/
theorem C47_globals (ds : List TopDecl) (hp : ∀ d ∈ ds, d.inst.prec ≠ []) :
    match declareTop ds VStack.start with
    | none => ¬ ds.Pairwise (fun d d' => d.name = d'.name → d.inst.prec ≠ d'.inst.prec)
    | some s => ∃ g, s = ⟨[g], [[], []]⟩ ∧ ∀ n,
        match Verif.Xslt.get n g with
        | none => ∀ d ∈ ds, d.name ≠ n
        | some i => ∃ d ∈ ds, d.name = n ∧ d.inst = i ∧
            ∀ d' ∈ ds, d'.name = n → d' = d ∨ Lower d'.inst.prec i.prec := by
  have h0 : TopOk [] [] := by intro n d hd; cases hd
  cases h : declareTop ds VStack.start with
  | none =>
    obtain ⟨l1, d, l2, d', e, hm, hn, hpr⟩ := declareTop_refused ds [] [] hp h0 h
    intro hpw
    rw [List.nil_append] at e
    rw [e, List.pairwise_append] at hpw
    exact hpw.2.2 d' hm d (by simp) hn hpr
  | some s =>
    obtain ⟨g, hs, hok⟩ := declareTop_ok ds [] [] hp s h0 h
    rw [List.nil_append] at hok
    refine ⟨g, hs, fun n => ?_⟩
    have hokn := hok n
    cases hg : Verif.Xslt.get n g with
    | none => rw [hg] at hokn; exact hokn
    | some i => rw [hg] at hokn; exact hokn

example : (declareTop [⟨false, x, ⟨[0, 1], some ['a']⟩⟩, ⟨false, x, ⟨[0], some ['b']⟩⟩,
    ⟨true, x, ⟨[0, 2], some ['c']⟩⟩] VStack.start).map (fun s => resolve x s) = some (some ['b']) := by decide +kernel

/-- C47, parameters set from outside, for stylesheets that declare no name twice: the value set counts for
a parameter, and only for a parameter. -/
theorem C47_set_partial (ds : List TopDecl) (hp : ∀ d ∈ ds, d.inst.prec ≠ []) (hn : (ds.map TopDecl.name).Nodup)
    (ps : List (VName × List Char)) (hps : (ps.map Prod.fst).Nodup) :
    ∃ g P, declareTop ds (setParams ps VStack.start) = some ⟨[g], [[], P]⟩ ∧
      ∀ d ∈ ds, (d.isParam = true → ∀ v, (d.name, v) ∈ ps → (Verif.Xslt.get d.name g).map Inst.value = some (some v)) ∧
        (d.isParam = false ∨ d.name ∉ ps.map Prod.fst → Verif.Xslt.get d.name g = some d.inst) := by
  obtain ⟨P, h1, h2, h3, h4⟩ := setParams_bottom ps [] hps (fun p _ => rfl) (fun e he => by cases he) []
  obtain ⟨g, k1, k2, _⟩ := declareTop_passed ds [] P hp h2 hn (fun d _ => rfl)
  refine ⟨g, P, by rw [← k1]; exact congrArg _ h1, fun d hd => ⟨fun hpar v hv => ?_, fun hor => ?_⟩⟩
  · rw [k2 d hd, if_pos hpar, h3 _ hv]; rfl
  · rw [k2 d hd]
    rcases hor with hpar | hnm
    · rw [hpar]; rfl
    · rw [h4 _ hnm]; simp [Verif.Xslt.get]

example : (declareTop [⟨true, x, ⟨[0], some ['a']⟩⟩, ⟨false, y, ⟨[0], some ['b']⟩⟩]
    (setParams [(x, ['1']), (y, ['2'])] VStack.start)).map (fun s => (resolve x s, resolve y s)) =
    some (some ['1'], some ['b']) := by decide +kernel

/-- C47 is false of the code: a stylesheet and one it imports both declare the parameter `x`, which is fine
unless a value is set from outside; then the transformation is refused. -/
theorem C47_violated_set :
    (declareTop [⟨true, x, ⟨[0], some ['a']⟩⟩, ⟨true, x, ⟨[0, 1], some ['b']⟩⟩] VStack.start).isSome ∧
    declareTop [⟨true, x, ⟨[0], some ['a']⟩⟩, ⟨true, x, ⟨[0, 1], some ['b']⟩⟩]
      (setParams [(x, ['1'])] VStack.start) = none :=
  ⟨by decide +kernel, by decide +kernel⟩

/-- C59, for globals that refer to each other only in select expressions or directly in content: evaluating
them always ends, however they refer to each other; if it succeeds every global has the value kept for it,
and if it throws some global has no value (it refers to itself, or to something that is not there). -/
theorem C59_partial (gs : List Global) (hn : (gs.map Global.name).Nodup)
    (hg : ∀ g ∈ gs, ∀ r ∈ g.refs, r.guarded = true) (depth : Nat)
    (hd : (gs.flatMap fun g => g.refs).length < depth) :
    (∃ c, freeze gs depth (gs.map Global.name) [] = .ok c ∧
      (∀ n v, (n, v) ∈ c → HasValue gs n v) ∧ ∀ n ∈ gs.map Global.name, ∃ v, (n, v) ∈ c) ∨
    (freeze gs depth (gs.map Global.name) [] = .throws ∧
      ∃ n ∈ gs.map Global.name, ∀ v, ¬ HasValue gs n v) := by
  have hl : (allRefs gs).length = (gs.flatMap fun g => g.refs).length := by
    unfold allRefs
    rw [List.length_flatMap, List.length_flatMap]
    simp
  have hends := freeze_ends gs hg depth (by rw [hl]; exact hd) (gs.map Global.name) []
  cases h : freeze gs depth (gs.map Global.name) [] with
  | deep => exact absurd h hends
  | throws => exact Or.inr ⟨rfl, freeze_throws gs hn depth _ [] h⟩
  | ok c =>
    obtain ⟨h1, _, h3⟩ := freeze_ok gs depth _ [] c (fun e he => by cases he) h
    exact Or.inl ⟨c, rfl, fun n v hm => h1 (n, v) hm, h3⟩

/-- C59: whatever the references, a value found is right, and nothing with a value is refused. -/
theorem C59_sound (gs : List Global) (hn : (gs.map Global.name).Nodup) (depth : Nat) (n : VName) :
    (∀ v c, evalGlobal gs depth [] [] n = .ok (v, c) → HasValue gs n v) ∧
    (∀ v, HasValue gs n v → evalGlobal gs depth [] [] n ≠ .throws) :=
  ⟨fun v c h => (evalGlobal_ok gs depth [] [] c n v (fun e he => by cases he) h).1,
   fun v hv => evalGlobal_nothrow gs hn depth [] [] n v (fun p hp => by cases hp) hv⟩

/-- Three globals: `x` refers to `y` twice, `y` to `z`. -/
def exGlobals (zrefs : List GRef) : List Global :=
  [⟨x, [⟨true, y⟩, ⟨true, y⟩], List.flatten⟩, ⟨y, [⟨true, ['z']⟩], fun vs => vs.flatten ++ ['b']⟩,
   ⟨['z'], zrefs, fun _ => ['c']⟩]

/-- The values, if any. -/
def Outcome.values {α : Type} : Outcome α → Option α
  | .ok a => some a
  | _ => none
/-- Whether the recursion was too deep. -/
def Outcome.isDeep {α : Type} : Outcome α → Bool
  | .deep => true
  | _ => false

example : Outcome.values (freeze (exGlobals []) 4 [x, y, ['z']] []) =
    some [(x, ['c', 'b', 'c', 'b']), (y, ['c', 'b']), (['z'], ['c'])] := by decide +kernel
example : Outcome.values (freeze (exGlobals [⟨true, x⟩]) 5 [x, y, ['z']] []) = none ∧
    Outcome.isDeep (freeze (exGlobals [⟨true, x⟩]) 5 [x, y, ['z']] []) = false := by decide +kernel

/-- A global whose content calls a template that refers to it. -/
def circle : List Global := [⟨x, [⟨false, x⟩], List.flatten⟩]

/-- C59 is false of the code: a global variable that refers to itself through a template is not detected;
the recursion goes deeper than any bound. -/
theorem C59_violated (depth : Nat) : freeze circle depth [x] [] = .deep := by
  have h : ∀ d, evalGlobal circle d [] [] x = .deep := by
    intro d
    induction d with
    | zero => rfl
    | succ d ih =>
      show (match evalRefs (evalGlobal circle d) x [] [⟨false, x⟩] [] with
        | .throws => .throws
        | .deep => .deep
        | .ok (vs, c) => _) = Outcome.deep
      have : evalRefs (evalGlobal circle d) x [] [⟨false, x⟩] [] = .deep := by
        rw [evalRefs]
        simp [ih]
      rw [this]
  rw [freeze, h]

end Verif.Props.XsltVariables
