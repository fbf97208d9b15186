import Verif.Lemmas.XPathEvalMono
set_option autoImplicit false
set_option linter.unusedSimpArgs false
set_option linter.unusedVariables false
namespace Verif.XPathEval
open Verif.XTree Verif.XPath
open Verif.XPathParse (Expr)

/-! ## More variables do not change a value -/

/-- With other variables. -/
def Env.with (E : Env) (v : List Char → List Char → Option XVal) : Env := ⟨E.w, E.srt, E.cv, v⟩

section
variable (E : Env) (v : List Char → List Char → Option XVal)

theorem stringOf_with : stringOf (E.with v) = stringOf E := rfl

theorem stringsOf_with : stringsOf (E.with v) = stringsOf E := by
  funext f xs
  induction xs with
  | nil => rfl
  | cons x xs ih => rw [stringsOf, stringsOf, ih]; rfl

theorem string_with : XVal.string (E.with v) = XVal.string E := rfl
theorem number_with : XVal.number (E.with v) = XVal.number E := rfl

theorem value_with : XVal.value (E.with v) = XVal.value E := by
  funext f x
  cases x <;> simp only [XVal.value, stringsOf_with]

theorem argString_with : argString (E.with v) = argString E := rfl
theorem argNumber_with : argNumber (E.with v) = argNumber E := rfl

theorem argStrings_with : argStrings (E.with v) = argStrings E := by
  funext f xs
  induction xs with
  | nil => rfl
  | cons x xs ih => rw [argStrings, argStrings, ih]; rfl

theorem sumLoop_with : sumLoop (E.with v) = sumLoop E := by
  funext f n xs
  induction xs generalizing n with
  | nil => rfl
  | cons x xs ih => rw [sumLoop, sumLoop]; simp only [ih]; rfl

theorem namedNode_with : namedNode (E.with v) = namedNode E := rfl

theorem concatCall_with : concatCall (E.with v) = concatCall E := by
  funext f as
  match as with
  | [] => rfl
  | [_] => rfl
  | a :: b :: l => rw [concatCall, concatCall, argStrings_with]

theorem substringCall_with : substringCall (E.with v) = substringCall E := by
  funext f as
  match as with
  | [] => rfl
  | [_] => rfl
  | [a, b] => rfl
  | [a, b, c] => rfl
  | a :: b :: c :: d :: l => rfl

theorem twoStrings_with {α : Type} : @twoStrings (E.with v) = @twoStrings E := rfl

theorem callFn_with : callFn (E.with v) = callFn E := by
  funext f x i k fn as
  cases fn <;> simp only [callFn, namedNode_with, stringOf_with, argString_with, argNumber_with, concatCall_with,
    substringCall_with, sumLoop_with] <;> rfl

theorem arith_with : arith (E.with v) = arith E := rfl

theorem relation_with : relation (E.with v) = relation E := by
  funext f p a b
  simp only [relation, value_with]

theorem binaryOp_with : binaryOp (E.with v) = binaryOp E := by
  funext f op a b
  cases op <;> simp only [binaryOp, arith_with, relation_with] <;> rfl

theorem stepFrom_with : stepFrom (E.with v) = stepFrom E := rfl

theorem stepOver_with : stepOver (E.with v) = stepOver E := by
  funext f axis test p ns xs
  induction xs generalizing ns with
  | nil => rfl
  | cons x xs ih => rw [stepOver, stepOver]; simp only [ih, stepFrom_with]

theorem callNamed_with : callNamed (E.with v) = callNamed E := by
  funext f x i k u n as
  simp only [callNamed, callFn_with]

end

section
variable {E : Env} {v : List Char → List Char → Option XVal} {f : Nat}
  (hv : ∀ u n m, E.vars u n = some m → v u n = some m)
include hv

mutual

theorem with_eval : ∀ (e : Expr) (x : XN) (i k : Int), Le (eval E f e x i k) (eval (E.with v) f e x i k)
  | .number _, _, _, _ => by rw [eval, eval]; exact le_refl _
  | .string _, _, _, _ => by rw [eval, eval]; exact le_refl _
  | .var u n, _, _, _ => by
    rw [eval, eval, variableValue, variableValue]
    intro m h
    cases hm : E.vars u n with
    | none => rw [hm] at h; cases h
    | some a =>
      rw [hm] at h
      rw [show (E.with v).vars u n = some a from hv u n a hm]
      exact h
  | .call u n args, x, i, k => by
    rw [eval, eval, callNamed_with, callNamed, callNamed]
    have h := with_evalArgs args x i k
    split
    · split
      · exact le_callFn (Nat.le_refl f) x i k _ h
      · exact le_refl _
    · exact le_refl _
  | .binary op a b, x, i, k => by
    rw [eval, eval, binaryOp_with]
    exact le_binary (Nat.le_refl f) op (with_eval a x i k) (with_eval b x i k)
  | .negative a, x, i, k => by
    rw [eval, eval, argNumber_with]
    exact le_num (le_bind (le_argNumber (Nat.le_refl f) (with_eval a x i k)) fun _ => le_refl _)
  | .path b ss, x, i, k => by
    rw [eval, eval]
    exact le_bind (with_evalSteps ss _ i k) fun _ => le_refl _

theorem with_evalArgs : ∀ (es : List Expr) (x : XN) (i k : Int),
    LeArgs (evalArgs E f es x i k) (evalArgs (E.with v) f es x i k)
  | [], _, _, _ => by rw [evalArgs, evalArgs]; exact .nil
  | e :: es, x, i, k => by
    rw [evalArgs, evalArgs]
    exact .cons (with_eval e x i k) (with_evalArgs es x i k)

theorem with_evalPreds : ∀ (ps : List Expr) (ns : NodeSet), Le (evalPreds E f ps ns) (evalPreds (E.with v) f ps ns)
  | [], _ => by rw [evalPreds, evalPreds]; exact le_refl _
  | p :: ps, ns => by
    rw [evalPreds, evalPreds]
    split
    · exact le_refl _
    · refine le_bind (le_bind (le_filterLoop (fun x i k => with_eval p x i k) _ _ _) fun _ => le_refl _) fun r => ?_
      exact with_evalPreds ps r

theorem with_evalStep : ∀ (s : Verif.XPathParse.Step) (ns : NodeSet) (i k : Int),
    Le (evalStep E f s ns i k) (evalStep (E.with v) f s ns i k)
  | .test a t ps, ns, i, k => by
    rw [evalStep, evalStep, stepOver_with]
    have h := with_evalPreds ps
    split
    · refine le_stepOver (Nat.le_refl f) _ _ ?_ _ _
      split
      · trivial
      · exact h
    · exact le_refl _
  | .expr e ps, ns, i, k => by
    rw [evalStep, evalStep]
    refine le_bind (le_refl _) fun c => le_bind (with_eval e c i k) fun v => ?_
    have h := with_evalPreds ps
    split
    · exact le_refl _
    · exact h _

theorem with_evalSteps : ∀ (ss : List Verif.XPathParse.Step) (ns : NodeSet) (i k : Int),
    Le (evalSteps E f ss ns i k) (evalSteps (E.with v) f ss ns i k)
  | [], _, _, _ => by rw [evalSteps, evalSteps]; exact le_refl _
  | s :: ss, ns, i, k => by
    rw [evalSteps, evalSteps]
    exact le_bind (with_evalStep s ns i k) fun r => with_evalSteps ss r i k

end

end

end Verif.XPathEval
