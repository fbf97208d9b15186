import Verif.Lemmas.XPathEval
set_option autoImplicit false
set_option linter.unusedSimpArgs false
set_option linter.unusedVariables false
namespace Verif.XPathEval
open Verif.XTree Verif.XPath
open Verif.XPathParse (Expr)

/-! ## More fuel does not change a value -/

/-- The second has the value of the first. -/
def Le {α : Type} (r s : Ev α) : Prop := ∀ a, r = .val a → s = .val a

theorem le_refl {α : Type} (r : Ev α) : Le r r := fun _ h => h

theorem le_more {α : Type} (r : Ev α) : Le .more r := fun _ h => by cases h

theorem le_bind {α β : Type} {r s : Ev α} {g h : α → Ev β} (h1 : Le r s) (h2 : ∀ a, Le (g a) (h a)) :
    Le (r.bind g) (s.bind h) := by
  intro b hb
  cases r with
  | val a => rw [h1 a rfl]; exact h2 a b hb
  | throws => cases hb
  | undefined => cases hb
  | more => cases hb

/-- The arguments of a function. -/
inductive LeArgs : List (Ev XVal) → List (Ev XVal) → Prop where
  | nil : LeArgs [] []
  | cons {a b : Ev XVal} {as bs : List (Ev XVal)} (h : Le a b) (t : LeArgs as bs) : LeArgs (a :: as) (b :: bs)

section
variable {E : Env} {f g : Nat} (hg : f ≤ g)
include hg

theorem le_enumerate (t : Tree) (c : Ref) (axis : Axis) :
    Le (Ev.ofOutcome (enumerate t c axis f)) (Ev.ofOutcome (enumerate t c axis g)) := by
  intro l h
  cases he : enumerate t c axis f with
  | done l' => rw [he] at h; rw [enumerate_mono he hg]; exact h
  | crash => rw [he] at h; cases h
  | more => rw [he] at h; cases h

theorem le_stringOf (x : XN) : Le (stringOf E f x) (stringOf E g x) := by
  rw [stringOf, stringOf]
  refine le_bind ?_ fun o => le_refl _
  intro l h
  have key : ∀ l, enumerate (E.w.tree x.1) x.2 .descendant f = .done l →
      enumerate (E.w.tree x.1) x.2 .descendant g = .done l := fun l h => enumerate_mono h hg
  rw [nodeStringValue] at h ⊢
  revert h
  cases he : enumerate (E.w.tree x.1) x.2 .descendant f with
  | done l' => rw [key l' he]; exact id
  | crash => split <;> intro h <;> first | exact h | cases h
  | more => split <;> intro h <;> first | exact h | cases h

theorem le_stringsOf : ∀ xs : List XN, Le (stringsOf E f xs) (stringsOf E g xs)
  | [] => le_refl _
  | x :: xs => by
    rw [stringsOf, stringsOf]
    exact le_bind (le_stringOf hg x) fun s => le_bind (le_stringsOf xs) fun ss => le_refl _

theorem le_string (v : XVal) : Le (v.string E f) (v.string E g) := by
  cases v with
  | nodes ns =>
    simp only [XVal.string]
    split
    · exact le_refl _
    · exact le_bind (le_refl _) fun x => le_stringOf hg x
  | _ => exact le_refl _

theorem le_number (v : XVal) : Le (v.number E f) (v.number E g) := by
  cases v with
  | nodes ns => exact le_bind (le_string hg _) fun _ => le_refl _
  | _ => exact le_refl _

theorem le_value (v : XVal) : Le (v.value E f) (v.value E g) := by
  cases v with
  | nodes ns => exact le_bind (le_stringsOf hg _) fun _ => le_refl _
  | _ => exact le_refl _

theorem le_argString {a b : Ev XVal} (h : Le a b) : Le (argString E f a) (argString E g b) :=
  le_bind h fun v => le_string hg v

theorem le_argNumber {a b : Ev XVal} (h : Le a b) : Le (argNumber E f a) (argNumber E g b) :=
  le_bind h fun v => le_number hg v

omit hg in
theorem le_argNodes {a b : Ev XVal} (h : Le a b) : Le (argNodes a) (argNodes b) := le_bind h fun v => le_refl _

theorem le_argStrings {as bs : List (Ev XVal)} (h : LeArgs as bs) : Le (argStrings E f as) (argStrings E g bs) := by
  induction h with
  | nil => exact le_refl _
  | cons h t ih =>
    rw [argStrings, argStrings]
    exact le_bind (le_argString hg h) fun _ => le_bind ih fun _ => le_refl _

theorem le_sumLoop : ∀ (xs : List XN) (n : Num), Le (sumLoop E f n xs) (sumLoop E g n xs)
  | [], _ => le_refl _
  | x :: xs, n => by
    rw [sumLoop, sumLoop]
    exact le_bind (le_stringOf hg x) fun s => le_sumLoop xs _

omit hg in
theorem le_noArgs {α : Type} {r : Ev α} {as bs : List (Ev XVal)} (h : LeArgs as bs) : Le (noArgs r as) (noArgs r bs) := by
  cases h <;> exact le_refl _

omit hg in
theorem le_oneArg {α : Type} {p q : Ev XVal → Ev α} {as bs : List (Ev XVal)} (h : LeArgs as bs)
    (hp : ∀ a b, Le a b → Le (p a) (q b)) : Le (oneArg p as) (oneArg q bs) := by
  cases h with
  | nil => exact le_refl _
  | cons h t =>
    cases t with
    | nil => exact hp _ _ h
    | cons => exact le_refl _

omit hg in
theorem le_optArg {α : Type} {r s : Ev α} {p q : Ev XVal → Ev α} {as bs : List (Ev XVal)} (h : LeArgs as bs)
    (hr : Le r s) (hp : ∀ a b, Le a b → Le (p a) (q b)) : Le (optArg r p as) (optArg s q bs) := by
  cases h with
  | nil => exact hr
  | cons h t =>
    cases t with
    | nil => exact hp _ _ h
    | cons => exact le_refl _

omit hg in
theorem le_twoArgs {α : Type} {p q : Ev XVal → Ev XVal → Ev α} {as bs : List (Ev XVal)} (h : LeArgs as bs)
    (hp : ∀ a b, Le a b → ∀ c d, Le c d → Le (p a c) (q b d)) : Le (twoArgs p as) (twoArgs q bs) := by
  cases h with
  | nil => exact le_refl _
  | cons h t =>
    cases t with
    | nil => exact le_refl _
    | cons h' t =>
      cases t with
      | nil => exact hp _ _ h _ _ h'
      | cons => exact le_refl _

theorem le_twoStrings {α : Type} {r : List Char → List Char → Ev α} {as bs : List (Ev XVal)} (h : LeArgs as bs) :
    Le (twoStrings E f r as) (twoStrings E g r bs) :=
  le_twoArgs h fun a b h1 c d h2 => le_bind (le_argString hg h1) fun _ => le_bind (le_argString hg h2) fun _ => le_refl _

omit hg in
theorem le_threeArgs {α : Type} {p q : Ev XVal → Ev XVal → Ev XVal → Ev α} {as bs : List (Ev XVal)} (h : LeArgs as bs)
    (hp : ∀ a b, Le a b → ∀ c d, Le c d → ∀ i j, Le i j → Le (p a c i) (q b d j)) :
    Le (threeArgs p as) (threeArgs q bs) := by
  cases h with
  | nil => exact le_refl _
  | cons h t =>
    cases t with
    | nil => exact le_refl _
    | cons h' t =>
      cases t with
      | nil => exact le_refl _
      | cons h'' t =>
        cases t with
        | nil => exact hp _ _ h _ _ h' _ _ h''
        | cons => exact le_refl _

omit hg in
theorem le_bool {r s : Ev Bool} (h : Le r s) : Le r.bool s.bool := le_bind h fun _ => le_refl _
omit hg in
theorem le_num {r s : Ev Num} (h : Le r s) : Le r.num s.num := le_bind h fun _ => le_refl _
omit hg in
theorem le_str {r s : Ev (List Char)} (h : Le r s) : Le r.str s.str := le_bind h fun _ => le_refl _

omit hg in
theorem le_namedNode (x : XN) {as bs : List (Ev XVal)} (h : LeArgs as bs) : Le (namedNode E x as) (namedNode E x bs) :=
  le_optArg h (le_refl _) fun a b h => le_bind (le_argNodes h) fun _ => le_refl _

theorem le_concat {as bs : List (Ev XVal)} (h : LeArgs as bs) : Le (concatCall E f as) (concatCall E g bs) := by
  cases h with
  | nil => exact le_refl _
  | cons h t =>
    cases t with
    | nil => exact le_refl _
    | cons h' t => exact le_bind (le_argStrings hg (.cons h (.cons h' t))) fun _ => le_refl _

theorem le_substring {as bs : List (Ev XVal)} (h : LeArgs as bs) : Le (substringCall E f as) (substringCall E g bs) := by
  cases h with
  | nil => exact le_refl _
  | cons h t =>
    cases t with
    | nil => exact le_refl _
    | cons h' t =>
      cases t with
      | nil =>
        refine le_bind (le_argString hg h) fun s => ?_
        split
        · exact le_refl _
        · exact le_bind (le_argNumber hg h') fun _ => le_refl _
      | cons h'' t =>
        cases t with
        | nil =>
          refine le_bind (le_argString hg h) fun s => ?_
          split
          · exact le_refl _
          · exact le_bind (le_argNumber hg h') fun _ => le_bind (le_argNumber hg h'') fun _ => le_refl _
        | cons => exact le_refl _

theorem le_callFn (x : XN) (i k : Int) (fn : Fn) {as bs : List (Ev XVal)} (h : LeArgs as bs) :
    Le (callFn E f x i k fn as) (callFn E g x i k fn bs) := by
  have hopt : Le (optArg (stringOf E f x) (argString E f) as) (optArg (stringOf E g x) (argString E g) bs) :=
    le_optArg h (le_stringOf hg x) fun a b h => le_argString hg h
  cases fn with
  | last => exact le_num (le_noArgs h)
  | position => exact le_num (le_noArgs h)
  | count => exact le_num (le_oneArg h fun a b h => le_bind (le_argNodes h) fun _ => le_refl _)
  | localName => exact le_str (le_bind (le_namedNode x h) fun _ => le_refl _)
  | namespaceUri => exact le_str (le_bind (le_namedNode x h) fun _ => le_refl _)
  | name => exact le_str (le_bind (le_namedNode x h) fun _ => le_refl _)
  | string => exact le_str hopt
  | concat => exact le_str (le_concat hg h)
  | startsWith => exact le_bool (le_twoStrings hg h)
  | contains => exact le_bool (le_twoStrings hg h)
  | substringBefore => exact le_str (le_twoStrings hg h)
  | substringAfter => exact le_str (le_twoStrings hg h)
  | substring => exact le_str (le_substring hg h)
  | stringLength => exact le_num (le_bind hopt fun _ => le_refl _)
  | normalizeSpace => exact le_str (le_bind hopt fun _ => le_refl _)
  | translate =>
    exact le_str (le_threeArgs h fun a b h1 c d h2 i j h3 => le_bind (le_argString hg h1) fun _ =>
      le_bind (le_argString hg h2) fun _ => le_bind (le_argString hg h3) fun _ => le_refl _)
  | boolean => exact le_bool (le_oneArg h fun a b h => le_bind h fun _ => le_refl _)
  | not => exact le_bool (le_oneArg h fun a b h => le_bind h fun _ => le_refl _)
  | true => exact le_bool (le_noArgs h)
  | false => exact le_bool (le_noArgs h)
  | number =>
    exact le_num (le_optArg h (le_bind (le_stringOf hg x) fun _ => le_refl _) fun a b h => le_argNumber hg h)
  | sum => exact le_num (le_oneArg h fun a b h => le_bind (le_argNodes h) fun _ => le_sumLoop hg _ _)
  | floor => exact le_num (le_oneArg h fun a b h => le_bind (le_argNumber hg h) fun _ => le_refl _)
  | ceiling => exact le_num (le_oneArg h fun a b h => le_bind (le_argNumber hg h) fun _ => le_refl _)
  | round => exact le_num (le_oneArg h fun a b h => le_bind (le_argNumber hg h) fun _ => le_refl _)

theorem le_arith {p : Num → Num → Ev Num} {a b c d : Ev XVal} (h : Le a b) (h' : Le c d) :
    Le (arith E f p a c) (arith E g p b d) :=
  le_num (le_bind (le_argNumber hg h) fun _ => le_bind (le_argNumber hg h') fun _ => le_refl _)

theorem le_relation {p : Value → Value → Ev Bool} {a b c d : Ev XVal} (h : Le a b) (h' : Le c d) :
    Le (relation E f p a c) (relation E g p b d) :=
  le_bool (le_bind h fun _ => le_bind h' fun _ => le_bind (le_value hg _) fun _ => le_bind (le_value hg _) fun _ => le_refl _)

theorem le_binary (op : Verif.XPathParse.Op) {a b c d : Ev XVal} (h : Le a b) (h' : Le c d) :
    Le (binaryOp E f op a c) (binaryOp E g op b d) := by
  cases op with
  | or =>
    refine le_bool (le_bind h fun u => ?_)
    split
    · exact le_refl _
    · exact le_bind h' fun _ => le_refl _
  | and =>
    refine le_bool (le_bind h fun u => ?_)
    split
    · exact le_bind h' fun _ => le_refl _
    · exact le_refl _
  | eq => exact le_relation hg h h'
  | ne => exact le_relation hg h h'
  | lt => exact le_relation hg h h'
  | le => exact le_relation hg h h'
  | gt => exact le_relation hg h h'
  | ge => exact le_relation hg h h'
  | plus => exact le_arith hg h h'
  | minus => exact le_arith hg h h'
  | times => exact le_arith hg h h'
  | div => exact le_arith hg h h'
  | mod => exact le_arith hg h h'
  | union =>
    refine le_bind h fun u => ?_
    cases u with
    | nodes n => exact le_bind h' fun v => le_refl _
    | _ => exact le_refl _

omit hg in
theorem le_filterLoop {p q : XN → Int → Int → Ev XVal} (h : ∀ x i k, Le (p x i k) (q x i k)) (size : Nat) :
    ∀ (xs : List XN) (n : Nat), Le (filterLoop p size n xs) (filterLoop q size n xs)
  | [], _ => le_refl _
  | x :: xs, n => by
    rw [filterLoop, filterLoop]
    refine le_bind (h _ _ _) fun v => ?_
    split
    · exact le_bind (le_filterLoop h size xs _) fun _ => le_refl _
    · exact le_filterLoop h size xs _

/-- Two ways to apply predicates. -/
def LePreds : Option (NodeSet → Ev NodeSet) → Option (NodeSet → Ev NodeSet) → Prop
  | none, none => True
  | some p, some q => ∀ m, Le (p m) (q m)
  | _, _ => False

theorem le_stepOver (axis : Axis) (test : NodeTest) {p q : Option (NodeSet → Ev NodeSet)} (h : LePreds p q) :
    ∀ (xs : List XN) (ns : NodeSet), Le (stepOver E f axis test p ns xs) (stepOver E g axis test q ns xs)
  | [], _ => le_refl _
  | x :: xs, ns => by
    rw [stepOver, stepOver]
    refine le_bind ?_ fun r => le_stepOver axis test h xs r
    rw [stepFrom, stepFrom]
    refine le_bind (le_enumerate hg _ _ _) fun l => ?_
    match p, q, h with
    | none, none, _ => exact le_refl _
    | some p, some q, h => exact le_bind (h _) fun _ => le_refl _

mutual

theorem le_eval : ∀ (e : Expr) (x : XN) (i k : Int), Le (eval E f e x i k) (eval E g e x i k)
  | .number _, _, _, _ => by rw [eval, eval]; exact le_refl _
  | .string _, _, _, _ => by rw [eval, eval]; exact le_refl _
  | .var _ _, _, _, _ => by rw [eval, eval]; exact le_refl _
  | .call u n args, x, i, k => by
    rw [eval, eval, callNamed, callNamed]
    have h := le_evalArgs args x i k
    split
    · split
      · exact le_callFn hg x i k _ h
      · exact le_refl _
    · exact le_refl _
  | .binary op a b, x, i, k => by
    rw [eval, eval]
    exact le_binary hg op (le_eval a x i k) (le_eval b x i k)
  | .negative a, x, i, k => by
    rw [eval, eval]
    exact le_num (le_bind (le_argNumber hg (le_eval a x i k)) fun _ => le_refl _)
  | .path b ss, x, i, k => by
    rw [eval, eval]
    exact le_bind (le_evalSteps ss _ i k) fun _ => le_refl _

theorem le_evalArgs : ∀ (es : List Expr) (x : XN) (i k : Int), LeArgs (evalArgs E f es x i k) (evalArgs E g es x i k)
  | [], _, _, _ => by rw [evalArgs, evalArgs]; exact .nil
  | e :: es, x, i, k => by
    rw [evalArgs, evalArgs]
    exact .cons (le_eval e x i k) (le_evalArgs es x i k)

theorem le_evalPreds : ∀ (ps : List Expr) (ns : NodeSet), Le (evalPreds E f ps ns) (evalPreds E g ps ns)
  | [], _ => by rw [evalPreds, evalPreds]; exact le_refl _
  | p :: ps, ns => by
    rw [evalPreds, evalPreds]
    split
    · exact le_refl _
    · refine le_bind (le_bind (le_filterLoop (fun x i k => le_eval p x i k) _ _ _) fun _ => le_refl _) fun r => ?_
      exact le_evalPreds ps r

theorem le_evalStep : ∀ (s : Verif.XPathParse.Step) (ns : NodeSet) (i k : Int),
    Le (evalStep E f s ns i k) (evalStep E g s ns i k)
  | .test a t ps, ns, i, k => by
    rw [evalStep, evalStep]
    have h := le_evalPreds ps
    split
    · refine le_stepOver hg _ _ ?_ _ _
      split
      · trivial
      · exact h
    · exact le_refl _
  | .expr e ps, ns, i, k => by
    rw [evalStep, evalStep]
    refine le_bind (le_refl _) fun c => le_bind (le_eval e c i k) fun v => ?_
    have h := le_evalPreds ps
    split
    · exact le_refl _
    · exact h _

theorem le_evalSteps : ∀ (ss : List Verif.XPathParse.Step) (ns : NodeSet) (i k : Int),
    Le (evalSteps E f ss ns i k) (evalSteps E g ss ns i k)
  | [], _, _, _ => by rw [evalSteps, evalSteps]; exact le_refl _
  | s :: ss, ns, i, k => by
    rw [evalSteps, evalSteps]
    exact le_bind (le_evalStep s ns i k) fun r => le_evalSteps ss r i k

end

end

/-- What one evaluation gives is what the expression means. -/
theorem means_of_eval {E : Env} {K : Nat → Prop} {vars : List Char → List Char → Option Verif.Spec.XPathEval.Val}
    (hw : Verif.Spec.XPathNodeSet.Forest E.w) (hK : Verif.Spec.XPathEval.Documents E.w K)
    (hsrt : Verif.Spec.XPathNodeSet.StdSort (nodesLessThan E.w) E.srt)
    (hv : Verif.Spec.XPathEval.SameVariables E.w K E.vars vars) {e : Expr} {x : XN} {i k : Int}
    (hx : Verif.Spec.XPathEval.NodeIn E.w K x) (hs : Verif.Spec.XPathEval.Sound E.w E.cv vars e x i k) {f : Nat} {m : XVal}
    (h : eval E f e x i k = .val m) :
    ∃ v, Verif.Spec.XPathEval.Means E.w E.cv vars e x i k v ∧ Verif.Spec.XPathEval.Shows m v := by
  obtain ⟨v, m', h1, h2, F, h3⟩ := goodE hw hK hsrt hv e x i k hx hs
  refine ⟨v, h1, ?_⟩
  have e1 := h3 (max F f) (Nat.le_max_left ..)
  have e2 := le_eval (E := E) (Nat.le_max_right F f) e x i k m h
  simp only at e1
  rw [e1] at e2
  cases e2
  exact h2.1

end Verif.XPathEval
