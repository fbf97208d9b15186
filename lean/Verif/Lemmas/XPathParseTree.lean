import Verif.Lemmas.XPathParseLex
set_option autoImplicit false
set_option linter.unusedSimpArgs false
set_option linter.unusedVariables false
namespace Verif.XPathParse

section
variable (ns : Str → Option Str)

abbrev cC (n : Nat) : List Tree → Res Expr := (compiler ns n).1
abbrev cS (n : Nat) : List Tree → Res (List Step) := (compiler ns n).2

/-- No literal next. -/
def NoLit (ts : List Tree) : Prop := ∀ t us, ts = t :: us → t.id ≠ .literal

/-- No literal and no predicate next. -/
def Clean (ts : List Tree) : Prop := ∀ t us, ts = t :: us → t.id ≠ .literal ∧ t.id ≠ .predicate

/-- The tree of an expression, which compiles to `x` wherever it stands. -/
structure Good (t : Tree) (x : Expr) : Prop where
  comp : ∀ n, t.size ≤ n → ∀ rest, (t.id = .processingInstruction → NoLit rest) → cC ns n (t :: rest) = .ok x
  head : t.id ≠ .slash → ∃ ss, ss ≠ [] ∧ (x = .path false ss ∨ ss = [.expr x []]) ∧
    ∀ n, t.size ≤ n → ∀ k rest, Clean rest → stepList ns (cC ns n) (cS ns n) (k + 1) (t :: rest) =
      (do let xs ← stepList ns (cC ns n) (cS ns n) k rest; .ok (ss ++ xs))
  notS : t.id ≠ .s
  notBracket : t.id ≠ .rightBracket
  notPredicate : t.id ≠ .predicate

end

theorem Clean.noLit {ts : List Tree} (h : Clean ts) : NoLit ts := fun t us e => (h t us e).1

theorem clean_nil : Clean [] := by intro t us h; cases h

theorem clean_cons {t : Tree} {us : List Tree} (h1 : t.id ≠ .literal) (h2 : t.id ≠ .predicate) : Clean (t :: us) := by
  intro t us h; cases h; exact ⟨h1, h2⟩

theorem noLit_cons {t : Tree} {us : List Tree} (h1 : t.id ≠ .literal) : NoLit (t :: us) := by
  intro t us h; cases h; exact h1

theorem size_pos (t : Tree) : 1 ≤ t.size := by
  cases t; simp [Tree.size]

theorem sizes_append (a b : List Tree) : sizes (a ++ b) = sizes a + sizes b := by
  induction a with
  | nil => simp [sizes]
  | cons t a ih => simp [sizes, ih]; omega

theorem size_node (id : Id) (w : Str) (ks : List Tree) : (Tree.node id w ks).size = sizes ks + 1 := by
  simp [Tree.size]

theorem skipS_cons {t : Tree} {ts : List Tree} (h : t.id ≠ .s) : skipS (t :: ts) = t :: ts := by
  simp [skipS, h]

theorem skipS_s {t : Tree} {ts : List Tree} (h : t.id = .s) : skipS (t :: ts) = skipS ts := by
  simp [skipS, h]

theorem skipS_sT (s : Str) (ts : List Tree) : skipS (sT s ++ ts) = skipS ts := by
  rcases sT_cases s with h | ⟨w, h⟩ <;> rw [h]
  · rfl
  · exact skipS_s rfl

variable {ns : Str → Option Str}

theorem cC_succ (n : Nat) : cC ns (n + 1) = compileNode ns (cC ns n) (cS ns n) := rfl
theorem cS_succ (n : Nat) : cS ns (n + 1) = steps ns (cC ns n) (cS ns n) := rfl

theorem le_succ {a n : Nat} (h : a + 1 ≤ n) : ∃ m, n = m + 1 ∧ a ≤ m := ⟨n - 1, by omega, by omega⟩

theorem predicates_clean {C : List Tree → Res Expr} {rest : List Tree} (h : Clean rest) :
    predicates C rest = .ok ([], rest) := by
  cases rest with
  | nil => simp [predicates]
  | cons t us => simp [predicates, (h t us rfl).2]

/-! ## trees that are neither steps nor paths of steps -/

def plain : Id → Bool
  | .absoluteLocationPath | .abbreviatedAbsoluteLocationPath | .pathExpr | .primaryExpr | .functionCall
  | .additiveExpr | .multiplicativeExpr | .equalityExpr | .relationalExpr | .orExpr | .andExpr | .unionExpr
  | .literal | .number | .digits | .variableReference | .unaryExpr => true
  | _ => false

theorem stepList_plain {C : List Tree → Res Expr} {R : List Tree → Res (List Step)} {t : Tree} {rest : List Tree}
    {x : Expr} {k : Nat} (hp : plain t.id = true) (hr : Clean rest) (hC : C (t :: rest) = .ok x) :
    stepList ns C R (k + 1) (t :: rest) = (do let xs ← stepList ns C R k rest; .ok ([.expr x []] ++ xs)) := by
  have hs : createStep ns C (t :: rest) = .ok (.expr x [], rest) := by
    have e1 : getAxis (t :: rest) = .ok (.child, t :: rest) := by
      obtain ⟨i, w, ks⟩ := t
      cases i <;> simp [plain, Tree.id] at hp <;> simp [getAxis, Tree.id, axisOf]
    have e2 : getTest ns false (t :: rest) = .ok (none, t :: rest) := by
      obtain ⟨i, w, ks⟩ := t
      cases i <;> simp [plain, Tree.id] at hp <;> simp [getTest, skipS, Tree.id, testOf]
    simp only [createStep, e1, bind, Except.bind]
    have e3 : (Axis.child == Axis.attribute) = false := by decide
    simp only [e3, e2, hC, List.tail_cons, predicates_clean hr]
  have : t.id ≠ .s ∧ t.id ≠ .slash ∧ t.id ≠ .filterExpr ∧ t.id ≠ .relativeLocationPath ∧ t.id ≠ .step := by
    obtain ⟨i, w, ks⟩ := t
    cases i <;> simp [plain, Tree.id] at hp <;> simp [Tree.id]
  obtain ⟨h1, h2, h3, h4, h5⟩ := this
  rw [stepList]
  simp only [h1, h2, h3, h4, h5, or_self, if_false, hs, bind, Except.bind]
  rfl

theorem good_plain {t : Tree} {x : Expr} (hp : plain t.id = true)
    (h : ∀ n, t.size ≤ n → ∀ rest, cC ns n (t :: rest) = .ok x) : Good ns t x where
  comp := fun n hn rest _ => h n hn rest
  head := fun _ => ⟨[.expr x []], by simp, Or.inr rfl, fun n hn k rest hr => stepList_plain hp hr (h n hn rest)⟩
  notS := by intro e; rw [e] at hp; cases hp
  notBracket := by intro e; rw [e] at hp; cases hp
  notPredicate := by intro e; rw [e] at hp; cases hp

theorem good_literal (t : Str) : Good ns (.node .literal t []) (.string t) := by
  refine good_plain rfl (fun n hn rest => ?_)
  obtain ⟨m, rfl, _⟩ := le_succ hn
  rfl

theorem good_number {id : Id} (h : id = .number ∨ id = .digits) (t : Str) : Good ns (.node id t []) (.number t) := by
  rcases h with rfl | rfl
  · refine good_plain rfl (fun n hn rest => ?_)
    obtain ⟨m, rfl, _⟩ := le_succ hn
    rfl
  · refine good_plain rfl (fun n hn rest => ?_)
    obtain ⟨m, rfl, _⟩ := le_succ hn
    rfl

theorem resolve_ok {p : Str} (h : ns p ≠ none) : resolve ns p = .ok (uriOf ns p) := by
  unfold resolve uriOf
  cases hp : ns p with
  | none => exact absurd hp h
  | some u => rfl

theorem nameOf_qTree {q : QName} (h : q.Ok ns) : nameOf ns (qTree q) = .ok (q.uri ns, q.loc) := by
  obtain ⟨pre, loc⟩ := q
  cases pre with
  | none => simp [nameOf, qTree, ncTree, Tree.id, Tree.chars, QName.uri]
  | some p =>
    simp [nameOf, qTree, ncTree, Tree.id, Tree.kids, Tree.chars, QName.uri, resolve_ok (h.2 p rfl).2, bind, Except.bind]

theorem good_variable {q : QName} (h : q.Ok ns) (d : Tree) :
    Good ns (.node .variableReference [] [d, qTree q]) (.var (q.uri ns) q.loc) := by
  refine good_plain rfl (fun n hn rest => ?_)
  obtain ⟨m, rfl, _⟩ := le_succ hn
  rw [cC_succ]
  simp [compileNode, Tree.id, createVariable, Tree.kids, nameOf_qTree h, bind, Except.bind]

theorem good_primary {s : Str} {t : Tree} {x : Expr} (h : Good ns t x) {ks : List Tree} (hk : skipS ks = [t])
    (hz : t.size ≤ sizes ks) : Good ns (.node .primaryExpr [] ks) x := by
  refine good_plain rfl (fun n hn rest => ?_)
  rw [size_node] at hn
  obtain ⟨m, rfl, hm⟩ := le_succ hn
  rw [cC_succ]
  simp only [compileNode, Tree.id, Tree.kids, hk]
  exact h.comp m (by omega) [] (fun _ t us e => by cases e)

/-! ## operators -/

/-- Operators and operands after `x₀`, which make `x` of it. -/
inductive Chain (ns : Str → Option Str) (x₀ : Expr) : List Tree → Expr → Prop where
  | nil : Chain ns x₀ [] x₀
  | snoc (ts : List Tree) (x : Expr) (o t : Tree) (op : Op) (y : Expr) (h : Chain ns x₀ ts x)
      (ho : opOf o.id = some op) (ht : Good ns t y) : Chain ns x₀ (ts ++ [o, t]) (.binary op x y)

/-- An operator next, or nothing. -/
def OpNext (ts : List Tree) : Prop := ∀ t us, ts = t :: us → (opOf t.id).isSome = true

theorem OpNext.noLit {ts : List Tree} (h : OpNext ts) : NoLit ts := by
  intro t us e hl
  have := h t us e
  rw [hl] at this
  cases this

theorem operands_chain {x₀ : Expr} {ts : List Tree} {x : Expr} (h : Chain ns x₀ ts x) {n : Nat} (hn : sizes ts ≤ n)
    {rest : List Tree} (hr : OpNext rest) : operands (cC ns n) x₀ (ts ++ rest) = operands (cC ns n) x rest := by
  induction h generalizing rest with
  | nil => rfl
  | snoc ts x o t op y h ho ht ih =>
    rw [sizes_append] at hn
    simp only [sizes] at hn
    rw [List.append_assoc, ih (by omega) (by intro t us e; cases e; simp [ho])]
    simp only [List.cons_append, List.nil_append]
    rw [operands, ht.comp n (by omega) rest (fun _ => hr.noLit)]
    simp only [bind, Except.bind, ho]

theorem chain_opNext {x₀ : Expr} {ts : List Tree} {x : Expr} (h : Chain ns x₀ ts x) : OpNext ts := by
  induction h with
  | nil => intro t us e; cases e
  | snoc ts x o t op y h ho ht ih =>
    intro t' us e
    cases ts with
    | nil => cases e; simp [ho]
    | cons a ts => cases e; exact ih _ _ rfl

def binaryId : Id → Bool
  | .additiveExpr | .multiplicativeExpr | .equalityExpr | .relationalExpr | .orExpr | .andExpr | .unionExpr => true
  | _ => false

theorem good_binary {id : Id} (hid : binaryId id = true) {t₀ : Tree} {x₀ x : Expr} {ts : List Tree}
    (h0 : Good ns t₀ x₀) (h : Chain ns x₀ ts x) (hne : ts ≠ []) : Good ns (.node id [] (t₀ :: ts)) x := by
  refine good_plain (by cases id <;> simp [binaryId] at hid <;> rfl) (fun n hn rest => ?_)
  rw [size_node] at hn
  obtain ⟨m, rfl, hm⟩ := le_succ hn
  simp only [sizes] at hm
  rw [cC_succ]
  have e1 : compileNode ns (cC ns m) (cS ns m) (.node id [] (t₀ :: ts) :: rest) =
      createBinaryExpression (cC ns m) (.node id [] (t₀ :: ts)) := by
    cases id <;> simp [binaryId] at hid <;> rfl
  rw [e1, createBinaryExpression]
  simp only [Tree.kids]
  rw [h0.comp m (by omega) ts (fun _ => (chain_opNext h).noLit)]
  have e2 := operands_chain h (n := m) (by omega) (rest := []) (by intro t us e; cases e)
  rw [List.append_nil] at e2
  simp only [bind, Except.bind]
  cases ts with
  | nil => exact absurd rfl hne
  | cons a b =>
    rw [e2, operands]

/-! ## minus signs -/

def minusTree : Tree := .node .unaryMinusOperator "-".toList []

def minuses (k : Nat) : List Tree := List.replicate k minusTree

def negatives : Nat → Expr → Expr
  | 0, x => x
  | k + 1, x => .negative (negatives k x)

theorem comp_minuses {t : Tree} {x : Expr} (h : Good ns t x) (k : Nat) {n : Nat} (hn : k + t.size ≤ n) :
    cC ns n (minuses k ++ [t]) = .ok (negatives k x) := by
  induction k generalizing n with
  | zero => exact h.comp n (by omega) [] (fun _ t us e => by cases e)
  | succ k ih =>
    obtain ⟨m, rfl, hm⟩ := le_succ (n := n) (a := k + t.size) (by omega)
    rw [cC_succ]
    simp only [minuses, List.replicate_succ, List.cons_append]
    have := ih hm
    simp only [minuses] at this
    simp only [compileNode, minusTree, Tree.id]
    simp only [minusTree] at this
    rw [this]
    rfl

theorem sizes_minuses (k : Nat) : sizes (minuses k) = k := by
  induction k with
  | zero => rfl
  | succ k ih =>
    simp only [minuses, List.replicate_succ, sizes] at *
    rw [ih]
    simp [minusTree, Tree.size, sizes]
    omega

theorem good_unary {t : Tree} {x : Expr} (h : Good ns t x) (k : Nat) :
    Good ns (.node .unaryExpr [] (minuses k ++ [t])) (negatives k x) := by
  refine good_plain rfl (fun n hn rest => ?_)
  rw [size_node, sizes_append, sizes_minuses] at hn
  obtain ⟨m, rfl, hm⟩ := le_succ hn
  simp only [sizes] at hm
  rw [cC_succ]
  simp only [compileNode, Tree.id, Tree.kids]
  exact comp_minuses h k (by omega)

/-! ## functions -/

/-- White space. -/
def AllS (ts : List Tree) : Prop := ∀ t ∈ ts, t.id = .s

theorem allS_sT (s : Str) : AllS (sT s) := by
  rcases sT_cases s with h | ⟨w, h⟩ <;> rw [h]
  · intro t ht; cases ht
  · intro t ht
    simp only [List.mem_singleton] at ht
    rw [ht]
    rfl

theorem skipS_allS {w : List Tree} (h : AllS w) (ts : List Tree) : skipS (w ++ ts) = skipS ts := by
  induction w with
  | nil => rfl
  | cons a w ih =>
    rw [List.cons_append, skipS_s (h a (by simp))]
    exact ih (fun t ht => h t (by simp [ht]))

/-- Arguments. -/
inductive Args (ns : Str → Option Str) : List Tree → List Expr → Prop where
  | nil (w : List Tree) (hw : AllS w) : Args ns w []
  | cons (w : List Tree) (t : Tree) (ts : List Tree) (x : Expr) (xs : List Expr) (hw : AllS w) (ht : Good ns t x)
      (hl : t.id = .processingInstruction → NoLit ts) (h : Args ns ts xs) : Args ns (w ++ t :: ts) (x :: xs)

theorem arguments_args {ts : List Tree} {xs : List Expr} (h : Args ns ts xs) {n k : Nat} (hn : sizes ts ≤ n)
    (hk : ts.length < k) {rb : Tree} (hrb : rb.id = .rightBracket) (us : List Tree) :
    arguments (cC ns n) k (ts ++ rb :: us) = .ok xs := by
  induction h generalizing k with
  | nil w hw =>
    obtain ⟨k, rfl⟩ : ∃ j, k = j + 1 := ⟨k - 1, by omega⟩
    rw [arguments, skipS_allS hw, skipS_cons (by rw [hrb]; simp)]
    simp [hrb]
  | cons w t ts x xs hw ht hl h ih =>
    obtain ⟨k, rfl⟩ : ∃ j, k = j + 1 := ⟨k - 1, by omega⟩
    rw [sizes_append] at hn
    simp only [sizes] at hn
    simp only [List.length_append, List.length_cons] at hk
    rw [arguments, List.append_assoc, skipS_allS hw, List.cons_append, skipS_cons ht.notS]
    simp only [ht.notBracket, if_false]
    rw [ht.comp n (by omega)]
    · simp only [bind, Except.bind]
      rw [ih (by omega) (by omega)]
    · intro hp
      cases ts with
      | nil => exact noLit_cons (by rw [hrb]; simp)
      | cons a b =>
        have := hl hp a b rfl
        exact noLit_cons this

theorem good_call {f : QName} (hf : f.Ok ns) {w ts us : List Tree} {lb rb : Tree} {xs : List Expr} (hw : AllS w)
    (hlb : lb.id = .leftBracket) (hrb : rb.id = .rightBracket) (h : Args ns ts xs) :
    Good ns (.node .functionCall [] (qTree f :: (w ++ lb :: (ts ++ rb :: us)))) (.call (f.uri ns) f.loc xs) := by
  refine good_plain rfl (fun n hn rest => ?_)
  rw [size_node] at hn
  obtain ⟨m, rfl, hm⟩ := le_succ hn
  simp only [sizes, sizes_append] at hm
  rw [cC_succ]
  have e : compileNode ns (cC ns m) (cS ns m)
      (.node .functionCall [] (qTree f :: (w ++ lb :: (ts ++ rb :: us))) :: rest) =
      createFunction ns (cC ns m) (.node .functionCall [] (qTree f :: (w ++ lb :: (ts ++ rb :: us)))) := rfl
  rw [e, createFunction]
  simp only [Tree.kids, nameOf_qTree hf, bind, Except.bind]
  rw [skipS_allS hw, skipS_cons (by rw [hlb]; simp)]
  simp only
  rw [arguments_args h (by omega) (by simp; omega) hrb us]

/-! ## predicates and filters -/

inductive Preds (ns : Str → Option Str) : List Tree → List Expr → Prop where
  | nil : Preds ns [] []
  | cons (l t rb : Tree) (us ts : List Tree) (x : Expr) (xs : List Expr) (ht : Good ns t x)
      (hr : rb.id = .rightSquare) (h : Preds ns ts xs) :
      Preds ns (.node .predicate [] (l :: t :: rb :: us) :: ts) (x :: xs)

theorem predicates_preds {ts : List Tree} {xs : List Expr} (h : Preds ns ts xs) {n : Nat} (hn : sizes ts ≤ n)
    {rest : List Tree} (hr : Clean rest) : predicates (cC ns n) (ts ++ rest) = .ok (xs, rest) := by
  induction h with
  | nil => exact predicates_clean hr
  | cons l t rb us ts x xs ht hrb h ih =>
    simp only [sizes, size_node] at hn
    rw [List.cons_append, predicates]
    simp only [Tree.id, if_true, Tree.kids]
    rw [ht.comp n (by omega) _ (fun _ => noLit_cons (by rw [hrb]; simp))]
    simp only [bind, Except.bind]
    rw [ih (by omega)]

theorem preds_noLit {ts : List Tree} {xs : List Expr} (h : Preds ns ts xs) : NoLit ts := by
  cases h with
  | nil => intro t us e; cases e
  | cons => exact noLit_cons (by simp [Tree.id])

theorem good_filter {t : Tree} {x : Expr} (ht : Good ns t x) {ts : List Tree} {xs : List Expr} (h : Preds ns ts xs) :
    Good ns (.node .filterExpr [] (t :: ts)) (.path false [.expr x xs]) := by
  have hf : ∀ m, sizes (t :: ts) ≤ m →
      createFilter (cC ns m) (.node .filterExpr [] (t :: ts)) = .ok (.expr x xs) := by
    intro m hm
    simp only [sizes] at hm
    simp only [createFilter, Tree.kids]
    rw [ht.comp m (by omega) ts (fun _ => preds_noLit h)]
    have := predicates_preds h (n := m) (by omega) clean_nil
    rw [List.append_nil] at this
    simp only [bind, Except.bind, List.tail_cons, this]
  refine ⟨fun n hn rest _ => ?_, fun _ => ⟨[.expr x xs], by simp, Or.inl rfl, fun n hn k rest hr => ?_⟩,
    by simp [Tree.id], by simp [Tree.id], by simp [Tree.id]⟩
  · rw [size_node] at hn
    obtain ⟨m, rfl, hm⟩ := le_succ hn
    rw [cC_succ]
    have e : compileNode ns (cC ns m) (cS ns m) (.node .filterExpr [] (t :: ts) :: rest) =
      (do let x ← createFilter (cC ns m) (.node .filterExpr [] (t :: ts)); .ok (.path false [x])) := rfl
    rw [e, hf m hm]
    rfl
  · rw [size_node] at hn
    rw [stepList]
    have e1 : ¬ ((Tree.node .filterExpr [] (t :: ts)).id = .s ∨ (Tree.node .filterExpr [] (t :: ts)).id = .slash) := by
      simp [Tree.id]
    have e2 : (Tree.node .filterExpr [] (t :: ts)).id = .filterExpr := rfl
    rw [if_neg e1, if_pos e2, hf n (by omega)]
    rfl

/-! ## steps -/

/-- The trees of node tests. -/
def testId : Id → Bool
  | .nodeTest | .nameTest | .qName | .ncName | .anyName | .text | .comment | .processingInstruction | .node => true
  | _ => false

/-- The tree of a node test. -/
structure TestTree (ns : Str → Option Str) (t : Tree) (f : Bool → Test) : Prop where
  id : testId t.id = true
  test : ∀ attr rest, (t.id = .processingInstruction → NoLit rest) →
    getTest ns attr (t :: rest) = .ok (some (f attr), rest)

/-- The trees of axes. -/
def AxisTrees (A : List Tree) (a : Axis) : Prop :=
  (A = [] ∧ a = .child) ∨ (∃ w, A = [.node .s w []] ∧ a = .child) ∨
  (∃ x, A = [x] ∧ x.id = .abbreviatedAxisSpecifier ∧ a = .attribute) ∨
  (∃ x y ys, A = [x] ∧ x.id = .axisSpecifier ∧ skipS x.kids = y :: ys ∧ (axisOf y.id).1 = a)

theorem getAxis_axis {A : List Tree} {a : Axis} (h : AxisTrees A a) {t : Tree} (ht : testId t.id = true)
    (rest : List Tree) : ∃ M, getAxis (A ++ t :: rest) = .ok (a, M) ∧ skipS M = t :: rest := by
  have hs : skipS (t :: rest) = t :: rest := skipS_cons (by intro e; rw [e] at ht; cases ht)
  rcases h with ⟨rfl, rfl⟩ | ⟨w, rfl, rfl⟩ | ⟨x, rfl, hx, rfl⟩ | ⟨x, y, ys, rfl, hx, hk, ha⟩
  · refine ⟨t :: rest, ?_, hs⟩
    obtain ⟨i, w, ks⟩ := t
    cases i <;> simp [testId, Tree.id] at ht <;> simp [getAxis, Tree.id, axisOf]
  · refine ⟨.node .s w [] :: t :: rest, ?_, ?_⟩
    · simp [getAxis, Tree.id, axisOf]
    · rw [skipS_s rfl, hs]
  · refine ⟨t :: rest, ?_, hs⟩
    simp [getAxis, hx, axisOf]
  · refine ⟨t :: rest, ?_, hs⟩
    simp [getAxis, hx, hk, ha]

theorem getTest_skip (attr : Bool) {M N : List Tree} (h : skipS M = skipS N) : getTest ns attr M = getTest ns attr N := by
  simp only [getTest, h]

theorem createStep_trees {A : List Tree} {a : Axis} (hA : AxisTrees A a) {t : Tree} {f : Bool → Test}
    (ht : TestTree ns t f) {ps : List Tree} {xs : List Expr} (hp : Preds ns ps xs) {n : Nat} (hn : sizes ps ≤ n)
    {rest : List Tree} (hr : Clean rest) : createStep ns (cC ns n) (A ++ t :: (ps ++ rest)) =
      .ok (.test a (f (a == .attribute)) xs, rest) := by
  obtain ⟨M, e1, e2⟩ := getAxis_axis hA ht.id (ps ++ rest)
  have hts : t.id ≠ .s := by intro e; have := ht.id; rw [e] at this; cases this
  have hl : NoLit (ps ++ rest) := by
    cases hp with
    | nil => exact hr.noLit
    | cons => exact noLit_cons (by simp [Tree.id])
  have e3 : getTest ns (a == .attribute) M = .ok (some (f (a == .attribute)), ps ++ rest) := by
    rw [getTest_skip _ (N := t :: (ps ++ rest)) (by rw [e2, skipS_cons hts])]
    exact ht.test _ _ (fun _ => hl)
  simp only [createStep, e1, bind, Except.bind, e3, predicates_preds hp hn hr]

/-- The tree of a step. -/
structure StepTree (ns : Str → Option Str) (t : Tree) (st : Step) : Prop where
  list : ∀ n, t.size ≤ n → ∀ k rest, Clean rest → stepList ns (cC ns n) (cS ns n) (k + 1) (t :: rest) =
      (do let xs ← stepList ns (cC ns n) (cS ns n) k rest; .ok ([st] ++ xs))
  comp : ∀ n, t.size ≤ n → ∀ rest, (t.id = .processingInstruction → NoLit rest) →
    cC ns n (t :: rest) = .ok (.path false [st])
  notS : t.id ≠ .s
  notBracket : t.id ≠ .rightBracket
  notLiteral : t.id ≠ .literal
  notPredicate : t.id ≠ .predicate
  notSlash : t.id ≠ .slash

theorem stepList_default {C : List Tree → Res Expr} {R : List Tree → Res (List Step)} {t : Tree} {rest us : List Tree}
    {k : Nat} {st : Step} (h : t.id ≠ .s ∧ t.id ≠ .slash ∧ t.id ≠ .filterExpr ∧ t.id ≠ .relativeLocationPath ∧
      t.id ≠ .step) (hs : createStep ns C (t :: rest) = .ok (st, us)) :
    stepList ns C R (k + 1) (t :: rest) = (do let xs ← stepList ns C R k us; .ok ([st] ++ xs)) := by
  obtain ⟨h1, h2, h3, h4, h5⟩ := h
  rw [stepList]
  simp only [h1, h2, h3, h4, h5, or_self, if_false, hs, bind, Except.bind]
  rfl

theorem testId_default {i : Id} (h : testId i = true) :
    i ≠ .s ∧ i ≠ .slash ∧ i ≠ .filterExpr ∧ i ≠ .relativeLocationPath ∧ i ≠ .step := by
  cases i <;> simp [testId] at h <;> simp

theorem compileNode_test {C : List Tree → Res Expr} {R : List Tree → Res (List Step)} {t : Tree} {rest : List Tree}
    (h : testId t.id = true) : compileNode ns C R (t :: rest) =
      (do let x ← createSingleStep ns (t :: rest); .ok (.path false [x])) := by
  obtain ⟨i, w, ks⟩ := t
  cases i <;> simp [testId, Tree.id] at h <;> rfl

theorem stepTree_bare {t : Tree} {f : Bool → Test} (ht : TestTree ns t f) :
    StepTree ns t (.test .child (f false) []) := by
  have hid := ht.id
  refine ⟨fun n hn k rest hr => ?_, fun n hn rest hl => ?_, ?_, ?_, ?_, ?_, ?_⟩
  · apply stepList_default (testId_default hid)
    have := createStep_trees (A := []) (a := .child) (Or.inl ⟨rfl, rfl⟩) ht .nil (n := n) (by simp [sizes]) hr
    exact this
  · obtain ⟨m, rfl, hm⟩ := le_succ (n := n) (a := 0) (by have := size_pos t; omega)
    rw [cC_succ, compileNode_test hid]
    obtain ⟨M, e1, e2⟩ := getAxis_axis (A := []) (a := .child) (Or.inl ⟨rfl, rfl⟩) hid rest
    have hts : t.id ≠ .s := by intro e; rw [e] at hid; cases hid
    have e3 : getTest ns (Axis.child == .attribute) M = .ok (some (f false), rest) := by
      rw [getTest_skip _ (N := t :: rest) (by rw [e2, skipS_cons hts])]
      exact ht.test _ _ hl
    rw [List.nil_append] at e1
    simp only [createSingleStep, e1, bind, Except.bind, e3]
  all_goals (intro e; rw [e] at hid; cases hid)

theorem stepTree_short (id : Id) (w : Str) (a : Axis) (h : (id = .selfSelect ∧ a = .self) ∨ (id = .parentSelect ∧ a = .parent)) :
    StepTree ns (.node id w []) (.test a .any []) := by
  rcases h with ⟨rfl, rfl⟩ | ⟨rfl, rfl⟩
  all_goals
    refine ⟨fun n hn k rest hr => ?_, fun n hn rest hl => ?_, by simp [Tree.id], by simp [Tree.id], by simp [Tree.id],
      by simp [Tree.id], by simp [Tree.id]⟩
    · apply stepList_default (by simp [Tree.id])
      simp [createStep, getAxis, Tree.id, axisOf, bind, Except.bind, getTest, skipS, testOf, predicates_clean hr]
    · obtain ⟨m, rfl, hm⟩ := le_succ hn
      rfl

theorem stepTree_full {A : List Tree} {a : Axis} (hA : AxisTrees A a) {t : Tree} {f : Bool → Test}
    (ht : TestTree ns t f) {ps : List Tree} {xs : List Expr} (hp : Preds ns ps xs) :
    StepTree ns (.node .step [] (A ++ t :: ps)) (.test a (f (a == .attribute)) xs) := by
  have hc : ∀ m, sizes ps ≤ m → createStep ns (cC ns m) (A ++ t :: ps) =
      .ok (.test a (f (a == .attribute)) xs, []) := by
    intro m hm
    have := createStep_trees hA ht hp hm clean_nil
    simpa using this
  refine ⟨fun n hn k rest hr => ?_, fun n hn rest hl => ?_, by simp [Tree.id], by simp [Tree.id], by simp [Tree.id],
      by simp [Tree.id], by simp [Tree.id]⟩
  · rw [size_node, sizes_append] at hn
    simp only [sizes] at hn
    rw [stepList]
    simp only [Tree.id, Tree.kids]
    rw [hc n (by omega)]
    rfl
  · rw [size_node, sizes_append] at hn
    obtain ⟨m, rfl, hm⟩ := le_succ hn
    simp only [sizes] at hm
    rw [cC_succ]
    have e : compileNode ns (cC ns m) (cS ns m) (.node .step [] (A ++ t :: ps) :: rest) =
      (do let xs ← steps ns (cC ns m) (cS ns m) (A ++ t :: ps); .ok (.path false xs)) := rfl
    have e2 : steps ns (cC ns m) (cS ns m) (A ++ t :: ps) = .ok [.test a (f (a == .attribute)) xs] := by
      have hcm := hc m (by omega)
      unfold steps
      rcases hA with ⟨rfl, rfl⟩ | ⟨w, rfl, rfl⟩ | ⟨x, rfl, hx, rfl⟩ | ⟨x, y, ys, rfl, hx, hk, ha⟩
      · simp only [List.nil_append, List.length_cons]
        rw [stepList_default (testId_default ht.id) hcm]
        cases ps <;> rfl
      · simp only [List.cons_append, List.nil_append, List.length_cons]
        rw [stepList]
        simp only [Tree.id, true_or, if_true]
        have := createStep_trees (A := []) (a := .child) (Or.inl ⟨rfl, rfl⟩) ht hp (n := m) (by omega) clean_nil
        simp only [List.nil_append, List.append_nil] at this
        rw [stepList_default (testId_default ht.id) this]
        cases ps <;> rfl
      · simp only [List.cons_append, List.nil_append, List.length_cons] at hcm ⊢
        rw [stepList_default (by simp [hx]) hcm]
        rfl
      · simp only [List.cons_append, List.nil_append, List.length_cons] at hcm ⊢
        rw [stepList_default (by simp [hx]) hcm]
        rfl
    rw [e, e2]
    rfl

/-! ## paths -/

/-- The tree of a relative path. -/
structure RelTree (ns : Str → Option Str) (t : Tree) (ss : List Step) : Prop where
  list : ∀ n, t.size ≤ n → ∀ k rest, Clean rest → stepList ns (cC ns n) (cS ns n) (k + 1) (t :: rest) =
      (do let xs ← stepList ns (cC ns n) (cS ns n) k rest; .ok (ss ++ xs))
  comp : ∀ n, t.size ≤ n → ∀ rest, (t.id = .processingInstruction → NoLit rest) →
    cC ns n (t :: rest) = .ok (.path false ss)
  notS : t.id ≠ .s
  notBracket : t.id ≠ .rightBracket
  notLiteral : t.id ≠ .literal
  notPredicate : t.id ≠ .predicate
  notSlash : t.id ≠ .slash
  notNil : ss ≠ []

theorem StepTree.rel {t : Tree} {st : Step} (h : StepTree ns t st) : RelTree ns t [st] :=
  ⟨h.list, h.comp, h.notS, h.notBracket, h.notLiteral, h.notPredicate, h.notSlash, by simp⟩

theorem RelTree.good {t : Tree} {ss : List Step} (h : RelTree ns t ss) : Good ns t (.path false ss) :=
  ⟨h.comp, fun _ => ⟨ss, h.notNil, Or.inl rfl, h.list⟩, h.notS, h.notBracket, h.notPredicate⟩

def deepTree : Tree := .node .slashSlash "//".toList []
def slashTree : Tree := .node .slash "/".toList []

/-- Steps and double slashes. -/
inductive StepRun (ns : Str → Option Str) : List Tree → List Step → Prop where
  | nil : StepRun ns [] []
  | step (t : Tree) (st : Step) (ts : List Tree) (ss : List Step) (ht : StepTree ns t st) (h : StepRun ns ts ss) :
      StepRun ns (t :: ts) (st :: ss)
  | deep (ts : List Tree) (ss : List Step) (h : StepRun ns ts ss) :
      StepRun ns (deepTree :: ts) (.test .descendantOrSelf .any [] :: ss)

theorem stepRun_clean {ts : List Tree} {ss : List Step} (h : StepRun ns ts ss) : Clean ts := by
  cases h with
  | nil => exact clean_nil
  | step t st ts ss ht h => exact clean_cons ht.notLiteral ht.notPredicate
  | deep => exact clean_cons (by simp [deepTree, Tree.id]) (by simp [deepTree, Tree.id])

theorem stepList_deep {C : List Tree → Res Expr} {R : List Tree → Res (List Step)} {rest : List Tree} {k : Nat}
    (hr : Clean rest) : stepList ns C R (k + 1) (deepTree :: rest) =
      (do let xs ← stepList ns C R k rest; .ok ([.test .descendantOrSelf .any []] ++ xs)) := by
  apply stepList_default (by simp [deepTree, Tree.id])
  simp [createStep, getAxis, deepTree, Tree.id, axisOf, bind, Except.bind, getTest, skipS, testOf, predicates_clean hr]

theorem stepList_slash {C : List Tree → Res Expr} {R : List Tree → Res (List Step)} {rest : List Tree} {k : Nat} :
    stepList ns C R (k + 1) (slashTree :: rest) = stepList ns C R k rest := by
  rw [stepList]
  simp [slashTree, Tree.id]

theorem stepList_nil {C : List Tree → Res Expr} {R : List Tree → Res (List Step)} (k : Nat) :
    stepList ns C R k [] = .ok [] := by
  cases k <;> rfl

theorem stepList_run {ts : List Tree} {ss : List Step} (h : StepRun ns ts ss) {n k : Nat} (hn : sizes ts ≤ n)
    (hk : ts.length ≤ k) : stepList ns (cC ns n) (cS ns n) k ts = .ok ss := by
  induction h generalizing k with
  | nil => exact stepList_nil k
  | step t st ts ss ht h ih =>
    simp only [sizes, List.length_cons] at hn hk
    obtain ⟨k, rfl⟩ : ∃ j, k = j + 1 := ⟨k - 1, by omega⟩
    rw [ht.list n (by omega) k ts (stepRun_clean h), ih (by omega) (by omega)]
    rfl
  | deep ts ss h ih =>
    simp only [sizes, List.length_cons] at hn hk
    obtain ⟨k, rfl⟩ : ∃ j, k = j + 1 := ⟨k - 1, by omega⟩
    rw [stepList_deep (stepRun_clean h), ih (by omega) (by omega)]
    rfl

theorem relTree_node {ts : List Tree} {ss : List Step} (h : StepRun ns ts ss) (hne : ss ≠ []) :
    RelTree ns (.node .relativeLocationPath [] ts) ss := by
  refine ⟨fun n hn k rest hr => ?_, fun n hn rest hl => ?_, by simp [Tree.id], by simp [Tree.id], by simp [Tree.id],
      by simp [Tree.id], by simp [Tree.id], hne⟩
  · rw [size_node] at hn
    obtain ⟨m, rfl, hm⟩ := le_succ hn
    rw [stepList]
    simp only [Tree.id, Tree.kids]
    have : cS ns (m + 1) ts = .ok ss := by
      rw [cS_succ, steps]
      exact stepList_run h hm (Nat.le_refl _)
    rw [this]
    rfl
  · rw [size_node] at hn
    obtain ⟨m, rfl, hm⟩ := le_succ hn
    rw [cC_succ]
    have e : compileNode ns (cC ns m) (cS ns m) (.node .relativeLocationPath [] ts :: rest) =
      (do let xs ← steps ns (cC ns m) (cS ns m) ts; .ok (.path false xs)) := rfl
    rw [e, steps, stepList_run h hm (Nat.le_refl _)]
    rfl

def sepTree (deep : Bool) : Tree := if deep then deepTree else slashTree

theorem sepTree_clean (deep : Bool) (us : List Tree) : Clean (sepTree deep :: us) := by
  cases deep <;> exact clean_cons (by simp [sepTree, slashTree, deepTree, Tree.id]) (by simp [sepTree, slashTree, deepTree, Tree.id])

theorem stepList_sep {deep : Bool} {t : Tree} {ss : List Step} (h : RelTree ns t ss) {n : Nat} (hn : t.size ≤ n) :
    stepList ns (cC ns n) (cS ns n) 2 [sepTree deep, t] = .ok (deepStep deep ++ ss) := by
  have e : stepList ns (cC ns n) (cS ns n) 1 [t] = .ok ss := by
    rw [h.list n hn 0 [] clean_nil]
    simp [stepList, bind, Except.bind]
  cases deep
  · simp only [sepTree, Bool.false_eq_true, if_false]
    rw [stepList_slash, e]
    rfl
  · simp only [sepTree, if_true]
    rw [stepList_deep (clean_cons h.notLiteral h.notPredicate), e]
    rfl

theorem good_abs {deep : Bool} {id : Id} (hid : id = .absoluteLocationPath ∨ id = .abbreviatedAbsoluteLocationPath)
    {t : Tree} {ss : List Step} (h : RelTree ns t ss) :
    Good ns (.node id [] [sepTree deep, t]) (.path true (deepStep deep ++ ss)) := by
  refine good_plain (by rcases hid with rfl | rfl <;> rfl) (fun n hn rest => ?_)
  rw [size_node] at hn
  obtain ⟨m, rfl, hm⟩ := le_succ hn
  simp only [sizes] at hm
  rw [cC_succ]
  have e : compileNode ns (cC ns m) (cS ns m) (.node id [] [sepTree deep, t] :: rest) =
      (do let xs ← steps ns (cC ns m) (cS ns m) [sepTree deep, t]; .ok (.path true xs)) := by
    rcases hid with rfl | rfl <;> rfl
  rw [e, steps]
  simp only [List.length_cons, List.length_nil, Nat.zero_add]
  rw [stepList_sep h (by omega)]
  rfl

theorem good_root : Good ns slashTree (.path true [.test .self .root []]) := by
  refine ⟨fun n hn rest _ => ?_, fun h => absurd rfl h, by simp [slashTree, Tree.id], by simp [slashTree, Tree.id],
    by simp [slashTree, Tree.id]⟩
  obtain ⟨m, rfl, hm⟩ := le_succ hn
  rfl

/-! ## paths from expressions -/

theorem flatSteps_append (a b : List Step) : flatSteps (a ++ b) = flatSteps a ++ flatSteps b := by
  induction a with
  | nil => rfl
  | cons s a ih => simp [flatSteps, ih]

theorem unbracket_append {a : List Step} (h : a ≠ []) (b : List Step) : unbracket (a ++ b) = unbracket a ++ b := by
  cases a with
  | nil => exact absurd rfl h
  | cons s a =>
    rw [List.cons_append]
    unfold unbracket
    split
    · rename_i h1
      cases h1
      simp
    · rename_i h1
      split
      · rename_i h2
        cases h2
        exact absurd rfl (h1 _ _ _)
      · simp

theorem unbracket_ne {a : List Step} (h : a ≠ []) : unbracket a ≠ [] := by
  unfold unbracket
  split
  · simp
  · exact h

theorem flatSteps_ne {a : List Step} (h : a ≠ []) : flatSteps a ≠ [] := by
  cases a with
  | nil => exact absurd rfl h
  | cons s a => simp [flatSteps]

theorem good_path {deep : Bool} {h t : Tree} {x m : Expr} {ss ss' : List Step} (hh : Good ns h x)
    (hs : h.id ≠ .slash) (ht : RelTree ns t ss) (e1 : flat x = flat m) (e2 : flatSteps ss = flatSteps ss') :
    ∃ y, Good ns (.node .pathExpr [] [h, sepTree deep, t]) y ∧
      flat y = flat (.path false (.expr m [] :: (deepStep deep ++ ss'))) := by
  obtain ⟨sh, hne, hx, hl⟩ := hh.head hs
  refine ⟨.path false (sh ++ (deepStep deep ++ ss)), good_plain rfl (fun n hn rest => ?_), ?_⟩
  · rw [size_node] at hn
    obtain ⟨k, rfl, hm⟩ := le_succ hn
    simp only [sizes] at hm
    rw [cC_succ]
    have e : compileNode ns (cC ns k) (cS ns k) (.node .pathExpr [] [h, sepTree deep, t] :: rest) =
      (do let xs ← steps ns (cC ns k) (cS ns k) [h, sepTree deep, t]; .ok (.path false xs)) := rfl
    rw [e, steps]
    simp only [List.length_cons, List.length_nil, Nat.zero_add]
    rw [hl k (by omega) 2 _ (sepTree_clean _ _), stepList_sep ht (by omega)]
    rfl
  · have e3 : flatSteps (deepStep deep ++ ss) = flatSteps (deepStep deep ++ ss') := by
      rw [flatSteps_append, flatSteps_append, e2]
    simp only [flat]
    congr 1
    rw [flatSteps_append, e3]
    have e4 : flatSteps (.expr m [] :: (deepStep deep ++ ss')) = .expr (flat m) [] :: flatSteps (deepStep deep ++ ss') := by
      simp [flatSteps, flatStep, flats]
    rw [e4, ← e1]
    rcases hx with rfl | rfl
    · rw [unbracket_append (flatSteps_ne hne)]
      simp only [flat]
      cases hu : unbracket (flatSteps sh) with
      | nil => exact absurd hu (unbracket_ne (flatSteps_ne hne))
      | cons s ss => rfl
    · have e5 : flatSteps [.expr x []] = [.expr (flat x) []] := by simp [flatSteps, flatStep, flats]
      rw [e5]
      rfl

end Verif.XPathParse
