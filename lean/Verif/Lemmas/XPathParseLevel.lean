import Verif.Lemmas.XPathParseStep
set_option autoImplicit false
set_option linter.unusedSimpArgs false
set_option linter.unusedVariables false
namespace Verif.XPathParse

variable {ns : Str → Option Str}

/-! ## levels -/

def levelP (E : P) : Nat → P
  | 1 => orExpr E
  | 2 => andExpr E
  | 3 => equalityExpr E
  | 4 => relationalExpr E
  | 5 => additiveExpr E
  | 6 => multiplicativeExpr E
  | 7 => unaryExpr E
  | 8 => unionExpr E
  | 9 => pathExpr E
  | 10 => filterExpr E
  | _ => primaryExpr E

def opsP : Nat → P
  | 1 => lit .orOperator "or".toList
  | 2 => lit .andOperator "and".toList
  | 3 => alt (lit .equalsOperator "=".toList) (lit .notEqualsOperator "!=".toList)
  | 4 => alt (lit .lessThanEqualsOperator "<=".toList) (alt (lit .greaterThanEqualsOperator ">=".toList)
      (alt (lit .lessThanOperator "<".toList) (lit .greaterThanOperator ">".toList)))
  | 5 => alt (lit .plusOperator "+".toList) (lit .minusOperator "-".toList)
  | 6 => alt (lit .multiplyOperator "*".toList) (alt (lit .divOperator "div".toList) (lit .modOperator "mod".toList))
  | 8 => lit .unionOperator "|".toList
  | _ => fun _ => none

def levelId : Nat → Id
  | 1 => .orExpr
  | 2 => .andExpr
  | 3 => .equalityExpr
  | 4 => .relationalExpr
  | 5 => .additiveExpr
  | 6 => .multiplicativeExpr
  | _ => .unionExpr

def binLevel (k : Nat) : Prop := k = 1 ∨ k = 2 ∨ k = 3 ∨ k = 4 ∨ k = 5 ∨ k = 6 ∨ k = 8

theorem levelP_bin (E : P) {k : Nat} (h : binLevel k) :
    levelP E k = binary (levelId k) (levelP E (k + 1)) (opsP k) := by
  rcases h with rfl | rfl | rfl | rfl | rfl | rfl | rfl <;> rfl

theorem levelId_bin (k : Nat) : binaryId (levelId k) = true := by
  unfold levelId
  split <;> rfl

theorem opLevel_bin (op : Op) : binLevel (opLevel op) := by
  cases op <;> simp [binLevel, opLevel]

theorem Stop.ne {k : Nat} {r : Str} (h : Stop k r) {a : Char} (ha : k ≤ rank a) : ∀ c u, skip r = c :: u → a ≠ c := by
  rintro c u e rfl
  have := h a u e
  omega

theorem opsP_none {k : Nat} (hk : binLevel k) {r : Str} (h : Stop k r) : opsP k (skip r) = none := by
  rcases hk with rfl | rfl | rfl | rfl | rfl | rfl | rfl
  · exact lit_none_head (h.ne (by decide))
  · exact lit_none_head (h.ne (by decide))
  · exact alt_none (lit_none_head (h.ne (by decide))) (lit_none_head (h.ne (by decide)))
  · exact alt_none (lit_none_head (h.ne (by decide))) (alt_none (lit_none_head (h.ne (by decide)))
      (alt_none (lit_none_head (h.ne (by decide))) (lit_none_head (h.ne (by decide)))))
  · exact alt_none (lit_none_head (h.ne (by decide))) (lit_none_head (h.ne (by decide)))
  · exact alt_none (lit_none_head (h.ne (by decide)))
      (alt_none (lit_none_head (h.ne (by decide))) (lit_none_head (h.ne (by decide))))
  · exact lit_none_head (h.ne (by decide))

theorem lit_none_second {id : Id} {a b : Char} {s : Str} (h : ∀ c u, s = c :: u → c ≠ b) :
    lit id [a, b] (a :: s) = none := by
  apply lit_none
  rintro ⟨r, e⟩
  simp only [List.cons_append, List.nil_append, List.cons.injEq, true_and] at e
  exact h b r e rfl

/-- The operators are found. -/
theorem opsP_some (op : Op) {m : Str} (hm : ∀ c u, m = c :: u → c ≠ '=') :
    ∃ id, opsP (opLevel op) ((opText op).text ++ m) = some ([.node id (opText op).text []], m) ∧ opOf id = some op := by
  cases op with
  | or => exact ⟨.orOperator, rfl, rfl⟩
  | and => exact ⟨.andOperator, rfl, rfl⟩
  | eq => exact ⟨.equalsOperator, rfl, rfl⟩
  | ne => exact ⟨.notEqualsOperator, rfl, rfl⟩
  | le => exact ⟨.lessThanEqualsOperator, rfl, rfl⟩
  | ge => exact ⟨.greaterThanEqualsOperator, rfl, rfl⟩
  | lt =>
    have h1 : lit .lessThanEqualsOperator ['<', '='] ('<' :: m) = none := lit_none_second hm
    exact ⟨.lessThanOperator, (alt_right (a := lit .lessThanEqualsOperator ['<', '=']) h1).trans rfl, rfl⟩
  | gt =>
    have h1 : lit .greaterThanEqualsOperator ['>', '='] ('>' :: m) = none := lit_none_second hm
    have h2 : lit .lessThanEqualsOperator ['<', '='] ('>' :: m) = none := rfl
    exact ⟨.greaterThanOperator, (alt_right (a := lit .lessThanEqualsOperator ['<', '=']) h2).trans
      ((alt_right (a := lit .greaterThanEqualsOperator ['>', '=']) h1).trans rfl), rfl⟩
  | plus => exact ⟨.plusOperator, rfl, rfl⟩
  | minus => exact ⟨.minusOperator, rfl, rfl⟩
  | times => exact ⟨.multiplyOperator, rfl, rfl⟩
  | div => exact ⟨.divOperator, rfl, rfl⟩
  | mod => exact ⟨.modOperator, rfl, rfl⟩
  | union => exact ⟨.unionOperator, rfl, rfl⟩

/-! ## white space in front -/

theorem discard_space (s : Str) : discard space s = some ([], skip s) := discard_some (space_eq s)

theorem seq_skip (X : P) (s : Str) : seq (discard space) X (skip s) = seq (discard space) X s := by
  simp [seq, discard_space, skip_skip]

theorem rule_congr {id : Id} {a : P} {s s' : Str} (h : a s = a s') : rule id a s = rule id a s' := by
  simp [rule, h]

theorem seq_congr {a b : P} {s s' : Str} (h : a s = a s') : seq a b s = seq a b s' := by
  simp [seq, h]

theorem levelP_skip (E : P) (k : Nat) (h1 : 1 ≤ k) (h2 : k ≤ 11) (s : Str) : levelP E k (skip s) = levelP E k s := by
  have a9 : pathExpr E (skip s) = pathExpr E s := rule_congr (seq_skip _ s)
  have a11 : primaryExpr E (skip s) = primaryExpr E s := rule_congr (seq_skip _ s)
  have a10 : filterExpr E (skip s) = filterExpr E s := rule_congr (seq_congr a11)
  have a8 : unionExpr E (skip s) = unionExpr E s := rule_congr (seq_congr a9)
  have a7 : unaryExpr E (skip s) = unaryExpr E s := rule_congr (seq_skip _ s)
  have a6 : multiplicativeExpr E (skip s) = multiplicativeExpr E s := rule_congr (seq_congr a7)
  have a5 : additiveExpr E (skip s) = additiveExpr E s := rule_congr (seq_congr a6)
  have a4 : relationalExpr E (skip s) = relationalExpr E s := rule_congr (seq_congr a5)
  have a3 : equalityExpr E (skip s) = equalityExpr E s := rule_congr (seq_congr a4)
  have a2 : andExpr E (skip s) = andExpr E s := rule_congr (seq_congr a3)
  have a1 : orExpr E (skip s) = orExpr E s := rule_congr (seq_congr a2)
  have : k = 1 ∨ k = 2 ∨ k = 3 ∨ k = 4 ∨ k = 5 ∨ k = 6 ∨ k = 7 ∨ k = 8 ∨ k = 9 ∨ k = 10 ∨ k = 11 := by omega
  rcases this with rfl | rfl | rfl | rfl | rfl | rfl | rfl | rfl | rfl | rfl | rfl <;> assumption

/-! ## what parsing an expression gives -/

structure Parsed (ns : Str → Option Str) (e : Ex) (t : Tree) (x : Expr) : Prop where
  good : Good ns t x
  same : flat x = flat (meaning ns e)
  pi : t.id = .processingInstruction → barePi e = true
  lit : t.id = .literal → bareLit e = true
  root : t.id = .slash → bareRoot e = true

def Parses (ns : Str → Option Str) (p : P) (s r : Str) (e : Ex) : Prop :=
  ∃ t x, p s = some ([t], skip r) ∧ Parsed ns e t x

/-- An operand and operators after it, to which more can be added. -/
def Open (ns : Str → Option Str) (p q : P) (s r : Str) (e : Ex) : Prop :=
  ∃ t₀ x₀ s₁ ts x, p s = some ([t₀], s₁) ∧ Good ns t₀ x₀ ∧ Run (seq q p) s₁ ts (skip r) ∧ Chain ns x₀ ts x ∧
    flat x = flat (meaning ns e) ∧ (ts = [] → Parsed ns e t₀ x₀)

theorem rule_single {id : Id} {a : P} {s r : Str} {t : Tree} (h : a s = some ([t], r)) : rule id a s = some ([t], r) :=
  rule_some h

theorem open_of_parses {p q : P} {s r : Str} {e : Ex} (h : Parses ns p s r e) : Open ns p q s r e := by
  obtain ⟨t, x, h1, h2⟩ := h
  exact ⟨t, x, skip r, [], x, h1, h2.good, .nil _, .nil, h2.same, fun _ => h2⟩

theorem open_close {E : P} {k : Nat} (hk : binLevel k) {s r : Str} {e : Ex}
    (h : Open ns (levelP E (k + 1)) (opsP k) s r e) (hs : Stop k r) : Parses ns (levelP E k) s r e := by
  obtain ⟨t₀, x₀, s₁, ts, x, h1, h2, h3, h4, h5, h6⟩ := h
  have hq : seq (opsP k) (levelP E (k + 1)) (skip r) = none := seq_none_left (opsP_none hk hs)
  have e1 := seq_some h1 (many_run h3 hq)
  rw [levelP_bin E hk]
  cases hts : ts with
  | nil =>
    rw [hts] at e1
    exact ⟨t₀, x₀, rule_some e1, h6 hts⟩
  | cons a b =>
    have hne : ts ≠ [] := by rw [hts]; simp
    refine ⟨.node (levelId k) [] (t₀ :: ts), x, ?_, good_binary (levelId_bin k) h2 h4 hne, h5, ?_, ?_, ?_⟩
    · rw [hts] at e1 ⊢
      exact rule_some e1
    all_goals
      intro e
      simp only [Tree.id] at e
      have := levelId_bin k
      rw [e] at this
      cases this

theorem open_snoc {E : P} {op : Op} {a b : Ex} {s m m2 r : Str}
    (h : Open ns (levelP E (opLevel op + 1)) (opsP (opLevel op)) s m a)
    (hm : skip m = (opText op).text ++ m2) (he : ∀ c u, m2 = c :: u → c ≠ '=')
    (hb : Parses ns (levelP E (opLevel op + 1)) m2 r b) (hl : r.length ≤ m2.length) :
    Open ns (levelP E (opLevel op + 1)) (opsP (opLevel op)) s r (.bin op a b) := by
  obtain ⟨t₀, x₀, s₁, ts, x, h1, h2, h3, h4, h5, h6⟩ := h
  obtain ⟨t, y, h7, h8⟩ := hb
  obtain ⟨id, e1, e2⟩ := opsP_some op he
  have hq : seq (opsP (opLevel op)) (levelP E (opLevel op + 1)) (skip m) =
      some ([.node id (opText op).text [], t], skip r) := by
    rw [hm]
    exact seq_some e1 h7
  refine ⟨t₀, x₀, s₁, ts ++ [.node id (opText op).text [], t], .binary op x y, h1, h2, h3.snoc hq ?_,
    .snoc ts x _ t op y h4 e2 h8.good, ?_, ?_⟩
  · have := skip_length r
    rw [hm]
    have : 1 ≤ (opText op).text.length := by cases op <;> decide
    simp only [List.length_append]
    omega
  · simp only [flat, meaning, h5, h8.same]
  · intro e
    simp at e

/-- No minus sign comes first. -/
def NotMinus (s : Str) : Prop := ∀ c u, skip s = c :: u → c ≠ '-'

theorem predicate_none {E : P} {r : Str} (h : Stop 10 r) : predicate E (skip r) = none := by
  refine rule_none (seq_none_right (space_eq _) (seq_none_left (lit_none_head ?_)))
  rw [skip_skip]
  exact h.ne (by decide)

abbrev minusP : P := lit .unaryMinusOperator "-".toList

theorem lift {E : P} {k : Nat} (h1 : 1 ≤ k) (h2 : k ≤ 10) {s r : Str} {e : Ex}
    (h : Parses ns (levelP E (k + 1)) s r e) (hs : Stop k r) (hm : k = 7 → NotMinus s) :
    Parses ns (levelP E k) s r e := by
  have : binLevel k ∨ k = 7 ∨ k = 9 ∨ k = 10 := by unfold binLevel; omega
  rcases this with hb | rfl | rfl | rfl
  · exact open_close hb (open_of_parses h) hs
  · obtain ⟨t, x, e1, e2⟩ := h
    rw [← levelP_skip E 8 (by omega) (by omega)] at e1
    refine ⟨t, x, rule_single ?_, e2⟩
    have hmn : minusP (skip s) = none := lit_none_head (fun c u e => (hm rfl c u e).symm)
    exact seq_some (discard_space s) (seq_some (many_none hmn) e1)
  · obtain ⟨t, x, e1, e2⟩ := h
    rw [← levelP_skip E 10 (by omega) (by omega)] at e1
    refine ⟨t, x, rule_single ?_, e2⟩
    have hsl : seq (alt slashSlash slash) (relativeLocationPath E) (skip r) = none :=
      seq_none_left (alt_none (lit_none_head (hs.ne (by decide))) (lit_none_head (hs.ne (by decide))))
    have := seq_some (discard_space s) (seq_some (alt_left (b := locationPath E) (seq_some e1 (opt_none hsl)))
      (discard_space (skip r)))
    rw [skip_skip] at this
    exact this
  · obtain ⟨t, x, e1, e2⟩ := h
    exact ⟨t, x, rule_single (seq_some e1 (many_none (predicate_none hs))), e2⟩

theorem lift_all {E : P} {k₀ : Nat} (h0 : k₀ ≤ 11) {s r : Str} {e : Ex}
    (base : Stop k₀ r → Parses ns (levelP E k₀) s r e) (hm : 8 ≤ k₀ → NotMinus s) :
    ∀ d k, k₀ = k + d → 1 ≤ k → Stop k r → Parses ns (levelP E k) s r e := by
  intro d
  induction d with
  | zero =>
    intro k hk _ hs
    rw [hk] at base
    exact base hs
  | succ d ih =>
    intro k hk h1 hs
    exact lift h1 (by omega) (ih (k + 1) (by omega) (by omega) (hs.mono (by omega))) hs (fun e => hm (by omega))

/-- Minus signs and what comes after them. -/
def Signs (ns : Str → Option Str) (E : P) (s r : Str) (e : Ex) : Prop :=
  ∃ j m t x, Run minusP s (minuses j) m ∧ minusP m = none ∧ unionExpr E m = some ([t], skip r) ∧ Good ns t x ∧
    flat (negatives j x) = flat (meaning ns e) ∧ (j = 0 → Parsed ns e t x)

/-- All there is to know about the expression in this place. -/
structure Pack (ns : Str → Option Str) (E : P) (tight : Bool) (e : Ex) (s r : Str) : Prop where
  closed : ∀ k, 1 ≤ k → k ≤ level e → Stop k r → Parses ns (levelP E k) s r e
  opened : ∀ k, binLevel k → k ≤ level e → Stop (k + 1) r → Open ns (levelP E (k + 1)) (opsP k) s r e
  signs : 7 ≤ level e → Stop 8 r → (tight = true ∨ skip s = s) → Signs ns E s r e

theorem level_le (e : Ex) : level e ≤ 11 := by
  cases e with
  | bin op a b => cases op <;> simp [level, opLevel]
  | _ => simp [level]

theorem pack_of {E : P} {tight : Bool} {e : Ex} {s r : Str}
    (base : Stop (level e) r → Parses ns (levelP E (level e)) s r e)
    (hop : binLevel (level e) → Stop (level e + 1) r → Open ns (levelP E (level e + 1)) (opsP (level e)) s r e)
    (hm : 8 ≤ level e → NotMinus s)
    (hsg : level e = 7 → Stop 8 r → (tight = true ∨ skip s = s) → Signs ns E s r e) : Pack ns E tight e s r := by
  have hc : ∀ k, 1 ≤ k → k ≤ level e → Stop k r → Parses ns (levelP E k) s r e := fun k h1 h2 h3 =>
    lift_all (level_le e) base hm (level e - k) k (by omega) h1 h3
  refine ⟨hc, fun k hb h2 h3 => ?_, fun h7 h8 ht => ?_⟩
  · by_cases hk : k = level e
    · subst hk
      exact hop hb h3
    · exact open_of_parses (hc (k + 1) (by omega) (by omega) h3)
  · by_cases hk : level e = 7
    · exact hsg hk h8 ht
    · obtain ⟨t, x, e1, e2⟩ := hc 8 (by omega) (by omega) h8
      refine ⟨0, s, t, x, .nil _, ?_, e1, e2.good, e2.same, fun _ => e2⟩
      refine lit_none_head ?_
      intro c u e3 e4
      subst e4
      exact hm (by omega) '-' u (by rw [e3]; exact skip_cons (by decide)) rfl

/-- For what is not built with operators. -/
theorem pack_tight {E : P} {tight : Bool} {e : Ex} {s r : Str} (hl : 9 ≤ level e)
    (base : Stop (level e) r → Parses ns (levelP E (level e)) s r e) (hm : NotMinus s) : Pack ns E tight e s r :=
  pack_of base (fun hb => by unfold binLevel at hb; omega) (fun _ => hm) (fun h => by omega)

theorem pack_signs {E : P} {tight : Bool} {e : Ex} {s r : Str} (hl : level e = 7)
    (h : Stop 8 r → Signs ns E (skip s) r e) (ht : tight = true ∨ skip s = s → skip s = s) : Pack ns E tight e s r := by
  refine pack_of ?_ (fun hb => by unfold binLevel at hb; omega) (fun h => by omega) (fun _ h8 hs => ?_)
  · rw [hl]
    intro hs
    obtain ⟨j, m, t, x, e1, e2, e3, e4, e5, e6⟩ := h (hs.mono (by omega))
    have e7 := seq_some (discard_space s) (seq_some (many_run e1 e2) e3)
    rw [List.nil_append] at e7
    cases j with
    | zero => exact ⟨t, x, rule_single e7, e6 rfl⟩
    | succ j =>
      refine ⟨.node .unaryExpr [] (minuses (j + 1) ++ [t]), negatives (j + 1) x, ?_, good_unary e4 _, e5, ?_, ?_, ?_⟩
      · have : group .unaryExpr (minuses (j + 1) ++ [t]) = [.node .unaryExpr [] (minuses (j + 1) ++ [t])] := by
          cases j <;> rfl
        have e8 := rule_some (id := .unaryExpr) e7
        rw [this] at e8
        exact e8
      all_goals (intro e; simp [Tree.id] at e)
  · have := h h8
    rw [ht hs] at this
    exact this

theorem signs_cons {E : P} {m r : Str} {e : Ex} (h : Signs ns E m r e) : Signs ns E ('-' :: m) r (.neg e) := by
  obtain ⟨j, m', t, x, e1, e2, e3, e4, e5, e6⟩ := h
  refine ⟨j + 1, m', t, x, ?_, e2, e3, e4, ?_, by simp⟩
  · have := Run.cons ('-' :: m) m m' [minusTree] (minuses j) (lit_append _ "-".toList m) (by simp) e1
    exact this
  · simp only [negatives, flat, meaning, e5]

end Verif.XPathParse
