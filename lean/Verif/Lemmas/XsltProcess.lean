import Verif.Model.XsltProcess
import Verif.Spec.XsltProcess
import Verif.Lemmas.XPathTemplate
import Verif.Lemmas.XsltRun3
import Verif.Lemmas.Names
import Verif.Props.XPathParse
set_option autoImplicit false
set_option linter.unusedSimpArgs false
set_option linter.unusedVariables false
/-!
# The text in a stylesheet document and what the library makes of it
-/
namespace Verif.XPathParse
open Verif.Spec.XsltProcess (Parts joined)

/-! ## Attribute value templates -/

theorem part_compiles {ns : Str → Option Str} {s : Str} {x : Expr} {xs : List Expr} {N : Nat} (hN : s.length ≤ N)
    (h : Parts ns s (x :: xs)) :
    ∃ t y s', templatePart (expr (N + 1)) s = some ([t], s') ∧ s'.length < s.length ∧ Parts ns s' xs ∧
      t.id ≠ .attributeValueTemplate ∧ compilePart ns t = .ok y ∧ flat y = flat x ∧
      (∀ u, x = .string u → s = u ++ s' → y = .string u) := by
  cases h with
  | left s xs rest =>
    exact ⟨.node .doubleLeftCurly "{{".toList [], .string "{".toList, s, alt_left (lit_append _ "{{".toList s),
      by simp; omega, rest, by simp [Tree.id], rfl, rfl, fun u hu _ => hu⟩
  | right s xs rest =>
    have h1 : doubleLeftCurly ('}' :: '}' :: s) = none := lit_none_head (by intro c v e; cases e; decide)
    exact ⟨.node .doubleRightCurly "}}".toList [], .string "}".toList, s,
      (alt_right h1).trans (alt_left (lit_append _ "}}".toList s)),
      by simp; omega, rest, by simp [Tree.id], rfl, rfl, fun u hu _ => hu⟩
  | text t s' _ hne plain ends rest =>
    cases t with
    | nil => exact absurd rfl hne
    | cons c t =>
      have hpl : ∀ d ∈ c :: t, notCurly d = true := fun d hd => by simp [notCurly, isCurly, plain d hd]
      have hs' : s'.takeWhile notCurly = [] ∧ s'.dropWhile notCurly = s' := by
        cases s' with
        | nil => exact ⟨rfl, rfl⟩
        | cons d u =>
          have : notCurly d = false := by
            rcases ends d u rfl with rfl | rfl <;> decide
          simp [this]
      have h2 : (c :: t ++ s').takeWhile notCurly = c :: t := by
        rw [List.takeWhile_append_of_pos hpl, hs'.1, List.append_nil]
      have h3 : (c :: t ++ s').dropWhile notCurly = s' := by
        rw [List.dropWhile_append_of_pos hpl, hs'.2]
      have hc := plain c List.mem_cons_self
      have n1 : doubleLeftCurly (c :: t ++ s') = none := lit_none_head (by intro d v e; cases e; exact Ne.symm hc.1)
      have n2 : doubleRightCurly (c :: t ++ s') = none := lit_none_head (by intro d v e; cases e; exact Ne.symm hc.2)
      have n3 : leftCurly (c :: t ++ s') = none := lit_none_head (by intro d v e; cases e; exact Ne.symm hc.1)
      have n4 : embeddedExpr (expr (N + 1)) (c :: t ++ s') = none := by simp only [embeddedExpr, rule, seq, n3]
      refine ⟨.node .attrLiteral (c :: t) [], .string (c :: t), s', ?_, ?_, rest, by simp [Tree.id], rfl, rfl,
        fun u hu _ => hu⟩
      · rw [templatePart, alt_right n1, alt_right n2, alt_right n4, attrLiteral, h2, h3]
      · simp; omega
  | embedded e m w s' _ he text blank rest =>
    have hcl : Closing (w ++ '}' :: s') := ⟨'}', s', skip_closing blank, by decide⟩
    obtain ⟨t, x, g1, g2⟩ := nested (main_at e he) text (n := N + 1) (by simp at hN; omega) hcl
    rw [skip_closing blank] at g1
    have n1 : doubleLeftCurly ('{' :: m) = none :=
      lit_none (by rintro ⟨v, e⟩; cases e; exact no_curly he text v rfl)
    have n2 : doubleRightCurly ('{' :: m) = none := lit_none_head (by intro d v e; cases e; decide)
    have n3 : embeddedExpr (expr (N + 1)) ('{' :: m) = some ([.node .embeddedExpr [] [.node .leftCurly ['{'] [], t,
        .node .rightCurly ['}'] []]], s') := by
      have := seq_some (lit_append .leftCurly ['{'] m) (seq_some g1 (lit_append .rightCurly ['}'] s'))
      exact rule_some this
    refine ⟨_, x, s', (alt_right n1).trans ((alt_right n2).trans (alt_left n3)), ?_, rest,
      by simp [Tree.id], ?_, g2.same, ?_⟩
    · have := reads_length text
      simp at this ⊢
      omega
    · refine g2.good.comp _ ?_ _ (fun _ => noLit_cons (by simp [Tree.id]))
      simp [Tree.size, sizes]
      omega
    · intro u hu h1
      have h2 := g2.same
      rw [hu, flat] at h2
      cases x with
      | string v => rw [flat] at h2; exact h2
      | _ => rw [flat] at h2; cases h2

theorem parts_compile {ns : Str → Option Str} {N : Nat} : ∀ (n : Nat) {s : Str} {xs : List Expr}, s.length ≤ N →
    s.length ≤ n → Parts ns s xs →
    ∃ ts ys, manyN (templatePart (expr (N + 1))) n s = (ts, []) ∧ compileParts ns ts = .ok ys ∧ flats ys = flats xs
  | 0, s, xs, _, hn, h => by
    cases s with
    | cons c s => simp at hn
    | nil =>
      cases xs with
      | nil => exact ⟨[], [], rfl, rfl, rfl⟩
      | cons x xs =>
        obtain ⟨_, _, s', _, h2, _⟩ := part_compiles (N := 0) (Nat.le_refl _) h
        exact absurd h2 (Nat.not_lt_zero _)
  | n + 1, s, [], _, hn, h => by
    cases h
    refine ⟨[], [], ?_, rfl, rfl⟩
    rw [manyN, part_stuck (.inl rfl)]
  | n + 1, s, x :: xs, hN, hn, h => by
    obtain ⟨t, y, s', g1, g2, g3, g5, g6, g7, _⟩ := part_compiles hN h
    obtain ⟨ts, ys, e1, e2, e3⟩ := parts_compile (N := N) n (by omega) (by omega) g3
    refine ⟨t :: ts, y :: ys, ?_, ?_, by rw [flats, flats, g7, e3]⟩
    · rw [manyN, g1]
      simp only [e1, List.singleton_append]
    · simp only [compileParts, g6, e2, Bind.bind, Except.bind]

theorem joined_flat {xs ys : List Expr} (h : flats ys = flats xs) (hn : xs ≠ []) : flat (joined ys) = flat (joined xs) := by
  match xs, ys, h with
  | [x], [y], h =>
    rw [flats, flats] at h
    exact List.head_eq_of_cons_eq h
  | x :: x' :: xs, y :: y' :: ys, h => rw [joined, joined, flat, flat, h] <;> simp
  | [x], y :: y' :: ys, h => simp [flats] at h
  | x :: x' :: xs, [y], h => simp [flats] at h
  | x :: xs, [], h => simp [flats] at h

theorem template_joined {ns : Str → Option Str} {s : Str} {xs : List Expr} (hne : xs ≠ []) (h : Parts ns s xs) :
    ∃ c, compileTemplate ns s = .ok c ∧ flat c = flat (joined xs) ∧ (∀ u, xs = [.string u] → s = u → c = .string u) := by
  cases xs with
  | nil => exact absurd rfl hne
  | cons p ps =>
    obtain ⟨t, x, s', g1, g2, g3, g5, g6, g7, g8⟩ := part_compiles (Nat.le_refl _) h
    obtain ⟨ts, ys, e1, e2, e3⟩ := parts_compile (N := s.length) s'.length (by omega) (by omega) g3
    have hm : many (templatePart (expr (s.length + 1))) s' = some (ts, []) := by rw [many, e1]
    have hs := seq_some g1 hm
    have hfl : flats (x :: ys) = flats (p :: ps) := by rw [flats, flats, g7, e3]
    cases ts with
    | nil =>
      cases e2
      refine ⟨x, ?_, joined_flat hfl hne, ?_⟩
      · have : attributeValueTemplate (expr (s.length + 1)) s = some ([t], []) := rule_some hs
        rw [compileTemplate_of this, compileRoot, if_neg g5, g6]
      · intro u hu h1
        cases hu
        refine g8 u rfl ?_
        cases g3
        rw [h1, List.append_nil]
    | cons t' ts =>
      have hl : ∃ y zs, ys = y :: zs := by
        simp only [compileParts] at e2
        cases hc : compilePart ns t' with
        | error e => rw [hc] at e2; cases e2
        | ok y =>
          rw [hc] at e2
          cases hd : compileParts ns ts with
          | error e => rw [hd] at e2; cases e2
          | ok ys => rw [hd] at e2; cases e2; exact ⟨_, _, rfl⟩
      obtain ⟨y, zs, rfl⟩ := hl
      refine ⟨_, ?_, joined_flat hfl hne, ?_⟩
      · have : attributeValueTemplate (expr (s.length + 1)) s =
            some ([.node .attributeValueTemplate [] (t :: t' :: ts)], []) := rule_some hs
        rw [compileTemplate_of this, compileRoot, if_pos (by rfl)]
        have hp : compileParts ns (t :: t' :: ts) = .ok (x :: y :: zs) := by
          rw [compileParts, g6, e2]
          rfl
        show (compileParts ns (t :: t' :: ts) >>= _) = _
        rw [hp]
        rfl
      · intro u hu h1
        cases hu
        simp [flats] at e3

end Verif.XPathParse

namespace Verif.XsltProcess
open Verif.XPathParse (Expr Step flat flats flatStep flatSteps unbracket compileExpr compileTemplate NcName nameStart nameChar)
open Verif.XsltCompile (Str Scope)
open Verif.XsltRun (VName)
open Verif.Spec.XsltProcess

/-! ## Functions -/

theorem usesSteps_append (a b : List Step) : usesSteps (a ++ b) = usesSteps a ++ usesSteps b := by
  induction a with
  | nil => rfl
  | cons s a ih => rw [List.cons_append, usesSteps, usesSteps, ih, List.append_assoc]

theorem uses_unbracket (ss : List Step) : usesSteps (unbracket ss) = usesSteps ss := by
  unfold unbracket
  split
  · rename_i s ss rest
    rw [usesSteps, usesSteps, usesStep, uses, usesAll, usesSteps, usesSteps_append, List.append_nil, List.append_assoc]
  · rfl

mutual

theorem uses_flat : ∀ e : Expr, uses (flat e) = uses e
  | .number _ => rfl
  | .string _ => rfl
  | .var _ _ => rfl
  | .call u n args => by
    have : (flats args).length = args.length := length_flats args
    rw [flat, uses, uses, usesAll_flat args, this]
  | .binary op a b => by rw [flat, uses, uses, uses_flat a, uses_flat b]
  | .negative e => by rw [flat, uses, uses, uses_flat e]
  | .path b ss => by rw [flat, uses, uses, uses_unbracket, usesSteps_flat ss]

theorem usesAll_flat : ∀ es : List Expr, usesAll (flats es) = usesAll es
  | [] => rfl
  | e :: es => by rw [flats, usesAll, usesAll, uses_flat e, usesAll_flat es]

theorem usesStep_flat : ∀ s : Step, usesStep (flatStep s) = usesStep s
  | .test a t ps => by rw [flatStep, usesStep, usesStep, usesAll_flat ps]
  | .expr e ps => by rw [flatStep, usesStep, usesStep, usesAll_flat ps, uses_flat e]

theorem usesSteps_flat : ∀ ss : List Step, usesSteps (flatSteps ss) = usesSteps ss
  | [] => rfl
  | s :: ss => by rw [flatSteps, usesSteps, usesSteps, usesStep_flat s, usesSteps_flat ss]

theorem length_flats : ∀ es : List Expr, (flats es).length = es.length
  | [] => rfl
  | e :: es => by rw [flats, List.length_cons, List.length_cons, length_flats es]

end

theorem functions_standard : ∀ f ∈ functions, (f.1.toList, f.2.1, f.2.2) ∈ standard := by decide +kernel

theorem allowed_call {cur vars : Bool} {n : Str} {k : Nat} {f : String × Nat × Option Nat} (hf : f ∈ functions)
    (hn : n = f.1.toList) (h1 : f.2.1 ≤ k) (h2 : ∀ m, f.2.2 = some m → k ≤ m) :
    allowed cur vars (.call [] n k) = true := by
  have := functions_standard f hf
  subst hn
  simp only [allowed, List.isEmpty_nil, Bool.true_and, Bool.or_eq_true, List.any_eq_true]
  left
  refine ⟨_, this, ?_⟩
  obtain ⟨a, lo, hi⟩ := f
  cases hi with
  | none => simp_all
  | some m => simp_all

mutual

theorem known_uses (cur : Bool) : ∀ e : Expr, Known e → ∀ u ∈ uses e, allowed cur true u = true
  | .number _, _, u, hu => by simp [uses] at hu
  | .string _, _, u, hu => by simp [uses] at hu
  | .var _ _, _, u, hu => by simp only [uses, List.mem_singleton] at hu; rw [hu]; rfl
  | .call v n args, h, u, hu => by
    rw [Known] at h
    obtain ⟨rfl, ⟨f, hf, hn, h1, h2⟩, h3⟩ := h
    rw [uses, List.mem_cons] at hu
    rcases hu with rfl | hu
    · exact allowed_call hf hn h1 h2
    · exact known_usesAll cur args h3 u hu
  | .binary op a b, h, u, hu => by
    rw [Known] at h
    rw [uses, List.mem_append] at hu
    exact hu.elim (known_uses cur a h.1 u) (known_uses cur b h.2 u)
  | .negative e, h, u, hu => by
    rw [Known] at h
    rw [uses] at hu
    exact known_uses cur e h u hu
  | .path b ss, h, u, hu => by
    rw [Known] at h
    rw [uses] at hu
    exact known_usesSteps cur ss h u hu

theorem known_usesAll (cur : Bool) : ∀ es : List Expr, KnownAll es → ∀ u ∈ usesAll es, allowed cur true u = true
  | [], _, u, hu => by simp [usesAll] at hu
  | e :: es, h, u, hu => by
    rw [KnownAll] at h
    rw [usesAll, List.mem_append] at hu
    exact hu.elim (known_uses cur e h.1 u) (known_usesAll cur es h.2 u)

theorem known_usesStep (cur : Bool) : ∀ s : Step, KnownStep s → ∀ u ∈ usesStep s, allowed cur true u = true
  | .test a t ps, h, u, hu => by
    rw [KnownStep] at h
    rw [usesStep] at hu
    exact known_usesAll cur ps h u hu
  | .expr e ps, h, u, hu => by
    rw [KnownStep] at h
    rw [usesStep, List.mem_append] at hu
    exact hu.elim (known_uses cur e h.1 u) (known_usesAll cur ps h.2 u)

theorem known_usesSteps (cur : Bool) : ∀ ss : List Step, KnownSteps ss → ∀ u ∈ usesSteps ss, allowed cur true u = true
  | [], _, u, hu => by simp [usesSteps] at hu
  | s :: ss, h, u, hu => by
    rw [KnownSteps] at h
    rw [usesSteps, List.mem_append] at hu
    exact hu.elim (known_usesStep cur s h.1 u) (known_usesSteps cur ss h.2 u)

end

theorem checked_flat {cur : Bool} {e x : Expr} (hf : flat e = flat x) (h : ∀ u ∈ uses x, allowed cur true u = true) :
    checked cur true (.ok e) = some e := by
  have : uses e = uses x := by rw [← uses_flat e, hf, uses_flat x]
  rw [checked, this, if_pos (List.all_eq_true.mpr h)]

theorem prefixes_bound (sc : Scope) : prefixes sc = bound sc := rfl

/-! ## Expressions -/

theorem reading_compiles {t : Text} {x : Expr} (h : Reading t x) :
    ∃ e, compileExpr (prefixes t.scope) t.text = .ok e ∧ flat e = flat x := by
  obtain ⟨e, r, h1, h2, h3, rfl⟩ := h
  exact Verif.Props.XPathParse.C70_partial _ e h1 _ _ h2 h3

theorem string_of_flat {e : Expr} {s : Str} (h : flat e = .string s) : e = .string s := by
  cases e with
  | string v => rw [flat] at h; exact h
  | _ => rw [flat] at h; cases h

theorem isCurrent_iff {e : Expr} : isCurrent e = true ↔ flat e = currentCall := by
  constructor
  · intro h
    unfold isCurrent at h
    split at h
    · rw [flat, flats, currentCall]
      simp at h
      rw [h]; rfl
    · cases h
  · intro h
    cases e with
    | call u n args =>
      rw [flat, currentCall] at h
      injection h with h1 h2 h3
      cases args with
      | nil => subst h1 h2; rfl
      | cons a as => rw [flats] at h3; cases h3
    | _ => rw [flat, currentCall] at h; cases h

theorem known_not_current {e x : Expr} (hf : flat e = flat x) (h : Known x) : isCurrent e = false := by
  cases hc : isCurrent e with
  | false => rfl
  | true =>
    have h1 := isCurrent_iff.mp hc
    rw [hf] at h1
    have h2 := isCurrent_iff.mpr h1
    unfold isCurrent at h2
    split at h2
    · rename_i n
      simp at h2
      subst h2
      rw [Known] at h
      obtain ⟨_, ⟨f, hf, hn, _⟩, _⟩ := h
      exact absurd hn ((by decide +kernel : ∀ f ∈ functions, ¬ ("current".toList = f.1.toList)) f hf)
    · cases h2

/-! ## Names -/

theorem codes_wide (s : Str) : codes s = Verif.Names.wide (s.map Char.toNat) := by
  rw [codes, Verif.Names.wide, List.map_map]; rfl

theorem nameStart_nat (c : Char) (h : nameStart c = true) :
    (65 ≤ c.toNat ∧ c.toNat ≤ 90) ∨ (97 ≤ c.toNat ∧ c.toNat ≤ 122) ∨ c.toNat = 95 := by
  simp only [nameStart, ← Verif.XPathParse.isAlpha_eq, Verif.XPathParse.isAlpha, Bool.or_eq_true, Bool.and_eq_true,
    decide_eq_true_eq, beq_iff_eq, Char.le_def] at h
  rcases h with (⟨h1, h2⟩ | ⟨h1, h2⟩) | rfl
  · exact .inr (.inl ⟨h1, h2⟩)
  · exact .inl ⟨h1, h2⟩
  · exact .inr (.inr rfl)

theorem nameChar_nat (c : Char) (h : nameChar c = true) :
    (65 ≤ c.toNat ∧ c.toNat ≤ 90) ∨ (97 ≤ c.toNat ∧ c.toNat ≤ 122) ∨ (48 ≤ c.toNat ∧ c.toNat ≤ 57) ∨ c.toNat = 46 ∨
      c.toNat = 45 ∨ c.toNat = 95 := by
  simp only [nameChar, ← Verif.XPathParse.isAlpha_eq, ← Verif.XPathParse.isDigit_eq, Verif.XPathParse.isAlpha,
    Verif.XPathParse.isDigit, Bool.or_eq_true, Bool.and_eq_true, decide_eq_true_eq, beq_iff_eq, Char.le_def] at h
  rcases h with ((((⟨h1, h2⟩ | ⟨h1, h2⟩) | ⟨h1, h2⟩) | rfl) | rfl) | rfl
  · exact .inr (.inl ⟨h1, h2⟩)
  · exact .inl ⟨h1, h2⟩
  · exact .inr (.inr (.inl ⟨h1, h2⟩))
  · simp
  · simp
  · simp

theorem letters_ascii : ∀ n : Fin 128, (65 ≤ n.val ∧ n.val ≤ 90) ∨ (97 ≤ n.val ∧ n.val ≤ 122) →
    Verif.XmlChars.isLetter (n.val : Int) = true := by decide +kernel

theorem names_ascii : ∀ n : Fin 128, (65 ≤ n.val ∧ n.val ≤ 90) ∨ (97 ≤ n.val ∧ n.val ≤ 122) ∨ (48 ≤ n.val ∧ n.val ≤ 57) ∨
    n.val = 46 ∨ n.val = 45 ∨ n.val = 95 → Verif.XmlChars.isNCNameChar (n.val : Int) = true := by decide +kernel

theorem ncName_xml {s : Str} (h : NcName s) : Verif.Spec.Xml.NCName (s.map Char.toNat) := by
  cases s with
  | nil => exact absurd h id
  | cons c s =>
    obtain ⟨h1, h2⟩ := h
    refine ⟨c.toNat, s.map Char.toNat, rfl, ?_, ?_⟩
    · have h3 := nameStart_nat c h1
      by_cases hu : c.toNat = 95
      · exact .inr hu
      · left
        rw [← Verif.Names.letter_iff]
        exact letters_ascii ⟨c.toNat, by omega⟩ (by simp only; omega)
    · intro x hx
      obtain ⟨d, hd, rfl⟩ := List.mem_map.mp hx
      have h3 := nameChar_nat d (List.all_eq_true.mp h2 d hd)
      rw [← Verif.Names.ncnameChar_iff]
      exact names_ascii ⟨d.toNat, by omega⟩ (by simp only; omega)

theorem ncName_codes {s : Str} (h : NcName s) : Verif.Names.isNCName (codes s) = true := by
  rw [codes_wide, Verif.Names.ncname_iff]
  exact ncName_xml h

theorem ncName_colon {s : Str} (h : NcName s) : ':' ∉ s := by
  intro hm
  cases s with
  | nil => exact h
  | cons c s =>
    obtain ⟨h1, h2⟩ := h
    rcases List.mem_cons.mp hm with rfl | hm
    · revert h1; decide
    · have := List.all_eq_true.mp h2 _ hm
      revert this; decide

theorem ncName_ne {s : Str} (h : NcName s) : s ≠ [] := by rintro rfl; exact h

theorem ncName_brace {s : Str} (h : NcName s) : ∀ c ∈ s, c ≠ '{' ∧ c ≠ '}' := by
  intro d hd
  cases s with
  | nil => cases hd
  | cons c s =>
    obtain ⟨h1, h2⟩ := h
    have : nameChar d = true := by
      rcases List.mem_cons.mp hd with rfl | hd
      · exact Verif.XPathParse.nameChar_of_nameStart h1
      · exact List.all_eq_true.mp h2 _ hd
    constructor <;> (rintro rfl; revert this; decide)

theorem span_colon {p : Str} (h : ':' ∉ p) (l : Str) :
    (p ++ ':' :: l).takeWhile (· ≠ ':') = p ∧ (p ++ ':' :: l).dropWhile (· ≠ ':') = ':' :: l := by
  have hp : ∀ c ∈ p, decide (c ≠ ':') = true := fun c hc => by
    simp only [ne_eq, decide_not, Bool.not_eq_eq_eq_not, Bool.not_true, decide_eq_false_iff_not]
    rintro rfl; exact h hc
  constructor
  · rw [List.takeWhile_append_of_pos hp]; simp
  · rw [List.dropWhile_append_of_pos hp]; simp

theorem span_none {s : Str} (h : ':' ∉ s) : s.takeWhile (· ≠ ':') = s ∧ s.dropWhile (· ≠ ':') = [] := by
  have hp : ∀ c ∈ s, decide (c ≠ ':') = true := fun c hc => by
    simp only [ne_eq, decide_not, Bool.not_eq_eq_eq_not, Bool.not_true, decide_eq_false_iff_not]
    rintro rfl; exact h hc
  have h1 := List.takeWhile_append_of_pos (l₂ := []) hp
  have h2 := List.dropWhile_append_of_pos (l₂ := []) hp
  simp only [List.append_nil] at h1 h2
  exact ⟨by rw [h1]; simp, h2⟩

theorem splitName_none {s : Str} (h : ':' ∉ s) : splitName s = ([], s) := by
  rw [splitName, (span_none h).2]

theorem splitName_colon {p : Str} (h : ':' ∉ p) (l : Str) : splitName (p ++ ':' :: l) = (p, l) := by
  rw [splitName, (span_colon h l).2, (span_colon h l).1]

theorem splitName_qn {qn p l : Str} (h : QnIs qn p l) : splitName qn = (p, l) := by
  rcases h with ⟨hp, ⟨rfl, hl, rfl⟩ | ⟨_, rfl⟩⟩
  · exact splitName_none hl
  · exact splitName_colon hp l

theorem codes_qname {p l : Str} (hp : NcName p) (hl : NcName l) : Verif.Names.isQName (codes (p ++ ':' :: l)) = true := by
  rw [codes_wide, Verif.Names.qname_iff]
  exact .inr ⟨p.map Char.toNat, l.map Char.toNat, by simp, ncName_xml hp, ncName_xml hl⟩

theorem codes_name {s : Str} (h : NcName s) : Verif.Names.isQName (codes s) = true := by
  rw [codes_wide, Verif.Names.qname_iff]
  exact .inl (ncName_xml h)

theorem computed_qname {t : Text} {p l : Str} (h : ComputedName t p l) :
    Verif.Names.isQName (codes t.text) = true ∧ splitName t.text = (p, l) ∧ t.text ≠ [] ∧
      ∀ c ∈ t.text, c ≠ '{' ∧ c ≠ '}' := by
  obtain ⟨hq, hl, hp⟩ := h
  refine ⟨?_, splitName_qn hq, ?_, ?_⟩
  · rcases hq with ⟨_, ⟨rfl, _, h⟩ | ⟨h1, h⟩⟩ <;> rw [h]
    · exact codes_name hl
    · exact codes_qname (hp h1) hl
  · rcases hq with ⟨_, ⟨rfl, _, h⟩ | ⟨h1, h⟩⟩ <;> rw [h]
    · exact ncName_ne hl
    · simp
  · rcases hq with ⟨_, ⟨rfl, _, h⟩ | ⟨h1, h⟩⟩ <;> rw [h]
    · exact ncName_brace hl
    · intro c hc
      rcases List.mem_append.mp hc with hc | hc
      · exact ncName_brace (hp h1) c hc
      · rcases List.mem_cons.mp hc with rfl | hc
        · decide
        · exact ncName_brace hl c hc

theorem takeWhile_append_tail {s : Str} : s.dropWhile (· ≠ ':') ≠ [] →
    s = s.takeWhile (· ≠ ':') ++ ':' :: (s.dropWhile (· ≠ ':')).tail ∧ ':' ∉ s.takeWhile (· ≠ ':') := by
  induction s with
  | nil => simp
  | cons c s ih =>
    intro h
    by_cases hc : c = ':'
    · subst hc; simp
    · rw [List.dropWhile_cons_of_pos (by simp [hc])] at h ⊢
      rw [List.takeWhile_cons_of_pos (by simp [hc])]
      obtain ⟨h1, h2⟩ := ih h
      refine ⟨by rw [List.cons_append, ← h1], ?_⟩
      simp [Ne.symm hc, h2]
      simpa using h2

theorem qualified_name {sc : Scope} {s : Str} {v : VName} (h : nameOf sc s = some v) : qualified sc s = some v := by
  unfold nameOf at h
  by_cases hs : NcName s
  · rw [if_pos hs] at h
    rw [qualified, if_pos (codes_name hs), splitName_none (ncName_colon hs), if_pos rfl, h]
  · rw [if_neg hs] at h
    simp only at h
    by_cases hc : NcName (s.takeWhile (· ≠ ':')) ∧ NcName (s.dropWhile (· ≠ ':')).tail
    · rw [if_pos hc] at h
      have hd : s.dropWhile (· ≠ ':') ≠ [] := by
        intro e
        rw [e] at hc
        exact hc.2
      obtain ⟨h1, h2⟩ := takeWhile_append_tail hd
      have h3 := codes_qname hc.1 hc.2
      have h4 := splitName_colon h2 (s.dropWhile (· ≠ ':')).tail
      rw [← h1] at h3 h4
      rw [qualified, if_pos h3, h4, if_neg (ncName_ne hc.1), prefixes_bound]
      exact h
    · rw [if_neg hc] at h; cases h

/-! ## What the library makes of the text -/

section
variable (fnNum : Str → Str → Bool) (num : Str → Option Rat)

theorem library_expr {t : Text} {x : Expr} (h : ExprIs t x) :
    ∃ e, (library fnNum num).expr true true t.scope t.text = some e ∧ flat e = flat x ∧ isCurrent e = false := by
  obtain ⟨h1, h2⟩ := h
  obtain ⟨e, h3, h4⟩ := reading_compiles h1
  refine ⟨e, ?_, h4, known_not_current h4 h2⟩
  show checked _ _ (compileExpr _ _) = _
  rw [h3]
  exact checked_flat h4 (known_uses _ _ h2)

theorem library_current {t : Text} (h : Reading t currentCall) :
    ∃ e, (library fnNum num).expr true true t.scope t.text = some e ∧ isCurrent e = true := by
  obtain ⟨e, h3, h4⟩ := reading_compiles h
  refine ⟨e, ?_, isCurrent_iff.mpr (by rw [h4]; rfl)⟩
  show checked _ _ (compileExpr _ _) = _
  rw [h3]
  refine checked_flat h4 ?_
  decide +kernel

theorem joined_uses (cur : Bool) {xs : List Expr} (hne : xs ≠ []) (h : KnownAll xs) :
    ∀ u ∈ uses (joined xs), allowed cur true u = true := by
  match xs, hne, h with
  | [x], _, h => rw [KnownAll] at h; exact known_uses cur x h.1
  | x :: y :: xs, _, h =>
    intro u hu
    have e : joined (x :: y :: xs) = .call [] "concat".toList (x :: y :: xs) := rfl
    rw [e, uses, List.mem_cons] at hu
    rcases hu with rfl | hu
    · exact allowed_call (f := ("concat", 2, none)) (by decide) rfl (by simp) (by intro m hm; cases hm)
    · exact known_usesAll cur _ h u hu

theorem library_avt {t : Text} {x : Expr} (h : TemplateIs t x) :
    ∃ e, (library fnNum num).avt true t.scope t.text = some e ∧ flat e = flat x := by
  obtain ⟨xs, h1, h2, rfl, h3⟩ := h
  obtain ⟨c, h4, h5, _⟩ := Verif.XPathParse.template_joined h2 h1
  refine ⟨c, ?_, h5⟩
  show checked _ _ (compileTemplate _ _) = _
  rw [prefixes_bound, h4]
  exact checked_flat h5 (joined_uses _ h2 h3)

theorem library_constant {t : Text} (hne : t.text ≠ []) (h : ∀ c ∈ t.text, c ≠ '{' ∧ c ≠ '}') :
    (library fnNum num).avt true t.scope t.text = some (.string t.text) := by
  have h1 := Parts.text (ns := bound t.scope) t.text [] [] hne h (by intro c u e; cases e) .nil
  rw [List.append_nil] at h1
  obtain ⟨c, h4, h5, h6⟩ := Verif.XPathParse.template_joined (by simp) h1
  have := h6 _ rfl rfl
  subst this
  show checked _ _ (compileTemplate _ _) = _
  rw [prefixes_bound, h4]
  exact checked_flat rfl (by intro u hu; simp [uses] at hu)

end

end Verif.XsltProcess
