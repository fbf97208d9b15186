import Verif.Model.XPathTemplate
import Verif.Spec.XPathTemplate
import Verif.Lemmas.XPathParse
import Verif.Lemmas.XPathEvalFlat
set_option autoImplicit false
set_option linter.unusedSimpArgs false
set_option linter.unusedVariables false
/-!
# Attribute value templates
-/
namespace Verif.XPathParse
open Verif.Spec.XPathTemplate

/-- What a template is compiled to, and its pieces: characters that make up one string are together. -/
inductive Shape (ns : Str → Option Str) : List Expr → List Piece → Prop where
  | nil : Shape ns [] []
  | text (t : Str) (xs : List Expr) (ps : List Piece) (rest : Shape ns xs ps) :
      Shape ns (.string t :: xs) (t.map Piece.char ++ ps)
  | embedded (x : Expr) (e : Ex) (xs : List Expr) (ps : List Piece) (same : flat x = flat (meaning ns e))
      (rest : Shape ns xs ps) : Shape ns (x :: xs) (.embedded e :: ps)

/-- Nothing, or a brace that is not doubled. -/
def Stuck (r : Str) : Prop := r = [] ∨ ∃ u, r = '}' :: u ∧ ∀ v, u ≠ '}' :: v

/-- The text at the beginning. -/
theorem written_run {ps : List Piece} {s r : Str} (h : Written ps s r) (hr : Stuck r) :
    ∃ (t : Str) (ps' : List Piece) (s' : Str), ps = t.map Piece.char ++ ps' ∧ s = t ++ s' ∧ Written ps' s' r ∧
      s.takeWhile notCurly = t ∧ s.dropWhile notCurly = s' := by
  induction h with
  | nil r =>
    refine ⟨[], [], r, rfl, rfl, .nil r, ?_, ?_⟩ <;> rcases hr with rfl | ⟨u, rfl, _⟩ <;> rfl
  | char c ps s r plain rest ih =>
    obtain ⟨t, ps', s', rfl, rfl, h1, h2, h3⟩ := ih hr
    have : notCurly c = true := by simp [notCurly, isCurly, plain]
    exact ⟨c :: t, ps', s', rfl, rfl, h1, by rw [List.takeWhile_cons_of_pos this, h2],
      by rw [List.dropWhile_cons_of_pos this, h3]⟩
  | left ps s r rest ih => exact ⟨[], _, _, rfl, rfl, .left ps s r rest, rfl, rfl⟩
  | right ps s r rest ih => exact ⟨[], _, _, rfl, rfl, .right ps s r rest, rfl, rfl⟩
  | embedded e ps m w s r text blank rest ih => exact ⟨[], _, _, rfl, rfl, .embedded e ps m w s r text blank rest, rfl, rfl⟩

theorem part_stuck {E : P} {r : Str} (hr : Stuck r) : templatePart E r = none := by
  rcases hr with rfl | ⟨u, rfl, hu⟩
  · rfl
  · have h1 : doubleLeftCurly ('}' :: u) = none := lit_none_head (by intro c v e; cases e; decide)
    have h2 : doubleRightCurly ('}' :: u) = none := lit_none (by rintro ⟨v, e⟩; cases e; exact hu v rfl)
    have h3 : leftCurly ('}' :: u) = none := lit_none_head (by intro c v e; cases e; decide)
    have h4 : embeddedExpr E ('}' :: u) = none := by simp [embeddedExpr, rule, seq, h3]
    rw [templatePart, alt_right h1, alt_right h2, alt_right h4]
    rfl

theorem skip_closing {w s : Str} (h : w.all isWhite = true) : skip (w ++ '}' :: s) = '}' :: s := by
  rw [skip_white (all_space_of_white h)]
  rfl

theorem no_curly {e : Ex} {ns : Str → Option Str} (hok : e.Ok ns) {m r : Str} (h : Reads (tokens false e) m r) :
    ∀ v, m ≠ '{' :: v := by
  rintro v rfl
  obtain ⟨c, u, e1, e2, _⟩ := ex_first hok h
  rw [skip_cons (by decide)] at e1
  cases e1
  revert e2
  decide

/-- One part of a template. -/
theorem part_parses {ns : Str → Option Str} {p : Piece} {ps : List Piece} {s r : Str} {N : Nat} (hN : s.length ≤ N)
    (h : Written (p :: ps) s r) (hr : Stuck r) (hok : ∀ e, Piece.embedded e ∈ p :: ps → e.Ok ns) :
    ∃ t x s' ps', templatePart (expr (N + 1)) s = some ([t], s') ∧ s'.length < s.length ∧ Written ps' s' r ∧
      (∀ e, Piece.embedded e ∈ ps' → e.Ok ns) ∧ t.id ≠ .attributeValueTemplate ∧ compilePart ns t = .ok x ∧
      ∀ xs, Shape ns xs ps' → Shape ns (x :: xs) (p :: ps) := by
  cases h with
  | left ps s r rest =>
    refine ⟨.node .doubleLeftCurly "{{".toList [], .string "{".toList, s, ps, alt_left (lit_append _ "{{".toList s),
      by simp; omega, rest, fun e he => hok e (.tail _ he), by simp [Tree.id], rfl, fun xs h => .text ['{'] xs ps h⟩
  | right ps s r rest =>
    have h1 : doubleLeftCurly ('}' :: '}' :: s) = none := lit_none_head (by intro c v e; cases e; decide)
    refine ⟨.node .doubleRightCurly "}}".toList [], .string "}".toList, s, ps,
      (alt_right h1).trans (alt_left (lit_append _ "}}".toList s)),
      by simp; omega, rest, fun e he => hok e (.tail _ he), by simp [Tree.id], rfl, fun xs h => .text ['}'] xs ps h⟩
  | char c _ s _ plain rest =>
    obtain ⟨t, ps', s', e1, e2, h1, h2, h3⟩ := written_run (.char c ps s r plain rest) hr
    have hc : notCurly c = true := by simp [notCurly, isCurly, plain]
    cases t with
    | nil => rw [List.takeWhile_cons_of_pos hc] at h2; cases h2
    | cons d t =>
      simp only [List.cons_append, List.cons.injEq] at e2
      obtain ⟨rfl, rfl⟩ := e2
      have n1 : doubleLeftCurly (c :: (t ++ s')) = none := lit_none_head (by intro d v e; cases e; exact Ne.symm plain.1)
      have n2 : doubleRightCurly (c :: (t ++ s')) = none := lit_none_head (by intro d v e; cases e; exact Ne.symm plain.2)
      have n3 : leftCurly (c :: (t ++ s')) = none := lit_none_head (by intro d v e; cases e; exact Ne.symm plain.1)
      have n4 : embeddedExpr (expr (N + 1)) (c :: (t ++ s')) = none := by simp [embeddedExpr, rule, seq, n3]
      refine ⟨.node .attrLiteral (c :: t) [], .string (c :: t), s', ps', ?_, ?_, h1, ?_, by simp [Tree.id], rfl, ?_⟩
      · rw [templatePart, alt_right n1, alt_right n2, alt_right n4, attrLiteral, h2, h3]
      · simp; omega
      · intro e he
        apply hok e
        rw [e1]
        exact List.mem_append_right _ he
      · intro xs h
        rw [e1]
        exact .text (c :: t) xs ps' h
  | embedded e _ m w s _ text blank rest =>
    have hcl : Closing (w ++ '}' :: s) := ⟨'}', s, skip_closing blank, by decide⟩
    have he : e.Ok ns := hok e (.head _)
    obtain ⟨t, x, g1, g2⟩ := nested (main_at e he) text (n := N + 1) (by simp at hN; omega) hcl
    rw [skip_closing blank] at g1
    have n1 : doubleLeftCurly ('{' :: m) = none :=
      lit_none (by rintro ⟨v, e⟩; cases e; exact no_curly he text v rfl)
    have n2 : doubleRightCurly ('{' :: m) = none := lit_none_head (by intro d v e; cases e; decide)
    have n3 : embeddedExpr (expr (N + 1)) ('{' :: m) = some ([.node .embeddedExpr [] [.node .leftCurly ['{'] [], t,
        .node .rightCurly ['}'] []]], s) := by
      have := seq_some (lit_append .leftCurly ['{'] m) (seq_some g1 (lit_append .rightCurly ['}'] s))
      exact rule_some this
    refine ⟨_, x, s, ps, (alt_right n1).trans ((alt_right n2).trans (alt_left n3)), ?_, rest,
      fun e he => hok e (.tail _ he), by simp [Tree.id], ?_, fun xs h => .embedded x e xs ps g2.same h⟩
    · have := reads_length text
      simp at this ⊢
      omega
    · refine g2.good.comp _ ?_ _ (fun _ => noLit_cons (by simp [Tree.id]))
      simp [Tree.size, sizes]
      omega

theorem parts_parse {ns : Str → Option Str} {N : Nat} : ∀ (n : Nat) {ps : List Piece} {s r : Str}, s.length ≤ N →
    s.length ≤ n → Written ps s r → Stuck r → (∀ e, Piece.embedded e ∈ ps → e.Ok ns) →
    ∃ ts xs, manyN (templatePart (expr (N + 1))) n s = (ts, r) ∧ compileParts ns ts = .ok xs ∧ Shape ns xs ps
  | 0, ps, s, r, _, hn, h, hr, hok => by
    cases s with
    | cons c s => simp at hn
    | nil => cases h; exact ⟨[], [], rfl, rfl, .nil⟩
  | n + 1, [], s, r, _, hn, h, hr, hok => by
    cases h
    refine ⟨[], [], ?_, rfl, .nil⟩
    rw [manyN, part_stuck hr]
  | n + 1, p :: ps, s, r, hN, hn, h, hr, hok => by
    obtain ⟨t, x, s', ps', g1, g2, g3, g4, g5, g6, g7⟩ := part_parses hN h hr hok
    obtain ⟨ts, xs, e1, e2, e3⟩ := parts_parse (N := N) n (by omega) (by omega) g3 hr g4
    refine ⟨t :: ts, x :: xs, ?_, ?_, g7 xs e3⟩
    · rw [manyN, g1]
      simp only [e1, List.singleton_append]
    · simp only [compileParts, g6, e2, Bind.bind, Except.bind]

/-- What a template compiles to. -/
inductive Result (ns : Str → Option Str) (ps : List Piece) : Expr → Prop where
  | one (x : Expr) (h : Shape ns [x] ps) : Result ns ps x
  | more (x y : Expr) (xs : List Expr) (h : Shape ns (x :: y :: xs) ps) :
      Result ns ps (.call [] "concat".toList (x :: y :: xs))

theorem compileTemplate_of {ns : Str → Option Str} {s : Str} {t : Tree}
    (h : attributeValueTemplate (expr (s.length + 1)) s = some ([t], [])) : compileTemplate ns s = compileRoot ns t := by
  have : parseTemplate s = some t := by unfold parseTemplate; generalize attributeValueTemplate _ s = y at h; subst h; rfl
  unfold compileTemplate
  generalize parseTemplate s = y at this
  subst this
  rfl

theorem template_compiles {ns : Str → Option Str} {ps : List Piece} (hne : ps ≠ []) {s : Str} (h : Written ps s [])
    (hok : ∀ e, Piece.embedded e ∈ ps → e.Ok ns) : ∃ c, compileTemplate ns s = .ok c ∧ Result ns ps c := by
  cases ps with
  | nil => exact absurd rfl hne
  | cons p ps =>
    obtain ⟨t, x, s', ps', g1, g2, g3, g4, g5, g6, g7⟩ := part_parses (Nat.le_refl _) h (.inl rfl) hok
    obtain ⟨ts, xs, e1, e2, e3⟩ := parts_parse (N := s.length) s'.length (by omega) (by omega) g3 (.inl rfl) g4
    have hm : many (templatePart (expr (s.length + 1))) s' = some (ts, []) := by rw [many, e1]
    have hs := seq_some g1 hm
    cases ts with
    | nil =>
      cases e2
      refine ⟨x, ?_, .one x (g7 _ e3)⟩
      have : attributeValueTemplate (expr (s.length + 1)) s = some ([t], []) := rule_some hs
      rw [compileTemplate_of this, compileRoot, if_neg g5, g6]
    | cons t' ts =>
      have hl : ∃ y ys, xs = y :: ys := by
        simp only [compileParts] at e2
        cases hc : compilePart ns t' with
        | error e => rw [hc] at e2; cases e2
        | ok y =>
          rw [hc] at e2
          cases hd : compileParts ns ts with
          | error e => rw [hd] at e2; cases e2
          | ok ys => rw [hd] at e2; cases e2; exact ⟨_, _, rfl⟩
      obtain ⟨y, ys, rfl⟩ := hl
      refine ⟨_, ?_, .more x y ys (g7 _ e3)⟩
      have : attributeValueTemplate (expr (s.length + 1)) s =
          some ([.node .attributeValueTemplate [] (t :: t' :: ts)], []) := rule_some hs
      rw [compileTemplate_of this, compileRoot, if_pos (by rfl)]
      have hp : compileParts ns (t :: t' :: ts) = .ok (x :: y :: ys) := by
        rw [compileParts, g6, e2]
        rfl
      show (compileParts ns (t :: t' :: ts) >>= _) = _
      rw [hp]
      rfl

/-- With something left. -/
theorem template_stray {ns : Str → Option Str} {ps : List Piece} {s u : Str} (h : Written ps s ('}' :: u))
    (hu : ∀ v, u ≠ '}' :: v) (hok : ∀ e, Piece.embedded e ∈ ps → e.Ok ns) : compileTemplate ns s = .error .syntax := by
  have hst : Stuck ('}' :: u) := .inr ⟨u, rfl, hu⟩
  have : ∀ y, attributeValueTemplate (expr (s.length + 1)) s = some y → y.2 = '}' :: u := by
    intro y hy
    cases ps with
    | nil =>
      cases h
      rw [attributeValueTemplate, rule, seq, part_stuck hst] at hy
      cases hy
    | cons p ps =>
      obtain ⟨t, x, s', ps', g1, g2, g3, g4, g5, g6, g7⟩ := part_parses (Nat.le_refl _) h hst hok
      obtain ⟨ts, xs, e1, e2, e3⟩ := parts_parse (N := s.length) s'.length (by omega) (by omega) g3 hst g4
      have hm : many (templatePart (expr (s.length + 1))) s' = some (ts, '}' :: u) := by rw [many, e1]
      have hs := seq_some g1 hm
      rw [attributeValueTemplate, rule, hs] at hy
      cases hy
      rfl
  have hp : parseTemplate s = none := by
    unfold parseTemplate
    generalize attributeValueTemplate _ s = y at this
    cases y with
    | none => rfl
    | some y =>
      have := this y rfl
      obtain ⟨a, b⟩ := y
      cases this
      cases a with
      | nil => rfl
      | cons a as => cases as <;> rfl
  unfold compileTemplate
  rw [hp]

end Verif.XPathParse

namespace Verif.XPathEval
open Verif.XTree Verif.XPath Verif.Spec.XPathEval Verif.Spec.XPathTemplate
open Verif.XPathParse (Expr Ex meaning flat Shape Result)

section
variable {E : Env} {K : Nat → Prop} {vars : List Char → List Char → Option Val}

/-- The strings of some expressions. -/
def Strings (E : Env) (x : XN) (i k : Int) (xs : List Expr) (l : List (List Char)) : Prop :=
  Ends (fun f => argStrings E f (evalArgs E f xs x i k)) l

theorem gives_text {ns : List Char → Option (List Char)} {x : XN} {i k : Int} {ps : List Piece} {u : List Char}
    (h : Gives E.w E.cv vars ns x i k ps u) : ∀ t : List Char, Gives E.w E.cv vars ns x i k (t.map Piece.char ++ ps) (t ++ u)
  | [] => h
  | c :: t => ⟨_, rfl, gives_text h t⟩

theorem strings_cons {x : XN} {i k : Int} {e : Expr} {xs : List Expr} {t : List Char} {l : List (List Char)}
    (h1 : Ends (fun f => argString E f (eval E f e x i k)) t) (h2 : Strings E x i k xs l) :
    Strings E x i k (e :: xs) (t :: l) := by
  refine ends_congr ?_ (fun f => by rw [evalArgs, argStrings])
  exact ends_bind h1 (ends_bind h2 (ends_val _))

theorem shape_strings (c : Ctx E K vars) {ns : List Char → Option (List Char)} {x : XN} {i k : Int} (hx : NodeIn E.w K x)
    {xs : List Expr} {ps : List Piece} (h : Shape ns xs ps)
    (hs : ∀ e, Piece.embedded e ∈ ps → Sound E.w E.cv vars (meaning ns e) x i k) :
    ∃ l, Strings E x i k xs l ∧ Gives E.w E.cv vars ns x i k ps l.flatten := by
  induction h with
  | nil => exact ⟨[], ends_congr (ends_val _) (fun f => by rw [evalArgs, argStrings]), rfl⟩
  | text t xs ps rest ih =>
    obtain ⟨l, h1, h2⟩ := ih (fun e he => hs e (List.mem_append_right _ he))
    refine ⟨t :: l, strings_cons ?_ h1, gives_text h2 t⟩
    refine ends_congr (ends_val t) (fun f => ?_)
    rw [eval]
    rfl
  | embedded y e xs ps same rest ih =>
    obtain ⟨l, h1, h2⟩ := ih (fun e he => hs e (.tail _ he))
    obtain ⟨v, m, g1, g2, g3⟩ := good_flat c same hx (hs e (.head _))
    exact ⟨toString E.w E.cv v :: l, strings_cons (ends_bind g3 (string_ends c.hK g2)) h1, v, l.flatten, g1, rfl, h2⟩

theorem result_string (c : Ctx E K vars) {ns : List Char → Option (List Char)} {x : XN} {i k : Int} (hx : NodeIn E.w K x)
    {e : Expr} {ps : List Piece} (h : Result ns ps e)
    (hs : ∀ e, Piece.embedded e ∈ ps → Sound E.w E.cv vars (meaning ns e) x i k) :
    ∃ t, Ends (fun f => evaluateAsString E f e x i k) t ∧ Gives E.w E.cv vars ns x i k ps t := by
  cases h with
  | one _ h =>
    obtain ⟨l, h1, h2⟩ := shape_strings c hx h hs
    refine ⟨l.flatten, ?_, h2⟩
    obtain ⟨F, hF⟩ := h1
    refine ⟨F, fun f hf => ?_⟩
    have := hF f hf
    simp only [evalArgs, argStrings] at this
    simp only [evaluateAsString]
    cases ha : argString E f (eval E f e x i k) with
    | val s =>
      rw [ha] at this
      simp only [Ev.bind] at this
      cases this
      simp
    | _ => rw [ha] at this; cases this
  | more y z xs h =>
    obtain ⟨l, h1, h2⟩ := shape_strings c hx h hs
    refine ⟨l.flatten, ?_, h2⟩
    have hf : Verif.XPathEval.standardFunction "concat".toList = some .concat := by decide +kernel
    refine ends_congr (r := fun f => (argStrings E f (evalArgs E f (y :: z :: xs) x i k)).bind fun l => .val l.flatten)
      (ends_bind h1 (ends_val _)) (fun f => ?_)
    rw [evaluateAsString, eval, callNamed, if_pos (by rfl), hf]
    simp only [callFn, evalArgs, concatCall, concat_flatten, Ev.str, argString]
    cases (argStrings E f (eval E f y x i k :: eval E f z x i k :: evalArgs E f xs x i k)) <;> rfl

end

end Verif.XPathEval
