import Verif.Lemmas.XPathMatchTree
set_option autoImplicit false
set_option linter.unusedSimpArgs false
set_option linter.unusedVariables false
namespace Verif.XPathMatch
open Verif.XPathParse Verif.Spec.XPathMatch

variable {ns : Str → Option Str} {fnNum : Str → Str → Bool}

/-! ## tokens -/

def texts (ts : List Tok) : Str := (ts.map Tok.text).flatten

theorem texts_append (a b : List Tok) : texts (a ++ b) = texts a ++ texts b := by simp [texts]

def tighten (k : Tok) : Tok := { k with tight := true }

theorem reads_tighten {ts : List Tok} {s r : Str} (h : Reads (ts.map tighten) s r) : s = texts ts ++ r ∧ Reads ts s r := by
  induction ts generalizing s with
  | nil => cases reads_nil h; exact ⟨rfl, .nil _⟩
  | cons t ts ih =>
    rw [List.map_cons] at h
    cases h with
    | cons _ _ w m _ white tight ends rest =>
      obtain ⟨h1, h2⟩ := ih rest
      have hw : w = [] := tight rfl
      subst hw
      refine ⟨?_, .cons t ts [] m r rfl (fun _ => rfl) ends h2⟩
      show [] ++ (t.text ++ m) = _
      rw [h1]
      simp [texts, List.append_assoc]

theorem reads_harden {ts : List Tok} {s r : Str} (h : Reads (harden ts) s r) : Reads ts s r := by
  cases ts with
  | nil => exact h
  | cons t ts =>
    rw [harden] at h
    cases h with
    | cons _ _ w m _ white tight ends rest =>
      exact .cons t ts w m r white tight ends (reads_tighten (ts := ts) rest).2

theorem harden_texts {t : Tok} {ts : List Tok} (ht : t.Solid) {s r : Str} (h : Reads (harden (t :: ts)) s r)
    (hs : skip s = s) : s = texts (t :: ts) ++ r := by
  rw [harden] at h
  obtain ⟨m, e1, _, h2⟩ := reads_first ht h hs
  rw [e1, (reads_tighten (ts := ts) h2).1]
  simp [texts, List.append_assoc]

theorem reads_loosen {t : String} {b : Bool} {ts : List Tok} {s r : Str} (h : Reads (sym t b :: ts) s r) :
    Reads (sym t :: ts) s r := by
  cases h with
  | cons _ _ w m _ white tight ends rest => exact .cons (sym t) ts w m r white (by simp [sym]) ends rest

theorem tok_first {t : Tok} {ts : List Tok} {s r : Str} (ht : t.Solid) (h : Reads (t :: ts) s r)
    (hs : t.tight = true ∨ skip s = s) : ∃ m, s = t.text ++ m ∧ Reads ts m r := by
  obtain ⟨m, e1, e2, _, e3⟩ := reads_next ht h
  rcases hs with hs | hs
  · exact ⟨m, e2 hs, e3⟩
  · exact ⟨m, by rw [← hs]; exact e1, e3⟩

/-! ## axes -/

theorem axis_reads {first : Bool} {ax : PatAxis} {ts : List Tok} {s r : Str} (hax : ax ≠ .none)
    (h : Reads (patAxisTokens first ax ++ ts) s r) (hs : first = true → skip s = s) :
    ∃ m, patternAxis s = some (axisTrees ax, m) ∧ Reads ts m r ∧ s = texts (patAxisTokens first ax) ++ m ∧
      m.length < s.length := by
  have hf : (!first) = true ∨ skip s = s := by
    cases first
    · exact .inl rfl
    · exact .inr (hs rfl)
  cases ax with
  | none => exact absurd rfl hax
  | atSign =>
    obtain ⟨m, rfl, h2⟩ := tok_first (solid_sym (c := '@') (u := []) rfl (by decide)) h hf
    refine ⟨m, ?_, h2, by simp [texts, patAxisTokens], by simp [sym]⟩
    refine (alt_right (seq_none_left (alt_none (lit_none_head ?_) (lit_none_head ?_)))).trans
      (opt_some (lit_append .abbreviatedAxisSpecifier "@".toList m))
    · intro c u e; cases e; decide
    · intro c u e; cases e; decide
  | child =>
    obtain ⟨m, rfl, h2⟩ := tok_first (solid_sym (c := 'c') (u := "hild".toList) rfl (by decide)) h hf
    obtain ⟨m2, rfl, h3⟩ := tok_first (solid_sym (c := ':') (u := [':']) rfl (by decide)) h2 (.inl rfl)
    refine ⟨m2, ?_, h3, by simp [texts, patAxisTokens], by simp [sym]; omega⟩
    exact alt_left (seq_some (alt_left (lit_append .child "child".toList ("::".toList ++ m2)))
      (discard_some (lit_append .axisSpecifier "::".toList m2)))
  | «attribute» =>
    obtain ⟨m, rfl, h2⟩ := tok_first (solid_sym (c := 'a') (u := "ttribute".toList) rfl (by decide)) h hf
    obtain ⟨m2, rfl, h3⟩ := tok_first (solid_sym (c := ':') (u := [':']) rfl (by decide)) h2 (.inl rfl)
    refine ⟨m2, ?_, h3, by simp [texts, patAxisTokens], by simp [sym]; omega⟩
    refine alt_left (seq_some (us := []) ((alt_right (lit_none_head ?_)).trans
      (lit_append .attribute "attribute".toList ("::".toList ++ m2)))
      (discard_some (lit_append .axisSpecifier "::".toList m2)))
    intro c u e; cases e; decide

/-! ## tests -/

/-- What comes after an alternative. -/
def AltEnd (r : Str) : Prop := ∀ c u, skip r = c :: u → c = '|'

theorem AltEnd.stop {r : Str} (h : AltEnd r) : Stop 9 r := by
  intro c u e
  rw [h c u e]
  decide

/-- Tests without white space. -/
theorem test_shape {t : NodeTest} (hok : t.Ok ns) (hne : t ≠ .type .node) {r : Str} (hr : AltEnd r) (hs : skip r = r) :
    ∃ T, nodeTest (texts (testTokens t) ++ r) = some ([T], r) ∧ Shape t T := by
  have hst : Stop 11 r := hr.stop.mono (by omega)
  have hE : Ends r := by
    intro c u e
    rw [hr c u (hs.trans e)]
    decide
  have hT : sT r = [] := by rw [← hs]; exact sT_skip r
  have mk : ∀ {s : Str} {ts : List Tree} {T : Tree}, innerTest s = some (ts, r) → skip s = s →
      group .nodeTest ts = [T] → nodeTest s = some ([T], r) := by
    intro s ts T h1 h2 h3
    have e3 := seq_some (space_eq s) (seq_some (a := innerTest) (show innerTest (skip s) = some (ts, r) by rw [h2, h1])
      (space_eq r))
    have e4 : sT s = [] := by rw [← h2]; exact sT_skip s
    rw [e4, hT, List.nil_append, List.append_nil, hs] at e3
    have := rule_some (id := .nodeTest) e3
    rw [h3] at this
    exact this
  cases t with
  | any =>
    refine ⟨.node .anyName ['*'] [], mk (ts := [.node .anyName ['*'] []]) ?_ (skip_cons (by decide)) rfl, rfl⟩
    refine (alt_right (seq_none_left (lit_none_head ?_))).trans ((alt_right (seq_none_left ?_)).trans (nameTest_any _))
    · intro c u e; cases e; decide
    · refine alt_none (lit_none_head ?_) (alt_none (lit_none_head ?_) (alt_none (lit_none_head ?_) (lit_none_head ?_)))
        <;> (intro c u e; cases e; decide)
  | anyIn p =>
    obtain ⟨hp, hb⟩ := hok
    have e1 : texts (testTokens (.anyIn p)) ++ r = p ++ ":*".toList ++ r := by simp [texts, testTokens]
    have e0 : p ++ ":*".toList ++ r = p ++ (':' :: '*' :: r) := by rw [List.append_assoc]; rfl
    have hnb : ∀ c u, skip (':' :: '*' :: r) = c :: u → c ≠ '(' := by
      intro c u e
      rw [skip_cons (by decide)] at e
      cases e
      decide
    rw [e1]
    refine ⟨_, mk (ts := [.node .nameTest [] [ncTree p, .node .anyName ['*'] []]]) ?_ ?_ rfl, ⟨rfl, rfl⟩⟩
    · refine (alt_right ?_).trans ((alt_right ?_).trans (nameTest_anyIn hp))
      · simp only [e0]; exact piTest_none hp.all (ends_colon _) hnb
      · simp only [e0]; exact typeTest_none hp.all (ends_colon _) hnb
    · obtain ⟨c, u, rfl, hc⟩ := solid_name hp
      exact skip_cons hc
  | name q =>
    obtain ⟨n, v, e, hn, hv, hnb, _⟩ := qText_word hok hE (fun c u e => hst.noBracket e) (fun c u e => hst.noColon' e)
    have e1 : texts (testTokens (.name q)) ++ r = qText q ++ r := by simp [texts, testTokens, nameTok]
    rw [e1]
    refine ⟨_, mk (ts := [qTree q]) ?_ ?_ rfl, ?_⟩
    · refine (alt_right ?_).trans ((alt_right ?_).trans (nameTest_name hok hE hst.noColon))
      · rw [e]; exact piTest_none hn.all hv hnb
      · rw [e]; exact typeTest_none hn.all hv hnb
    · obtain ⟨c, u, e2, hc⟩ := solid_qText hok
      rw [e2]
      exact skip_cons (solid_start (.inl hc))
    · obtain ⟨pre, loc⟩ := q
      cases pre
      · exact .inr rfl
      · exact .inl rfl
  | type ty =>
    have e1 : texts (testTokens (.type ty)) ++ r = (typeText ty).toList ++ ('(' :: ')' :: r) := by
      simp [texts, testTokens, sym]
    rw [e1]
    have hty : typeTest ((typeText ty).toList ++ ('(' :: ')' :: r)) =
        some ([.node (typeId ty) (typeText ty).toList []], r) := by
      have h2 : space ('(' :: ')' :: r) = some ([], '(' :: ')' :: r) := by
        rw [space_eq, sT_cons (by decide), skip_cons (by decide)]
      have h3 : space (')' :: r) = some ([], ')' :: r) := by rw [space_eq, sT_cons (by decide), skip_cons (by decide)]
      exact seq_some (nodeType_append ty _) (seq_some h2 (seq_some (discard_lit .leftBracket "(".toList _)
        (seq_some h3 (discard_lit .rightBracket ")".toList r))))
    refine ⟨_, mk (ts := [.node (typeId ty) (typeText ty).toList []]) ((alt_right ?_).trans (alt_left hty)) ?_ rfl, ?_⟩
    · cases ty with
      | comment => exact seq_none_left (lit_none_head (by intro c u e; cases e; decide))
      | text => exact seq_none_left (lit_none_head (by intro c u e; cases e; decide))
      | node => exact seq_none_left (lit_none_head (by intro c u e; cases e; decide))
      | pi =>
        refine seq_none_right (lit_append _ "processing-instruction".toList _) (seq_none_right (space_eq _)
          (seq_none_right (discard_lit .leftBracket "(".toList (')' :: r)) (seq_none_right (space_eq _) (seq_none_left
            (literal_none ?_)))))
        intro c u e
        rw [skip_cons (by decide)] at e
        cases e
        decide
    · obtain ⟨c, u, e2, hc⟩ := solid_name (typeText_name ty)
      rw [e2]
      exact skip_cons hc
    · cases ty with
      | node => exact absurd rfl hne
      | _ => rfl
  | target q x =>
    have e1 : texts (testTokens (.target q x)) ++ r =
        "processing-instruction".toList ++ ('(' :: ((q :: x ++ [q]) ++ (')' :: r))) := by
      simp [texts, testTokens, sym]
    rw [e1]
    have hqs : isSpace q = false := by rcases hok.1 with rfl | rfl <;> decide
    refine ⟨_, mk (ts := [.node .processingInstruction "processing-instruction".toList [], .node .literal x []])
      (alt_left ?_) (skip_cons (by decide)) rfl, ⟨rfl, rfl⟩⟩
    have h2 : space ('(' :: ((q :: x ++ [q]) ++ (')' :: r))) = some ([], '(' :: ((q :: x ++ [q]) ++ (')' :: r))) := by
      rw [space_eq, sT_cons (by decide), skip_cons (by decide)]
    have h3 : space ((q :: x ++ [q]) ++ (')' :: r)) = some ([], (q :: x ++ [q]) ++ (')' :: r)) := by
      rw [space_eq]
      simp only [List.cons_append]
      rw [sT_cons hqs, skip_cons hqs]
    have h4 : space (')' :: r) = some ([], ')' :: r) := by rw [space_eq, sT_cons (by decide), skip_cons (by decide)]
    exact seq_some (lit_append .processingInstruction "processing-instruction".toList _) (seq_some h2
      (seq_some (discard_lit .leftBracket "(".toList _) (seq_some h3 (seq_some (literal_append hok)
        (seq_some h4 (discard_lit .rightBracket ")".toList r))))))

theorem testMeaning_any {attr : Bool} {t : NodeTest} (h : testMeaning ns attr t = .any) : t = .type .node := by
  rcases t with _ | p | ⟨_ | p, n⟩ | t | _
  · cases h
  · simp only [testMeaning] at h; split at h <;> cases h
  · simp only [testMeaning] at h; split at h <;> cases h
  · simp only [testMeaning] at h; split at h <;> cases h
  · cases t
    · cases h
    · cases h
    · cases h
    · rfl
  · cases h

theorem test_reads {first : Bool} {st : PatStep} (hok : st.test.Ok ns) {s m : Str}
    (h : Reads (patTestTokens first st) s m) (hs : (first && st.axis == .none) = true → skip s = s) (hst : Stop 11 m) :
    ∃ T, alt nodeMatchPattern nodeTest s = some ([T], if st.isNode then m else skip m) ∧ PatTest ns st T ∧
      (s = texts (patTestTokens first st) ++ m → AltEnd m → skip m = m → Shape st.test T) := by
  by_cases hn : st.isNode = true
  · have ht := isNode_iff.1 hn
    rw [patTestTokens, if_pos hn] at h
    obtain ⟨m', rfl, h2⟩ := tok_first (solid_sym (c := 'n') (u := "ode()".toList) rfl (by decide)) h (by
      cases hb : (first && st.axis == .none)
      · exact .inl rfl
      · exact .inr (hs hb))
    cases reads_nil h2
    refine ⟨.node .nodeMatchPattern "node()".toList [], ?_, ⟨.inr rfl, ?_⟩, ?_⟩
    · rw [if_pos hn]
      exact alt_left (lit_append .nodeMatchPattern "node()".toList _)
    · intro rest _
      rw [patTest, if_pos hn]
      rfl
    · intro _ _ _
      rw [ht]
      rfl
  · have hne : st.test ≠ .type .node := fun e => hn (isNode_iff.2 e)
    rw [patTestTokens, if_neg hn] at h
    obtain ⟨T, e1, e2, e3⟩ := nodeTest_any hok h hst
    refine ⟨T, ?_, ⟨.inl ⟨e2.id, ?_⟩, ?_⟩, ?_⟩
    · rw [if_neg hn]
      exact (alt_right (nodeMatch_none hok hne h hst)).trans e1
    · intro hid
      have := e2.test false [] (by intro _ t us e; cases e)
      rw [getTest, skipS_cons (by rw [hid]; simp)] at this
      simp only [hid, reduceCtorEq, if_false, testOf, Except.ok.injEq, Prod.mk.injEq, Option.some.injEq, and_true] at this
      exact hne (testMeaning_any this.symm)
    · intro rest hl
      rw [patTest, if_neg hn]
      exact e2.test st.attr rest hl
    · intro f1 f2 f3
      rw [patTestTokens, if_neg hn] at f1
      obtain ⟨T', g1, g2⟩ := test_shape hok hne f2 f3
      rw [← f1, e1, f3] at g1
      cases g1
      exact g2

/-! ## steps -/

theorem patPred_loose {b : Bool} {ps : Exs} {m r : Str} (h : Reads (patPredTokens b ps) m r) :
    Reads (predTokens ps) m r := by
  cases ps with
  | nil => exact h
  | cons e es => exact reads_loosen h

theorem predicate_none' {E : P} {r : Str} (h : Stop 10 r) : predicate E r = none := by
  refine rule_none (seq_none_right (space_eq _) (seq_none_left (lit_none_head ?_)))
  exact h.ne (by decide)

theorem preds_ids {ps : List Tree} {xs : List Expr} (h : Preds ns ps xs) : ∀ p ∈ ps, p.id = .predicate := by
  induction h with
  | nil => simp
  | cons l t rb us ts x xs ht hr h ih =>
    intro p hp
    rcases List.mem_cons.1 hp with rfl | hp
    · rfl
    · exact ih p hp

theorem preds_length {ps : List Tree} {xs : List Expr} (h : Preds ns ps xs) : ps.length = xs.length := by
  induction h with
  | nil => rfl
  | cons l t rb us ts x xs ht hr h ih => simp [ih]

theorem flats_length {xs ys : List Expr} (h : flats xs = flats ys) : xs.length = ys.length := by
  induction xs generalizing ys with
  | nil => cases ys with
    | nil => rfl
    | cons => simp [flats] at h
  | cons x xs ih => cases ys with
    | nil => simp [flats] at h
    | cons y ys => simp only [flats, List.cons.injEq] at h; simp [ih h.2]

/-- What a step is made of. -/
structure StepInfo (ns : Str → Option Str) (st : PatStep) (hard : Prop) (t : Tree) : Prop where
  parts : ∃ T ps, ((t = T ∧ axisTrees st.axis = [] ∧ ps = []) ∨
      (t = .node .stepPattern [] (axisTrees st.axis ++ T :: ps) ∧ axisTrees st.axis ++ ps ≠ [])) ∧
    ps.length = (meanings ns st.preds).length ∧ (∀ p ∈ ps, p.id = .predicate) ∧ PatTest ns st T ∧
    (st.preds = .nil → hard → Shape st.test T)

/-- The text of a step without white space in it. -/
def HardStep (first : Bool) (st : PatStep) (s r : Str) : Prop :=
  s = texts (patAxisTokens first st.axis ++ patTestTokens first st) ++ r ∧ AltEnd r ∧ skip r = r

theorem step_axis {first : Bool} {st : PatStep} (hok : st.test.Ok ns) {s m : Str}
    (h : Reads (patAxisTokens first st.axis ++ patTestTokens first st) s m) (hs : first = true → skip s = s)
    (hst : Stop 11 m) :
    ∃ s1, patternAxis s = some (axisTrees st.axis, s1) ∧ Reads (patTestTokens first st) s1 m ∧
      s = texts (patAxisTokens first st.axis) ++ s1 ∧ ((first && st.axis == .none) = true → skip s1 = s1) ∧
      s1.length ≤ s.length := by
  by_cases ha : st.axis = .none
  · rw [ha] at h ⊢
    refine ⟨s, ?_, h, rfl, ?_, Nat.le_refl _⟩
    · show patternAxis s = some ([], s)
      have h : Reads (patTestTokens first st) s m := h
      by_cases hn : st.isNode = true
      · rw [patTestTokens, if_pos hn] at h
        obtain ⟨m', rfl, h2⟩ := tok_first (solid_sym (c := 'n') (u := "ode()".toList) rfl (by decide)) h (by
          rw [ha]
          cases first
          · exact .inl rfl
          · exact .inr (hs rfl))
        exact patternAxis_none (by intro u e; cases e) (by intro u e; cases e) (by intro c u e; cases e; decide)
      · rw [patTestTokens, if_neg hn] at h
        exact patternAxis_test hok h hst
    · intro hb
      cases first
      · cases hb
      · exact hs rfl
  · obtain ⟨s1, e1, e2, e3, e4⟩ := axis_reads ha h hs
    refine ⟨s1, e1, e2, e3, ?_, Nat.le_of_lt e4⟩
    intro hb
    cases hx : st.axis <;> rw [hx] at hb ha <;> first | exact absurd rfl ha | (cases first <;> cases hb)

theorem step_pat {first : Bool} {st : PatStep} (hok : st.Ok ns) {n : Nat} {s r : Str}
    (h : Reads (patStepTokens first st) s r) (hn : s.length ≤ n) (hst : Stop 10 r) (hs : first = true → skip s = s) :
    ∃ t xs, stepPattern (expr n) s = some ([t], if st.endsInNode then r else skip r) ∧ StepPat ns st xs t ∧
      flats xs = flats (meanings ns st.preds) ∧ StepInfo ns st (HardStep first st s r) t := by
  rw [patStepTokens] at h
  obtain ⟨m, e1, e2⟩ := reads_append.1 h
  have e2' := patPred_loose e2
  have hsm : Stop 11 m := preds_stop e2' (hst.mono (by omega))
  obtain ⟨s1, a1, a2, a3, a4, a5⟩ := step_axis hok.1 e1 hs hsm
  obtain ⟨T, t1, t2, t3⟩ := test_reads hok.1 a2 a4 hsm
  have l1 := reads_length e1
  obtain ⟨ts, xs, p1, p2, p3, p4⟩ := preds_at st.preds hok.2 n m r e2' (by omega)
  have hps : many (predicate (expr n)) (if st.isNode then m else skip m) =
      some (ts, if st.endsInNode then r else skip r) := by
    by_cases hin : st.isNode = true
    · rw [if_pos hin]
      cases hp : st.preds with
      | nil =>
        rw [hp] at e2 p3
        cases reads_nil e2
        have hx : xs = [] := by cases xs with
          | nil => rfl
          | cons => simp [flats, meanings] at p3
        subst hx
        cases p2
        have : st.endsInNode = true := by simp [PatStep.endsInNode, hin, hp]
        rw [if_pos this]
        exact many_none (predicate_none' hst)
      | cons e es =>
        have : ¬ st.endsInNode = true := by simp [PatStep.endsInNode, hin, hp]
        rw [if_neg this]
        have hm : skip m = m := by
          rw [hp, hin, patPredTokens, List.cons_append] at e2
          obtain ⟨u, _, e5, _⟩ := reads_char (c := '[') rfl (by decide) e2
          rw [e5 rfl]
          exact skip_cons (by decide)
        rw [← hm]
        exact many_run p1 (predicate_none hst)
    · have : ¬ st.endsInNode = true := by simp [PatStep.endsInNode, hin]
      rw [if_neg hin, if_neg this]
      exact many_run p1 (predicate_none hst)
  have hall := rule_some (id := .stepPattern) (seq_some a1 (seq_some t1 hps))
  have hshape : st.preds = .nil → HardStep first st s r → Shape st.test T := by
    rintro hp ⟨b1, b2, b3⟩
    rw [hp] at e2
    cases reads_nil e2
    refine t3 ?_ b2 b3
    rw [a3, texts_append, List.append_assoc] at b1
    exact List.append_cancel_left b1
  have hlen : ts.length = (meanings ns st.preds).length := (preds_length p2).trans (flats_length p3)
  by_cases hb : axisTrees st.axis ++ ts = []
  · obtain ⟨h1, h2⟩ := List.append_eq_nil_iff.1 hb
    subst h2
    have hx : xs = [] := by cases p2; rfl
    subst hx
    have ha : st.axis = .none := by cases hx : st.axis <;> rw [hx] at h1 <;> first | rfl | cases h1
    refine ⟨T, [], ?_, .bare T ha (p4 rfl) rfl t2, p3, ⟨T, [], .inl ⟨rfl, h1, rfl⟩, hlen, by simp, t2, hshape⟩⟩
    rw [show stepPattern (expr n) s = _ from hall, h1]
    rfl
  · refine ⟨_, xs, ?_, .full T ts hb t2 p2, p3, ⟨T, ts, .inr ⟨rfl, hb⟩, hlen, preds_ids p2, t2, hshape⟩⟩
    rw [show stepPattern (expr n) s = _ from hall]
    have : group .stepPattern (axisTrees st.axis ++ ([T] ++ ts)) = [.node .stepPattern [] (axisTrees st.axis ++ T :: ts)] := by
      revert hb
      cases axisTrees st.axis with
      | nil =>
        cases ts with
        | nil => intro h; exact absurd rfl h
        | cons a l => intro _; rfl
      | cons a l => intro _; cases l <;> rfl
    rw [this]

/-! ## relative paths -/

theorem patStep_head {first : Bool} {st : PatStep} (hok : st.test.Ok ns) (ts : List Tok) :
    Head (patStepTokens first st ++ ts) stepChar := by
  have h1 : Head (patAxisTokens first st.axis ++ patTestTokens first st) stepChar := by
    cases st.axis with
    | none =>
      show Head (patTestTokens first st) stepChar
      rw [patTestTokens]
      split
      · exact head_sym (c := 'n') rfl (.inl (by decide))
      · have := test_head hok []
        rwa [List.append_nil] at this
    | atSign => exact head_sym (c := '@') rfl (.inr (.inr (.inl rfl)))
    | child => exact head_sym (c := 'c') rfl (.inl (by decide))
    | «attribute» => exact head_sym (c := 'a') rfl (.inl (by decide))
  exact Head.append (Head.append h1)

theorem PatRel.first_ok {r : PatRel} (h : r.Ok ns) : r.first.Ok ns := by
  cases r with
  | one s => exact h
  | cons s d r => exact h.1

theorem patRel_head {first : Bool} {r : PatRel} (hok : r.Ok ns) : Head (patRelTokens first r) stepChar := by
  cases r with
  | one s =>
    have := patStep_head (first := first) (st := s) hok.1 []
    rw [List.append_nil] at this
    exact this
  | cons s d r => exact patStep_head hok.1.1 _

theorem stepChar_noSlash {c : Char} (h : stepChar c) : c ≠ '/' := by
  rcases h with h | rfl | rfl | rfl
  · exact nameStart_ne h (by decide)
  · decide
  · decide
  · decide

theorem patRel_noSlash {x : PatRel} {b : Bool} {s r : Str} (hok : x.Ok ns) (h : Reads (patRelTokens b x) s r) :
    ∀ c u, s = c :: u → c ≠ '/' := by
  refine head_skip (by decide) ?_
  obtain ⟨⟨c, u, e1, e2⟩, _⟩ := reads_head (patRel_head hok) (fun c h => stepChar_space h) h
  intro d v e3
  rw [e1] at e3
  cases e3
  exact stepChar_noSlash e2

/-- Nothing a step could start with. -/
theorem stepPattern_none {E : P} {s : Str} (h : ∀ c u, skip s = c :: u → ¬ stepChar c) : stepPattern E s = none := by
  have hk : ∀ c u, skip s = c :: u → nameStart c = false ∧ c ≠ '*' := by
    intro c u e
    have := h c u e
    unfold stepChar at this
    refine ⟨?_, fun e => this (.inr (.inl e))⟩
    cases hn : nameStart c with
    | false => rfl
    | true => exact absurd (.inl hn) this
  have hc : ∀ d, stepChar d → ∀ c u, s = c :: u → c ≠ d := by
    intro d hd
    refine head_skip (stepChar_space hd) ?_
    rintro c u e rfl
    exact h c u e hd
  have h1 : patternAxis s = some ([], s) :=
    patternAxis_none (fun u e => hc 'c' (.inl (by decide)) _ _ e rfl) (fun u e => hc 'a' (.inl (by decide)) _ _ e rfl)
      (hc '@' (.inr (.inr (.inl rfl))))
  have h4 : innerTest (skip s) = none := by
    have hw : ∀ t : NodeType, ∀ id, lit id (typeText t).toList (skip s) = none := by
      intro t id
      obtain ⟨a, w, e1, e2, _⟩ := (typeText_name t).cons
      rw [e1]
      refine lit_none_head (fun c u e e3 => ?_)
      subst e3
      rw [(hk a u e).1] at e2
      cases e2
    refine alt_none (seq_none_left (hw .pi _)) (alt_none (seq_none_left ?_) ?_)
    · exact alt_none (hw .comment _) (alt_none (hw .text _) (alt_none (hw .pi _) (hw .node _)))
    · exact rule_none (alt_none (anyName_none (fun c u e => (hk c u e).2)) (alt_none (seq_none_left
        (ncName_none (fun c u e => (hk c u e).1))) (qName_none (fun c u e => (hk c u e).1))))
  refine rule_none (seq_none_right h1 (seq_none_left (alt_none (lit_none_head ?_) (rule_none (seq_none_right
    (space_eq s) (seq_none_left h4))))))
  exact fun c u e => (hc 'n' (.inl (by decide)) c u e).symm

theorem rel_run {x : PatRel} (hok : x.Ok ns) {n : Nat} {first : Bool} {s r : Str} (h : Reads (patRelTokens first x) s r)
    (hn : s.length ≤ n) (hst : Stop 10 r) (hs : first = true → skip s = s) :
    ∃ t r0 ts r1 l, stepPattern (expr n) s = some ([t], r0) ∧ Run (nextPattern (expr n)) r0 ts r1 ∧
      RelPat ns x (t :: ts) l ∧ skip r1 = skip r ∧ r0.length ≤ s.length ∧
      (∀ st, x = .one st → ts = [] ∧ StepInfo ns st (HardStep first st s r) t ∧
        ∃ xs, flats xs = flats (meanings ns st.preds) ∧ StepPat ns st xs t) ∧
      ((∀ st, x ≠ .one st) → 2 ≤ (ts.filter fun k => k.id ≠ .s).length ∧ t.id ≠ .s) := by
  induction x generalizing first s with
  | one st =>
    obtain ⟨t, xs, e1, e2, e3, e4⟩ := step_pat hok h hn hst hs
    refine ⟨t, _, [], _, _, e1, .nil _, .one st t xs e3 e2, ?_, ?_, ?_, fun h => absurd rfl (h st)⟩
    · split
      · rfl
      · exact skip_skip r
    · have := reads_length h
      have := skip_length r
      split <;> omega
    · rintro st' e
      cases e
      exact ⟨rfl, e4, xs, e3, e2⟩
  | cons st deep x ih =>
    obtain ⟨m, e1, e2⟩ := reads_append.1 h
    obtain ⟨m2, e3, e4, e5, e6⟩ := reads_slash e2
    have hsm : Stop 10 m := by
      obtain ⟨u, hu⟩ := slashText_head deep m2
      intro c v e
      rw [e3, hu] at e
      cases e
      decide
    have l1 := reads_length e1
    obtain ⟨t, xs, f1, f2, f3, f4⟩ := step_pat hok.1 e1 hn hsm hs
    have hr0 : (if st.endsInNode then m else skip m) = slashText deep ++ m2 := by
      by_cases hb : st.endsInNode = true
      · rw [if_pos hb]; exact e4 hb
      · rw [if_neg hb]; exact e3
    obtain ⟨t', r0', ts, r1, l, g1, g2, g3, g4, g5, g6, g7⟩ := ih hok.2 e5 (by omega) (by simp)
    have hnext : nextPattern (expr n) (slashText deep ++ m2) = some ([sepTree deep] ++ [t'], r0') :=
      seq_some (sep_some (patRel_noSlash hok.2 e5)) g1
    rw [hr0] at f1
    refine ⟨t, _, ([sepTree deep] ++ [t']) ++ ts, r1, _, f1, .cons _ r0' r1 _ ts hnext ?_ g2,
      .cons st deep x t xs _ l f3 f2 g3, g4, ?_, ?_, ?_⟩
    · cases deep <;> simp [slashText] <;> omega
    · rw [← e3]
      have := skip_length m
      omega
    · intro st' e; cases e
    · intro _
      refine ⟨?_, f2.id.2.2.1⟩
      obtain ⟨s', xs', t'', us, h1, h2, _⟩ := relPat_head g3
      cases h1
      have hd : (sepTree deep).id ≠ .s := by cases deep <;> simp [sepTree, slashTree, deepTree, Tree.id]
      simp [List.filter_cons, hd, h2.id.2.2.1]

theorem rel_pat {x : PatRel} (hok : x.Ok ns) {n : Nat} {first : Bool} {s r : Str} (h : Reads (patRelTokens first x) s r)
    (hn : s.length ≤ n) (hst : Stop 9 r) (hs : first = true → skip s = s) :
    ∃ t r1, relativePathPattern (expr n) s = some ([t], r1) ∧ skip r1 = skip r ∧ RelTr ns x t ∧
      (∀ st, x = .one st → StepInfo ns st (HardStep first st s r) t) ∧
      ((∀ st, x ≠ .one st) → ∃ ts, t = .node .relativePathPattern [] ts ∧ 3 ≤ (ts.filter fun k => k.id ≠ .s).length) := by
  obtain ⟨t, r0, ts, r1, l, e1, e2, e3, e4, e5, e6, e7⟩ := rel_run hok h hn (hst.mono (by omega)) hs
  have hns : ∀ c u, r1 = c :: u → c ≠ '/' := by
    refine head_skip (by decide) ?_
    rw [e4]
    rintro c u e rfl
    have := hst '/' u e
    revert this
    decide
  have hnone : nextPattern (expr n) r1 = none :=
    seq_none_left (alt_none (lit_none_head (fun c u e => (hns c u e).symm)) (lit_none_head (fun c u e => (hns c u e).symm)))
  have hall := rule_some (id := .relativePathPattern) (seq_some e1 (many_run e2 hnone))
  by_cases hx : ∃ st, x = .one st
  · obtain ⟨st, rfl⟩ := hx
    obtain ⟨rfl, h2, xs, h3, h4⟩ := e6 st rfl
    refine ⟨t, r1, hall, e4, .one st t xs h3 h4 rfl, ?_, fun h => absurd rfl (h st)⟩
    intro st' e
    cases e
    exact h2
  · have hx' : ∀ st, x ≠ .one st := fun st e => hx ⟨st, e⟩
    obtain ⟨h1, h2⟩ := e7 hx'
    have hl : 3 ≤ ((t :: ts).filter fun k => k.id ≠ .s).length := by
      simp only [List.filter_cons, h2, ne_eq, not_false_eq_true, decide_true, if_true, List.length_cons]
      simp only [ne_eq] at h1
      omega
    refine ⟨.node .relativePathPattern [] (t :: ts), r1, ?_, e4, .many _ l e3 hl, fun st e => absurd e (hx' st),
      fun _ => ⟨_, rfl, hl⟩⟩
    rw [show relativePathPattern (expr n) s = _ from hall]
    cases ts with
    | nil => simp at h1
    | cons a l => rfl

/-! ## alternatives -/

/-- The default priority of an alternative that is written as asked. -/
def Prio (a : Alternative) (hard : Prop) (t : Tree) : Prop :=
  a.Ranked → (a.bare = true → hard) → ∀ rest, nextId rest ≠ some .predicate → nextId rest ≠ some .anyName →
    defaultPriority 8 (t :: rest) = a.priority

theorem priority_one (st : PatStep) :
    (Alternative.rel (.one st)).priority = match st.preds with | .nil => testPriority st.test | _ => 1 / 2 := by
  obtain ⟨ax, t, ps⟩ := st
  cases ps with
  | nil => cases t <;> rfl
  | cons => rfl

theorem ncAxis {ax : PatAxis} (h : axisTrees ax ≠ []) : ∃ x : Tree, axisTrees ax = [x] ∧ x.id ≠ .s ∧ ∀ us d,
    defaultPriority (d + 1) (x :: us) = defaultPriority d us := by
  cases ax with
  | none => exact absurd rfl h
  | atSign => exact ⟨_, rfl, by simp [Tree.id], fun us d => rfl⟩
  | child => exact ⟨_, rfl, by simp [Tree.id], fun us d => rfl⟩
  | «attribute» => exact ⟨_, rfl, by simp [Tree.id], fun us d => rfl⟩

theorem priority_step {ks rest : List Tree} : defaultPriority 8 (.node .stepPattern [] ks :: rest) =
    if (ks.filter fun k => k.id ≠ .s).length ≤ 2 then defaultPriority 7 ks else 1 / 2 := by
  rw [defaultPriority, skipS_cons (by simp [Tree.id])]
  rfl

theorem priority_relative {ks rest : List Tree} : defaultPriority 8 (.node .relativePathPattern [] ks :: rest) =
    if (ks.filter fun k => k.id ≠ .s).length ≤ 2 then defaultPriority 7 ks else 1 / 2 := by
  rw [defaultPriority, skipS_cons (by simp [Tree.id])]
  rfl

theorem prio_step {st : PatStep} {hard : Prop} {t : Tree} (h : StepInfo ns st hard t) : Prio (.rel (.one st)) hard t := by
  obtain ⟨T, ps, hp, hl, hi, hT, hsh⟩ := h.parts
  intro hr hh rest h1 h2
  rw [priority_one]
  have hTs : T.id ≠ .s := (patId_ne hT.id).2.2.2.2.2.2.2.1
  have hfil : (ps.filter fun k => k.id ≠ .s) = ps := by
    rw [List.filter_eq_self]
    intro p hp
    simp [hi p hp]
  cases hps : st.preds with
  | nil =>
    have hS : Shape st.test T := hsh hps (hh (by simp [Alternative.bare, hps]))
    rw [hps] at hl
    have : ps = [] := List.eq_nil_of_length_eq_zero hl
    subst this
    rcases hp with ⟨rfl, _, _⟩ | ⟨rfl, hne⟩
    · exact shape_priority hS h1 h2 6
    · obtain ⟨x, e1, e2, e3⟩ := ncAxis (by simpa using hne)
      rw [e1, priority_step, if_pos (by simp [List.filter_cons, e2, hTs])]
      rw [List.singleton_append, e3]
      exact shape_priority hS (by simp [nextId, skipS]) (by simp [nextId, skipS]) 4
  | cons e es =>
    rw [hps] at hl
    simp only [meanings, List.length_cons] at hl
    rcases hp with ⟨_, _, rfl⟩ | ⟨rfl, hne⟩
    · simp at hl
    · rw [priority_step]
      by_cases ha : axisTrees st.axis = []
      · rw [ha, List.nil_append]
        have ha' : st.axis = .none := by cases hx : st.axis <;> rw [hx] at ha <;> first | rfl | cases ha
        have hat : st.attr = false := by rw [PatStep.attr, ha']
        rcases ps with _ | ⟨p, _ | ⟨q, qs⟩⟩
        · simp at hl
        · rw [if_pos (by simp [List.filter_cons, hTs, hi p])]
          refine loose_priority hT hat ?_ (hi p (by simp)) 6
          cases es with
          | nil =>
            obtain ⟨ax, t, ps⟩ := st
            simp only at ha' hps
            subst ha' hps
            exact hr
          | cons e' es' => simp [meanings] at hl
        · rw [if_neg]
          rw [List.filter_cons_of_pos (by simpa using hTs), hfil]
          simp
      · obtain ⟨x, e1, e2, e3⟩ := ncAxis ha
        rw [e1, if_neg]
        rw [List.singleton_append, List.filter_cons_of_pos (by simpa using e2), List.filter_cons_of_pos (by simpa using hTs),
          hfil]
        simp only [List.length_cons]
        omega

/-- How an alternative is written if no white space is to be in it. -/
def HardAlt (a : Alternative) (s r : Str) : Prop := Reads (harden (altTokens a)) s r ∧ skip r = r

theorem hard_step {st : PatStep} (hok : st.Ok ns) {s r : Str} (hs : skip s = s) (hr : AltEnd r) (hp : st.preds = .nil)
    (h : HardAlt (.rel (.one st)) s r) : HardStep true st s r := by
  obtain ⟨h1, h2⟩ := h
  have e : altTokens (.rel (.one st)) = patAxisTokens true st.axis ++ patTestTokens true st := by
    simp [altTokens, patRelTokens, patStepTokens, hp, patPredTokens]
  rw [e] at h1
  obtain ⟨k, us, c, u, f1, f2, f3⟩ := patStep_head (first := true) (st := st) hok.1 []
  rw [List.append_nil, patStepTokens, hp, patPredTokens, List.append_nil] at f1
  rw [f1] at h1
  refine ⟨?_, hr, h2⟩
  rw [f1]
  exact harden_texts ⟨c, u, f2, stepChar_space f3⟩ h1 hs

theorem idKey_rel {x : PatRel} (hok : x.Ok ns) {s r : Str} (h : Reads (patRelTokens true x) s r) (hs : skip s = s)
    (hst : Stop 10 r) : idKeyPattern s = none := by
  have key : ∃ m m2, Reads (patAxisTokens true x.first.axis ++ patTestTokens true x.first) s m ∧
      Reads (predTokens x.first.preds) m m2 ∧ Stop 10 m2 := by
    cases x with
    | one st =>
      obtain ⟨m, e1, e2⟩ := reads_append.1 h
      exact ⟨m, r, e1, patPred_loose e2, hst⟩
    | cons st deep x =>
      obtain ⟨m2, e1, e2⟩ := reads_append.1 h
      obtain ⟨m, e3, e4⟩ := reads_append.1 e1
      refine ⟨m, m2, e3, patPred_loose e4, ?_⟩
      obtain ⟨m3, e5, _⟩ := reads_slash e2
      obtain ⟨u, hu⟩ := slashText_head deep m3
      intro c v e
      rw [e5, hu] at e
      cases e
      decide
  obtain ⟨m, m2, e1, e2, e3⟩ := key
  have hsm : Stop 11 m := preds_stop e2 (e3.mono (by omega))
  have hok' := PatRel.first_ok hok
  generalize x.first = st at e1 hok'
  cases hax : st.axis with
  | none =>
    rw [hax] at e1
    have e1 : Reads (patTestTokens true st) s m := e1
    by_cases hn : st.isNode = true
    · rw [patTestTokens, if_pos hn] at e1
      obtain ⟨m', rfl, _⟩ := tok_first (solid_sym (c := 'n') (u := "ode()".toList) rfl (by decide)) e1 (.inr hs)
      exact idKey_char (by intro c u e; cases e; decide)
    · rw [patTestTokens, if_neg hn] at e1
      exact idKey_test hok'.1 e1 hsm
  | atSign =>
    rw [hax] at e1
    obtain ⟨m', rfl, _⟩ := tok_first (solid_sym (c := '@') (u := []) rfl (by decide)) e1 (.inr hs)
    exact idKey_char (by intro c u e; cases e; decide)
  | child =>
    rw [hax] at e1
    obtain ⟨m', rfl, _⟩ := tok_first (solid_sym (c := 'c') (u := "hild".toList) rfl (by decide)) e1 (.inr hs)
    exact idKey_char (by intro c u e; cases e; decide)
  | «attribute» =>
    rw [hax] at e1
    obtain ⟨m', rfl, _⟩ := tok_first (solid_sym (c := 'a') (u := "ttribute".toList) rfl (by decide)) e1 (.inr hs)
    exact idKey_char (by intro c u e; cases e; decide)

theorem relPattern_slash {E : P} (u : Str) : relativePathPattern E ('/' :: u) = none := by
  refine rule_none (seq_none_left (stepPattern_none ?_))
  intro c v e h
  rw [skip_cons (by decide)] at e
  cases e
  exact stepChar_noSlash h rfl

theorem altEnd_none {E : P} {r : Str} (h : AltEnd r) : relativePathPattern E r = none := by
  refine rule_none (seq_none_left (stepPattern_none ?_))
  intro c v e hc
  rw [h c v e] at hc
  unfold stepChar at hc
  revert hc
  decide

theorem alt_parse {a : Alternative} (hok : a.Ok ns) {n : Nat} {s r : Str} (h : Reads (altTokens a) s r)
    (hs : skip s = s) (hn : s.length ≤ n) (hr : AltEnd r) :
    ∃ t r1, locationPathPattern (expr n) s = some ([t], r1) ∧ skip r1 = skip r ∧ AltTr ns a t ∧
      Prio a (HardAlt a s r) t := by
  have hst := hr.stop
  cases a with
  | root =>
    obtain ⟨m, e1, _, e3, _⟩ := reads_char (c := '/') rfl (by decide) h
    cases reads_nil e3
    rw [hs] at e1
    subst e1
    refine ⟨slashTree, r, ?_, rfl, altTr_root, ?_⟩
    · have hns : ∀ c u, r = c :: u → c ≠ '/' := by
        refine head_skip (by decide) ?_
        intro c u e
        rw [hr c u e]
        decide
      have h1 : idKeyPattern ('/' :: r) = none := idKey_char (by intro c u e; cases e; decide)
      have h2 : seq (opt slashSlash) (relativePathPattern (expr n)) ('/' :: r) = none :=
        seq_none_right (opt_none (slashSlash_none hns)) (relPattern_slash r)
      have h3 : seq slash (opt (relativePathPattern (expr n))) ('/' :: r) = some ([slashTree] ++ [], r) :=
        seq_some (lit_append .slash ['/'] r) (opt_none (altEnd_none hr))
      exact rule_some (id := .locationPathPattern) ((alt_right (seq_none_left h1)).trans ((alt_right h2).trans h3))
    · intro _ _ rest _ _
      rfl
  | rel x =>
    have hok : x.Ok ns := hok
    obtain ⟨t, r1, e1, e2, e3, e4, e5⟩ := rel_pat hok h hn hst (fun _ => hs)
    refine ⟨t, r1, ?_, e2, altTr_rel e3, ?_⟩
    · have h1 := idKey_rel hok h hs (hst.mono (by omega))
      have h2 : slashSlash s = none := lit_none_head (fun c u e => (patRel_noSlash hok h c u e).symm)
      exact rule_some (id := .locationPathPattern) ((alt_right (seq_none_left h1)).trans
        (alt_left (seq_some (opt_none h2) e1)))
    · by_cases hx : ∃ st, x = .one st
      · obtain ⟨st, rfl⟩ := hx
        intro h1 h2
        refine prio_step (e4 st rfl) h1 (fun hb => hard_step hok hs hr ?_ (h2 hb))
        cases hp : st.preds with
        | nil => rfl
        | cons e es => simp [Alternative.bare, hp] at hb
      · obtain ⟨ts, rfl, hl⟩ := e5 (fun st e => hx ⟨st, e⟩)
        intro _ _ rest _ _
        rw [priority_relative, if_neg (by omega)]
        cases x with
        | one st => exact absurd ⟨st, rfl⟩ hx
        | cons => rfl
  | abs deep x =>
    have hok : x.Ok ns := hok
    obtain ⟨m, e1, _, e3, e4⟩ := reads_slash h
    obtain ⟨t, r1, f1, f2, f3, f4, f5⟩ := rel_pat hok e3 (n := n) (by omega) hst (by simp)
    rw [hs] at e1
    subst e1
    refine ⟨.node .locationPathPattern [] [sepTree deep, t], r1, ?_, f2, altTr_abs deep f3, ?_⟩
    · have h1 : idKeyPattern (slashText deep ++ m) = none :=
        idKey_char (by cases deep <;> (intro c u e; cases e; decide))
      have hm := patRel_noSlash hok e3
      have h2 : alt (seq (opt slashSlash) (relativePathPattern (expr n))) (seq slash (opt (relativePathPattern (expr n))))
          (slashText deep ++ m) = some ([sepTree deep] ++ [t], r1) := by
        cases deep with
        | true => exact alt_left (seq_some (opt_some (lit_append .slashSlash ['/', '/'] m)) f1)
        | false =>
          exact (alt_right (seq_none_right (opt_none (slashSlash_none hm)) (relPattern_slash m))).trans
            (seq_some (lit_append .slash ['/'] m) (opt_some f1))
      exact rule_some (id := .locationPathPattern) ((alt_right (seq_none_left h1)).trans h2)
    · intro _ _ rest _ _
      rfl

/-! ## patterns -/

/-- The tokens of alternatives; some are followed by a tight operator. -/
def joined (tk : Alternative → List Tok) (tight : Alternative → Bool) : List Alternative → List Tok
  | [] => []
  | [a] => tk a
  | a :: as => tk a ++ sym "|" (tight a) :: joined tk tight as

theorem patternTokens_eq (p : List Alternative) : patternTokens p = joined altTokens (fun _ => false) p := by
  induction p with
  | nil => rfl
  | cons a as ih => cases as with
    | nil => rfl
    | cons b bs => rw [patternTokens, joined, ih] <;> simp

def closeAlt (a : Alternative) : List Tok := if a.bare then harden (altTokens a) else altTokens a

theorem closeTokens_eq (p : List Alternative) : closeTokens p = joined closeAlt Alternative.bare p := by
  induction p with
  | nil => rfl
  | cons a as ih => cases as with
    | nil => rfl
    | cons b bs => rw [closeTokens, joined, ih] <;> simp [closeAlt]

theorem closeAlt_reads {a : Alternative} {s r : Str} (h : Reads (closeAlt a) s r) : Reads (altTokens a) s r := by
  rw [closeAlt] at h
  split at h
  · exact reads_harden h
  · exact h

theorem alt_head {a : Alternative} (hok : a.Ok ns) : Head (altTokens a) (fun c => stepChar c ∨ c = '/') := by
  cases a with
  | root => exact head_sym (c := '/') rfl (.inr rfl)
  | rel r => exact (patRel_head (first := true) (r := r) hok).mono (fun c h => .inl h)
  | abs deep r => cases deep <;> exact head_sym (c := '/') rfl (.inr rfl)

theorem altChar_space {c : Char} (h : stepChar c ∨ c = '/') : isSpace c = false := by
  rcases h with h | rfl
  · exact stepChar_space h
  · decide

/-- The trees of alternatives, with an operator between two. -/
inductive AltsTr (ns : Str → Option Str) (hard : Prop) : List Alternative → List Tree → Prop where
  | one (a : Alternative) (t : Tree) (h : AltTr ns a t) (hp : Prio a hard t) : AltsTr ns hard [a] [t]
  | cons (a : Alternative) (t o : Tree) (as : List Alternative) (ts : List Tree) (h : AltTr ns a t) (hp : Prio a hard t)
      (ho : o.id = .unionOperator) (hr : AltsTr ns hard as ts) : AltsTr ns hard (a :: as) (t :: o :: ts)

theorem head_alt {tk : Alternative → List Tok} {tight : Alternative → Bool} {p : Char → Prop} {a : Alternative}
    {as : List Alternative} (h : Head (tk a) p) : Head (joined tk tight (a :: as)) p := by
  cases as with
  | nil => exact h
  | cons b bs => exact Head.append h

theorem parse_alts {tk : Alternative → List Tok} {tight : Alternative → Bool} {hard : Prop} {n : Nat}
    {p : List Alternative} (hh : ∀ a ∈ p, Head (tk a) fun c => stepChar c ∨ c = '/')
    (hq : ∀ a ∈ p, ∀ s r, Reads (tk a) s r → skip s = s → s.length ≤ n → AltEnd r → (tight a = true → skip r = r) →
      ∃ t r1, locationPathPattern (expr n) s = some ([t], r1) ∧ skip r1 = skip r ∧ AltTr ns a t ∧ Prio a hard t)
    {a : Alternative} {as : List Alternative} (hp : p = a :: as) {s r : Str} (h : Reads (joined tk tight p) s r)
    (hn : s.length ≤ n) (hr : skip r = []) (he : ∀ b, p.getLast? = some b → tight b = true → r = []) :
    ∃ t r0 us, locationPathPattern (expr n) (skip s) = some ([t], r0) ∧
      Run (nextAlternative (expr n)) (skip r0) us [] ∧ AltsTr ns hard p (t :: us) ∧ (skip r0).length ≤ s.length := by
  induction p generalizing a as s with
  | nil => cases hp
  | cons b bs ih =>
    have hs' := (reads_head (head_alt (hh b (by simp))) (fun c h => altChar_space h) h).2
    have l0 := skip_length s
    cases bs with
    | nil =>
      obtain ⟨t, r1, e1, e2, e3, e4⟩ := hq b (by simp) (skip s) r hs' (skip_skip s) (by omega)
        (by intro c u e; rw [hr] at e; cases e) (fun ht => by rw [he b rfl ht]; rfl)
      refine ⟨t, r1, [], e1, ?_, .one b t e3 e4, ?_⟩
      · rw [e2, hr]
        exact .nil _
      · rw [e2, hr]
        simp
    | cons c cs =>
      have hs' : Reads (tk b ++ sym "|" (tight b) :: joined tk tight (c :: cs)) (skip s) r := hs'
      obtain ⟨m, f1, f2⟩ := reads_append.1 hs'
      obtain ⟨m2, f3, f4, f5, f6⟩ := reads_char (c := '|') rfl (by decide) f2
      have l1 := reads_length f1
      obtain ⟨t, r1, e1, e2, e3, e4⟩ := hq b (by simp) (skip s) m f1 (skip_skip s) (by omega)
        (by intro d u e; rw [f3] at e; cases e; rfl) (fun ht => by rw [f4 ht]; exact skip_cons (by decide))
      obtain ⟨t', r0', us, g1, g2, g3, g4⟩ := ih (fun a h => hh a (List.mem_cons_of_mem _ h))
        (fun a h => hq a (List.mem_cons_of_mem _ h)) rfl f5 (by omega) (by
          intro b' hb'
          exact he b' (by rw [List.getLast?_cons_cons]; exact hb'))
      rw [f3] at e2
      have hnext : nextAlternative (expr n) ('|' :: m2) = some ([.node .unionOperator "|".toList [], t'], skip r0') :=
        seq_some (lit_append .unionOperator "|".toList m2) (seq_some (discard_space m2)
          (seq_some g1 (discard_space r0')))
      refine ⟨t, r1, [.node .unionOperator "|".toList [], t'] ++ us, e1, ?_, .cons b t _ _ _ e3 e4 rfl g3, ?_⟩
      · rw [e2]
        exact .cons _ _ _ _ us hnext (by simp only [List.length_cons]; omega) g2
      · rw [e2, ← f3]
        have := skip_length m
        omega

theorem run_nil_none {E : P} : nextAlternative E [] = none := by
  refine seq_none_left (lit_none_head ?_)
  intro c u e
  cases e

theorem parseMatch_of {s : Str} {t : Tree} (h : pattern (expr s.length) s = some ([t], [])) : parseMatch s = some t := by
  unfold parseMatch
  generalize pattern (expr s.length) s = y at h
  subst h
  rfl

/-- One `MatchExpr` for each alternative, with these steps and priorities. -/
inductive Compiled (ns : Str → Option Str) (fnNum : Str → Str → Bool) (hard : Prop) :
    List Alternative → List MatchExpr → Prop where
  | nil : Compiled ns fnNum hard [] []
  | cons (a : Alternative) (m : MatchExpr) (as : List Alternative) (ms : List MatchExpr) (h : CodeAlt ns fnNum a m.steps)
      (hp : a.Ranked → (a.bare = true → hard) → m.priority = a.priority) (hr : Compiled ns fnNum hard as ms) :
      Compiled ns fnNum hard (a :: as) (m :: ms)

theorem compile_alts {hard : Prop} {p : List Alternative} {ts : List Tree} (h : AltsTr ns hard p ts) {n : Nat}
    (hn : sizes ts ≤ n) :
    ∃ ms, compileAlternatives ns fnNum (cC ns n) ts = .ok ms ∧ Compiled ns fnNum hard p ms := by
  induction h with
  | one a t h hp =>
    obtain ⟨l, e1, e2⟩ := h.compile n (by simpa [sizes] using hn) fnNum [] clean_nil
    refine ⟨[⟨l, defaultPriority 8 [t]⟩], ?_, .cons a _ [] [] e1 (fun h1 h2 => hp h1 h2 [] (by simp [nextId, skipS]) (by simp [nextId, skipS])) .nil⟩
    rw [compileAlternatives, e2]
    rfl
  | cons a t o as ts h hp ho hr ih =>
    simp only [sizes] at hn
    obtain ⟨ms, f1, f2⟩ := ih (by omega)
    obtain ⟨l, e1, e2⟩ := h.compile n (by omega) fnNum (o :: ts) (clean_cons (by rw [ho]; simp) (by rw [ho]; simp))
    have hx : nextId (o :: ts) = some .unionOperator := by
      rw [nextId, skipS_cons (by rw [ho]; simp)]
      simp [ho]
    refine ⟨⟨l, defaultPriority 8 (t :: o :: ts)⟩ :: ms, ?_, .cons a _ as ms e1 (fun h1 h2 => hp h1 h2 (o :: ts) (by rw [hx]; simp) (by rw [hx]; simp)) f2⟩
    rw [compileAlternatives, e2, f1]
    rfl

theorem compileMatch_of {s : Str} {t : Tree} (h : parseMatch s = some t) : compileMatch ns fnNum s =
    if t.id = .pattern then compileAlternatives ns fnNum (cC ns t.size) t.kids
    else compileAlternatives ns fnNum (cC ns t.size) [t] := by
  unfold compileMatch
  generalize parseMatch s = y at h
  subst h
  rfl

theorem compile_joined {tk : Alternative → List Tok} {tight : Alternative → Bool} {hard : Prop} {s r : Str}
    {p : List Alternative} (hne : p ≠ []) (hh : ∀ a ∈ p, Head (tk a) fun c => stepChar c ∨ c = '/')
    (hq : ∀ a ∈ p, ∀ m r, Reads (tk a) m r → skip m = m → m.length ≤ s.length → AltEnd r → (tight a = true → skip r = r) →
      ∃ t r1, locationPathPattern (expr s.length) m = some ([t], r1) ∧ skip r1 = skip r ∧ AltTr ns a t ∧ Prio a hard t)
    (h : Reads (joined tk tight p) s r) (hr : r.all isWhite = true)
    (he : ∀ b, p.getLast? = some b → tight b = true → r = []) :
    ∃ ms, compileMatch ns fnNum s = .ok ms ∧ Compiled ns fnNum hard p ms := by
  have hsk : skip r = [] := by
    have := skip_white (s := []) (all_space_of_white hr)
    rwa [List.append_nil, skip_nil] at this
  obtain ⟨a, as, rfl⟩ : ∃ a as, p = a :: as := by
    cases p with
    | nil => exact absurd rfl hne
    | cons a as => exact ⟨a, as, rfl⟩
  obtain ⟨t, r0, us, e1, e2, e3, _⟩ := parse_alts hh hq rfl h (Nat.le_refl _) hsk he
  have hall := rule_some (id := .pattern) (seq_some (discard_space s) (seq_some e1 (seq_some (discard_space r0)
    (many_run e2 run_nil_none))))
  have hall : pattern (expr s.length) s = some (group .pattern (t :: us), []) := hall
  cases us with
  | nil =>
    have h1 := parseMatch_of (t := t) hall
    have hid : t.id ≠ .pattern := by
      cases e3 with
      | one _ _ h _ => exact h.notPattern
    obtain ⟨ms, f1, f2⟩ := compile_alts (fnNum := fnNum) e3 (n := t.size) (by simp [sizes])
    exact ⟨ms, by rw [compileMatch_of h1, if_neg hid]; exact f1, f2⟩
  | cons u us =>
    have h1 := parseMatch_of (t := .node .pattern [] (t :: u :: us)) hall
    obtain ⟨ms, f1, f2⟩ := compile_alts (fnNum := fnNum) e3 (n := (Tree.node .pattern [] (t :: u :: us)).size) (by
      rw [size_node]; omega)
    exact ⟨ms, by rw [compileMatch_of h1, if_pos (by rfl)]; exact f1, f2⟩

theorem compile_pattern {s r : Str} {p : List Alternative} (hne : p ≠ []) (hok : ∀ a ∈ p, a.Ok ns)
    (h : Reads (patternTokens p) s r) (hr : r.all isWhite = true) :
    ∃ ms, compileMatch ns fnNum s = .ok ms ∧ Compiled ns fnNum False p ms := by
  rw [patternTokens_eq] at h
  refine compile_joined hne (fun a ha => alt_head (hok a ha)) ?_ h hr (by simp)
  intro a ha m r h1 h2 h3 h4 _
  obtain ⟨t, r1, e1, e2, e3, e4⟩ := alt_parse (hok a ha) h1 h2 h3 h4
  exact ⟨t, r1, e1, e2, e3, fun g1 g2 => e4 g1 (fun hb => (g2 hb).elim)⟩

theorem compile_close {s r : Str} {p : List Alternative} (hne : p ≠ []) (hok : ∀ a ∈ p, a.Ok ns)
    (h : Reads (closeTokens p) s r) (hr : r.all isWhite = true) (he : endsBare p = true → r = []) :
    ∃ ms, compileMatch ns fnNum s = .ok ms ∧ Compiled ns fnNum True p ms := by
  rw [closeTokens_eq] at h
  refine compile_joined hne ?_ ?_ h hr ?_
  · intro a ha
    have := alt_head (hok a ha)
    rw [closeAlt]
    split
    · obtain ⟨k, us, c, u, e1, e2, e3⟩ := this
      rw [e1]
      exact ⟨k, _, c, u, rfl, e2, e3⟩
    · exact this
  · intro a ha m r h1 h2 h3 h4 h5
    obtain ⟨t, r1, e1, e2, e3, e4⟩ := alt_parse (hok a ha) (closeAlt_reads h1) h2 h3 h4
    refine ⟨t, r1, e1, e2, e3, fun g1 g2 => e4 g1 (fun hb => ⟨?_, h5 hb⟩)⟩
    rw [closeAlt, if_pos hb] at h1
    exact h1
  · intro b hb ht
    apply he
    clear h he hok hne
    induction p with
    | nil => cases hb
    | cons a as ih => cases as with
      | nil => cases hb; exact ht
      | cons c cs => rw [List.getLast?_cons_cons] at hb; exact ih hb

end Verif.XPathMatch
