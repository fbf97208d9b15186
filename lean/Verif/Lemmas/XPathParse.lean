import Verif.Lemmas.XPathParseCase
set_option autoImplicit false
set_option linter.unusedSimpArgs false
set_option linter.unusedVariables false
namespace Verif.XPathParse

variable {ns : Str → Option Str}

/-! ## steps -/

/-- Nothing a step could start with. -/
theorem step_none {E : P} {s : Str} (h : ∀ c u, skip s = c :: u → ¬ stepChar c) : step E s = none := by
  have hk : ∀ c u, skip s = c :: u → nameStart c = false ∧ c ≠ '*' ∧ c ≠ '@' ∧ c ≠ '.' := by
    intro c u e
    have := h c u e
    unfold stepChar at this
    refine ⟨?_, fun e => this (.inr (.inl e)), fun e => this (.inr (.inr (.inl e))), fun e => this (.inr (.inr (.inr e)))⟩
    cases hn : nameStart c with
    | false => rfl
    | true => exact absurd (.inl hn) this
  have h3 : space (skip s) = some ([], skip s) := by rw [space_eq, sT_skip, skip_skip]
  have h1 : axisSpecifier s = some (sT s, skip s) := by
    rw [axisSpecifier_eq]
    have h2 : axisInner (skip s) = some ([], skip s) :=
      axisInner_none (fun c u e => ⟨(hk c u e).1, (hk c u e).2.2.1⟩)
    have := rule_some (id := .axisSpecifier) (seq_some (space_eq s) (seq_some h2 h3))
    simp only [List.append_nil] at this
    rcases sT_cases s with hw | ⟨w, hw⟩ <;> (rw [hw] at this ⊢; exact this)
  have h4 : alt piTest (alt typeTest nameTest) (skip s) = none := by
    have hw : ∀ t : NodeType, ∀ id, lit id (typeText t).toList (skip s) = none := by
      intro t id
      obtain ⟨a, w, e1, e2, _⟩ := (typeText_name t).cons
      rw [e1]
      refine lit_none_head (fun c u e e3 => ?_)
      subst e3
      rw [(hk a u e).1] at e2
      cases e2
    refine alt_none (seq_none_left (hw .pi _)) (alt_none (seq_none_left ?_) ?_)
    · exact alt_none (hw .comment _) (alt_none (hw .text _) (alt_none (hw .pi _) (hw .node _)))
    · exact rule_none (alt_none (anyName_none (fun c u e => (hk c u e).2.1)) (alt_none (seq_none_left
        (ncName_none (fun c u e => (hk c u e).1))) (qName_none (fun c u e => (hk c u e).1))))
  refine rule_none (alt_none (seq_none_right h1 (seq_none_left (rule_none (seq_none_right h3 (seq_none_left h4))))) ?_)
  have hd : ∀ c u, s = c :: u → c ≠ '.' := head_skip (by decide) (fun c u e => (hk c u e).2.2.2)
  exact alt_none (lit_none_head (fun c u e => (hd c u e).symm)) (lit_none_head (fun c u e => (hd c u e).symm))

/-- At a full stop there is no full step. -/
theorem fullStep_dot {E : P} (u : Str) : fullStep E ('.' :: u) = none := by
  have hsk : skip ('.' :: u) = '.' :: u := skip_cons (by decide)
  have h3 : space ('.' :: u) = some ([], '.' :: u) := by rw [space_eq, sT_cons (by decide), hsk]
  have h1 : axisSpecifier ('.' :: u) = some ([], '.' :: u) := by
    rw [axisSpecifier_eq]
    have h2 : axisInner ('.' :: u) = some ([], '.' :: u) := axisInner_none (by rintro c v e; cases e; decide)
    exact rule_some (id := .axisSpecifier) (seq_some h3 (seq_some h2 h3))
  have h4 : alt piTest (alt typeTest nameTest) ('.' :: u) = none := by
    have hw : ∀ t : NodeType, ∀ id, lit id (typeText t).toList ('.' :: u) = none := by
      intro t id
      cases t <;> exact lit_none_head (by rintro c u e; cases e; decide)
    refine alt_none (seq_none_left (hw .pi _)) (alt_none (seq_none_left ?_) ?_)
    · exact alt_none (hw .comment _) (alt_none (hw .text _) (alt_none (hw .pi _) (hw .node _)))
    · exact rule_none (alt_none (anyName_none (by rintro c u e; cases e; decide)) (alt_none (seq_none_left
        (ncName_none (by rintro c u e; cases e; decide))) (qName_none (by rintro c u e; cases e; decide))))
  exact seq_none_right h1 (seq_none_left (rule_none (seq_none_right h3 (seq_none_left h4))))

def StAt (ns : Str → Option Str) (st : St) : Prop :=
  ∀ n b s r, Reads (stTokens b st) s r → s.length ≤ n → Stop 10 r → (b = true ∨ skip s = s) →
    ∃ t r1 x, step (expr n) s = some ([t], r1) ∧ StepTree ns t x ∧ flatStep x = flatStep (stMeaning ns st) ∧
      (t.id = .processingInstruction → st = .step .child (.type .pi) .nil) ∧ (st.short = true → r1 = r) ∧
      (st.short = false → r1 = skip r)

theorem preds_stop {ps : Exs} {m r : Str} (h : Reads (predTokens ps) m r) (hr : Stop 11 r) : Stop 11 m := by
  cases ps with
  | nil =>
    simp only [predTokens] at h
    cases reads_nil h
    exact hr
  | cons e es =>
    simp only [predTokens, List.cons_append] at h
    obtain ⟨u, e3, _⟩ := reads_char (c := '[') rfl (by decide) h
    intro c v e
    rw [e3] at e
    cases e
    decide

theorem st_step {ax : AxisSpec} {t : NodeTest} {ps : Exs} (hok : t.Ok ns) (ihs : PredsAt ns ps) :
    StAt ns (.step ax t ps) := by
  intro n b s r h hn hst htight
  simp only [stTokens] at h
  obtain ⟨m, e1, e2⟩ := reads_append.1 h
  have hsm : Stop 11 m := preds_stop e2 (hst.mono (by omega))
  have l1 := reads_length e1
  obtain ⟨A, s1, a1, a2, a3, a4, a5⟩ := axisSpecifier_reads hok e1 hsm
  obtain ⟨T, t1, t2, t3⟩ := nodeTest_reads hok a3 a4 hsm
  obtain ⟨ts, xs, p1, p2, p3, p4⟩ := ihs n m r e2 (by omega)
  have hall := seq_some a1 (seq_some t1 (many_run p1 (predicate_none (E := expr n) hst)))
  have hstep := rule_some (id := .step) (alt_left (b := abbreviatedStep) hall)
  have hfl : flatStep (.test (axisMeaning ax) (testMeaning ns (axisMeaning ax == .attribute) t) xs) =
      flatStep (stMeaning ns (.step ax t ps)) := by simp only [flatStep, stMeaning, p3]
  by_cases hb : A = [] ∧ ts = []
  · obtain ⟨rfl, rfl⟩ := hb
    cases a5 rfl
    cases p4 rfl
    have hx : xs = [] := by cases p2; rfl
    subst hx
    refine ⟨T, skip r, _, hstep, stepTree_bare t2, hfl, ?_, by simp [St.short], by simp⟩
    intro hid
    rw [t3 hid]
  · refine ⟨.node .step [] (A ++ T :: ts), skip r, _, ?_, stepTree_full a2 t2 p2, hfl, ?_, by simp [St.short], by simp⟩
    · rw [show step (expr n) s = _ from hstep]
      have : group .step (A ++ ([T] ++ ts)) = [.node .step [] (A ++ T :: ts)] := by
        cases A with
        | nil =>
          cases ts with
          | nil => exact absurd ⟨rfl, rfl⟩ hb
          | cons a l => rfl
        | cons a l => cases l <;> rfl
      rw [this]
    · intro hid
      cases hid

theorem st_self : StAt ns .self := by
  intro n b s r h hn hst htight
  simp only [stTokens] at h
  obtain ⟨m, e1, e2, e3, _⟩ := reads_char (c := '.') rfl (by decide) h
  cases reads_nil e3
  have hs : s = '.' :: r := by
    rcases htight with hb | hb
    · exact e2 hb
    · rw [← hb, e1]
  refine ⟨_, r, _, ?_, stepTree_short .selfSelect ['.'] .self (.inl ⟨rfl, rfl⟩), rfl, ?_, fun _ => rfl, by simp [St.short]⟩
  · rw [hs]
    have hd : ∀ c u, r = c :: u → c ≠ '.' := fun c u e => (hst.mono (by omega)).noDot e
    have h1 : abbreviatedStep ('.' :: r) = some ([.node .selfSelect ['.'] []], r) := by
      have h2 : lit .parentSelect ['.', '.'] ('.' :: r) = none := lit_none_second hd
      exact (alt_right (a := lit .parentSelect ['.', '.']) h2).trans (lit_append .selfSelect ['.'] r)
    exact rule_some (id := .step) ((alt_right (fullStep_dot r)).trans h1)
  · intro e; cases e

theorem st_parent : StAt ns .parent := by
  intro n b s r h hn hst htight
  simp only [stTokens] at h
  obtain ⟨m, e1, e2, _, e3⟩ := reads_next (solid_sym (c := '.') (u := ['.']) rfl (by decide)) h
  cases reads_nil e3
  have hs : s = '.' :: '.' :: r := by
    rcases htight with hb | hb
    · exact e2 hb
    · rw [← hb, e1]; rfl
  refine ⟨_, r, _, ?_, stepTree_short .parentSelect ['.', '.'] .parent (.inr ⟨rfl, rfl⟩), rfl, ?_, fun _ => rfl,
    by simp [St.short]⟩
  · rw [hs]
    have h1 : abbreviatedStep ('.' :: '.' :: r) = some ([.node .parentSelect ['.', '.'] []], r) :=
      alt_left (lit_append .parentSelect ['.', '.'] r)
    exact rule_some (id := .step) ((alt_right (fullStep_dot _)).trans h1)
  · intro e; cases e

/-! ## relative paths -/

theorem deepStep_flat (deep : Bool) : flatSteps (deepStep deep) = deepStep deep := by cases deep <;> rfl

/-- A relative path that may go on. -/
def RelRun (ns : Str → Option Str) (x : Rel) (E : P) (s r : Str) : Prop :=
  ∃ t r0 ts r1 ss, step E s = some ([t], r0) ∧ Run (nextStep E) r0 ts r1 ∧ StepRun ns (t :: ts) ss ∧
    flatSteps ss = flatSteps (relMeaning ns x) ∧ (r1 = r ∨ r1 = skip r) ∧ r0.length ≤ s.length ∧
    (ts = [] → ∃ y, ss = [y] ∧ StepTree ns t y ∧
      (t.id = .processingInstruction → x = .one (.step .child (.type .pi) .nil)))

def RelAt (ns : Str → Option Str) (x : Rel) : Prop :=
  ∀ n b s r, Reads (relTokens b x) s r → s.length ≤ n → Stop 10 r → (b = true ∨ skip s = s) → RelRun ns x (expr n) s r

theorem rel_one {st : St} (ih : StAt ns st) : RelAt ns (.one st) := by
  intro n b s r h hn hst ht
  simp only [relTokens] at h
  obtain ⟨t, r1, x, e1, e2, e3, e4, e5, e6⟩ := ih n b s r h hn hst ht
  have hr : r1 = r ∨ r1 = skip r := by
    cases hs : st.short with
    | true => exact .inl (e5 hs)
    | false => exact .inr (e6 hs)
  refine ⟨t, r1, [], r1, [x], e1, .nil _, .step t x [] [] e2 .nil, ?_, hr, ?_, fun _ => ⟨x, rfl, e2, ?_⟩⟩
  · simp only [flatSteps, relMeaning, e3]
  · have := reads_length h
    have := skip_length r
    rcases hr with rfl | rfl <;> omega
  · intro hid
    rw [e4 hid]

def slashText (deep : Bool) : Str := if deep then ['/', '/'] else ['/']

theorem reads_slash {deep b : Bool} {ts : List Tok} {s r : Str} (h : Reads (slashTok deep b :: ts) s r) :
    ∃ m, skip s = slashText deep ++ m ∧ (b = true → s = slashText deep ++ m) ∧ Reads ts m r ∧ m.length < s.length := by
  have key : ∃ m, skip s = slashText deep ++ m ∧ (b = true → s = slashText deep ++ m) ∧ Reads ts m r := by
    cases deep with
    | false =>
      obtain ⟨m, e1, e2, _, e3⟩ := reads_next (solid_sym (c := '/') (u := []) rfl (by decide)) h
      exact ⟨m, e1, e2, e3⟩
    | true =>
      obtain ⟨m, e1, e2, _, e3⟩ := reads_next (solid_sym (c := '/') (u := ['/']) rfl (by decide)) h
      exact ⟨m, e1, e2, e3⟩
  obtain ⟨m, e1, e2, e3⟩ := key
  refine ⟨m, e1, e2, e3, ?_⟩
  have := skip_length s
  rw [e1] at this
  cases deep <;> simp [slashText] at this <;> omega

theorem slashText_head (deep : Bool) (m : Str) : ∃ u, slashText deep ++ m = '/' :: u := by
  cases deep <;> exact ⟨_, rfl⟩

theorem slashSlash_none {m : Str} (h : ∀ c u, m = c :: u → c ≠ '/') : slashSlash ('/' :: m) = none :=
  lit_none_second h

theorem sep_some {deep : Bool} {m : Str} (h : ∀ c u, m = c :: u → c ≠ '/') :
    alt slashSlash slash (slashText deep ++ m) = some ([sepTree deep], m) := by
  cases deep with
  | false => exact (alt_right (slashSlash_none h)).trans (lit_append .slash ['/'] m)
  | true => exact alt_left (lit_append .slashSlash ['/', '/'] m)

def deepTrees (deep : Bool) : List Tree := if deep then [deepTree] else []

theorem next_some {deep : Bool} {m : Str} (h : ∀ c u, m = c :: u → c ≠ '/') :
    alt slashSlash (discard slash) (slashText deep ++ m) = some (deepTrees deep, m) := by
  cases deep with
  | false => exact (alt_right (slashSlash_none h)).trans (discard_some (lit_append .slash ['/'] m))
  | true => exact alt_left (lit_append .slashSlash ['/', '/'] m)

theorem rel_cons {st : St} {deep : Bool} {x : Rel} (hok : x.Ok ns) (ih : StAt ns st) (ihr : RelAt ns x) :
    RelAt ns (.cons st deep x) := by
  intro n b s r h hn hst ht
  simp only [relTokens] at h
  obtain ⟨m, e1, e2⟩ := reads_append.1 h
  obtain ⟨m2, e3, e4, e5, e6⟩ := reads_slash e2
  have hsl : ∃ u, skip m = '/' :: u := by rw [e3]; exact slashText_head deep m2
  have hsm : Stop 10 m := by
    obtain ⟨u, hu⟩ := hsl
    intro c v e
    rw [hu] at e
    cases e
    decide
  have l1 := reads_length e1
  obtain ⟨t, r0, y, f1, f2, f3, f4, f5, f6⟩ := ih n b s m e1 hn hsm ht
  have hr0 : r0 = slashText deep ++ m2 := by
    cases hs : st.short with
    | true => rw [f5 hs]; exact e4 hs
    | false => rw [f6 hs]; exact e3
  obtain ⟨t', r0', ts, r1, ss, g1, g2, g3, g4, g5, g6, g7⟩ := ihr n true m2 r e5 (by omega) hst (.inl rfl)
  have hnext : nextStep (expr n) r0 = some (deepTrees deep ++ [t'], r0') := by
    rw [hr0]
    exact seq_some (next_some (rel_noSlash hok e5)) g1
  refine ⟨t, r0, (deepTrees deep ++ [t']) ++ ts, r1, y :: (deepStep deep ++ ss), f1, ?_, ?_, ?_, g5, ?_, ?_⟩
  · refine .cons r0 r0' r1 _ ts hnext ?_ g2
    rw [hr0]
    cases deep <;> simp [slashText] <;> omega
  · refine .step t y _ _ f2 ?_
    cases deep with
    | false => exact g3
    | true => exact .deep _ _ g3
  · simp only [flatSteps, relMeaning, flatSteps_append, f3, g4]
  · rw [hr0, ← e3]
    have := skip_length m
    omega
  · intro e
    simp at e

theorem rel_close {x : Rel} {E : P} {s r : Str} (h : RelRun ns x E s r) (hst : Stop 9 r) :
    ∃ t r1 ss, relativeLocationPath E s = some ([t], r1) ∧ skip r1 = skip r ∧ RelTree ns t ss ∧
      flatSteps ss = flatSteps (relMeaning ns x) ∧
      (t.id = .processingInstruction → x = .one (.step .child (.type .pi) .nil)) := by
  obtain ⟨t, r0, ts, r1, ss, e1, e2, e3, e4, e5, e6, e7⟩ := h
  have hsk : skip r1 = skip r := by
    rcases e5 with rfl | rfl
    · rfl
    · exact skip_skip r
  have hns : ∀ c u, r1 = c :: u → c ≠ '/' := by
    refine head_skip (by decide) ?_
    rw [hsk]
    rintro c u e rfl
    have := hst '/' u e
    revert this
    decide
  have hnone : nextStep E r1 = none := by
    refine seq_none_left (alt_none (lit_none_head (fun c u e => (hns c u e).symm)) (discard_none (lit_none_head ?_)))
    exact fun c u e => (hns c u e).symm
  have hall := rule_some (id := .relativeLocationPath) (seq_some e1 (many_run e2 hnone))
  cases hts : ts with
  | nil =>
    obtain ⟨y, rfl, f1, f2⟩ := e7 hts
    subst hts
    exact ⟨t, r1, [y], hall, hsk, f1.rel, e4, f2⟩
  | cons a l =>
    subst hts
    have hne : ss ≠ [] := by
      cases e3 <;> simp
    exact ⟨_, r1, ss, hall, hsk, relTree_node e3 hne, e4, by intro e; cases e⟩

/-! ## what is not a primary expression -/

def NotPrimary (E : P) (s : Str) : Prop := primaryInner E (skip s) = none

theorem filterPath_none {E : P} {s : Str} (h : NotPrimary E s) : filterPath E (skip s) = none := by
  refine seq_none_left (rule_none (seq_none_left (rule_none (seq_none_right (discard_space _) (seq_none_left ?_)))))
  rw [skip_skip]
  exact h

theorem notPrimary_char {E : P} {s u : Str} {c : Char} (e : skip s = c :: u) (h1 : c ≠ '$') (h2 : isDigit c = false)
    (h3 : c = '.' → ∀ d v, u = d :: v → isDigit d = false) (h4 : functionCall E (c :: u) = none) (h5 : c ≠ '(')
    (h6 : c ≠ '"' ∧ c ≠ '\'') : NotPrimary E s := by
  unfold NotPrimary
  rw [e]
  refine alt_none (variable_none (by rintro d v e; cases e; exact h1)) ?_
  refine alt_none (number_none (by rintro d v e; cases e; exact ⟨h2, h3⟩)) ?_
  refine alt_none h4 ?_
  exact alt_none (bracketed_none (by rintro d v e; cases e; exact h5)) (literal_none (by rintro d v e; cases e; exact h6))

theorem notPrimary_name {E : P} {s u : Str} {c : Char} (e : skip s = c :: u) (hc : nameStart c = true)
    (h4 : functionCall E (c :: u) = none) : NotPrimary E s :=
  notPrimary_char e (nameStart_ne hc (by decide)) (not_digit_of_nameStart hc)
    (fun e => absurd e (nameStart_ne hc (by decide))) h4 (nameStart_ne hc (by decide))
    ⟨nameStart_ne hc (by decide), nameStart_ne hc (by decide)⟩

theorem typeName_none {t : NodeType} {m : Str} (he : Ends m) (hc : NoColon m) :
    functionName ((typeText t).toList ++ m) = none := by
  have hq := qName_append (q := ⟨none, (typeText t).toList⟩) (ns := fun _ => none)
    ⟨typeText_name t, by rintro p e; cases e⟩ he hc
  have hq' : qName ((typeText t).toList ++ m) = some ([qTree ⟨none, (typeText t).toList⟩], m) := hq
  simp only [functionName, minus, hq', nodeType_append]
  rw [if_neg (by omega)]

theorem char_ends {m u : Str} {c : Char} (h : skip m = c :: u) (hc : nameChar c = false) (hd : c ≠ ':') :
    Ends m ∧ NoColon m := by
  refine ⟨ends_space_or h hc, head_skip (by decide) ?_⟩
  rw [h]
  rintro d v e
  cases e
  exact hd

theorem notPrimary_type {E : P} {t : NodeType} {s m u : Str} (h1 : skip s = (typeText t).toList ++ m)
    (h2 : skip m = '(' :: u) : NotPrimary E s := by
  obtain ⟨c, v, e1, e2, _⟩ := (typeText_name t).cons
  have := char_ends h2 (by decide) (by decide)
  have hf := functionCall_none (E := E) (typeName_none (t := t) this.1 this.2)
  rw [e1] at hf h1
  exact notPrimary_name h1 e2 hf

theorem notPrimary_test {E : P} {t : NodeTest} (hok : t.Ok ns) {s r : Str} (h : Reads (testTokens t) s r)
    (hst : Stop 11 r) : NotPrimary E s := by
  cases t with
  | any =>
    simp only [testTokens] at h
    obtain ⟨m, e1, _⟩ := reads_char (c := '*') rfl (by decide) h
    exact notPrimary_char e1 (by decide) (by decide) (fun e => absurd e (by decide)) (functionCall_char (by decide))
      (by decide) (by decide)
  | anyIn p =>
    simp only [testTokens] at h
    simp only [NodeTest.Ok] at hok
    obtain ⟨c, v, q1, q2, _⟩ := hok.1.cons
    obtain ⟨m, e1, _⟩ := reads_next (t := { text := p ++ ":*".toList })
      ⟨c, v ++ ":*".toList, by rw [q1]; rfl, not_space_of_nameChar (nameChar_of_nameStart q2)⟩ h
    have hf := functionCall_none (E := E) (functionName_none (qName_none_colon (p := p) (s := '*' :: m) hok.1
      (by rintro d v e; cases e; decide)))
    have e2 : skip s = p ++ ':' :: '*' :: m := by rw [e1]; simp
    rw [q1] at hf e2
    exact notPrimary_name e2 q2 hf
  | name q =>
    simp only [testTokens] at h
    simp only [NodeTest.Ok] at hok
    obtain ⟨m, e1, _, e3, e4⟩ := reads_next (solid_nameTok hok) h
    cases reads_nil e4
    obtain ⟨c, v, q1, q2⟩ := solid_qText hok
    have hf := functionCall_noBracket (E := E) (qName_append hok (e3 rfl) hst.noColon) (fun c u e => hst.noBracket e)
    have e2 : skip s = qText q ++ r := e1
    rw [q1] at hf e2
    exact notPrimary_name e2 q2 hf
  | type t =>
    simp only [testTokens] at h
    obtain ⟨c, v, q1, q2, _⟩ := (typeText_name t).cons
    obtain ⟨m, e1, _, _, e4⟩ := reads_next (solid_sym (t := typeText t) q1 (not_space_of_nameChar (nameChar_of_nameStart q2))) h
    obtain ⟨u, f1, _⟩ := reads_char (c := '(') rfl (by decide) e4
    exact notPrimary_type e1 f1
  | target q t =>
    simp only [testTokens] at h
    obtain ⟨c, v, q1, q2, _⟩ := (typeText_name .pi).cons
    obtain ⟨m, e1, _, _, e4⟩ := reads_next (solid_sym (t := typeText .pi) q1 (not_space_of_nameChar (nameChar_of_nameStart q2))) h
    obtain ⟨u, f1, _⟩ := reads_char (c := '(') rfl (by decide) e4
    exact notPrimary_type (t := .pi) e1 f1

theorem notPrimary_step {E : P} {ax : AxisSpec} {t : NodeTest} (hok : t.Ok ns) {s r : Str}
    (h : Reads (axisTokens ax ++ testTokens t) s r) (hst : Stop 11 r) : NotPrimary E s := by
  cases ax with
  | child => exact notPrimary_test hok h hst
  | atSign =>
    simp only [axisTokens, List.cons_append] at h
    obtain ⟨m, e1, _⟩ := reads_char (c := '@') rfl (by decide) h
    exact notPrimary_char e1 (by decide) (by decide) (fun e => absurd e (by decide)) (functionCall_char (by decide))
      (by decide) (by decide)
  | named a =>
    simp only [axisTokens, List.cons_append] at h
    obtain ⟨c, v, q1, q2, _⟩ := (axisText_name a).cons
    obtain ⟨m, e1, _, _, e4⟩ := reads_next (solid_sym (t := axisText a) q1 (not_space_of_nameChar (nameChar_of_nameStart q2))) h
    obtain ⟨m2, e5, _, _, e6⟩ := reads_next (solid_sym (t := "::") (c := ':') (u := [':']) rfl (by decide)) e4
    have e5' : skip m = ':' :: ':' :: m2 := e5
    have e1' : skip s = (axisText a).toList ++ m := e1
    have hf : functionCall E ((axisText a).toList ++ m) = none := by
      cases m with
      | nil => cases e5'
      | cons d w =>
        by_cases hd : isSpace d = true
        · have he : Ends (d :: w) := ends_space_or e5' (by decide)
          have hc : NoColon (d :: w) := by
            rintro d' w' e rfl
            cases e
            revert hd
            decide
          refine functionCall_noBracket (qName_append (q := ⟨none, (axisText a).toList⟩) (ns := fun _ => none)
            ⟨axisText_name a, by rintro p e; cases e⟩ he hc) ?_
          rw [e5']
          rintro c u e
          cases e
          decide
        · have hd' : isSpace d = false := by simpa using hd
          rw [skip_cons hd'] at e5'
          cases e5'
          exact functionCall_none (functionName_none (qName_none_colon (axisText_name a)
            (by rintro d v e; cases e; decide)))
    rw [q1] at hf e1'
    exact notPrimary_name e1' q2 hf

theorem notPrimary_st {E : P} {st : St} {b : Bool} (hok : st.Ok ns) {s r : Str} (h : Reads (stTokens b st) s r)
    (hst : Stop 11 r) : NotPrimary E s := by
  cases st with
  | step ax t ps =>
    simp only [stTokens] at h
    simp only [St.Ok] at hok
    obtain ⟨m, e1, e2⟩ := reads_append.1 h
    exact notPrimary_step hok.1 e1 (preds_stop e2 hst)
  | self =>
    simp only [stTokens] at h
    obtain ⟨m, e1, _, e3, _⟩ := reads_char (c := '.') rfl (by decide) h
    cases reads_nil e3
    refine notPrimary_char e1 (by decide) (by decide) (fun _ d v e => ?_) (functionCall_char (by decide)) (by decide)
      (by decide)
    exact (hst.numEnds d v e).1
  | parent =>
    simp only [stTokens] at h
    obtain ⟨m, e1, _⟩ := reads_next (solid_sym (c := '.') (u := ['.']) rfl (by decide)) h
    have e1' : skip s = '.' :: '.' :: m := e1
    refine notPrimary_char e1' (by decide) (by decide) (fun _ d v e => ?_) (functionCall_char (by decide)) (by decide)
      (by decide)
    cases e
    decide

theorem notPrimary_rel {E : P} {x : Rel} {b : Bool} (hok : x.Ok ns) {s r : Str} (h : Reads (relTokens b x) s r)
    (hst : Stop 11 r) : NotPrimary E s := by
  cases x with
  | one st =>
    simp only [relTokens] at h
    simp only [Rel.Ok] at hok
    exact notPrimary_st hok h hst
  | cons st deep x =>
    simp only [relTokens] at h
    simp only [Rel.Ok] at hok
    obtain ⟨m, e1, e2⟩ := reads_append.1 h
    refine notPrimary_st hok.1 e1 ?_
    obtain ⟨m2, e3, _⟩ := reads_slash e2
    obtain ⟨u, hu⟩ := slashText_head deep m2
    intro c v e
    rw [e3, hu] at e
    cases e
    decide

/-! ## paths -/

theorem path_parses {E : P} {s r r1 : Str} {e : Ex} {ts : List Tree} {t : Tree} {x : Expr}
    (h : alt (filterPath E) (locationPath E) (skip s) = some (ts, r1)) (hr : skip r1 = skip r)
    (hg : group .pathExpr ts = [t]) (hp : Parsed ns e t x) : Parses ns (levelP E 9) s r e := by
  refine ⟨t, x, ?_, hp⟩
  have := rule_some (id := .pathExpr) (seq_some (discard_space s) (seq_some h (discard_space r1)))
  rw [List.nil_append, List.append_nil, hg, hr] at this
  exact this

theorem parse_rel {n : Nat} {x : Rel} {s r : Str} {b : Bool} (hok : x.Ok ns) (ih : RelAt ns x)
    (h : Reads (tokens b (.rel x)) s r) (hn : s.length ≤ n) (hst : Stop 9 r) :
    Parses ns (levelP (expr n) 9) s r (.rel x) := by
  simp only [tokens] at h
  obtain ⟨⟨c, u, c1, c2⟩, h2⟩ := rel_first hok h
  have l := skip_length s
  obtain ⟨t, r1, ss, e1, e2, e3, e4, e5⟩ := rel_close (ih n false (skip s) r h2 (by omega) (hst.mono (by omega))
    (.inr (skip_skip s))) hst
  refine path_parses (ts := [t]) (t := t) (x := .path false ss) (r1 := r1) ?_ e2 rfl ⟨e3.good, ?_, ?_, ?_, ?_⟩
  · refine (alt_right (filterPath_none (notPrimary_rel hok h (hst.mono (by omega))))).trans ?_
    have hns : ∀ id w, lit id ('/' :: w) (skip s) = none := by
      intro id w
      refine lit_none_head ?_
      rw [c1]
      rintro d v e
      cases e
      rcases c2 with h | rfl | rfl | rfl
      · exact (nameStart_ne h (by decide)).symm
      all_goals decide
    exact (alt_right (rule_none (alt_none (rule_none (seq_none_left (hns _ _))) (seq_none_left (hns _ _))))).trans e1
  · simp only [flat, meaning, e4]
  · intro hid
    rw [e5 hid]
    rfl
  · intro hid
    exact absurd hid e3.notLiteral
  · intro hid
    exact absurd hid e3.notSlash

theorem slash_notPrimary {E : P} {s u : Str} (e : skip s = '/' :: u) : NotPrimary E s :=
  notPrimary_char e (by decide) (by decide) (fun e => absurd e (by decide)) (functionCall_char (by decide)) (by decide)
    (by decide)

theorem parse_root {E : P} {s r : Str} {b : Bool} (h : Reads (tokens b .root) s r) (hst : Stop 9 r) (hcl : Clear .root r) :
    Parses ns (levelP E 9) s r .root := by
  simp only [tokens] at h
  obtain ⟨m, e1, _, e3, _⟩ := reads_char (c := '/') rfl (by decide) h
  cases reads_nil e3
  refine path_parses (ts := [slashTree]) (t := slashTree) (x := .path true [.test .self .root []]) (r1 := r) ?_ rfl rfl
    ⟨good_root, rfl, ?_, ?_, fun _ => rfl⟩
  · refine (alt_right (filterPath_none (slash_notPrimary e1))).trans ?_
    rw [e1]
    refine alt_left ?_
    have hns : ∀ c u, r = c :: u → c ≠ '/' := by
      refine head_skip (by decide) ?_
      rintro c u e rfl
      have := hst '/' u e
      revert this
      decide
    have hst' : step E r = none := by
      refine step_none ?_
      intro c u e hc
      have h1 := hcl rfl c u e
      have h2 := rank_cases (c := c) (by have := hst c u e; omega)
      have h3 := hst c u e
      simp only [List.mem_cons, List.not_mem_nil, or_false, not_or] at h1 h2
      obtain ⟨n1, n2, n3, n4, n5⟩ := h1
      rcases h2 with rfl | rfl | rfl | rfl | rfl | rfl | rfl | rfl | rfl | rfl | rfl | rfl | rfl | rfl | rfl | rfl | rfl | rfl
      all_goals first
        | exact absurd rfl n1
        | exact absurd rfl n2
        | exact absurd rfl n3
        | exact absurd rfl n4
        | exact absurd rfl n5
        | (unfold stepChar at hc; revert hc; decide)
    have h1 : abbreviatedAbsoluteLocationPath E ('/' :: r) = none := rule_none (seq_none_left (slashSlash_none hns))
    have h2 : slash ('/' :: r) = some ([slashTree], r) := lit_append .slash ['/'] r
    have h3 : opt (relativeLocationPath E) r = some ([], r) := opt_none (rule_none (seq_none_left hst'))
    exact rule_some (id := .absoluteLocationPath) ((alt_right h1).trans (seq_some h2 h3))
  all_goals (intro e; cases e)

theorem parse_abs {n : Nat} {deep : Bool} {x : Rel} {s r : Str} {b : Bool} (hok : x.Ok ns) (ih : RelAt ns x)
    (h : Reads (tokens b (.abs deep x)) s r) (hn : s.length ≤ n) (hst : Stop 9 r) :
    Parses ns (levelP (expr n) 9) s r (.abs deep x) := by
  simp only [tokens] at h
  obtain ⟨m, e1, _, e3, l3⟩ := reads_slash h
  obtain ⟨t, r1, ss, f1, f2, f3, f4, f5⟩ := rel_close (ih n true m r e3 (by omega) (hst.mono (by omega)) (.inl rfl)) hst
  have hns := rel_noSlash hok e3
  obtain ⟨u, hu⟩ := slashText_head deep m
  have key : ∃ id, (id = Id.absoluteLocationPath ∨ id = Id.abbreviatedAbsoluteLocationPath) ∧
      absoluteLocationPath (expr n) (slashText deep ++ m) = some ([.node id [] [sepTree deep, t]], r1) := by
    cases deep with
    | false =>
      refine ⟨.absoluteLocationPath, .inl rfl, ?_⟩
      have h1 : abbreviatedAbsoluteLocationPath (expr n) ('/' :: m) = none :=
        rule_none (seq_none_left (slashSlash_none hns))
      have h2 : slash ('/' :: m) = some ([slashTree], m) := lit_append .slash ['/'] m
      exact rule_some (id := .absoluteLocationPath) ((alt_right h1).trans (seq_some h2 (opt_some f1)))
    | true =>
      refine ⟨.abbreviatedAbsoluteLocationPath, .inr rfl, ?_⟩
      have h2 : slashSlash ('/' :: '/' :: m) = some ([deepTree], m) := lit_append .slashSlash ['/', '/'] m
      have h1 := rule_some (id := .abbreviatedAbsoluteLocationPath) (seq_some h2 f1)
      exact rule_some (id := .absoluteLocationPath) (alt_left h1)
  obtain ⟨id, hid, hk⟩ := key
  refine path_parses (ts := [.node id [] [sepTree deep, t]]) (t := .node id [] [sepTree deep, t])
    (x := .path true (deepStep deep ++ ss)) (r1 := r1) ?_ f2 rfl ⟨good_abs hid f3, ?_, ?_, ?_, ?_⟩
  · refine (alt_right (filterPath_none (slash_notPrimary (e1.trans hu)))).trans ?_
    rw [e1]
    exact alt_left hk
  · simp only [flat, meaning, flatSteps_append, f4]
  all_goals
    intro e
    rcases hid with rfl | rfl <;> cases e

theorem parse_path {n : Nat} {h₀ : Ex} {deep : Bool} {x : Rel} {s r : Str} {b : Bool} (hok : x.Ok ns)
    (hl : 10 ≤ level h₀) (hbr : bareRoot h₀ = false) (ihh : MainAt ns h₀) (ih : RelAt ns x)
    (h : Reads (tokens b (.path h₀ deep x)) s r) (hn : s.length ≤ n) (hst : Stop 9 r) :
    Parses ns (levelP (expr n) 9) s r (.path h₀ deep x) := by
  simp only [tokens] at h
  obtain ⟨m, e1, e2⟩ := reads_append.1 h
  obtain ⟨m2, e3, _, e5, l5⟩ := reads_slash e2
  have l1 := reads_length e1
  obtain ⟨u, hu⟩ := slashText_head deep m2
  have hsm : Stop 10 m := by
    intro c v e
    rw [e3, hu] at e
    cases e
    decide
  have hcl : Clear h₀ m := by
    intro _ c v e
    rw [e3, hu] at e
    cases e
    decide
  obtain ⟨t₀, x₀, g1, g2⟩ := (ihh n false s m e1 hn hcl).closed 10 (by omega) hl hsm
  obtain ⟨t, r1, ss, f1, f2, f3, f4, f5⟩ := rel_close (ih n true m2 r e5 (by omega) (hst.mono (by omega)) (.inl rfl)) hst
  have hid : t₀.id ≠ .slash := by
    intro e
    rw [g2.root e] at hbr
    cases hbr
  obtain ⟨y, k1, k2⟩ := good_path (deep := deep) g2.good hid f3 g2.same f4
  refine path_parses (ts := [t₀, sepTree deep, t]) (t := .node .pathExpr [] [t₀, sepTree deep, t]) (x := y) (r1 := r1)
    ?_ f2 rfl ⟨k1, ?_, ?_, ?_, ?_⟩
  · refine alt_left ?_
    have h1 : filterExpr (expr n) (skip s) = some ([t₀], skip m) := by
      rw [show filterExpr (expr n) (skip s) = filterExpr (expr n) s from levelP_skip _ 10 (by omega) (by omega) s]
      exact g1
    rw [e3] at h1
    exact seq_some h1 (opt_some (seq_some (sep_some (rel_noSlash hok e5)) f1))
  · rw [k2]
    simp only [meaning]
  all_goals (intro e; cases e)

/-! ## operators -/

theorem main_bin {op : Op} {a c : Ex} (ha : a.Ok ns) (hc : c.Ok ns) (h1 : opLevel op ≤ level a) (h2 : opLevel op < level c)
    (h3 : op.nameLike = true → endsInSlash a = false) (iha : MainAt ns a) (ihc : MainAt ns c) :
    MainAt ns (.bin op a c) := by
  intro n b s r h hn hcl
  simp only [tokens] at h
  obtain ⟨m, e1, e2⟩ := reads_append.1 h
  have hop : ∃ d v, (opText op).text = d :: v ∧ isSpace d = false ∧ rank d = opLevel op ∧
      (op.nameLike = false → d ∉ ['o', 'a', '*', 'd', 'm']) := by
    cases op <;> exact ⟨_, _, rfl, by decide, by decide, by decide⟩
  obtain ⟨d, v, d1, d2, d3, d4⟩ := hop
  obtain ⟨m2, e3, _, _, e4⟩ := reads_next ⟨d, v, d1, d2⟩ e2
  have hskm : skip m = d :: (v ++ m2) := by rw [e3, d1]; rfl
  have l1 := reads_length e1
  have l2 : m2.length < m.length := by
    have := skip_length m
    rw [hskm] at this
    simp at this
    omega
  have hsm : Stop (opLevel op + 1) m := by
    intro c' v' e
    rw [hskm] at e
    cases e
    omega
  have hclm : Clear a m := by
    intro hs c' v' e
    rw [hskm] at e
    cases e
    refine d4 ?_
    cases hnl : op.nameLike with
    | false => rfl
    | true => rw [h3 hnl] at hs; cases hs
  have hclr : Clear c r := fun hs => hcl (by simpa only [endsInSlash] using hs)
  have pa := iha n false s m e1 hn hclm
  have pc := ihc n false m2 r e4 (by omega) hclr
  have heq : ∀ c' u, m2 = c' :: u → c' ≠ '=' := by
    refine head_skip (by decide) ?_
    obtain ⟨c', u, q1, q2, _⟩ := ex_first hc e4
    rintro c'' u' e
    rw [q1] at e
    cases e
    exact startChar_ne q2 (by decide)
  have hopen : Stop (opLevel op + 1) r →
      Open ns (levelP (expr n) (opLevel op + 1)) (opsP (opLevel op)) s r (.bin op a c) := by
    intro hsr
    have o1 := pa.opened (opLevel op) (opLevel_bin op) h1 hsm
    exact open_snoc o1 e3 heq (pc.closed (opLevel op + 1) (by omega) (by omega) hsr) (reads_length e4)
  refine pack_of ?_ ?_ ?_ ?_
  · intro hs
    exact open_close (opLevel_bin op) (hopen (hs.mono (by simp [level]))) hs
  · intro _ hs
    exact hopen hs
  · intro h8
    refine ex_notMinus ha e1 ?_
    simp only [level] at h8
    omega
  · intro h7
    simp only [level] at h7
    cases op <;> simp [opLevel] at h7

theorem main_neg {e : Ex} (hl : 7 ≤ level e) (ih : MainAt ns e) : MainAt ns (.neg e) := by
  intro n b s r h hn hcl
  simp only [tokens] at h
  obtain ⟨m, e1, e2, e3, l3⟩ := reads_char (c := '-') rfl (by decide) h
  have p := ih n true m r e3 (by omega) (fun hs => hcl (by simpa only [endsInSlash] using hs))
  refine pack_signs rfl (fun hs => ?_) ?_
  · rw [e1]
    exact signs_cons (p.signs hl hs (.inl rfl))
  · rintro (hb | hb)
    · rw [e1]; exact (e2 hb).symm
    · exact hb

/-! ## all together -/

mutual

theorem main_at (e : Ex) (hok : e.Ok ns) : MainAt ns e := by
  match e with
  | .num t =>
    intro n b s r h hn hcl
    exact pack_tight (by simp [level]) (fun hs => parse_num (by simpa only [Ex.Ok] using hok) h hs)
      (ex_notMinus hok h (by simp [level]))
  | .lit q t =>
    intro n b s r h hn hcl
    exact pack_tight (by simp [level]) (fun hs => parse_lit (by simpa only [Ex.Ok] using hok) h)
      (ex_notMinus hok h (by simp [level]))
  | .var q =>
    intro n b s r h hn hcl
    exact pack_tight (by simp [level]) (fun hs => parse_var (by simpa only [Ex.Ok] using hok) h hs)
      (ex_notMinus hok h (by simp [level]))
  | .call f .nil =>
    intro n b s r h hn hcl
    refine pack_tight (by simp [level]) (fun hs => ?_) (ex_notMinus hok h (by simp [level]))
    simp only [Ex.Ok] at hok
    exact parse_call hok.1 hok.2.1 (.inl rfl) h hn
  | .call f (.cons e es) =>
    intro n b s r h hn hcl
    refine pack_tight (by simp [level]) (fun hs => ?_) (ex_notMinus hok h (by simp [level]))
    simp only [Ex.Ok, Exs.Ok, Exs.Apart] at hok
    exact parse_call hok.1 hok.2.1 (.inr ⟨e, es, rfl, main_at e hok.2.2.1.1, more_at es hok.2.2.1.2 hok.2.2.2.2,
      hok.2.2.2.1⟩) h hn
  | .paren e =>
    intro n b s r h hn hcl
    refine pack_tight (by simp [level]) (fun hs => ?_) (ex_notMinus hok h (by simp [level]))
    exact parse_paren (main_at e (by simpa only [Ex.Ok] using hok)) h hn
  | .filter e ps =>
    intro n b s r h hn hcl
    refine pack_tight (by simp [level]) (fun hs => ?_) (ex_notMinus hok h (by simp [level]))
    simp only [Ex.Ok] at hok
    exact parse_filter (main_at e hok.1) (preds_at ps hok.2.1) hok.2.2.1 hok.2.2.2 h hn hs
  | .path h₀ deep x =>
    intro n b s r h hn hcl
    refine pack_tight (by simp [level]) (fun hs => ?_) (ex_notMinus hok h (by simp [level]))
    simp only [Ex.Ok] at hok
    exact parse_path hok.2.1 hok.2.2.1 hok.2.2.2 (main_at h₀ hok.1) (rel_at x hok.2.1) h hn hs
  | .rel x =>
    intro n b s r h hn hcl
    refine pack_tight (by simp [level]) (fun hs => ?_) (ex_notMinus hok h (by simp [level]))
    simp only [Ex.Ok] at hok
    exact parse_rel hok (rel_at x hok) h hn hs
  | .root =>
    intro n b s r h hn hcl
    exact pack_tight (by simp [level]) (fun hs => parse_root h hs hcl) (ex_notMinus hok h (by simp [level]))
  | .abs deep x =>
    intro n b s r h hn hcl
    refine pack_tight (by simp [level]) (fun hs => ?_) (ex_notMinus hok h (by simp [level]))
    simp only [Ex.Ok] at hok
    exact parse_abs hok (rel_at x hok) h hn hs
  | .neg e =>
    simp only [Ex.Ok] at hok
    exact main_neg hok.2 (main_at e hok.1)
  | .bin op a c =>
    simp only [Ex.Ok] at hok
    exact main_bin hok.1 hok.2.1 hok.2.2.1 hok.2.2.2.1 hok.2.2.2.2 (main_at a hok.1) (main_at c hok.2.1)

theorem preds_at (es : Exs) (hok : es.Ok ns) : PredsAt ns es := by
  match es with
  | .nil => exact preds_nil
  | .cons e es =>
    simp only [Exs.Ok] at hok
    exact preds_cons (main_at e hok.1) (preds_at es hok.2)

theorem more_at (es : Exs) (hok : es.Ok ns) (ha : es.Apart) : MoreAt ns es := by
  match es with
  | .nil => exact more_nil
  | .cons e es =>
    simp only [Exs.Ok] at hok
    simp only [Exs.Apart] at ha
    exact more_cons (main_at e hok.1) (more_at es hok.2 ha.2) ha.1

theorem st_at (st : St) (hok : st.Ok ns) : StAt ns st := by
  match st with
  | .step ax t ps =>
    simp only [St.Ok] at hok
    exact st_step hok.1 (preds_at ps hok.2)
  | .self => exact st_self
  | .parent => exact st_parent

theorem rel_at (x : Rel) (hok : x.Ok ns) : RelAt ns x := by
  match x with
  | .one st =>
    simp only [Rel.Ok] at hok
    exact rel_one (st_at st hok)
  | .cons st deep x =>
    simp only [Rel.Ok] at hok
    exact rel_cons hok.2 (st_at st hok.1) (rel_at x hok.2)

end

theorem parseExpr_of {s : Str} {t : Tree} (h : expr (s.length + 1) s = some ([t], [])) : parseExpr s = some t := by
  unfold parseExpr
  generalize expr (s.length + 1) s = y at h
  subst h
  rfl

theorem compileExpr_of {s : Str} {t : Tree} {x : Expr} (h : parseExpr s = some t) (hx : cC ns t.size [t] = .ok x) :
    compileExpr ns s = .ok x := by
  unfold compileExpr
  generalize parseExpr s = y at h
  subst h
  exact hx

theorem compile_reads {e : Ex} (hok : e.Ok ns) {s r : Str} (h : Reads (tokens false e) s r)
    (hr : r.all isWhite = true) : ∃ x, compileExpr ns s = .ok x ∧ flat x = flat (meaning ns e) := by
  have hsk : skip r = [] := by
    have := skip_white (s := []) (all_space_of_white hr)
    rwa [List.append_nil, skip_nil] at this
  have hst : ∀ k, Stop k r := by
    intro k c u e
    rw [hsk] at e
    cases e
  have hcl : Clear e r := by
    intro _ c u e
    rw [hsk] at e
    cases e
  obtain ⟨t, x, e1, e2⟩ := (main_at e hok s.length false s r h (by omega) hcl).closed 1 (by omega) (level_pos e) (hst 1)
  refine ⟨x, ?_, e2.same⟩
  rw [hsk] at e1
  have e3 : expr (s.length + 1) s = some ([t], []) := by rw [expr]; exact e1
  have e4 : parseExpr s = some t := parseExpr_of e3
  have e5 : cC ns t.size [t] = .ok x :=
    e2.good.comp t.size (Nat.le_refl _) [] (by intro _ t us e; cases e)
  exact compileExpr_of e4 e5

end Verif.XPathParse
