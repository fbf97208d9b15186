import Verif.Lemmas.XPathParseLevel
set_option autoImplicit false
set_option linter.unusedSimpArgs false
set_option linter.unusedVariables false
namespace Verif.XPathParse

variable {ns : Str → Option Str}

/-! ## the first character -/

def startChar (c : Char) : Bool :=
  nameStart c || isDigit c || ['*', '@', '.', '/', '$', '(', '"', '\'', '-'].contains c

theorem startChar_ne {c d : Char} (h : startChar c = true) (hd : startChar d = false) : c ≠ d := by
  rintro rfl
  rw [h] at hd
  cases hd

theorem startChar_space {c : Char} (h : startChar c = true) : isSpace c = false := by
  cases hs : isSpace c with
  | false => rfl
  | true =>
    have := space_cases hs
    simp only [List.mem_cons, List.not_mem_nil, or_false] at this
    rcases this with rfl | rfl | rfl | rfl | rfl | rfl <;> (revert h; decide)

/-- The first token. -/
def Head (ts : List Tok) (p : Char → Prop) : Prop := ∃ k us c u, ts = k :: us ∧ k.text = c :: u ∧ p c

theorem Head.append {ts us : List Tok} {p : Char → Prop} (h : Head ts p) : Head (ts ++ us) p := by
  obtain ⟨k, vs, c, u, rfl, h2, h3⟩ := h
  exact ⟨k, vs ++ us, c, u, rfl, h2, h3⟩

theorem Head.mono {ts : List Tok} {p q : Char → Prop} (h : Head ts p) (hpq : ∀ c, p c → q c) : Head ts q := by
  obtain ⟨k, vs, c, u, h1, h2, h3⟩ := h
  exact ⟨k, vs, c, u, h1, h2, hpq c h3⟩

theorem head_sym {t : String} {b : Bool} {ts : List Tok} {c : Char} {u : Str} {p : Char → Prop} (h : t.toList = c :: u)
    (hp : p c) : Head (sym t b :: ts) p := ⟨_, _, c, u, rfl, h, hp⟩

/-- What a step may start with. -/
def stepChar (c : Char) : Prop := nameStart c = true ∨ c = '*' ∨ c = '@' ∨ c = '.'

theorem test_head {t : NodeTest} (hok : t.Ok ns) (ps : List Tok) : Head (testTokens t ++ ps) stepChar := by
  obtain ⟨k, ts, c, u, h1, h2, h3⟩ := testTokens_head hok
  exact Head.append ⟨k, ts, c, u, h1, h2, h3.imp id .inl⟩

theorem axisText_head (a : Axis) : ∃ c u, (axisText a).toList = c :: u ∧ nameStart c = true := by
  obtain ⟨c, u, h1, h2, _⟩ := (axisText_name a).cons
  exact ⟨c, u, h1, h2⟩

theorem st_head {b : Bool} {st : St} (hok : st.Ok ns) : Head (stTokens b st) stepChar := by
  cases st with
  | step ax t ps =>
    simp only [St.Ok] at hok
    simp only [stTokens, List.append_assoc]
    cases ax with
    | child => exact test_head hok.1 _
    | atSign => exact head_sym (c := '@') (u := []) rfl (.inr (.inr (.inl rfl)))
    | named a =>
      obtain ⟨c, u, h1, h2⟩ := axisText_head a
      exact head_sym h1 (.inl h2)
  | self => exact head_sym (c := '.') (u := []) rfl (.inr (.inr (.inr rfl)))
  | parent => exact head_sym (c := '.') (u := ['.']) rfl (.inr (.inr (.inr rfl)))

theorem rel_head {b : Bool} {r : Rel} (hok : r.Ok ns) : Head (relTokens b r) stepChar := by
  cases r with
  | one st => simp only [Rel.Ok] at hok; simp only [relTokens]; exact st_head hok
  | cons st deep r => simp only [Rel.Ok] at hok; simp only [relTokens]; exact (st_head hok.1).append

theorem stepChar_start {c : Char} (h : stepChar c) : startChar c = true ∧ c ≠ '-' := by
  rcases h with h | rfl | rfl | rfl
  · exact ⟨by simp [startChar, h], nameStart_ne h (by decide)⟩
  all_goals decide

theorem digit_start {c : Char} (h : isDigit c = true) : startChar c = true ∧ c ≠ '-' := by
  refine ⟨by simp [startChar, h], ?_⟩
  rintro rfl
  revert h
  decide

theorem slash_head {deep b : Bool} {ts : List Tok} : Head (slashTok deep b :: ts) (fun c => c = '/') := by
  cases deep
  · exact head_sym (c := '/') (u := []) rfl rfl
  · exact head_sym (c := '/') (u := ['/']) rfl rfl

theorem num_head {t : Str} (h : Num t) : ∃ c u, t = c :: u ∧ (isDigit c = true ∨ c = '.') := by
  obtain ⟨a, b, ha, hb, h⟩ := h
  have key : ∀ w : Str, a ≠ [] → ∃ c u, a ++ w = c :: u ∧ (isDigit c = true ∨ c = '.') := by
    intro w hne
    cases a with
    | nil => exact absurd rfl hne
    | cons c u =>
      refine ⟨c, u ++ w, rfl, .inl ?_⟩
      rw [isDigit_eq]
      simp only [List.all_cons, Bool.and_eq_true] at ha
      exact ha.1
  rcases h with ⟨rfl, hne⟩ | ⟨rfl, hne⟩ | ⟨rfl, hne⟩
  · have := key [] hne
    rwa [List.append_nil] at this
  · exact key _ hne
  · exact ⟨'.', b, rfl, .inr rfl⟩

theorem tokens_head (e : Ex) {b : Bool} (hok : e.Ok ns) :
    Head (tokens b e) (fun c => startChar c = true ∧ (8 ≤ level e → c ≠ '-')) := by
  match e with
  | .num t =>
    obtain ⟨c, u, h1, h2⟩ := num_head (by simpa only [Ex.Ok] using hok)
    refine ⟨_, _, c, u, rfl, h1, ?_⟩
    rcases h2 with h2 | rfl
    · exact ⟨(digit_start h2).1, fun _ => (digit_start h2).2⟩
    · exact ⟨by decide, fun _ => by decide⟩
  | .lit q t =>
    have : Quoted q t := by simpa only [Ex.Ok] using hok
    refine ⟨_, _, q, t ++ [q], rfl, rfl, ?_⟩
    rcases this.1 with rfl | rfl <;> exact ⟨by decide, fun _ => by decide⟩
  | .var q => exact ⟨_, _, '$', qText q, rfl, rfl, by decide, fun _ => by decide⟩
  | .call f args =>
    obtain ⟨c, u, h1, h2⟩ := solid_qText (ns := ns) (q := f) (by simp only [Ex.Ok] at hok; exact hok.1)
    refine ⟨_, _, c, u, rfl, h1, ?_⟩
    have := stepChar_start (c := c) (.inl h2)
    exact ⟨this.1, fun _ => this.2⟩
  | .paren e => exact head_sym (c := '(') (u := []) rfl ⟨by decide, fun _ => by decide⟩
  | .filter e ps =>
    simp only [Ex.Ok] at hok
    simp only [tokens]
    refine Head.mono (Head.append (tokens_head e hok.1)) (fun c h => ⟨h.1, fun _ => h.2 (by omega)⟩)
  | .path h deep r =>
    simp only [Ex.Ok] at hok
    simp only [tokens]
    refine Head.mono (Head.append (tokens_head h hok.1)) (fun c h => ⟨h.1, fun _ => h.2 (by omega)⟩)
  | .rel r =>
    simp only [Ex.Ok] at hok
    simp only [tokens]
    exact Head.mono (rel_head hok) (fun c h => ⟨(stepChar_start h).1, fun _ => (stepChar_start h).2⟩)
  | .root => exact head_sym (c := '/') (u := []) rfl ⟨by decide, fun _ => by decide⟩
  | .abs deep r =>
    simp only [tokens]
    exact Head.mono slash_head (by rintro c rfl; exact ⟨by decide, fun _ => by decide⟩)
  | .neg e => exact head_sym (c := '-') (u := []) rfl ⟨by decide, fun h => by simp [level] at h⟩
  | .bin op a c =>
    simp only [Ex.Ok] at hok
    simp only [tokens]
    refine Head.mono (Head.append (tokens_head a hok.1)) (fun c h => ⟨h.1, fun h8 => h.2 ?_⟩)
    simp only [level] at h8
    omega

theorem reads_head {ts : List Tok} {p : Char → Prop} (hh : Head ts p) (hp : ∀ c, p c → isSpace c = false) {s r : Str}
    (h : Reads ts s r) : (∃ c u, skip s = c :: u ∧ p c) ∧ Reads ts (skip s) r := by
  obtain ⟨k, us, c, u, rfl, h2, h3⟩ := hh
  have hk : k.Solid := ⟨c, u, h2, hp c h3⟩
  obtain ⟨m, e1, _⟩ := reads_next hk h
  rw [h2] at e1
  exact ⟨⟨c, u ++ m, e1, h3⟩, reads_skip hk h⟩

/-- If a string starts with a character that is not white space, so it does without the white space. -/
theorem head_skip {s : Str} {d : Char} (hd : isSpace d = false) (h : ∀ c u, skip s = c :: u → c ≠ d) :
    ∀ c u, s = c :: u → c ≠ d := by
  rintro c u rfl rfl
  exact h c u (skip_cons hd) rfl

theorem ex_first {e : Ex} {b : Bool} {s r : Str} (hok : e.Ok ns) (h : Reads (tokens b e) s r) :
    ∃ c u, skip s = c :: u ∧ startChar c = true ∧ (8 ≤ level e → c ≠ '-') :=
  (reads_head (tokens_head e hok) (fun c h => startChar_space h.1) h).1

theorem ex_notMinus {e : Ex} {b : Bool} {s r : Str} (hok : e.Ok ns) (h : Reads (tokens b e) s r) (hl : 8 ≤ level e) :
    NotMinus s := by
  obtain ⟨c, u, e1, e2, e3⟩ := ex_first hok h
  intro d v e4
  rw [e1] at e4
  cases e4
  exact e3 hl

theorem stepChar_space {c : Char} (h : stepChar c) : isSpace c = false := startChar_space (stepChar_start h).1

theorem rel_first {x : Rel} {b : Bool} {s r : Str} (hok : x.Ok ns) (h : Reads (relTokens b x) s r) :
    (∃ c u, skip s = c :: u ∧ stepChar c) ∧ Reads (relTokens b x) (skip s) r :=
  reads_head (rel_head hok) (fun c h => stepChar_space h) h

theorem rel_noSlash {x : Rel} {b : Bool} {s r : Str} (hok : x.Ok ns) (h : Reads (relTokens b x) s r) :
    ∀ c u, s = c :: u → c ≠ '/' := by
  refine head_skip (by decide) ?_
  obtain ⟨⟨c, u, e1, e2⟩, _⟩ := rel_first hok h
  intro d v e3
  rw [e1] at e3
  cases e3
  rcases e2 with h | rfl | rfl | rfl
  · exact nameStart_ne h (by decide)
  all_goals decide

/-! ## primary expressions -/

def primaryInner (E : P) : P := alt variableReference (alt number (alt (functionCall E) (alt (bracketed E) literal)))

theorem primary_parses {E : P} {s m r : Str} {e : Ex} {ts : List Tree} {t : Tree} {x : Expr}
    (h : primaryInner E (skip s) = some (ts, m)) (hm : skip m = skip r) (hg : group .primaryExpr ts = [t])
    (hp : Parsed ns e t x) : Parses ns (levelP E 11) s r e := by
  refine ⟨t, x, ?_, hp⟩
  have := rule_some (id := .primaryExpr) (seq_some (discard_space s) (seq_some h (discard_space m)))
  rw [List.nil_append, List.append_nil, hg, hm] at this
  exact this

theorem variable_none {s : Str} (h : ∀ c u, s = c :: u → c ≠ '$') : variableReference s = none :=
  rule_none (seq_none_left (lit_none_head (fun c u e => (h c u e).symm)))

theorem functionName_none {s : Str} (h : qName s = none) : functionName s = none := by
  simp [functionName, minus, h]

theorem functionCall_none {E : P} {s : Str} (h : functionName s = none) : functionCall E s = none :=
  rule_none (seq_none_left h)

theorem functionCall_noBracket {E : P} {s r : Str} {ts : List Tree} (h : qName s = some (ts, r))
    (hb : ∀ c u, skip r = c :: u → c ≠ '(') : functionCall E s = none := by
  cases hf : functionName s with
  | none => exact functionCall_none hf
  | some x =>
    have : x = (ts, r) := by
      simp only [functionName, minus, h] at hf
      cases hn : nodeType s with
      | none => rw [hn] at hf; simpa using hf.symm
      | some y =>
        rw [hn] at hf
        simp only at hf
        split at hf
        · simpa using hf.symm
        · cases hf
    subst this
    exact rule_none (seq_none_right hf (seq_none_right (space_eq r)
      (seq_none_left (lit_none_head (fun c u e => (hb c u e).symm)))))

theorem functionCall_char {E : P} {c : Char} {u : Str} (h : nameStart c = false) : functionCall E (c :: u) = none :=
  functionCall_none (functionName_none (qName_none (by rintro d v e; cases e; exact h)))

theorem bracketed_none {E : P} {s : Str} (h : ∀ c u, s = c :: u → c ≠ '(') : bracketed E s = none :=
  seq_none_left (leftBracket_none h)

theorem number_char {c : Char} {u : Str} (h : isDigit c = false) (h2 : c ≠ '.') : number (c :: u) = none := by
  refine number_none ?_
  rintro d v e
  cases e
  exact ⟨h, fun e => absurd e h2⟩

theorem reads_nil {s r : Str} (h : Reads [] s r) : s = r := by cases h; rfl

theorem parse_num {E : P} {t s r : Str} {b : Bool} (ht : Num t) (h : Reads (tokens b (.num t)) s r) (hs : Stop 11 r) :
    Parses ns (levelP E 11) s r (.num t) := by
  obtain ⟨c, u, h1, h2⟩ := num_head ht
  have hsp : isSpace c = false := by
    rcases h2 with h2 | rfl
    · exact startChar_space (digit_start h2).1
    · decide
  simp only [tokens] at h
  obtain ⟨m, e1, _, _, e4⟩ := reads_next ⟨c, u, h1, hsp⟩ h
  cases reads_nil e4
  obtain ⟨id, hid, e5⟩ := number_append ht hs.numEnds
  refine primary_parses (ts := [.node id t []]) (m := r) (t := .node id t []) (x := .number t) ?_ rfl rfl
    ⟨good_number hid t, rfl, ?_, ?_, ?_⟩
  · rw [e1]
    refine (alt_right (variable_none ?_)).trans (alt_left e5)
    rw [h1]
    rintro d v e rfl
    cases e
    rcases h2 with h2 | h2
    · revert h2; decide
    · revert h2; decide
  all_goals
    intro e
    rcases hid with rfl | rfl <;> cases e

theorem parse_lit {E : P} {q : Char} {t s r : Str} {b : Bool} (ht : Quoted q t) (h : Reads (tokens b (.lit q t)) s r) :
    Parses ns (levelP E 11) s r (.lit q t) := by
  simp only [tokens] at h
  have hq : q = '"' ∨ q = '\'' := ht.1
  obtain ⟨m, e1, _, _, e4⟩ := reads_next ⟨q, t ++ [q], rfl, by rcases hq with rfl | rfl <;> decide⟩ h
  cases reads_nil e4
  refine primary_parses (ts := [.node .literal t []]) (m := r) (t := .node .literal t []) (x := .string t) ?_ rfl rfl
    ⟨good_literal t, rfl, ?_, fun _ => rfl, ?_⟩
  · rw [e1]
    have hc : ∀ d : Char, d ≠ '"' → d ≠ '\'' → ∀ c u, (q :: t ++ [q] ++ r : Str) = c :: u → c ≠ d := by
      intro d h1 h2 c u e
      cases e
      rcases hq with rfl | rfl
      · exact h1.symm
      · exact h2.symm
    refine (alt_right (variable_none (hc '$' (by decide) (by decide)))).trans ?_
    refine (alt_right (number_char ?_ ?_)).trans ?_
    · rcases hq with rfl | rfl <;> decide
    · rcases hq with rfl | rfl <;> decide
    refine (alt_right (functionCall_char ?_)).trans ?_
    · rcases hq with rfl | rfl <;> decide
    exact (alt_right (bracketed_none (hc '(' (by decide) (by decide)))).trans (literal_append ht)
  all_goals (intro e; cases e)

theorem parse_var {E : P} {q : QName} {s r : Str} {b : Bool} (hq : q.Ok ns) (h : Reads (tokens b (.var q)) s r)
    (hs : Stop 11 r) : Parses ns (levelP E 11) s r (.var q) := by
  simp only [tokens] at h
  obtain ⟨m, e1, _, e3, e4⟩ := reads_next (t := nameTok ('$' :: qText q)) ⟨'$', qText q, rfl, by decide⟩ h
  cases reads_nil e4
  refine primary_parses (ts := [.node .variableReference [] [.node .variableReference ['$'] [], qTree q]]) (m := r)
    (t := .node .variableReference [] [.node .variableReference ['$'] [], qTree q]) ?_ rfl rfl
    ⟨good_variable hq _, rfl, ?_, ?_, ?_⟩
  · rw [e1]
    refine alt_left ?_
    exact rule_some (id := .variableReference) (seq_some (lit_append .variableReference ['$'] (qText q ++ r))
      (qName_append hq (e3 rfl) hs.noColon))
  all_goals (intro e; cases e)

/-! ## nesting -/

/-- After an expression that ends in a `/` there is no name. -/
def Clear (e : Ex) (r : Str) : Prop :=
  endsInSlash e = true → ∀ c u, skip r = c :: u → c ∉ ['o', 'a', '*', 'd', 'm']

/-- A closing bracket or a comma comes next. -/
def Closing (r : Str) : Prop := ∃ c u, skip r = c :: u ∧ rank c = 0

theorem Closing.stop {r : Str} (h : Closing r) {k : Nat} (hk : 1 ≤ k) : Stop k r := by
  obtain ⟨c, u, e1, e2⟩ := h
  intro d v e3
  rw [e1] at e3
  cases e3
  omega

theorem Closing.clear {r : Str} (h : Closing r) (e : Ex) : Clear e r := by
  obtain ⟨c, u, e1, e2⟩ := h
  intro _ d v e3 hm
  rw [e1] at e3
  cases e3
  simp only [List.mem_cons, List.not_mem_nil, or_false] at hm
  rcases hm with rfl | rfl | rfl | rfl | rfl <;> (revert e2; decide)

def MainAt (ns : Str → Option Str) (e : Ex) : Prop :=
  ∀ n b s r, Reads (tokens b e) s r → s.length ≤ n → Clear e r → Pack ns (expr n) b e s r

theorem level_pos (e : Ex) : 1 ≤ level e := by
  cases e with
  | bin op a b => cases op <;> simp [level, opLevel]
  | _ => simp [level]

theorem nested {e : Ex} (h : MainAt ns e) {n : Nat} {m r : Str} (hr : Reads (tokens false e) m r) (hn : m.length < n)
    (hc : Closing r) : Parses ns (expr n) m r e := by
  cases n with
  | zero => omega
  | succ n => exact (h n false m r hr (by omega) (hc.clear e)).closed 1 (by omega) (level_pos e) (hc.stop (by omega))

theorem expr_skip (n : Nat) (s : Str) : expr n (skip s) = expr n s := by
  cases n with
  | zero => rfl
  | succ n => exact levelP_skip (expr n) 1 (by omega) (by omega) s

theorem closing_sym {t : String} {b : Bool} {ts : List Tok} {s r : Str} {c : Char} {u : Str} (ht : t.toList = c :: u)
    (hc : rank c = 0) (hs : isSpace c = false) (h : Reads (sym t b :: ts) s r) : Closing s := by
  obtain ⟨m, e1, _⟩ := reads_next (solid_sym ht hs) h
  refine ⟨c, u ++ m, ?_, hc⟩
  rw [e1]
  show t.toList ++ m = _
  rw [ht]
  rfl

/-- A character token. -/
theorem reads_char {t : String} {b : Bool} {ts : List Tok} {s r : Str} {c : Char} (ht : t.toList = [c])
    (hs : isSpace c = false) (h : Reads (sym t b :: ts) s r) :
    ∃ m, skip s = c :: m ∧ (b = true → s = c :: m) ∧ Reads ts m r ∧ m.length < s.length := by
  obtain ⟨m, e1, e2, _, e4⟩ := reads_next (solid_sym ht hs) h
  have ht' : (sym t b).text = [c] := ht
  rw [ht'] at e1 e2
  refine ⟨m, e1, e2, e4, ?_⟩
  have := skip_length s
  rw [e1] at this
  simp at this
  omega

theorem parse_paren {n : Nat} {e : Ex} {s r : Str} {b : Bool} (ih : MainAt ns e)
    (h : Reads (tokens b (.paren e)) s r) (hn : s.length ≤ n) : Parses ns (levelP (expr n) 11) s r (.paren e) := by
  simp only [tokens, List.cons_append] at h
  obtain ⟨m, e1, _, e3, e4⟩ := reads_char (c := '(') rfl (by decide) h
  obtain ⟨m2, e5, e6⟩ := reads_append.1 e3
  have hcl : Closing m2 := closing_sym (c := ')') rfl (by decide) (by decide) e6
  obtain ⟨m3, e7, _, e8, _⟩ := reads_char (c := ')') rfl (by decide) e6
  cases reads_nil e8
  obtain ⟨t, x, e9, e10⟩ := nested ih e5 (n := n) (by omega) hcl
  have hin : primaryInner (expr n) (skip s) = some (sT m ++ [t], r) := by
    rw [e1]
    refine (alt_right (variable_none (by rintro c u e; cases e; decide))).trans ?_
    refine (alt_right (number_char (by decide) (by decide))).trans ?_
    refine (alt_right (functionCall_char (by decide))).trans ?_
    refine alt_left ?_
    have h1 : discard leftBracket ('(' :: m) = some ([], m) := discard_some (lit_append .leftBracket ['('] m)
    have h2 : expr n (skip m) = some ([t], skip m2) := by rw [expr_skip]; exact e9
    have h3 : space (skip m2) = some ([], skip m2) := by rw [space_eq, sT_skip, skip_skip]
    have h4 : discard rightBracket (skip m2) = some ([], r) := by
      rw [e7]; exact discard_some (lit_append .rightBracket [')'] r)
    have := seq_some h1 (seq_some (space_eq m) (seq_some h2 (seq_some h3 h4)))
    simp only [List.nil_append, List.append_nil] at this
    exact this
  rcases sT_cases m with hw | ⟨w, hw⟩
  · rw [hw] at hin
    exact primary_parses hin rfl rfl ⟨e10.good, e10.same, fun e => e10.pi e, fun e => e10.lit e, fun e => e10.root e⟩
  · rw [hw] at hin
    refine primary_parses hin rfl (t := .node .primaryExpr [] [.node .s w [], t]) (x := x) rfl ⟨good_primary (s := []) e10.good ?_ ?_, e10.same, ?_, ?_, ?_⟩
    · rw [skipS_s rfl, skipS_cons e10.good.notS]
    · simp only [sizes]; omega
    all_goals (intro e; cases e)

/-! ## predicates and filters -/

def PredsAt (ns : Str → Option Str) (ps : Exs) : Prop :=
  ∀ n m r, Reads (predTokens ps) m r → m.length ≤ n → ∃ ts xs, Run (predicate (expr n)) (skip m) ts (skip r) ∧
    Preds ns ts xs ∧ flats xs = flats (meanings ns ps) ∧ (ts = [] → ps = .nil)

theorem preds_nil : PredsAt ns .nil := by
  intro n m r h hn
  simp only [predTokens] at h
  cases reads_nil h
  exact ⟨[], [], .nil _, .nil, rfl, fun _ => rfl⟩

theorem preds_cons {e : Ex} {es : Exs} (ih : MainAt ns e) (ihs : PredsAt ns es) : PredsAt ns (.cons e es) := by
  intro n m r h hn
  simp only [predTokens, List.cons_append, List.append_assoc] at h
  obtain ⟨m1, e1, _, e3, e4⟩ := reads_char (c := '[') rfl (by decide) h
  obtain ⟨m2, e5, e6⟩ := reads_append.1 e3
  have hcl : Closing m2 := closing_sym (c := ']') rfl (by decide) (by decide) e6
  obtain ⟨m3, e7, _, e8, l8⟩ := reads_char (c := ']') rfl (by decide) e6
  have l2 := reads_length e5
  obtain ⟨t, x, e9, e10⟩ := nested ih e5 (n := n) (by omega) hcl
  obtain ⟨ts, xs, f1, f2, f3, f4⟩ := ihs n m3 r e8 (by omega)
  refine ⟨.node .predicate [] (.node .leftSquare ['['] [] :: t :: .node .rightSquare [']'] [] :: sT m3) :: ts, x :: xs,
    ?_, .cons _ t _ _ ts x xs e10.good rfl f2, ?_, by simp⟩
  · refine Run.cons (skip m) (skip m3) (skip r)
      [.node .predicate [] (.node .leftSquare ['['] [] :: t :: .node .rightSquare [']'] [] :: sT m3)] ts ?_ ?_ f1
    · have h0 : space (skip m) = some ([], '[' :: m1) := by rw [space_eq, sT_skip, skip_skip, e1]
      have h1 : leftSquare ('[' :: m1) = some ([.node .leftSquare ['['] []], m1) := lit_append .leftSquare ['['] m1
      have h2 : rightSquare (skip m2) = some ([.node .rightSquare [']'] []], m3) := by
        rw [e7]; exact lit_append .rightSquare [']'] m3
      exact rule_some (id := .predicate) (seq_some h0 (seq_some h1 (seq_some e9 (seq_some h2 (space_eq m3)))))
    · have := skip_length m3
      have e1' := congrArg List.length e1
      simp at e1'
      omega
  · simp only [flats, meanings, e10.same, f3]

theorem parse_filter {n : Nat} {e : Ex} {ps : Exs} {s r : Str} {b : Bool} (ih : MainAt ns e) (ihs : PredsAt ns ps)
    (hl : level e = 11) (hne : ps ≠ .nil) (h : Reads (tokens b (.filter e ps)) s r) (hn : s.length ≤ n) (hs : Stop 10 r) :
    Parses ns (levelP (expr n) 10) s r (.filter e ps) := by
  simp only [tokens] at h
  obtain ⟨m, e1, e2⟩ := reads_append.1 h
  have hm : ∃ u, skip m = '[' :: u := by
    cases ps with
    | nil => exact absurd rfl hne
    | cons e es =>
      simp only [predTokens, List.cons_append] at e2
      obtain ⟨u, e3, _⟩ := reads_char (c := '[') rfl (by decide) e2
      exact ⟨u, e3⟩
  obtain ⟨u, hu⟩ := hm
  have hst : Stop 11 m := by
    intro c v e3
    rw [hu] at e3
    cases e3
    decide
  have hcl : Clear e m := by
    intro _ c v e3
    rw [hu] at e3
    cases e3
    decide
  have l1 := reads_length e1
  obtain ⟨t, x, e3, e4⟩ := (ih n false s m e1 hn hcl).closed 11 (by omega) (by omega) hst
  obtain ⟨ts, xs, f1, f2, f3, f4⟩ := ihs n m r e2 (by omega)
  refine ⟨.node .filterExpr [] (t :: ts), .path false [.expr x xs], ?_, good_filter e4.good f2, ?_, ?_, ?_, ?_⟩
  · have := rule_some (id := .filterExpr) (seq_some e3 (many_run f1 (predicate_none hs)))
    cases ts with
    | nil => exact absurd (f4 rfl) hne
    | cons a l => exact this
  · simp only [flat, flatSteps, flatStep, meaning, e4.same, f3]
  all_goals (intro e; cases e)

/-! ## calls -/

def MoreAt (ns : Str → Option Str) (es : Exs) : Prop :=
  ∀ n m r, Reads (moreTokens es) m r → Closing r → m.length ≤ n → ∃ ts xs,
    Run (nextArgument (expr n)) (skip m) ts (skip r) ∧ Args ns ts xs ∧ flats xs = flats (meanings ns es) ∧
      (es.startsWithLit = false → NoLit ts)

theorem more_closing {es : Exs} {m r : Str} (h : Reads (moreTokens es) m r) (hr : Closing r) : Closing m := by
  cases es with
  | nil =>
    simp only [moreTokens] at h
    cases reads_nil h
    exact hr
  | cons e es =>
    simp only [moreTokens, List.cons_append] at h
    exact closing_sym (c := ',') rfl (by decide) (by decide) h

theorem more_nil : MoreAt ns .nil := by
  intro n m r h hr hn
  simp only [moreTokens] at h
  cases reads_nil h
  exact ⟨[], [], .nil _, .nil [] (by intro t h; cases h), rfl, by rintro _ t us e; cases e⟩

theorem more_cons {e : Ex} {es : Exs} (ih : MainAt ns e) (ihs : MoreAt ns es)
    (ha : barePi e = true → es.startsWithLit = false) : MoreAt ns (.cons e es) := by
  intro n m r h hr hn
  simp only [moreTokens, List.cons_append] at h
  obtain ⟨m1, e1, _, e3, e4⟩ := reads_char (c := ',') rfl (by decide) h
  obtain ⟨m2, e5, e6⟩ := reads_append.1 e3
  have hcl : Closing m2 := more_closing e6 hr
  have l2 := reads_length e5
  obtain ⟨t, x, e9, e10⟩ := nested ih e5 (n := n) (by omega) hcl
  obtain ⟨ts, xs, f1, f2, f3, f4⟩ := ihs n m2 r e6 hr (by omega)
  refine ⟨sT m1 ++ t :: ts, x :: xs, ?_, .cons _ t ts x xs (allS_sT m1) e10.good (fun h => f4 (ha (e10.pi h))) f2, ?_, ?_⟩
  · have : sT m1 ++ t :: ts = (sT m1 ++ [t]) ++ ts := by simp
    rw [this]
    refine Run.cons (skip m) (skip m2) (skip r) _ ts ?_ ?_ f1
    · rw [e1]
      have h1 : discard (lit .functionCall ",".toList) (',' :: m1) = some ([], m1) :=
        discard_some (lit_append .functionCall [','] m1)
      have h2 : expr n (skip m1) = some ([t], skip m2) := by rw [expr_skip]; exact e9
      have h3 := seq_some h1 (seq_some (space_eq m1) h2)
      rw [List.nil_append] at h3
      exact h3
    · have := skip_length m2
      have e1' := congrArg List.length e1
      simp at e1'
      omega
  · simp only [flats, meanings, e10.same, f3]
  · intro hl
    simp only [Exs.startsWithLit] at hl
    rcases sT_cases m1 with hw | ⟨w, hw⟩
    · rw [hw]
      rintro a l e
      cases e
      intro h
      rw [e10.lit h] at hl
      cases hl
    · rw [hw]
      rintro a l e
      cases e
      intro e
      cases e

theorem functionName_some {f : QName} (hf : f.Ok ns) (ht : ¬ isType f) {m : Str} (he : Ends m) (hc : NoColon m) :
    functionName (qText f ++ m) = some ([qTree f], m) := by
  have hq := qName_append hf he hc
  simp only [functionName, minus, hq]
  cases hn : nodeType (qText f ++ m) with
  | none => rfl
  | some y =>
    obtain ⟨us, r'⟩ := y
    obtain ⟨t, e1⟩ := nodeType_some hn
    have : m.length < r'.length := by
      unfold qText at e1
      unfold isType at ht
      obtain ⟨pre, loc⟩ := f
      cases pre with
      | none =>
        simp only at e1 ht
        obtain ⟨k, e2, e3⟩ := prefix_of_name (typeText_name t).all he e1
        cases k with
        | nil => exact absurd ⟨trivial, t, by simpa using e2⟩ ht
        | cons c u => rw [e3]; simp; omega
      | some p =>
        simp only [List.append_assoc, List.cons_append] at e1
        obtain ⟨k, e2, e3⟩ := prefix_of_name (typeText_name t).all (ends_colon _) e1
        rw [e3]
        simp
        omega
    simp only [this, if_true]

theorem expr_none {n : Nat} {s u : Str} (h : skip s = ')' :: u) : expr n s = none := by
  cases n with
  | zero => rfl
  | succ n =>
    have hp : primaryInner (expr n) (skip s) = none := by
      rw [h]
      refine alt_none (variable_none (by rintro c u e; cases e; decide)) ?_
      refine alt_none (number_char (by decide) (by decide)) ?_
      refine alt_none (functionCall_char (by decide)) ?_
      exact alt_none (bracketed_none (by rintro c u e; cases e; decide)) (literal_none (by rintro c u e; cases e; decide))
    have a11 : primaryExpr (expr n) (skip s) = none := by
      refine rule_none (seq_none_right (discard_space _) (seq_none_left ?_))
      rw [skip_skip]
      exact hp
    have a10 : filterExpr (expr n) (skip s) = none := rule_none (seq_none_left a11)
    have hst : step (expr n) (skip s) = none := by
      have h1 : axisSpecifier (skip s) = some ([], skip s) := by
        rw [axisSpecifier_eq]
        have h2 : axisInner (skip s) = some ([], skip s) :=
          axisInner_none (by rw [h]; rintro c u e; cases e; decide)
        have h3 : space (skip s) = some ([], skip s) := by rw [space_eq, sT_skip, skip_skip]
        exact rule_some (id := .axisSpecifier) (seq_some h3 (seq_some h2 h3))
      have h3 : space (skip s) = some ([], skip s) := by rw [space_eq, sT_skip, skip_skip]
      have h4 : alt piTest (alt typeTest nameTest) (skip s) = none := by
        rw [h]
        have hk : ∀ t : NodeType, ∀ id, lit id (typeText t).toList (')' :: u) = none := by
          intro t id
          cases t <;> exact lit_none_head (by rintro c u e; cases e; decide)
        refine alt_none (seq_none_left (hk .pi _)) (alt_none (seq_none_left ?_) ?_)
        · exact alt_none (hk .comment _) (alt_none (hk .text _) (alt_none (hk .pi _) (hk .node _)))
        · refine rule_none (alt_none (anyName_none (by rintro c u e; cases e; decide)) (alt_none (seq_none_left
            (ncName_none (by rintro c u e; cases e; decide))) (qName_none (by rintro c u e; cases e; decide))))
      refine rule_none (alt_none (seq_none_right h1 (seq_none_left (rule_none (seq_none_right h3 (seq_none_left h4))))) ?_)
      rw [h]
      exact alt_none (lit_none_head (by rintro c u e; cases e; decide)) (lit_none_head (by rintro c u e; cases e; decide))
    have hsl : ∀ (id : Id) (w : Str), lit id ('/' :: w) (skip s) = none := by
      intro id w
      rw [h]
      exact lit_none_head (by rintro c u e; cases e; decide)
    have hloc : locationPath (expr n) (skip s) = none :=
      alt_none (rule_none (alt_none (rule_none (seq_none_left (hsl _ _))) (seq_none_left (hsl _ _))))
        (rule_none (seq_none_left hst))
    have a9 : pathExpr (expr n) s = none :=
      rule_none (seq_none_right (discard_space s) (seq_none_left (alt_none (seq_none_left a10) hloc)))
    have a8 : unionExpr (expr n) (skip s) = none := by
      rw [show unionExpr (expr n) (skip s) = unionExpr (expr n) s from levelP_skip _ 8 (by omega) (by omega) s]
      exact rule_none (seq_none_left a9)
    have a7 : unaryExpr (expr n) s = none := by
      refine rule_none (seq_none_right (discard_space s) (seq_none_right (many_none ?_) a8))
      rw [h]
      exact lit_none_head (by rintro c u e; cases e; decide)
    exact rule_none (seq_none_left (rule_none (seq_none_left (rule_none (seq_none_left (rule_none (seq_none_left
      (rule_none (seq_none_left (rule_none (seq_none_left a7)))))))))))

theorem seq_assoc (a b c : P) : seq (seq a b) c = seq a (seq b c) := by
  funext s
  simp only [seq]
  cases a s with
  | none => rfl
  | some y =>
    obtain ⟨ts, r⟩ := y
    simp only
    cases b r with
    | none => rfl
    | some z =>
      obtain ⟨us, r'⟩ := z
      simp only
      cases c r' with
      | none => rfl
      | some w => simp

theorem parse_call {n : Nat} {f : QName} {args : Exs} {s r : Str} {b : Bool} (hf : f.Ok ns) (ht : ¬ isType f)
    (iha : args = .nil ∨ ∃ e es, args = .cons e es ∧ MainAt ns e ∧ MoreAt ns es ∧
      (barePi e = true → es.startsWithLit = false))
    (h : Reads (tokens b (.call f args)) s r) (hn : s.length ≤ n) :
    Parses ns (levelP (expr n) 11) s r (.call f args) := by
  simp only [tokens, List.cons_append] at h
  obtain ⟨m, e1, _, e3, e4⟩ := reads_next (solid_nameTok hf) h
  obtain ⟨m1, e5, _, e6, l6⟩ := reads_char (c := '(') rfl (by decide) e4
  obtain ⟨m2, e7, e8⟩ := reads_append.1 e6
  have hcl : Closing m2 := closing_sym (c := ')') rfl (by decide) (by decide) e8
  obtain ⟨m3, e9, _, e10, l10⟩ := reads_char (c := ')') rfl (by decide) e8
  cases reads_nil e10
  have hc : NoColon m := by
    refine head_skip (by decide) ?_
    rw [e5]
    rintro c u e
    cases e
    decide
  have he : Ends m := e3 rfl
  have hlen : m.length ≤ s.length := by
    have := skip_length s
    rw [e1] at this
    simp at this
    omega
  -- the arguments
  have ⟨ts, xs, g1, g2, g3⟩ : ∃ ts xs, seq (opt (seq (expr n) (many (nextArgument (expr n))))) space m1 =
      some (ts, skip m2) ∧ Args ns ts xs ∧ flats xs = flats (meanings ns args) := by
    rcases iha with rfl | ⟨e, es, rfl, i1, i2, i3⟩
    · simp only [argTokens] at e7
      cases reads_nil e7
      have h1 : opt (seq (expr n) (many (nextArgument (expr n)))) m1 = some ([], m1) :=
        opt_none (seq_none_left (expr_none e9))
      exact ⟨sT m1, [], seq_some h1 (space_eq m1), .nil _ (allS_sT m1), rfl⟩
    · simp only [argTokens] at e7
      obtain ⟨m4, f1, f2⟩ := reads_append.1 e7
      have lm := reads_length f1
      obtain ⟨t, x, f3, f4⟩ := nested i1 f1 (n := n) (by omega) (more_closing f2 hcl)
      obtain ⟨ts, xs, k1, k2, k3, k4⟩ := i2 n m4 m2 f2 hcl (by omega)
      have hnone : nextArgument (expr n) (skip m2) = none := by
        refine seq_none_left (discard_lit_none (a := ',') ?_)
        rw [e9]
        rintro c u e
        cases e
        decide
      have h1 := opt_some (seq_some f3 (many_run k1 hnone))
      have h2 := seq_some h1 (space_eq (skip m2))
      rw [sT_skip, skip_skip, List.append_nil] at h2
      refine ⟨t :: ts, x :: xs, h2, .cons [] t ts x xs (by intro t h; cases h) f4.good (fun h => k4 (i3 (f4.pi h))) k2, ?_⟩
      simp only [flats, meanings, f4.same, k3]
  have hcall : functionCall (expr n) (qText f ++ m) = some ([.node .functionCall []
      (qTree f :: (sT m ++ .node .leftBracket ['('] [] :: (ts ++ .node .rightBracket [')'] [] :: sT r)))], skip r) := by
    have h1 := functionName_some hf ht he hc
    have h2 : leftBracket (skip m) = some ([.node .leftBracket ['('] []], m1) := by
      rw [e5]; exact lit_append .leftBracket ['('] m1
    have h3 : rightBracket (skip m2) = some ([.node .rightBracket [')'] []], r) := by
      rw [e9]; exact lit_append .rightBracket [')'] r
    have h4 : seq (opt (seq (expr n) (many (nextArgument (expr n))))) (seq space (seq rightBracket space)) m1 =
        some (ts ++ (.node .rightBracket [')'] [] :: sT r), skip r) := by
      have h5 := seq_some g1 (seq_some h3 (space_eq r))
      rw [seq_assoc] at h5
      exact h5
    have h6 := seq_some h1 (seq_some (space_eq m) (seq_some h2 h4))
    have h7 := rule_some (id := .functionCall) h6
    rw [show functionCall (expr n) (qText f ++ m) = _ from h7]
    have : ∃ a l, sT m ++ ([Tree.node .leftBracket ['('] []] ++ (ts ++ Tree.node .rightBracket [')'] [] :: sT r)) = a :: l := by
      rcases sT_cases m with hw | ⟨w, hw⟩ <;> rw [hw] <;> exact ⟨_, _, rfl⟩
    obtain ⟨a, l, hal⟩ := this
    simp only [List.cons_append, List.nil_append] at hal ⊢
    rw [hal, group_two]
  refine primary_parses (ts := [.node .functionCall []
      (qTree f :: (sT m ++ .node .leftBracket ['('] [] :: (ts ++ .node .rightBracket [')'] [] :: sT r)))])
    (t := .node .functionCall []
      (qTree f :: (sT m ++ .node .leftBracket ['('] [] :: (ts ++ .node .rightBracket [')'] [] :: sT r))))
    (m := skip r) ?_ (skip_skip r) rfl
    ⟨good_call hf (allS_sT m) rfl rfl g2, by simp only [flat, meaning, g3], ?_, ?_, ?_⟩
  · obtain ⟨c, u, q1, q2⟩ := solid_qText hf
    have hhead : ∀ d v, qText f ++ m = d :: v → nameStart d = true := by
      intro d v e
      rw [q1] at e
      cases e
      exact q2
    rw [e1]
    refine (alt_right (variable_none (fun d v e => nameStart_ne (hhead d v e) (by decide)))).trans ?_
    refine (alt_right (number_none (fun d v e => ⟨not_digit_of_nameStart (hhead d v e),
      fun e2 => absurd e2 (nameStart_ne (hhead d v e) (by decide))⟩))).trans ?_
    exact alt_left hcall
  all_goals (intro e; cases e)

end Verif.XPathParse
