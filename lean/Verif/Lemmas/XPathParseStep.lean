import Verif.Lemmas.XPathParseTree
set_option autoImplicit false
set_option linter.unusedSimpArgs false
set_option linter.unusedVariables false
namespace Verif.XPathParse

/-! ## combinators -/

theorem seq_some {a b : P} {s r r' : Str} {ts us : List Tree} (ha : a s = some (ts, r)) (hb : b r = some (us, r')) :
    seq a b s = some (ts ++ us, r') := by simp [seq, ha, hb]

theorem seq_none_left {a b : P} {s : Str} (ha : a s = none) : seq a b s = none := by simp [seq, ha]

theorem seq_none_right {a b : P} {s r : Str} {ts : List Tree} (ha : a s = some (ts, r)) (hb : b r = none) :
    seq a b s = none := by simp [seq, ha, hb]

theorem rule_some {id : Id} {a : P} {s r : Str} {ts : List Tree} (ha : a s = some (ts, r)) :
    rule id a s = some (group id ts, r) := by simp [rule, ha]

theorem rule_none {id : Id} {a : P} {s : Str} (ha : a s = none) : rule id a s = none := by simp [rule, ha]

theorem opt_some {a : P} {s r : Str} {ts : List Tree} (ha : a s = some (ts, r)) : opt a s = some (ts, r) := by
  simp [opt, ha]

theorem opt_none {a : P} {s : Str} (ha : a s = none) : opt a s = some ([], s) := by simp [opt, ha]

theorem discard_some {a : P} {s r : Str} {ts : List Tree} (ha : a s = some (ts, r)) : discard a s = some ([], r) := by
  simp [discard, ha]

theorem discard_none {a : P} {s : Str} (ha : a s = none) : discard a s = none := by simp [discard, ha]

theorem alt_none {a b : P} {s : Str} (ha : a s = none) (hb : b s = none) : alt a b s = none := by simp [alt, ha, hb]

/-- As many matches as there are. -/
inductive Run (q : P) : Str → List Tree → Str → Prop where
  | nil (s : Str) : Run q s [] s
  | cons (s r r' : Str) (ts us : List Tree) (h : q s = some (ts, r)) (hl : r.length < s.length) (hr : Run q r us r') :
      Run q s (ts ++ us) r'

theorem manyN_run {q : P} {s r : Str} {ts : List Tree} (h : Run q s ts r) (hq : q r = none) {n : Nat}
    (hn : s.length ≤ n) : manyN q n s = (ts, r) := by
  induction h generalizing n with
  | nil s =>
    cases n with
    | zero => rfl
    | succ n => simp [manyN, hq]
  | cons s r r' ts us h hl hr ih =>
    obtain ⟨n, rfl⟩ : ∃ m, n = m + 1 := ⟨n - 1, by omega⟩
    simp [manyN, h, ih hq (n := n) (by omega)]

theorem many_run {q : P} {s r : Str} {ts : List Tree} (h : Run q s ts r) (hq : q r = none) : many q s = some (ts, r) := by
  simp [many, manyN_run h hq (Nat.le_refl _)]

theorem many_none {q : P} {s : Str} (hq : q s = none) : many q s = some ([], s) := many_run (.nil s) hq

theorem Run.snoc {q : P} {s r r' : Str} {ts us : List Tree} (h : Run q s ts r) (hq : q r = some (us, r'))
    (hl : r'.length < r.length) : Run q s (ts ++ us) r' := by
  induction h with
  | nil s =>
    have := Run.cons s r' r' us [] hq hl (.nil _)
    simpa using this
  | cons s r r'' ts vs h hl' hr ih =>
    rw [List.append_assoc]
    exact .cons s r r' ts _ h hl' (ih hq hl)

/-! ## what may come next -/

/-- The level of the operator that begins with the character; brackets and commas bind least. -/
def rank (c : Char) : Nat :=
  if c = ')' ∨ c = ']' ∨ c = ',' ∨ c = '}' then 0
  else if c = 'o' then 1
  else if c = 'a' then 2
  else if c = '=' ∨ c = '!' then 3
  else if c = '<' ∨ c = '>' then 4
  else if c = '+' ∨ c = '-' then 5
  else if c = '*' ∨ c = 'd' ∨ c = 'm' then 6
  else if c = '|' then 8
  else if c = '/' then 9
  else if c = '[' then 10
  else 100

theorem rank_cases {c : Char} (h : rank c < 11) :
    c ∈ [')', ']', ',', '}', 'o', 'a', '=', '!', '<', '>', '+', '-', '*', 'd', 'm', '|', '/', '['] := by
  unfold rank at h
  simp only [List.mem_cons, List.not_mem_nil, or_false]
  split at h
  · rename_i h1; rcases h1 with h1 | h1 | h1 | h1 <;> simp [h1]
  split at h
  · rename_i h1; simp [h1]
  split at h
  · rename_i h1; simp [h1]
  split at h
  · rename_i h1; rcases h1 with h1 | h1 <;> simp [h1]
  split at h
  · rename_i h1; rcases h1 with h1 | h1 <;> simp [h1]
  split at h
  · rename_i h1; rcases h1 with h1 | h1 <;> simp [h1]
  split at h
  · rename_i h1; rcases h1 with h1 | h1 | h1 <;> simp [h1]
  split at h
  · rename_i h1; simp [h1]
  split at h
  · rename_i h1; simp [h1]
  split at h
  · rename_i h1; simp [h1]
  · omega

/-- What comes next binds less than the level. -/
def Stop (k : Nat) (r : Str) : Prop := ∀ c u, skip r = c :: u → rank c < k

theorem Stop.mono {k j : Nat} {r : Str} (h : Stop k r) (hk : k ≤ j) : Stop j r :=
  fun c u e => Nat.lt_of_lt_of_le (h c u e) hk

theorem space_cases {c : Char} (h : isSpace c = true) : c ∈ [' ', '\t', '\n', '\x0b', '\x0c', '\r'] := by
  simp only [isSpace, Bool.or_eq_true, beq_iff_eq] at h
  simp only [List.mem_cons, List.not_mem_nil, or_false]
  rcases h with ((((h | h) | h) | h) | h) | h <;> simp [h]

/-- What holds of all the characters that may come next, and of white space, holds of the next. -/
theorem Stop.first {r : Str} (h : Stop 11 r) {p : Char → Bool}
    (h1 : ∀ c ∈ [')', ']', ',', '}', 'o', 'a', '=', '!', '<', '>', '+', '-', '*', 'd', 'm', '|', '/', '['], p c = true)
    (h2 : ∀ c ∈ [' ', '\t', '\n', '\x0b', '\x0c', '\r'], p c = true) {c : Char} {u : Str} (e : r = c :: u) :
    p c = true := by
  by_cases hs : isSpace c = true
  · exact h2 c (space_cases hs)
  · simp only [Bool.not_eq_true] at hs
    exact h1 c (rank_cases (h c u (by rw [e, skip_cons hs])))

theorem Stop.skipped {r : Str} (h : Stop 11 r) {p : Char → Bool}
    (h1 : ∀ c ∈ [')', ']', ',', '}', 'o', 'a', '=', '!', '<', '>', '+', '-', '*', 'd', 'm', '|', '/', '['], p c = true)
    {c : Char} {u : Str} (e : skip r = c :: u) : p c = true := h1 c (rank_cases (h c u e))

theorem Stop.noColon {r : Str} (h : Stop 11 r) : NoColon r := by
  intro c u e
  have := h.first (p := fun c => decide (c ≠ ':')) (by decide)
    (by decide) e
  simpa using this

theorem Stop.noColon' {r : Str} (h : Stop 11 r) {c : Char} {u : Str} (e : skip r = c :: u) : c ≠ ':' := by
  have := h.skipped (p := fun c => decide (c ≠ ':')) (by decide) e
  simpa using this

theorem Stop.noBracket {r : Str} (h : Stop 11 r) {c : Char} {u : Str} (e : skip r = c :: u) : c ≠ '(' := by
  have := h.skipped (p := fun c => decide (c ≠ '(')) (by decide) e
  simpa using this

theorem Stop.numEnds {r : Str} (h : Stop 11 r) : NumEnds r := by
  intro c u e
  have := h.first (p := fun c => decide (isDigit c = false ∧ c ≠ '.')) (by decide)
    (by decide) e
  simpa using this

theorem Stop.noDot {r : Str} (h : Stop 11 r) {c : Char} {u : Str} (e : r = c :: u) : c ≠ '.' := (h.numEnds c u e).2

/-! ## the tests of nodes -/

variable {ns : Str → Option Str}

/-- A word of a name that begins a string, and what comes after it. -/
theorem kw_next {k n v r : Str} (hk : k.all nameChar = true) (hn : n.all nameChar = true) (hv : Ends v)
    (h : n ++ v = k ++ r) {c : Char} {u : Str} (e : skip r = c :: u) : nameChar c = true ∨ skip v = c :: u := by
  obtain ⟨m, rfl, rfl⟩ := prefix_of_name hk hv h
  cases m with
  | nil => exact Or.inr e
  | cons d m =>
    left
    rw [List.all_append, List.all_cons, Bool.and_eq_true, Bool.and_eq_true] at hn
    rw [List.cons_append, skip_cons (not_space_of_nameChar hn.2.1)] at e
    cases e
    exact hn.2.1

theorem leftBracket_none {s : Str} (h : ∀ c u, s = c :: u → c ≠ '(') : discard leftBracket s = none :=
  discard_none (lit_none_head (fun c u e => (h c u e).symm))

/-- A name with something other than a bracket after it is not the test of a type. -/
theorem typeTest_none {n v : Str} (hn : n.all nameChar = true) (hv : Ends v)
    (hb : ∀ c u, skip v = c :: u → c ≠ '(') : typeTest (n ++ v) = none := by
  unfold typeTest
  cases ht : nodeType (n ++ v) with
  | none => exact seq_none_left ht
  | some p =>
    obtain ⟨ts, r⟩ := p
    obtain ⟨t, e⟩ := nodeType_some ht
    refine seq_none_right ht (seq_none_right (space_eq _) (seq_none_left (leftBracket_none ?_)))
    intro c u e2
    rcases kw_next (typeText_name t).all hn hv e e2 with h | h
    · rintro rfl
      revert h; decide
    · exact hb c u h

theorem piTest_none {n v : Str} (hn : n.all nameChar = true) (hv : Ends v)
    (hb : ∀ c u, skip v = c :: u → c ≠ '(') : piTest (n ++ v) = none := by
  unfold piTest
  cases ht : lit .processingInstruction "processing-instruction".toList (n ++ v) with
  | none => exact seq_none_left ht
  | some p =>
    obtain ⟨ts, r⟩ := p
    have e := (lit_some ht).1
    refine seq_none_right ht (seq_none_right (space_eq _) (seq_none_left (leftBracket_none ?_)))
    intro c u e2
    rcases kw_next (typeText_name .pi).all hn hv e e2 with h | h
    · rintro rfl
      revert h; decide
    · exact hb c u h

theorem anyName_none {s : Str} (h : ∀ c u, s = c :: u → c ≠ '*') : anyName s = none :=
  lit_none_head (fun c u e => (h c u e).symm)

theorem nameStart_ne {c : Char} (h : nameStart c = true) {d : Char} (hd : nameStart d = false) : c ≠ d := by
  rintro rfl
  rw [h] at hd
  cases hd

theorem NcName.first {n : Str} (h : NcName n) {s : Str} {c : Char} {u : Str} (e : n ++ s = c :: u) :
    nameStart c = true := by
  obtain ⟨d, v, rfl, h1, h2⟩ := h.cons
  cases e
  exact h1

theorem nameTest_any (s : Str) : nameTest ('*' :: s) = some ([.node .anyName ['*'] []], s) := by
  have := lit_append .anyName ['*'] s
  exact (rule_some (alt_left this))

theorem nameTest_anyIn {p s : Str} (hp : NcName p) :
    nameTest (p ++ ":*".toList ++ s) = some ([.node .nameTest [] [ncTree p, .node .anyName ['*'] []]], s) := by
  have e0 : p ++ ":*".toList ++ s = p ++ (':' :: '*' :: s) := by
    rw [List.append_assoc]; rfl
  rw [e0]
  have e1 : anyName (p ++ (':' :: '*' :: s)) = none :=
    anyName_none (fun c u e => nameStart_ne (hp.first e) (by decide))
  have e2 : ncName (p ++ (':' :: '*' :: s)) = some ([ncTree p], ':' :: '*' :: s) := ncName_append hp (ends_colon _)
  have e3 := discard_lit .nameTest [':'] ('*' :: s)
  have e4 := lit_append .anyName ['*'] s
  exact rule_some ((alt_right e1).trans (alt_left (seq_some e2 (seq_some e3 e4))))

theorem nameTest_name {q : QName} {s : Str} (hq : q.Ok ns) (hs : Ends s) (hc : NoColon s) :
    nameTest (qText q ++ s) = some ([qTree q], s) := by
  have hfirst : ∀ c u, qText q ++ s = c :: u → nameStart c = true := by
    intro c u e
    obtain ⟨pre, loc⟩ := q
    cases pre with
    | none => exact hq.1.first e
    | some p =>
      simp only [qText, List.append_assoc] at e
      exact (hq.2 p rfl).1.first e
  have e1 : anyName (qText q ++ s) = none :=
    anyName_none (fun c u e => nameStart_ne (hfirst c u e) (by decide))
  have e2 : seq ncName (seq (discard (lit .nameTest [':'])) anyName) (qText q ++ s) = none := by
    obtain ⟨pre, loc⟩ := q
    cases pre with
    | none => exact seq_none_right (ncName_append hq.1 hs) (seq_none_left (discard_lit_none hc))
    | some p =>
      have e3 : qText ⟨some p, loc⟩ ++ s = p ++ (':' :: (loc ++ s)) := by simp [qText]
      rw [e3]
      refine seq_none_right (ncName_append (hq.2 p rfl).1 (ends_colon _))
        (seq_none_right (discard_lit .nameTest [':'] (loc ++ s)) (anyName_none ?_))
      intro c u e
      exact nameStart_ne (hq.1.first e) (by decide)
  have e3 := rule_some (id := .nameTest) ((alt_right e1).trans ((alt_right e2).trans (qName_append hq hs hc)))
  exact e3

/-- A name as the rules for types see it: the first word and what comes after. -/
theorem qText_word {q : QName} {s : Str} (hq : q.Ok ns) (hs : Ends s) (hb : ∀ c u, skip s = c :: u → c ≠ '(')
    (hc : ∀ c u, skip s = c :: u → c ≠ ':') :
    ∃ n v, qText q ++ s = n ++ v ∧ NcName n ∧ Ends v ∧ (∀ c u, skip v = c :: u → c ≠ '(') ∧
      ¬ ∃ u, skip v = ':' :: ':' :: u := by
  obtain ⟨pre, loc⟩ := q
  cases pre with
  | none => exact ⟨loc, s, rfl, hq.1, hs, hb, fun ⟨u, e⟩ => hc _ _ e rfl⟩
  | some p =>
    refine ⟨p, ':' :: (loc ++ s), by simp [qText], (hq.2 p rfl).1, ends_colon _, ?_, ?_⟩
    · intro c u e
      rw [skip_cons (by decide)] at e
      cases e
      decide
    · rintro ⟨u, e⟩
      rw [skip_cons (by decide)] at e
      simp only [List.cons.injEq, true_and] at e
      exact nameStart_ne (hq.1.first e) (by decide) rfl

/-- What the rule `NodeTest` finds between white space. -/
def InnerTest (ns : Str → Option Str) (ts : List Tree) (f : Bool → Test) : Prop :=
  ∃ t₀ us, ts = t₀ :: us ∧ testId t₀.id = true ∧ t₀.id ≠ .nodeTest ∧ NoLit (us.drop 1) ∧
    ∀ attr vs, (t₀.id = .processingInstruction → us = [] → NoLit vs) →
      ∃ ws, testOf ns attr (t₀ :: (us ++ vs)) = .ok (some (f attr), ws) ∧ (us = [] → ws = vs)

theorem group_two (id : Id) (a b : Tree) (ts : List Tree) : group id (a :: b :: ts) = [.node id [] (a :: b :: ts)] := rfl

theorem testTree_group {ts : List Tree} {f : Bool → Test} (h : InnerTest ns ts f) (r : Str) :
    ∃ T, group .nodeTest (ts ++ sT r) = [T] ∧ TestTree ns T f ∧ (T.id = .processingInstruction → ∃ t₀, ts = [t₀]) := by
  obtain ⟨t₀, us, rfl, hid, hne, _, ht⟩ := h
  have hs : t₀.id ≠ .s := by intro e; rw [e] at hid; cases hid
  cases hu : us ++ sT r with
  | nil =>
    obtain ⟨rfl, hr⟩ := List.append_eq_nil_iff.mp hu
    refine ⟨t₀, by rw [hr]; rfl, ⟨hid, fun attr rest hl => ?_⟩, fun _ => ⟨t₀, rfl⟩⟩
    obtain ⟨ws, e1, e2⟩ := ht attr rest (fun hp _ => hl hp)
    rw [getTest, skipS_cons hs]
    simp only [hne, if_false]
    rw [List.nil_append] at e1
    rw [e1, e2 rfl]
  | cons a b =>
    have hg : group .nodeTest (t₀ :: us ++ sT r) = [.node .nodeTest [] (t₀ :: us ++ sT r)] := by
      rw [List.cons_append, hu, group_two]
    refine ⟨_, hg, ⟨rfl, fun attr rest hl => ?_⟩, by intro e; simp [Tree.id] at e⟩
    have hl2 : NoLit (sT r) := by
      rcases sT_cases r with e | ⟨w, e⟩ <;> rw [e]
      · intro t us e; cases e
      · exact noLit_cons (by simp [Tree.id])
    obtain ⟨ws, e1, e2⟩ := ht attr (sT r) (fun _ _ => hl2)
    rw [getTest, skipS_cons (by simp [Tree.id])]
    simp only [Tree.id, if_true, Tree.kids, List.cons_append]
    rw [skipS_cons hs, e1]
    rfl

theorem inner_single {t₀ : Tree} {f : Bool → Test} (hid : testId t₀.id = true) (hne : t₀.id ≠ .nodeTest)
    (h : ∀ attr vs, (t₀.id = .processingInstruction → NoLit vs) → testOf ns attr (t₀ :: vs) = .ok (some (f attr), vs)) :
    InnerTest ns [t₀] f :=
  ⟨t₀, [], rfl, hid, hne, (by intro t us e; cases e), fun attr vs hl => ⟨vs, h attr vs (fun hp => hl hp rfl), fun _ => rfl⟩⟩

theorem inner_type (t : NodeType) {us : List Tree} (hu : AllS us) :
    InnerTest ns (.node (typeId t) (typeText t).toList [] :: us) (fun a => testMeaning ns a (.type t)) := by
  refine ⟨_, us, rfl, by cases t <;> rfl, by cases t <;> simp [Tree.id, typeId], ?_, ?_⟩
  · intro a b e ha
    have : a ∈ us := List.mem_of_mem_drop (i := 1) (by rw [e]; simp)
    rw [hu a this] at ha
    cases ha
  · intro attr vs hl
    cases t with
    | comment => exact ⟨us ++ vs, rfl, by rintro rfl; rfl⟩
    | text => exact ⟨us ++ vs, rfl, by rintro rfl; rfl⟩
    | node => exact ⟨us ++ vs, rfl, by rintro rfl; rfl⟩
    | pi =>
      cases us with
      | nil =>
        cases vs with
        | nil => exact ⟨[], rfl, fun _ => rfl⟩
        | cons a b =>
          have := hl rfl rfl a b rfl
          exact ⟨a :: b, if_neg this, fun _ => rfl⟩
      | cons a b =>
        have ha : a.id = .s := hu a (by simp)
        exact ⟨a :: b ++ vs, if_neg (by rw [ha]; simp), fun e => by cases e⟩

theorem inner_target (q : Char) (w t : Str) (us : List Tree) (hu : AllS us) :
    InnerTest ns (.node .processingInstruction w [] :: .node .literal t [] :: us)
      (fun a => testMeaning ns a (.target q t)) := by
  refine ⟨_, _, rfl, rfl, by simp [Tree.id], ?_, ?_⟩
  · intro a b e ha
    have : a ∈ us := by simp only [List.drop_succ_cons, List.drop_zero] at e; rw [e]; simp
    rw [hu a this] at ha
    cases ha
  · intro attr vs hl
    exact ⟨us ++ vs, by simp [testOf, Tree.id, testMeaning, Tree.chars], fun e => by cases e⟩

theorem inner_name {q : QName} (hq : q.Ok ns) : InnerTest ns [qTree q] (fun a => testMeaning ns a (.name q)) := by
  obtain ⟨pre, loc⟩ := q
  cases pre with
  | none =>
    refine inner_single rfl (by simp [qTree, ncTree, Tree.id]) (fun attr vs _ => ?_)
    cases attr
    · simp [testOf, qTree, ncTree, Tree.id, testMeaning, Tree.chars]
    · by_cases hx : loc = xmlns
      · simp [testOf, qTree, ncTree, Tree.id, testMeaning, Tree.chars, hx, xmlns]
      · have hx' : ¬ loc = "xmlns".toList := hx
        simp only [testOf, qTree, ncTree, Tree.id, testMeaning, Tree.chars, hx, hx', if_false, if_true, and_false]
  | some p =>
    refine inner_single rfl (by simp [qTree, ncTree, Tree.id]) (fun attr vs _ => ?_)
    have hr := resolve_ok (hq.2 p rfl).2
    cases attr
    · simp [testOf, qTree, ncTree, Tree.id, testMeaning, Tree.chars, Tree.kids, hr, bind, Except.bind]
    · by_cases hx : p = xmlns
      · have hx' : p = "xmlns".toList := hx
        simp only [testOf, qTree, ncTree, Tree.id, testMeaning, Tree.chars, Tree.kids, hr, bind, Except.bind, hx, hx',
          if_true, and_self]
        rw [← hx, hr]
        simp [hx']
      · have hx' : ¬ p = "xmlns".toList := hx
        simp only [testOf, qTree, ncTree, Tree.id, testMeaning, Tree.chars, Tree.kids, hr, bind, Except.bind, hx, hx',
          if_false, if_true, and_false]

theorem inner_anyIn {p : Str} (hp : ns p ≠ none) (a : Tree) :
    InnerTest ns [.node .nameTest [] [ncTree p, a]] (fun b => testMeaning ns b (.anyIn p)) := by
  refine inner_single rfl (by simp [Tree.id]) (fun attr vs _ => ?_)
  have hr := resolve_ok hp
  cases attr
  · simp [testOf, ncTree, Tree.id, testMeaning, Tree.chars, Tree.kids, hr, bind, Except.bind]
  · by_cases hx : p = xmlns
    · have hx' : p = "xmlns".toList := hx
      simp only [testOf, ncTree, Tree.id, testMeaning, Tree.chars, Tree.kids, hr, bind, Except.bind, hx, hx',
        if_true, and_self]
      rw [← hx, hr]
      simp [hx']
    · have hx' : ¬ p = "xmlns".toList := hx
      simp only [testOf, ncTree, Tree.id, testMeaning, Tree.chars, Tree.kids, hr, bind, Except.bind, hx, hx',
        if_false, if_true, and_false]

theorem reads_first {t : Tok} {ts : List Tok} {s r : Str} (ht : t.Solid) (h : Reads (t :: ts) s r) (hs : skip s = s) :
    ∃ m, s = t.text ++ m ∧ (t.isName = true → Ends m) ∧ Reads ts m r := by
  obtain ⟨w, m, rfl, h1, h2, h3, h4⟩ := reads_cons h
  rw [skip_text h1 ht] at hs
  exact ⟨m, hs.symm, h3, h4⟩

theorem reads_next {t : Tok} {ts : List Tok} {s r : Str} (ht : t.Solid) (h : Reads (t :: ts) s r) :
    ∃ m, skip s = t.text ++ m ∧ (t.tight = true → s = t.text ++ m) ∧ (t.isName = true → Ends m) ∧ Reads ts m r := by
  obtain ⟨w, m, rfl, h1, h2, h3, h4⟩ := reads_cons h
  refine ⟨m, skip_text h1 ht, fun e => ?_, h3, h4⟩
  rw [h2 e]
  rfl

theorem solid_sym {t : String} {b : Bool} {c : Char} {u : Str} (h : t.toList = c :: u) (hc : isSpace c = false) :
    (sym t b).Solid := ⟨c, u, h, hc⟩

theorem solid_name {n : Str} (h : NcName n) : ∃ c u, n = c :: u ∧ isSpace c = false := by
  obtain ⟨c, u, rfl, h1, h2⟩ := h.cons
  exact ⟨c, u, rfl, not_space_of_nameChar (nameChar_of_nameStart h1)⟩

theorem solid_qText {q : QName} (h : q.Ok ns) : ∃ c u, qText q = c :: u ∧ nameStart c = true := by
  obtain ⟨pre, loc⟩ := q
  cases pre with
  | none =>
    obtain ⟨c, u, e, h1, h2⟩ := h.1.cons
    exact ⟨c, u, e, h1⟩
  | some p =>
    obtain ⟨c, u, rfl, h1, h2⟩ := (h.2 p rfl).1.cons
    exact ⟨c, u ++ ':' :: loc, by simp [qText], h1⟩

theorem solid_nameTok {q : QName} (h : q.Ok ns) : (nameTok (qText q)).Solid := by
  obtain ⟨c, u, e, h1⟩ := solid_qText h
  exact ⟨c, u, e, not_space_of_nameChar (nameChar_of_nameStart h1)⟩

/-- The alternatives of `NodeTest`. -/
def innerTest : P := alt piTest (alt typeTest nameTest)

theorem innerTest_reads {t : NodeTest} (hok : t.Ok ns) {s r : Str} (h : Reads (testTokens t) s r) (hs : skip s = s)
    (hst : Stop 11 r) : ∃ ts, innerTest s = some (ts, r) ∧ InnerTest ns ts (fun a => testMeaning ns a t) ∧
      ((∃ t₀, ts = [t₀] ∧ t₀.id = .processingInstruction) → t = .type .pi) := by
  cases t with
  | any =>
    obtain ⟨m, rfl, _, h2⟩ := reads_first (solid_sym (c := '*') (u := []) rfl (by decide)) h hs
    cases h2
    refine ⟨_, ?_, inner_single (t₀ := .node .anyName ['*'] []) rfl (by simp [Tree.id]) ?_, ?_⟩
    · refine (alt_right (seq_none_left (lit_none_head ?_))).trans ((alt_right (seq_none_left ?_)).trans (nameTest_any _))
      · intro c u e; cases e; decide
      · refine alt_none (lit_none_head ?_) (alt_none (lit_none_head ?_) (alt_none (lit_none_head ?_) (lit_none_head ?_)))
          <;> (intro c u e; cases e; decide)
    · intro attr vs _; rfl
    · rintro ⟨t₀, e, h0⟩; cases e; cases h0
  | anyIn p =>
    obtain ⟨hp, hb⟩ := hok
    have hsol : Tok.Solid { text := p ++ ":*".toList } := by
      obtain ⟨c, u, rfl, hc⟩ := solid_name hp
      exact ⟨c, u ++ ":*".toList, rfl, hc⟩
    obtain ⟨m, rfl, _, h2⟩ := reads_first hsol h hs
    cases h2
    have e0 : p ++ ":*".toList ++ r = p ++ (':' :: '*' :: r) := by rw [List.append_assoc]; rfl
    have hnb : ∀ c u, skip (':' :: '*' :: r) = c :: u → c ≠ '(' := by
      intro c u e
      rw [skip_cons (by decide)] at e
      cases e
      decide
    refine ⟨_, ?_, inner_anyIn hb (.node .anyName ['*'] []), ?_⟩
    · refine (alt_right ?_).trans ((alt_right ?_).trans (nameTest_anyIn hp))
      · simp only [e0]; exact piTest_none hp.all (ends_colon _) hnb
      · simp only [e0]; exact typeTest_none hp.all (ends_colon _) hnb
    · rintro ⟨t₀, e, h0⟩; cases e; cases h0
  | name q =>
    obtain ⟨m, rfl, hE, h2⟩ := reads_first (solid_nameTok hok) h hs
    cases h2
    have hE' : Ends r := hE rfl
    obtain ⟨n, v, e, hn, hv, hnb, _⟩ := qText_word hok hE' (fun c u e => hst.noBracket e) (fun c u e => hst.noColon' e)
    refine ⟨_, ?_, inner_name hok, ?_⟩
    · refine (alt_right ?_).trans ((alt_right ?_).trans (nameTest_name hok hE' hst.noColon))
      · show piTest (qText q ++ r) = none
        rw [e]; exact piTest_none hn.all hv hnb
      · show typeTest (qText q ++ r) = none
        rw [e]; exact typeTest_none hn.all hv hnb
    · rintro ⟨t₀, e, h0⟩
      cases e
      obtain ⟨pre, loc⟩ := q
      cases pre <;> cases h0
  | type t =>
    have hsol : (sym (typeText t)).Solid := by
      obtain ⟨c, u, e, hc⟩ := solid_name (typeText_name t)
      exact ⟨c, u, e, hc⟩
    obtain ⟨m, rfl, _, h2⟩ := reads_first hsol h hs
    obtain ⟨m2, e2, _, _, h3⟩ := reads_next (solid_sym (c := '(') (u := []) rfl (by decide)) h2
    obtain ⟨m3, e3, _, _, h4⟩ := reads_next (solid_sym (c := ')') (u := []) rfl (by decide)) h3
    cases h4
    have hbr : ∀ {x y : Str}, skip x = (sym "(").text ++ y → discard leftBracket (skip x) = some ([], y) := by
      intro x y e
      rw [e]
      exact discard_lit .leftBracket "(".toList y
    have hty : typeTest ((sym (typeText t)).text ++ m) =
        some (.node (typeId t) (typeText t).toList [] :: (sT m ++ sT m2), r) := by
      have := seq_some (nodeType_append t m) (seq_some (space_eq m) (seq_some (hbr e2) (seq_some (space_eq m2)
        (show discard rightBracket (skip m2) = some ([], r) by rw [e3]; exact discard_lit .rightBracket ")".toList r))))
      simp only [List.nil_append, List.append_nil, List.cons_append] at this
      exact this
    refine ⟨_, (alt_right ?_).trans (alt_left hty), inner_type t ?_, ?_⟩
    · cases t with
      | comment => exact seq_none_left (lit_none_head (by intro c u e; cases e; decide))
      | text => exact seq_none_left (lit_none_head (by intro c u e; cases e; decide))
      | node => exact seq_none_left (lit_none_head (by intro c u e; cases e; decide))
      | pi =>
        refine seq_none_right (lit_append _ "processing-instruction".toList m) (seq_none_right (space_eq m)
          (seq_none_right (hbr e2) (seq_none_right (space_eq m2) (seq_none_left (literal_none ?_)))))
        intro c u e
        rw [e3] at e
        cases e
        decide
    · intro a ha
      rcases List.mem_append.mp ha with h | h
      · exact allS_sT _ a h
      · exact allS_sT _ a h
    · rintro ⟨t₀, e, h0⟩
      have := (List.cons.inj e).1
      rw [← this] at h0
      cases t <;> first | rfl | cases h0
  | target q t =>
    obtain ⟨m, rfl, _, h2⟩ := reads_first (solid_sym (c := 'p') (u := "rocessing-instruction".toList) rfl (by decide)) h hs
    obtain ⟨m2, _, e2, _, h3⟩ := reads_next (solid_sym (c := '(') (u := []) rfl (by decide)) h2
    have hq : Tok.Solid { text := q :: t ++ [q], tight := true } :=
      ⟨q, t ++ [q], rfl, by rcases hok.1 with rfl | rfl <;> decide⟩
    obtain ⟨m3, _, e3, _, h4⟩ := reads_next hq h3
    obtain ⟨m4, e4, _, _, h5⟩ := reads_next (solid_sym (c := ')') (u := []) rfl (by decide)) h4
    cases h5
    have e2' : m = '(' :: m2 := e2 rfl
    have e3' : m2 = q :: t ++ [q] ++ m3 := e3 rfl
    have hqs : isSpace q = false := by rcases hok.1 with rfl | rfl <;> decide
    have s1 : skip m = '(' :: m2 := by rw [e2']; exact skip_cons (by decide)
    have s2 : skip m2 = m2 := by rw [e3']; exact skip_cons hqs
    have t1 : sT m = [] := by rw [e2']; exact sT_cons (by decide)
    have t2 : sT m2 = [] := by rw [e3']; exact sT_cons hqs
    refine ⟨_, alt_left ?_, inner_target q "processing-instruction".toList t (sT m3) (allS_sT _), ?_⟩
    · have := seq_some (lit_append .processingInstruction "processing-instruction".toList m)
        (seq_some (space_eq m) (seq_some (show discard leftBracket (skip m) = some ([], m2) by
          rw [s1]; exact discard_lit .leftBracket "(".toList m2) (seq_some (space_eq m2)
          (seq_some (show literal (skip m2) = some ([.node .literal t []], m3) by
            rw [s2, e3']; exact literal_append hok) (seq_some (space_eq m3)
            (show discard rightBracket (skip m3) = some ([], r) by rw [e4]; exact discard_lit .rightBracket ")".toList r))))))
      rw [t1, t2] at this
      simp only [List.nil_append, List.append_nil, List.cons_append] at this
      exact this
    · rintro ⟨t₀, e, h0⟩
      cases e

theorem nodeTest_reads {t : NodeTest} (hok : t.Ok ns) {s r : Str} (h : Reads (testTokens t) s r) (hs : skip s = s)
    (hst : Stop 11 r) : ∃ T, nodeTest s = some ([T], skip r) ∧ TestTree ns T (fun a => testMeaning ns a t) ∧
      (T.id = .processingInstruction → t = .type .pi) := by
  obtain ⟨ts, e1, h1, h2⟩ := innerTest_reads hok h hs hst
  obtain ⟨T, e2, h3, h4⟩ := testTree_group h1 r
  refine ⟨T, ?_, h3, fun hp => ?_⟩
  · have e3 := seq_some (space_eq s) (seq_some (a := innerTest) (show innerTest (skip s) = some (ts, r) by rw [hs, e1])
      (space_eq r))
    have e4 : sT s = [] := by rw [← hs]; exact sT_skip s
    rw [e4, List.nil_append] at e3
    have := rule_some (id := .nodeTest) e3
    rw [e2] at this
    exact this
  · obtain ⟨t₀, rfl⟩ := h4 hp
    apply h2
    refine ⟨t₀, rfl, ?_⟩
    rcases sT_cases r with e | ⟨w, e⟩
    · rw [e] at e2
      cases e2
      exact hp
    · rw [e] at e2
      cases e2
      cases hp

/-! ## axes -/

/-- The alternatives of `AxisSpecifier`. -/
def axisInner : P :=
  alt (seq axisName (seq space (lit .axisSpecifier "::".toList))) (opt (lit .abbreviatedAxisSpecifier "@".toList))

theorem axisSpecifier_eq : axisSpecifier = rule .axisSpecifier (seq space (seq axisInner space)) := rfl

theorem axisInner_name {n v : Str} (hn : NcName n) (hv : Ends v) (hc : ¬ ∃ u, skip v = ':' :: ':' :: u) :
    axisInner (n ++ v) = some ([], n ++ v) := by
  refine (alt_right ?_).trans (opt_none (lit_none_head ?_))
  · cases ha : axisName (n ++ v) with
    | none => exact seq_none_left ha
    | some p =>
      obtain ⟨ts, r⟩ := p
      obtain ⟨a, e⟩ := axisName_some ha
      refine seq_none_right ha (seq_none_right (space_eq _) (lit_none ?_))
      rintro ⟨u, e2⟩
      rcases kw_next (axisText_name a).all hn.all hv e e2 with h | h
      · revert h; decide
      · exact hc ⟨u, h⟩
  · intro c u e
    exact (nameStart_ne (hn.first e) (by decide)).symm

theorem axisName_none {s : Str} (h : ∀ c u, s = c :: u → nameStart c = false) : axisName s = none := by
  cases ha : axisName s with
  | none => rfl
  | some p =>
    obtain ⟨ts, r⟩ := p
    obtain ⟨a, e⟩ := axisName_some ha
    obtain ⟨c, u, e2, h1, _⟩ := (axisText_name a).cons
    rw [e2] at e
    rw [h c (u ++ r) e] at h1
    cases h1

theorem axisInner_none {s : Str} (h : ∀ c u, s = c :: u → nameStart c = false ∧ c ≠ '@') : axisInner s = some ([], s) :=
  (alt_right (seq_none_left (axisName_none (fun c u e => (h c u e).1)))).trans
    (opt_none (lit_none_head (fun c u e => (h c u e).2.symm)))

theorem ends_of_head {c : Char} {s : Str} (h : nameChar c = false) : Ends (c :: s) := by
  intro d u e; cases e; exact h

theorem ends_space_or {s : Str} {c : Char} {u : Str} (h : skip s = c :: u) (hc : nameChar c = false) : Ends s := by
  intro d v e
  by_cases hs : isSpace d = true
  · by_cases hd : nameChar d = true
    · rw [not_space_of_nameChar hd] at hs
      cases hs
    · simpa using hd
  · simp only [Bool.not_eq_true] at hs
    rw [e, skip_cons hs] at h
    cases h
    exact hc

/-- Before a test, there is no axis. -/
theorem axisInner_test {t : NodeTest} (hok : t.Ok ns) {s r : Str} (h : Reads (testTokens t) s r) (hs : skip s = s)
    (hst : Stop 11 r) : axisInner s = some ([], s) := by
  cases t with
  | any =>
    obtain ⟨m, rfl, _, h2⟩ := reads_first (solid_sym (c := '*') (u := []) rfl (by decide)) h hs
    exact axisInner_none (by intro c u e; cases e; decide)
  | anyIn p =>
    obtain ⟨hp, hb⟩ := hok
    have hsol : Tok.Solid { text := p ++ ":*".toList } := by
      obtain ⟨c, u, rfl, hc⟩ := solid_name hp
      exact ⟨c, u ++ ":*".toList, rfl, hc⟩
    obtain ⟨m, rfl, _, h2⟩ := reads_first hsol h hs
    have e0 : ({ text := p ++ ":*".toList } : Tok).text ++ m = p ++ (':' :: '*' :: m) := by
      show p ++ ":*".toList ++ m = _
      rw [List.append_assoc]; rfl
    rw [e0]
    refine axisInner_name hp (ends_colon _) ?_
    rintro ⟨u, e⟩
    rw [skip_cons (by decide)] at e
    cases e
  | name q =>
    obtain ⟨m, rfl, hE, h2⟩ := reads_first (solid_nameTok hok) h hs
    cases h2
    obtain ⟨n, v, e, hn, hv, _, hc⟩ := qText_word hok (hE rfl) (fun c u e => hst.noBracket e)
      (fun c u e => hst.noColon' e)
    show axisInner (qText q ++ r) = some ([], qText q ++ r)
    rw [e]
    exact axisInner_name hn hv hc
  | type t =>
    have hsol : (sym (typeText t)).Solid := by
      obtain ⟨c, u, e, hc⟩ := solid_name (typeText_name t)
      exact ⟨c, u, e, hc⟩
    obtain ⟨m, rfl, _, h2⟩ := reads_first hsol h hs
    obtain ⟨m2, e2, _, _, h3⟩ := reads_next (solid_sym (c := '(') (u := []) rfl (by decide)) h2
    refine axisInner_name (typeText_name t) (ends_space_or (c := '(') (u := m2) e2 (by decide)) ?_
    rintro ⟨u, e⟩
    rw [e2] at e
    cases e
  | target q t =>
    obtain ⟨m, rfl, _, h2⟩ := reads_first (solid_sym (c := 'p') (u := "rocessing-instruction".toList) rfl (by decide)) h hs
    obtain ⟨m2, e2, _, _, h3⟩ := reads_next (solid_sym (c := '(') (u := []) rfl (by decide)) h2
    refine axisInner_name (typeText_name .pi) (ends_space_or (c := '(') (u := m2) e2 (by decide)) ?_
    rintro ⟨u, e⟩
    rw [e2] at e
    cases e

theorem testTokens_head {t : NodeTest} (hok : t.Ok ns) :
    ∃ k ts c u, testTokens t = k :: ts ∧ k.text = c :: u ∧ (nameStart c = true ∨ c = '*') := by
  cases t with
  | any => exact ⟨_, _, '*', [], rfl, rfl, Or.inr rfl⟩
  | anyIn p =>
    obtain ⟨c, u, rfl, h1, h2⟩ := hok.1.cons
    exact ⟨_, _, c, u ++ ":*".toList, rfl, rfl, Or.inl h1⟩
  | name q =>
    obtain ⟨c, u, e, h1⟩ := solid_qText hok
    exact ⟨_, _, c, u, rfl, e, Or.inl h1⟩
  | type t =>
    obtain ⟨c, u, e, h1, h2⟩ := (typeText_name t).cons
    exact ⟨_, _, c, u, rfl, e, Or.inl h1⟩
  | target q t => exact ⟨_, _, 'p', "rocessing-instruction".toList, rfl, rfl, Or.inl (by decide)⟩

theorem solid_start {c : Char} (h : nameStart c = true ∨ c = '*') : isSpace c = false := by
  rcases h with h | rfl
  · exact not_space_of_nameChar (nameChar_of_nameStart h)
  · decide

theorem reads_skip_test {t : NodeTest} (hok : t.Ok ns) {s r : Str} (h : Reads (testTokens t) s r) :
    Reads (testTokens t) (skip s) r := by
  obtain ⟨k, ts, c, u, e, e2, hc⟩ := testTokens_head hok
  rw [e] at h ⊢
  exact reads_skip ⟨c, u, e2, solid_start hc⟩ h

theorem group_axis_at (a b : Str) (x : Tree) (hx : x.id = .abbreviatedAxisSpecifier) :
    AxisTrees (group .axisSpecifier (sT a ++ ([x] ++ sT b))) .attribute := by
  rcases sT_cases a with e | ⟨w, e⟩ <;> rcases sT_cases b with e2 | ⟨w2, e2⟩ <;> rw [e, e2]
  · exact Or.inr (Or.inr (Or.inl ⟨x, rfl, hx, rfl⟩))
  · refine Or.inr (Or.inr (Or.inr ⟨_, x, [.node .s w2 []], rfl, rfl, ?_, by rw [hx]; rfl⟩))
    exact skipS_cons (by rw [hx]; simp)
  · refine Or.inr (Or.inr (Or.inr ⟨_, x, [], rfl, rfl, ?_, by rw [hx]; rfl⟩))
    simp only [Tree.kids, List.cons_append, List.nil_append]
    rw [skipS_s rfl]
    exact skipS_cons (by rw [hx]; simp)
  · refine Or.inr (Or.inr (Or.inr ⟨_, x, [.node .s w2 []], rfl, rfl, ?_, by rw [hx]; rfl⟩))
    simp only [Tree.kids, List.cons_append, List.nil_append]
    rw [skipS_s rfl]
    exact skipS_cons (by rw [hx]; simp)

theorem group_axis_named (a b c : Str) (ax : Axis) (w : Str) (y : Tree) :
    AxisTrees (group .axisSpecifier (sT a ++ (([.node (axisId ax) w []] ++ (sT b ++ [y])) ++ sT c))) ax := by
  have h1 : ∃ x vs, sT a ++ (([Tree.node (axisId ax) w []] ++ (sT b ++ [y])) ++ sT c) = vs ∧
      group .axisSpecifier vs = [x] ∧ x.id = .axisSpecifier ∧ x.kids = vs := by
    rcases sT_cases a with e | ⟨w1, e⟩ <;> rcases sT_cases b with e2 | ⟨w2, e2⟩ <;> rw [e, e2] <;>
      exact ⟨_, _, rfl, rfl, rfl, rfl⟩
  obtain ⟨x, vs, e1, e2, e3, e4⟩ := h1
  rw [e1, e2]
  refine Or.inr (Or.inr (Or.inr ⟨x, .node (axisId ax) w [], (sT b ++ [y]) ++ sT c, rfl, e3, ?_, ?_⟩))
  · rw [e4, ← e1, skipS_sT]
    exact skipS_cons (by cases ax <;> simp [Tree.id, axisId])
  · cases ax <;> rfl

theorem axisSpecifier_reads {ax : AxisSpec} {t : NodeTest} (hok : t.Ok ns) {s r : Str}
    (h : Reads (axisTokens ax ++ testTokens t) s r) (hst : Stop 11 r) :
    ∃ A s1, axisSpecifier s = some (A, s1) ∧ AxisTrees A (axisMeaning ax) ∧ Reads (testTokens t) s1 r ∧ skip s1 = s1 ∧
      (A = [] → ax = .child) := by
  rw [axisSpecifier_eq]
  cases ax with
  | child =>
    have h1 : Reads (testTokens t) (skip s) r := reads_skip_test hok h
    have e1 := axisInner_test hok h1 (skip_skip s) hst
    have e2 := rule_some (id := .axisSpecifier) (seq_some (space_eq s) (seq_some e1 (space_eq (skip s))))
    rw [sT_skip, List.append_nil, List.append_nil, skip_skip] at e2
    refine ⟨_, skip s, e2, ?_, h1, skip_skip s, fun _ => rfl⟩
    rcases sT_cases s with e | ⟨w, e⟩ <;> rw [e]
    · exact Or.inl ⟨rfl, rfl⟩
    · exact Or.inr (Or.inl ⟨w, rfl, rfl⟩)
  | atSign =>
    obtain ⟨m, e, _, _, h2⟩ := reads_next (solid_sym (c := '@') (u := []) rfl (by decide)) h
    have h1 : Reads (testTokens t) (skip m) r := reads_skip_test hok h2
    have e1 : axisInner (skip s) = some ([.node .abbreviatedAxisSpecifier "@".toList []], m) := by
      rw [e]
      refine (alt_right (seq_none_left (axisName_none ?_))).trans (opt_some (lit_append _ "@".toList m))
      intro c u e; cases e; decide
    have e2 := rule_some (id := .axisSpecifier) (seq_some (space_eq s) (seq_some e1 (space_eq m)))
    have h3 := group_axis_at s m (.node .abbreviatedAxisSpecifier "@".toList []) rfl
    refine ⟨_, skip m, e2, h3, h1, skip_skip m, ?_⟩
    intro e3
    rw [e3] at h3
    rcases h3 with ⟨_, h3⟩ | ⟨w, h3, _⟩ | ⟨x, h3, _⟩ | ⟨x, y, ys, h3, _⟩ <;> cases h3
  | named a =>
    have hsol : (sym (axisText a)).Solid := by
      obtain ⟨c, u, e, hc⟩ := solid_name (axisText_name a)
      exact ⟨c, u, e, hc⟩
    obtain ⟨m, e, _, _, h2⟩ := reads_next hsol h
    obtain ⟨m2, e', _, _, h3⟩ := reads_next (solid_sym (c := ':') (u := [':']) rfl (by decide)) h2
    have h1 : Reads (testTokens t) (skip m2) r := reads_skip_test hok h3
    have e1 : axisInner (skip s) = some ([.node (axisId a) (axisText a).toList []] ++
        (sT m ++ [.node .axisSpecifier "::".toList []]), m2) := by
      rw [e]
      refine alt_left (seq_some (axisName_append a (ends_space_or (c := ':') (u := ':' :: m2) e' (by decide)))
        (seq_some (space_eq m) ?_))
      rw [e']
      exact lit_append _ "::".toList m2
    have e2 := rule_some (id := .axisSpecifier) (seq_some (space_eq s) (seq_some e1 (space_eq m2)))
    have h3 := group_axis_named s m m2 a (axisText a).toList (.node .axisSpecifier "::".toList [])
    refine ⟨_, skip m2, e2, h3, h1, skip_skip m2, ?_⟩
    intro e3
    exfalso
    revert e3
    rcases sT_cases s with e | ⟨w1, e⟩ <;> rcases sT_cases m with e2 | ⟨w2, e2⟩ <;> rw [e, e2] <;> intro e3 <;> cases e3

end Verif.XPathParse
