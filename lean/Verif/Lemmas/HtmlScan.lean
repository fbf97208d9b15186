import Verif.Model.HtmlScan
import Verif.Spec.Taggle
set_option autoImplicit false
set_option linter.unusedSimpArgs false
set_option linter.unusedVariables false
/-! # Lemmas about the HTML scanner -/
namespace Verif.Taggle
open Spec

/-! ### The state table -/

theorem search_fresh (st : Nat) (ch ch' : Int) : ∀ (rows : List (Nat × Int × Nat × Nat)) (a n : Nat),
    (∀ r ∈ rows, r.2.1 ≠ ch ∧ r.2.1 ≠ ch') → search st ch rows a n = search st ch' rows a n
  | [], a, n, _ => rfl
  | (s, c, a', n') :: rows, a, n, h => by
    have hc := h (s, c, a', n') (by simp)
    have ih := fun a n => search_fresh st ch ch' rows a n (fun r hr => h r (by simp [hr]))
    rw [search, search, ih, ih, if_neg hc.1, if_neg hc.2]

theorem search_next (st : Nat) (ch : Int) : ∀ (rows : List (Nat × Int × Nat × Nat)) (a n n' : Nat),
    (search st ch rows a n).1 = (search st ch rows a n').1 ∧
    (a = 0 → (search st ch rows a n).1 ≠ 0 → search st ch rows a n = search st ch rows a n')
  | [], a, n, n' => ⟨rfl, fun h0 h => absurd h0 h⟩
  | (s, c, a', m) :: rows, a, n, n' => by
    rw [search, search]
    by_cases h1 : st ≠ s
    · rw [if_pos h1, if_pos h1]
      by_cases h2 : a ≠ 0
      · rw [if_pos h2, if_pos h2]; exact ⟨rfl, fun h0 _ => absurd h0 h2⟩
      · rw [if_neg h2, if_neg h2]; exact search_next st ch rows a n n'
    · rw [if_neg h1, if_neg h1]
      by_cases h2 : c = 0
      · rw [if_pos h2, if_pos h2]; exact ⟨rfl, fun _ _ => rfl⟩
      · rw [if_neg h2, if_neg h2]
        by_cases h3 : c = ch
        · rw [if_pos h3, if_pos h3]; exact ⟨rfl, fun _ _ => rfl⟩
        · rw [if_neg h3, if_neg h3]; exact search_next st ch rows a n n'

/-- The characters that have rows of their own, and one that has none. -/
def tableChars : List Int :=
  [-1, 9, 10, 32, 33, 34, 38, 39, 45, 47, 60, 61, 62, 63, 65, 67, 68, 84, 91, 93, 0]

def entLike (st : Nat) : Bool := st == sEnt || st == sNcr || st == sXncr
def comLike (st : Nat) : Bool :=
  st == sTag || st == sDecl || st == sBb || st == sBbc || st == sBbcd || st == sBbcda ||
  st == sBbcdat || st == sBbcdata || st == sCom || st == sCom2 || st == sCom3 || st == sCom4
def flushes (st : Nat) : Bool := st == sPcdata || st == sCdata

/-- The actions that leave the buffer empty. -/
def emptying (a : Nat) : Bool :=
  [aAdup, aAdupStagc, aAname, aAnameAdup, aAnameAdupStagc, aAval, aAvalStagc, aCdata, aEtag, aDecl,
   aGi, aGiStagc, aLtPcdata, aPcdata, aCmnt, aPi, aPitarget, aPitargetPi, aStagc, aEmptytag,
   aUnsavePcdata].contains a

/-- What the table has to fulfil for a state, a character, an action and the next state. -/
def rowOk (st : Nat) (ch : Int) (a n : Nat) : Bool :=
  (a != 0) && (a != aUnget) && (decide (1 ≤ n ∧ n ≤ 35)) &&
  (emptying a || a == aAdupSave || a == aEntityStart || a == aEntity || a == aLt || a == aMinus3 ||
    a == aMinus2 || a == aMinus || a == aSave || a == aSkip || a == aSp) &&
  ((a == aEntity) == entLike st) &&
  (!(entLike st) || (a == aEntity && (!(ch != -1) || n == st))) &&
  (ch != -1 || entLike st || (st == sEmptytag && a == aSave && n == sAname) ||
    (n == sDone && (emptying a || a == aSkip))) &&
  (ch != -1 || st != sCdata || a == aPcdata) &&
  (!(entLike n) || a == aEntityStart || a == aEntity) &&
  (!(flushes st) || a == aSave || a == aPcdata || a == aEntityStart) &&
  (!(comLike n) || (a == aSkip && comLike st) || (a == aSave && ch != 45 && comLike st && ch != -1) ||
    (emptying a && !(flushes st && a == aSave)) ||
    (a == aMinus3 && comLike st) || (a == aMinus2 && ch != 45 && comLike st && ch != -1) ||
    (a == aMinus && ch != 45 && comLike st && ch != -1)) &&
  (!(n == sPi) || (a == aSave && ch != 62 && st == sPi && ch != -1) || (a == aPitarget)) &&
  (!(a == aCmnt) || comLike st) && (!(a == aPi) || st == sPi)

theorem table_ok : ∀ st ∈ (List.range 36).filter (fun s => s != 0 && s != sDone), ∀ ch ∈ tableChars,
    rowOk st ch (search st ch stateTable 0 0).1 (search st ch stateTable 0 0).2 = true := by
  decide +kernel

theorem table_chars : ∀ r ∈ stateTable, r.2.1 ∈ tableChars := by decide +kernel

/-- The table is good for every character. -/
theorem row_ok (st : Nat) (h1 : 1 ≤ st) (h2 : st ≤ 35) (h3 : st ≠ sDone) (ch : Int) (n0 : Nat) :
    rowOk st ch (search st ch stateTable 0 n0).1 (search st ch stateTable 0 n0).2 = true := by
  have hst : st ∈ (List.range 36).filter (fun s => s != 0 && s != sDone) := by
    rw [List.mem_filter]
    refine ⟨List.mem_range.2 (by omega), ?_⟩
    simp only [Bool.and_eq_true, bne_iff_ne]
    exact ⟨by omega, h3⟩
  have key : ∀ c, rowOk st c (search st c stateTable 0 0).1 (search st c stateTable 0 0).2 = true →
      rowOk st c (search st c stateTable 0 n0).1 (search st c stateTable 0 n0).2 = true := by
    intro c hc
    have ha : (search st c stateTable 0 0).1 ≠ 0 := by
      intro h0
      rw [h0] at hc
      simp [rowOk] at hc
    rw [← (search_next st c stateTable 0 0 n0).2 rfl ha]
    exact hc
  apply key
  by_cases hc : ch ∈ tableChars
  · exact table_ok st hst ch hc
  · have h0 := table_ok st hst 0 (by decide)
    by_cases hz : ∃ r ∈ stateTable, r.2.1 = ch
    · obtain ⟨r, hr, he⟩ := hz
      exact absurd (he ▸ table_chars r hr) hc
    · have hf : search st ch stateTable 0 0 = search st 1 stateTable 0 0 := by
        apply search_fresh
        intro r hr
        refine ⟨fun h => hz ⟨r, hr, h⟩, fun h => ?_⟩
        have := table_chars r hr
        rw [h] at this
        exact absurd this (by decide)
      have hall : ∀ st ∈ (List.range 36).filter (fun s => s != 0 && s != sDone),
          rowOk st 1 (search st 1 stateTable 0 0).1 (search st 1 stateTable 0 0).2 = true := by
        decide +kernel
      have h1 := hall st hst
      rw [hf]
      generalize search st 1 stateTable 0 0 = r at h1
      have n1 : (ch != -1) = true := by
        rw [bne_iff_ne]; intro h; exact hc (h ▸ by decide)
      have n2 : (ch != 45) = true := by
        rw [bne_iff_ne]; intro h; exact hc (h ▸ by decide)
      have n3 : (ch != 62) = true := by
        rw [bne_iff_ne]; intro h; exact hc (h ▸ by decide)
      have m1 : ((1 : Int) != -1) = true := by decide
      have m2 : ((1 : Int) != 45) = true := by decide
      have m3 : ((1 : Int) != 62) = true := by decide
      unfold rowOk at h1 ⊢
      rw [n1, n2, n3]
      rw [m1, m2, m3] at h1
      exact h1

/-! ### One action -/

/-- The tokens the scanner makes. -/
def TokOk : Tok → Prop
  | .cmnt b => CommentText b
  | .pi b => '>' ∉ b
  | _ => True

variable {cfg : Cfg} {fuel : Nat} {s0 : St} {full : Nat → Bool}

/-- A state of the parser that calls of the scanner lead to. -/
def Reached (cfg : Cfg) (fuel : Nat) (s0 s : St) : Prop :=
  ∃ ts, handleAll cfg fuel s0 ts = .ok s ∧ ∀ t ∈ ts, TokOk t

theorem handleAll_snoc : ∀ (ts : List Tok) (s s' : St) (t : Tok), handleAll cfg fuel s ts = .ok s' →
    handleAll cfg fuel s (ts ++ [t]) = handle cfg fuel { s' with cdata := false } t
  | [], s, s', t, h => by
    rw [handleAll] at h
    simp only [Out.ok.injEq] at h
    subst h
    show handleAll cfg fuel s [t] = _
    rw [handleAll]
    cases handle cfg fuel { s with cdata := false } t <;> rfl
  | u :: ts, s, s', t, h => by
    rw [handleAll] at h
    rw [List.cons_append, handleAll]
    cases hh : handle cfg fuel { s with cdata := false } u with
    | ok v => rw [hh] at h; exact handleAll_snoc ts v s' t h
    | throws => rw [hh] at h; exact absurd h (by simp)
    | ub => rw [hh] at h; exact absurd h (by simp)
    | diverges => rw [hh] at h; exact absurd h (by simp)

/-- Every run of calls ends normally. -/
def Total (cfg : Cfg) (fuel : Nat) (s0 : St) : Prop :=
  ∀ ts, ∃ t, handleAll cfg fuel s0 ts = .ok t

structure Moves (cfg : Cfg) (fuel : Nat) (s0 : St) (p q : Sc × St) : Prop where
  reached : Reached cfg fuel s0 q.2
  state : q.1.state = p.1.state
  input : q.1.input = p.1.input
  next : q.1.next = p.1.next ∨ q.1.next = sCdata

theorem Moves.trans {p q r : Sc × St} (h : Moves cfg fuel s0 p q) (g : Moves cfg fuel s0 q r) :
    Moves cfg fuel s0 p r :=
  ⟨g.reached, g.state.trans h.state, g.input.trans h.input, by
    rcases g.next with g | g
    · rw [g]; exact h.next
    · exact .inr g⟩

theorem call_ok (hT : Total cfg fuel s0) {p : Sc × St} (hp : Reached cfg fuel s0 p.2) {t : Tok}
    (ht : TokOk t) : ∃ q, call cfg fuel p t = .ok q ∧ Moves cfg fuel s0 p q ∧ q.1.buf = p.1.buf ∧
      (t = .pcdata [] → q.1.next = p.1.next) := by
  obtain ⟨ts, h1, h2⟩ := hp
  obtain ⟨s', hs'⟩ := hT (ts ++ [t])
  have hr : Reached cfg fuel s0 s' := by
    refine ⟨ts ++ [t], hs', fun u hu => ?_⟩
    rcases List.mem_append.1 hu with hu | hu
    · exact h2 u hu
    · simp at hu; subst hu; exact ht
  rw [handleAll_snoc ts s0 p.2 t h1] at hs'
  refine ⟨_, by unfold call; rw [hs'], ⟨hr, ?_, ?_, ?_⟩, ?_, ?_⟩
  · cases s'.cdata <;> rfl
  · cases s'.cdata <;> rfl
  · cases s'.cdata
    · exact .inl rfl
    · exact .inr rfl
  · cases s'.cdata <;> rfl
  · intro he
    subst he
    simp only [handle, pcdata, if_true, Out.ok.injEq] at hs'
    subst hs'
    rfl

theorem give_ok (hT : Total cfg fuel s0) {p : Sc × St} (hp : Reached cfg fuel s0 p.2)
    {t : Str → Tok} (ht : TokOk (t p.1.buf)) :
    ∃ q, give cfg fuel t p = .ok q ∧ Moves cfg fuel s0 p q ∧ q.1.buf = [] ∧
      (t p.1.buf = .pcdata [] → q.1.next = p.1.next) := by
  obtain ⟨q, h1, h2, _, h4⟩ := call_ok hT hp ht
  refine ⟨({ q.1 with buf := [] }, q.2), ?_, ⟨h2.reached, h2.state, h2.input, h2.next⟩, rfl, h4⟩
  unfold give
  rw [h1]
  rfl

theorem tell_ok (hT : Total cfg fuel s0) {p : Sc × St} (hp : Reached cfg fuel s0 p.2)
    {t : Str → Tok} (ht : TokOk (t p.1.buf)) :
    ∃ q, tell cfg fuel t p = .ok q ∧ Moves cfg fuel s0 p q ∧ q.1.buf = p.1.buf := by
  obtain ⟨q, h1, h2, h3, _⟩ := call_ok hT hp ht
  exact ⟨q, h1, h2, h3⟩

theorem save_ok (hT : Total cfg fuel s0) {p : Sc × St} (hp : Reached cfg fuel s0 p.2) (ch : Int) :
    ∃ q, save cfg fuel full ch p = .ok q ∧ Moves cfg fuel s0 p q ∧
      (flushes p.1.state = false → q.1.buf = p.1.buf ++ [byte ch] ∧ q.1.next = p.1.next) ∧
      (p.1.buf = [] → q.1.buf = [byte ch] ∧ q.1.next = p.1.next) := by
  unfold save
  simp only []
  by_cases hf : full p.1.saves ∧ (p.1.state = sPcdata ∨ p.1.state = sCdata)
  · rw [if_pos hf]
    obtain ⟨q, h1, h2, h3, h4⟩ := give_ok hT hp (t := .pcdata) trivial
    unfold give at h1
    rw [h1]
    refine ⟨_, rfl, ⟨h2.reached, h2.state, h2.input, h2.next⟩, fun hn => ?_, fun hb => ?_⟩
    · exfalso
      unfold flushes at hn
      simp only [Bool.or_eq_false_iff, beq_eq_false_iff_ne] at hn
      rcases hf.2 with h | h
      · exact hn.1 h
      · exact hn.2 h
    · exact ⟨by show q.1.buf ++ _ = _; rw [h3]; rfl, h4 (by rw [hb])⟩
  · rw [if_neg hf]
    exact ⟨_, rfl, ⟨hp, rfl, rfl, .inl rfl⟩, fun _ => ⟨rfl, rfl⟩, fun hb => ⟨by
      show p.1.buf ++ _ = _; rw [hb]; rfl, rfl⟩⟩

/-- What the buffer holds after an action. -/
def bufAfter (a : Nat) (ch : Int) (b : Str) : Str :=
  if emptying a then []
  else if a = aAdupSave ∨ a = aEntityStart then [byte ch]
  else if a = aLt then b ++ [byte 60, byte ch]
  else if a = aMinus3 then b ++ [byte 45, byte 32]
  else if a = aMinus2 then b ++ [byte 45, byte 32, byte 45, byte ch]
  else if a = aMinus then b ++ [byte 45, byte ch]
  else if a = aSave then b ++ [byte ch]
  else if a = aSp then b ++ [byte 32]
  else b

/-- What an action other than `A_ENTITY` does. -/
structure Acted (cfg : Cfg) (fuel : Nat) (s0 : St) (a : Nat) (ch : Int) (p q : Sc × St) : Prop where
  moves : Moves cfg fuel s0 p q
  buf : (a = aSave → flushes p.1.state = false) → q.1.buf = bufAfter a ch p.1.buf
  quiet : a = aSkip ∨ (a = aSave ∧ flushes p.1.state = false) ∨ (a = aPcdata ∧ p.1.buf = []) →
    q.1.next = p.1.next

theorem mk_give (hT : Total cfg fuel s0) {p : Sc × St} (hp : Reached cfg fuel s0 p.2) {a : Nat}
    {ch : Int} {t : Str → Tok} (ht : TokOk (t p.1.buf)) (he : emptying a = true)
    (hq : a = aPcdata → p.1.buf = [] → t p.1.buf = .pcdata []) :
    ∃ q, give cfg fuel t p = .ok q ∧ Acted cfg fuel s0 a ch p q := by
  obtain ⟨q, h1, h2, h3, h4⟩ := give_ok hT hp ht
  refine ⟨q, h1, h2, fun _ => by rw [h3, bufAfter, if_pos he], fun h => ?_⟩
  rcases h with h | ⟨h, _⟩ | ⟨h, hb⟩
  · rw [h] at he; exact absurd he (by decide)
  · rw [h] at he; exact absurd he (by decide)
  · exact h4 (hq h hb)

theorem mk_two (hT : Total cfg fuel s0) {p : Sc × St} (hp : Reached cfg fuel s0 p.2) {a : Nat}
    {ch : Int} {t u : Str → Tok} (ht : TokOk (t p.1.buf)) (hu : TokOk (u [])) (he : emptying a = true)
    (hn : a ≠ aPcdata) :
    ∃ q, ((give cfg fuel t p).bind (tell cfg fuel u)) = .ok q ∧ Acted cfg fuel s0 a ch p q := by
  obtain ⟨q, h1, h2, h3, h4⟩ := give_ok hT hp ht
  obtain ⟨r, g1, g2, g3⟩ := tell_ok hT h2.reached (t := u) (by rw [h3]; exact hu)
  refine ⟨r, by rw [h1]; exact g1, h2.trans g2, fun _ => ?_, fun h => ?_⟩
  · rw [g3, h3, bufAfter, if_pos he]
  · rcases h with h | ⟨h, _⟩ | ⟨h, _⟩
    · rw [h] at he; exact absurd he (by decide)
    · rw [h] at he; exact absurd he (by decide)
    · exact absurd h hn

theorem act_ok (hT : Total cfg fuel s0) {p : Sc × St} (hp : Reached cfg fuel s0 p.2) (a : Nat)
    (ch : Int)
    (ha : (emptying a || a == aAdupSave || a == aEntityStart || a == aEntity || a == aLt ||
      a == aMinus3 || a == aMinus2 || a == aMinus || a == aSave || a == aSkip || a == aSp) = true)
    (hne : a ≠ aEntity)
    (hfl : flushes p.1.state = true → (a == aSave || a == aPcdata || a == aEntityStart) = true)
    (hc : a = aCmnt → CommentText p.1.buf) (hpi : a = aPi → '>' ∉ p.1.buf) :
    ∃ q, act cfg fuel full a ch p = .ok q ∧ Acted cfg fuel s0 a ch p q := by
  have nofl : a ≠ aSave → a ≠ aPcdata → a ≠ aEntityStart → flushes p.1.state = false := by
    intro h1 h2 h3
    cases hf : flushes p.1.state with
    | false => rfl
    | true =>
      have := hfl hf
      simp only [Bool.or_eq_true, beq_iff_eq] at this
      rcases this with (h | h) | h
      · exact absurd h h1
      · exact absurd h h2
      · exact absurd h h3
  unfold emptying at ha
  simp only [List.contains_cons, List.contains_nil, Bool.or_eq_true, beq_iff_eq, Bool.or_false] at ha
  have sorted : a ∈ [aAdup, aAdupStagc, aAname, aAnameAdup, aAnameAdupStagc, aAval, aAvalStagc, aCdata,
      aEtag, aDecl, aGi, aGiStagc, aLtPcdata, aPcdata, aCmnt, aPi, aPitarget, aPitargetPi, aStagc,
      aEmptytag, aUnsavePcdata, aAdupSave, aEntityStart, aEntity, aLt, aMinus3, aMinus2, aMinus, aSave,
      aSkip, aSp] := by
    simp only [List.mem_cons, List.not_mem_nil, or_false]
    simp only [or_assoc] at ha ⊢
    exact ha
  clear ha
  simp only [List.mem_cons, List.not_mem_nil, or_false] at sorted
  have plain : ∀ (t : Str → Tok), TokOk (t p.1.buf) → emptying a = true → a ≠ aPcdata →
      ∃ q, give cfg fuel t p = .ok q ∧ Acted cfg fuel s0 a ch p q :=
    fun t ht he hn => mk_give hT hp ht he (fun h => absurd h hn)
  have one : ∀ c : Int, ∃ q, save cfg fuel full c p = .ok q ∧ Moves cfg fuel s0 p q ∧
      (flushes p.1.state = false → q.1.buf = p.1.buf ++ [byte c] ∧ q.1.next = p.1.next) := by
    intro c
    obtain ⟨q, h1, h2, h3, _⟩ := save_ok (full := full) hT hp c
    exact ⟨q, h1, h2, h3⟩
  have more : ∀ (c : Int) (q : Sc × St), Moves cfg fuel s0 p q → flushes p.1.state = false →
      ∃ r, save cfg fuel full c q = .ok r ∧ Moves cfg fuel s0 p r ∧ r.1.buf = q.1.buf ++ [byte c] := by
    intro c q hm hf
    obtain ⟨r, h1, h2, h3, _⟩ := save_ok (full := full) hT hm.reached c
    exact ⟨r, h1, hm.trans h2, (h3 (by rw [hm.state]; exact hf)).1⟩
  rcases sorted with h | h | h | h | h | h | h | h | h | h | h | h | h | h | h | h | h | h | h | h | h |
    h | h | h | h | h | h | h | h | h | h <;> subst h
  · exact plain .adup trivial (by decide) (by decide)
  · exact mk_two hT hp (t := .adup) (u := .stagc) trivial trivial (by decide) (by decide)
  · exact plain .aname trivial (by decide) (by decide)
  · exact mk_two hT hp (t := .aname) (u := .adup) trivial trivial (by decide) (by decide)
  · obtain ⟨q, h1, h2⟩ := mk_two hT hp (a := aAnameAdup) (ch := ch) (t := .aname) (u := .adup) trivial
      trivial (by decide) (by decide)
    have hb : q.1.buf = [] := by
      rw [h2.buf (fun h => absurd h (by decide))]; rfl
    obtain ⟨r, g1, g2, g3⟩ := tell_ok hT h2.moves.reached (t := .stagc) trivial
    refine ⟨r, ?_, h2.moves.trans g2, fun _ => by rw [g3, hb]; rfl, fun h => ?_⟩
    · show ((give cfg fuel .aname p).bind (tell cfg fuel .adup)).bind (tell cfg fuel .stagc) = _
      rw [h1]; exact g1
    · rcases h with h | ⟨h, _⟩ | ⟨h, _⟩ <;> exact absurd h (by decide)
  · exact plain .aval trivial (by decide) (by decide)
  · exact mk_two hT hp (t := .aval) (u := .stagc) trivial trivial (by decide) (by decide)
  · obtain ⟨q, h1, h2, h3, _⟩ := give_ok hT (p := ({ p.1 with
        buf := if p.1.buf.length > 1 then p.1.buf.take (p.1.buf.length - 2) else p.1.buf }, p.2)) hp
      (t := .pcdata) trivial
    refine ⟨q, h1, ⟨h2.reached, h2.state, h2.input, h2.next⟩, fun _ => by rw [h3]; rfl, fun h => ?_⟩
    rcases h with h | ⟨h, _⟩ | ⟨h, _⟩ <;> exact absurd h (by decide)
  · exact plain .etag trivial (by decide) (by decide)
  · exact plain .decl trivial (by decide) (by decide)
  · exact plain .gi trivial (by decide) (by decide)
  · exact mk_two hT hp (t := .gi) (u := .stagc) trivial trivial (by decide) (by decide)
  · obtain ⟨q, h1, h2, h3⟩ := one 60
    obtain ⟨r, g1, g2, g3, _⟩ := give_ok hT h2.reached (t := .pcdata) trivial
    refine ⟨r, ?_, h2.trans g2, fun _ => by rw [g3]; rfl, fun h => ?_⟩
    · show (save cfg fuel full 60 p).bind (give cfg fuel .pcdata) = _
      rw [h1]; exact g1
    · rcases h with h | ⟨h, _⟩ | ⟨h, _⟩ <;> exact absurd h (by decide)
  · exact mk_give hT hp (t := .pcdata) trivial (by decide) (fun _ hb => by rw [hb])
  · exact plain .cmnt (hc rfl) (by decide) (by decide)
  · exact plain .pi (hpi rfl) (by decide) (by decide)
  · exact plain .pitarget trivial (by decide) (by decide)
  · exact mk_two hT hp (t := .pitarget) (u := .pi) trivial (fun h => (nomatch h)) (by decide) (by decide)
  · exact plain .stagc trivial (by decide) (by decide)
  · have fst : ∃ q, (if p.1.buf ≠ [] then tell cfg fuel .gi p else .ok p) = .ok q ∧
        Moves cfg fuel s0 p q := by
      by_cases hb : p.1.buf ≠ []
      · rw [if_pos hb]
        obtain ⟨q, h1, h2, _⟩ := tell_ok hT hp (t := .gi) trivial
        exact ⟨q, h1, h2⟩
      · rw [if_neg hb]
        exact ⟨p, rfl, hp, rfl, rfl, .inl rfl⟩
    obtain ⟨q, h1, h2⟩ := fst
    have h2' : Moves cfg fuel s0 p ({ q.1 with buf := [] }, q.2) :=
      ⟨h2.reached, h2.state, h2.input, h2.next⟩
    obtain ⟨r, g1, g2, g3⟩ := tell_ok hT h2'.reached (p := ({ q.1 with buf := [] }, q.2))
      (t := .stage) trivial
    refine ⟨r, ?_, h2'.trans g2, fun _ => by rw [g3]; rfl, fun h => ?_⟩
    · show ((if p.1.buf ≠ [] then tell cfg fuel .gi p else .ok p).bind clear).bind
        (tell cfg fuel .stage) = _
      rw [h1]; exact g1
    · rcases h with h | ⟨h, _⟩ | ⟨h, _⟩ <;> exact absurd h (by decide)
  · obtain ⟨q, h1, h2, h3, _⟩ := give_ok hT (p := ({ p.1 with buf := p.1.buf.dropLast }, p.2)) hp
      (t := .pcdata) trivial
    refine ⟨q, h1, ⟨h2.reached, h2.state, h2.input, h2.next⟩, fun _ => by rw [h3]; rfl, fun h => ?_⟩
    rcases h with h | ⟨h, _⟩ | ⟨h, _⟩ <;> exact absurd h (by decide)
  · obtain ⟨q, h1, h2, h3, _⟩ := give_ok hT hp (t := .adup) trivial
    obtain ⟨r, g1, g2, _, g4⟩ := save_ok (full := full) hT h2.reached ch
    refine ⟨r, ?_, h2.trans g2, fun _ => by rw [(g4 h3).1]; rfl, fun h => ?_⟩
    · show (give cfg fuel .adup p).bind (save cfg fuel full ch) = _
      rw [h1]; exact g1
    · rcases h with h | ⟨h, _⟩ | ⟨h, _⟩ <;> exact absurd h (by decide)
  · obtain ⟨q, h1, h2, h3, _⟩ := give_ok hT hp (t := .pcdata) trivial
    obtain ⟨r, g1, g2, _, g4⟩ := save_ok (full := full) hT h2.reached ch
    refine ⟨r, ?_, h2.trans g2, fun _ => by rw [(g4 h3).1]; rfl, fun h => ?_⟩
    · show (give cfg fuel .pcdata p).bind (save cfg fuel full ch) = _
      rw [h1]; exact g1
    · rcases h with h | ⟨h, _⟩ | ⟨h, _⟩ <;> exact absurd h (by decide)
  · exact absurd rfl hne
  · have hf := nofl (by decide) (by decide) (by decide)
    obtain ⟨q, h1, h2, h3⟩ := one 60
    obtain ⟨r0, g0, m0, b0⟩ := more ch q h2 hf
    refine ⟨r0, ?_, m0, fun _ => by rw [b0, (h3 hf).1]; simp [bufAfter, emptying, aMinus, aMinus2, aMinus3, aLt, aSp, aSave, aAdupSave, aEntityStart, aAdup, aAdupStagc, aAname, aAnameAdup, aAnameAdupStagc, aAval, aAvalStagc, aCdata, aEtag, aDecl, aGi, aGiStagc, aLtPcdata, aPcdata, aCmnt, aPi, aPitarget, aPitargetPi, aStagc, aEmptytag, aUnsavePcdata], fun h => ?_⟩
    · show (save cfg fuel full 60 p).bind (save cfg fuel full ch) = _
      rw [h1]
      exact g0
    · rcases h with h | ⟨h, _⟩ | ⟨h, _⟩ <;> exact absurd h (by decide)
  · have hf := nofl (by decide) (by decide) (by decide)
    obtain ⟨q, h1, h2, h3⟩ := one 45
    obtain ⟨r0, g0, m0, b0⟩ := more 32 q h2 hf
    refine ⟨r0, ?_, m0, fun _ => by rw [b0, (h3 hf).1]; simp [bufAfter, emptying, aMinus, aMinus2, aMinus3, aLt, aSp, aSave, aAdupSave, aEntityStart, aAdup, aAdupStagc, aAname, aAnameAdup, aAnameAdupStagc, aAval, aAvalStagc, aCdata, aEtag, aDecl, aGi, aGiStagc, aLtPcdata, aPcdata, aCmnt, aPi, aPitarget, aPitargetPi, aStagc, aEmptytag, aUnsavePcdata], fun h => ?_⟩
    · show (save cfg fuel full 45 p).bind (save cfg fuel full 32) = _
      rw [h1]
      exact g0
    · rcases h with h | ⟨h, _⟩ | ⟨h, _⟩ <;> exact absurd h (by decide)
  · have hf := nofl (by decide) (by decide) (by decide)
    obtain ⟨q, h1, h2, h3⟩ := one 45
    obtain ⟨r0, g0, m0, b0⟩ := more 32 q h2 hf
    obtain ⟨r1, g1, m1, b1⟩ := more 45 r0 m0 hf
    obtain ⟨r2, g2, m2, b2⟩ := more ch r1 m1 hf
    refine ⟨r2, ?_, m2, fun _ => by rw [b2, b1, b0, (h3 hf).1]; simp [bufAfter, emptying, aMinus, aMinus2, aMinus3, aLt, aSp, aSave, aAdupSave, aEntityStart, aAdup, aAdupStagc, aAname, aAnameAdup, aAnameAdupStagc, aAval, aAvalStagc, aCdata, aEtag, aDecl, aGi, aGiStagc, aLtPcdata, aPcdata, aCmnt, aPi, aPitarget, aPitargetPi, aStagc, aEmptytag, aUnsavePcdata], fun h => ?_⟩
    · show (((save cfg fuel full 45 p).bind (save cfg fuel full 32)).bind (save cfg fuel full 45)).bind (save cfg fuel full ch) = _
      rw [h1]
      show ((save cfg fuel full 32 q).bind (save cfg fuel full 45)).bind (save cfg fuel full ch) = _
      rw [g0]
      show (save cfg fuel full 45 r0).bind (save cfg fuel full ch) = _
      rw [g1]
      exact g2
    · rcases h with h | ⟨h, _⟩ | ⟨h, _⟩ <;> exact absurd h (by decide)
  · have hf := nofl (by decide) (by decide) (by decide)
    obtain ⟨q, h1, h2, h3⟩ := one 45
    obtain ⟨r0, g0, m0, b0⟩ := more ch q h2 hf
    refine ⟨r0, ?_, m0, fun _ => by rw [b0, (h3 hf).1]; simp [bufAfter, emptying, aMinus, aMinus2, aMinus3, aLt, aSp, aSave, aAdupSave, aEntityStart, aAdup, aAdupStagc, aAname, aAnameAdup, aAnameAdupStagc, aAval, aAvalStagc, aCdata, aEtag, aDecl, aGi, aGiStagc, aLtPcdata, aPcdata, aCmnt, aPi, aPitarget, aPitargetPi, aStagc, aEmptytag, aUnsavePcdata], fun h => ?_⟩
    · show (save cfg fuel full 45 p).bind (save cfg fuel full ch) = _
      rw [h1]
      exact g0
    · rcases h with h | ⟨h, _⟩ | ⟨h, _⟩ <;> exact absurd h (by decide)
  · obtain ⟨q, h1, h2, h3⟩ := one ch
    refine ⟨q, h1, h2, fun hf => by rw [(h3 (hf rfl)).1]; rfl, fun h => ?_⟩
    rcases h with h | ⟨_, hf⟩ | ⟨h, _⟩
    · exact absurd h (by decide)
    · exact (h3 hf).2
    · exact absurd h (by decide)
  · exact ⟨p, rfl, ⟨hp, rfl, rfl, .inl rfl⟩, fun _ => rfl, fun _ => rfl⟩
  · have hf := nofl (by decide) (by decide) (by decide)
    obtain ⟨q, h1, h2, h3⟩ := one 32
    refine ⟨q, ?_, h2, fun _ => by rw [(h3 hf).1]; simp [bufAfter, emptying, aMinus, aMinus2, aMinus3, aLt, aSp, aSave, aAdupSave, aEntityStart, aAdup, aAdupStagc, aAname, aAnameAdup, aAnameAdupStagc, aAval, aAvalStagc, aCdata, aEtag, aDecl, aGi, aGiStagc, aLtPcdata, aPcdata, aCmnt, aPi, aPitarget, aPitargetPi, aStagc, aEmptytag, aUnsavePcdata], fun h => ?_⟩
    · show save cfg fuel full 32 p = _
      exact h1
    · rcases h with h | ⟨h, _⟩ | ⟨h, _⟩ <;> exact absurd h (by decide)

end Verif.Taggle
