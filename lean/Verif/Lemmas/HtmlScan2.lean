import Verif.Lemmas.HtmlScan
set_option autoImplicit false
set_option linter.unusedSimpArgs false
set_option linter.unusedVariables false
/-! # Lemmas about the HTML scanner: its loop ends, and what its tokens hold -/
namespace Verif.Taggle
open Spec

variable {cfg : Cfg} {fuel : Nat} {s0 : St} {full : Nat → Bool}

/-! ### Text of comments -/

theorem comment_nil : CommentText [] :=
  ⟨fun p r h => by cases p <;> simp at h, fun p h => by cases p <;> simp at h⟩

theorem append_two_snoc {s p r : Str} {c a b : Char} (h : s ++ [c] = p ++ a :: b :: r) (hc : c ≠ b) :
    ∃ r', r = r' ++ [c] ∧ s = p ++ a :: b :: r' := by
  rcases List.eq_nil_or_concat r with hr | ⟨r', x, hr⟩
  · subst hr
    have : s ++ [c] = (p ++ [a]) ++ [b] := by rw [h]; simp
    exact absurd (List.append_inj_right' this rfl) (by simp [hc])
  · subst hr
    have h' : s ++ [c] = (p ++ a :: b :: r') ++ [x] := by rw [h]; simp
    have h1 := List.append_inj_left' h' rfl
    have h2 := List.append_inj_right' h' rfl
    simp at h2
    exact ⟨r', by rw [h2]; simp, h1⟩

theorem comment_snoc {s : Str} {c : Char} (h : CommentText s) (hc : c ≠ '-') : CommentText (s ++ [c]) := by
  refine ⟨fun p r he => ?_, fun p he => ?_⟩
  · obtain ⟨r', _, h2⟩ := append_two_snoc he hc
    exact h.1 p r' h2
  · have := List.append_inj_right' he rfl
    simp at this
    exact hc this

theorem comment_minus {s : Str} {c : Char} (h : CommentText s) (hc : c ≠ '-') :
    CommentText (s ++ ['-', c]) := by
  have e : s ++ ['-', c] = (s ++ ['-']) ++ [c] := by simp
  rw [e]
  refine ⟨fun p r he => ?_, fun p he => ?_⟩
  · obtain ⟨r', _, h2⟩ := append_two_snoc he hc
    rcases List.eq_nil_or_concat r' with hr | ⟨r'', x, hr⟩
    · subst hr
      have h3 : s ++ ['-'] = (p ++ ['-']) ++ ['-'] := by rw [h2]; simp
      exact h.2 p (List.append_inj_left' h3 rfl)
    · subst hr
      have h3 : s ++ ['-'] = (p ++ '-' :: '-' :: r'') ++ [x] := by rw [h2]; simp
      exact h.1 p r'' (List.append_inj_left' h3 rfl)
  · have := List.append_inj_right' he rfl
    simp at this
    exact hc this

/-! ### Reading -/

theorem byte_toNat (n : Nat) (h : n < 256) : (byte (n : Int)).toNat = n := by
  unfold byte
  have e : ((n : Int) % 256).toNat = n := by omega
  rw [e]
  have hv : n.isValidChar := by unfold Nat.isValidChar; omega
  unfold Char.ofNat
  rw [dif_pos hv]
  rfl

def rem (i : In) : Nat := if i.failed then 0 else i.rest.length

def Bytes (s : Str) : Prop := ∀ c ∈ s, c.toNat < 256

structure InOk (i : In) : Prop where
  done : Bytes i.done
  rest : Bytes i.rest

theorem inOk_next {i : In} (h : InOk i) : InOk i.next.2 := by
  unfold In.next
  by_cases hf : i.failed = true
  · rw [if_pos hf]; exact h
  · rw [if_neg hf]
    cases hr : i.rest with
    | nil => exact ⟨h.done, fun c hc => absurd hc (by simp)⟩
    | cons c cs =>
      have hb := h.rest
      rw [hr] at hb
      refine ⟨fun d hd => ?_, fun d hd => hb d (by simp [hd])⟩
      rcases List.mem_cons.1 hd with hd | hd
      · rw [hd]; exact hb c (by simp)
      · exact h.done d hd

theorem inOk_unget {i : In} (h : InOk i) : InOk i.unget := by
  unfold In.unget
  by_cases hf : i.failed = true
  · rw [if_pos hf]; exact h
  · rw [if_neg hf]
    cases hr : i.done with
    | nil => exact h
    | cons c cs =>
      have hb := h.done
      rw [hr] at hb
      refine ⟨fun d hd => hb d (by simp [hd]), fun d hd => ?_⟩
      rcases List.mem_cons.1 hd with hd | hd
      · rw [hd]; exact hb c (by simp)
      · exact h.rest d hd

theorem inOk_readChar {i : In} (h : InOk i) : InOk (readChar i).2 := by
  unfold readChar
  simp only []
  by_cases h1 : i.next.1 = 13
  · rw [if_pos h1]
    by_cases h2 : i.next.2.next.1 ≠ 10
    · rw [if_pos h2]; exact inOk_unget (inOk_next (inOk_next h))
    · rw [if_neg h2]; exact inOk_next (inOk_next h)
  · rw [if_neg h1]; exact inOk_next h

theorem read_end {i : In} (h : rem i = 0) :
    (readChar i).1 = -1 ∧ (readChar i).2.failed = true ∧ rem (readChar i).2 = 0 := by
  have hn : i.next.1 = -1 ∧ i.next.2.failed = true := by
    unfold In.next
    by_cases hf : i.failed = true
    · rw [if_pos hf]; exact ⟨rfl, hf⟩
    · rw [if_neg hf]
      unfold rem at h
      rw [if_neg hf] at h
      rw [List.eq_nil_of_length_eq_zero h]
      exact ⟨rfl, rfl⟩
  have e : readChar i = i.next := by
    unfold readChar
    simp only []
    rw [if_neg (by rw [hn.1]; decide)]
  rw [e]
  exact ⟨hn.1, hn.2, by unfold rem; rw [if_pos hn.2]⟩

theorem read_more {i : In} (hi : InOk i) (h : rem i ≠ 0) :
    (∃ n : Nat, (readChar i).1 = (n : Int) ∧ n < 256) ∧ rem (readChar i).2 < rem i ∧
    rem (readChar i).2.unget ≤ rem i := by
  unfold rem at h
  by_cases hf : i.failed = true
  · rw [if_pos hf] at h; exact absurd rfl h
  · rw [if_neg hf] at h
    obtain ⟨done, rest, failed⟩ := i
    simp only [Bool.not_eq_true] at hf
    subst hf
    simp only [] at h
    cases rest with
    | nil => exact absurd rfl h
    | cons c cs =>
      have hb : c.toNat < 256 := hi.rest c (by simp)
      by_cases hr : (c.toNat : Int) = 13
      · cases cs with
        | nil =>
          refine ⟨⟨10, ?_, by omega⟩, ?_, ?_⟩ <;>
            simp [readChar, In.next, In.unget, rem, hr]
        | cons d ds =>
          by_cases hn : (d.toNat : Int) = 10
          · refine ⟨⟨10, ?_, by omega⟩, ?_, ?_⟩ <;>
              simp [readChar, In.next, In.unget, rem, hr, hn] <;> omega
          · refine ⟨⟨10, ?_, by omega⟩, ?_, ?_⟩ <;>
              simp [readChar, In.next, In.unget, rem, hr, hn]
      · refine ⟨⟨c.toNat, ?_, hb⟩, ?_, ?_⟩ <;>
          simp [readChar, In.next, In.unget, rem, hr]

/-! ### References -/

theorem goesOn_eof (st n : Nat) : goesOn st n (byte (-1)) = none := by
  have h1 : byte (-1) ≠ '#' := by decide +kernel
  have h2 : byte (-1) ≠ 'x' ∧ byte (-1) ≠ 'X' := by decide +kernel
  have h3 : XmlChars.isLetterOrDigit (schar (byte (-1))) = false := by decide +kernel
  have h4 : XmlChars.isDigit (schar (byte (-1))) = false := by decide +kernel
  have h5 : hexLetter (byte (-1)) = false := by decide +kernel
  unfold goesOn
  simp [h1, h2, h3, h4, h5]

theorem goesOn_ent {st n m : Nat} {c : Char} (h : goesOn st n c = some m) :
    entLike m = true ∨ m = n := by
  unfold goesOn at h
  by_cases h1 : st = sEnt ∧ c = '#'
  · rw [if_pos h1] at h; simp at h; subst h; exact .inl (by decide)
  · rw [if_neg h1] at h
    by_cases h2 : st = sNcr ∧ (c = 'x' ∨ c = 'X')
    · rw [if_pos h2] at h; simp at h; subst h; exact .inl (by decide)
    · rw [if_neg h2] at h
      by_cases h3 : st = sEnt ∧ XmlChars.isLetterOrDigit (schar c) = true
      · rw [if_pos h3] at h; simp at h; exact .inr h.symm
      · rw [if_neg h3] at h
        by_cases h4 : st = sNcr ∧ XmlChars.isDigit (schar c) = true
        · rw [if_pos h4] at h; simp at h; exact .inr h.symm
        · rw [if_neg h4] at h
          by_cases h5 : st = sXncr ∧ (XmlChars.isDigit (schar c) || hexLetter c) = true
          · rw [if_pos h5] at h; simp at h; exact .inr h.symm
          · rw [if_neg h5] at h; exact absurd h (by simp)

theorem entLike_flush {st : Nat} (h : entLike st = true) : flushes st = false := by
  unfold entLike at h
  simp only [Bool.or_eq_true, beq_iff_eq] at h
  rcases h with (h | h) | h <;> subst h <;> decide

theorem saveEntity_ok (hT : Total cfg fuel s0) {p : Sc × St} (hp : Reached cfg fuel s0 p.2)
    (ent : Int) : ∃ q, saveEntity cfg fuel full ent p = .ok q ∧ Moves cfg fuel s0 p q := by
  unfold saveEntity
  by_cases h1 : ent < 0x20
  · rw [if_pos h1]; exact ⟨p, rfl, hp, rfl, rfl, .inl rfl⟩
  · rw [if_neg h1]
    by_cases h2 : 0xD800 ≤ ent ∧ ent ≤ 0xDFFF
    · rw [if_pos h2]; exact ⟨p, rfl, hp, rfl, rfl, .inl rfl⟩
    · rw [if_neg h2]
      by_cases h3 : ent ≤ 0xFFFF
      · rw [if_pos h3]
        obtain ⟨q, h1, h2, _⟩ := save_ok (full := full) hT hp ent
        exact ⟨q, h1, h2⟩
      · rw [if_neg h3]
        obtain ⟨q, h1, h2, _⟩ := save_ok (full := full) hT hp ((ent - 0x10000) / 1024 + 0xD800)
        obtain ⟨r, g1, g2, _⟩ := save_ok (full := full) hT h2.reached ((ent - 0x10000) % 1024 + 0xDC00)
        exact ⟨r, by rw [h1]; exact g1, h2.trans g2⟩

theorem entityAction_ok (hT : Total cfg fuel s0) {p : Sc × St} (hp : Reached cfg fuel s0 p.2)
    (ch : Int) (hent : entLike p.1.state = true) (hb : p.1.buf ≠ [])
    (hn : ch = -1 ∨ entLike p.1.next = true) :
    ∃ q, entityAction cfg fuel full ch p = .ok q ∧ Reached cfg fuel s0 q.2 ∧
      q.1.state = p.1.state ∧
      ((ch ≠ -1 ∧ q.1.input = p.1.input ∧ entLike q.1.next = true ∧ q.1.buf ≠ []) ∨
       (q.1.next = sPcdata ∧ (q.1.input = p.1.input ∨ q.1.input = p.1.input.unget))) := by
  unfold entityAction
  cases hg : goesOn p.1.state p.1.next (byte ch) with
  | some m =>
    have hne : ch ≠ -1 := by
      intro h; subst h; rw [goesOn_eof] at hg; exact absurd hg (by simp)
    have hm : entLike m = true := by
      rcases goesOn_ent hg with h | h
      · exact h
      · rw [h]; rcases hn with hn | hn
        · exact absurd hn hne
        · exact hn
    simp only []
    obtain ⟨q, h1, h2, h3, _⟩ := save_ok (full := full) (p := ({ p.1 with next := m }, p.2)) hT hp ch
    have h3' := h3 (entLike_flush hent)
    refine ⟨q, h1, h2.reached, h2.state, .inl ⟨hne, h2.input, ?_, ?_⟩⟩
    · rw [h3'.2]; exact hm
    · rw [h3'.1]; simp
  | none =>
    simp only []
    cases hbuf : p.1.buf with
    | nil => exact absurd hbuf hb
    | cons x name =>
      simp only []
      obtain ⟨q, h1, h2, _, _⟩ := call_ok hT hp (t := .entity name) trivial
      rw [h1]
      simp only [Out.bind]
      by_cases he : q.2.entity ≠ 0
      · rw [if_pos he]
        obtain ⟨r, g1, g2⟩ := saveEntity_ok (full := full) hT (p := ({ q.1 with buf := [] }, q.2))
          h2.reached q.2.entity
        simp only [clear]
        rw [g1]
        simp only []
        by_cases hc : ch ≠ 59
        · rw [if_pos hc]
          refine ⟨_, rfl, g2.reached, ?_, .inr ⟨rfl, .inr ?_⟩⟩
          · exact g2.state.trans h2.state
          · show r.1.input.unget = _
            rw [g2.input]
            show q.1.input.unget = _
            rw [h2.input]
        · rw [if_neg hc]
          refine ⟨_, rfl, g2.reached, ?_, .inr ⟨rfl, .inl ?_⟩⟩
          · exact g2.state.trans h2.state
          · exact g2.input.trans h2.input
      · rw [if_neg he]
        refine ⟨_, rfl, h2.reached, h2.state, .inr ⟨rfl, .inr ?_⟩⟩
        show q.1.input.unget = _
        rw [h2.input]

/-! ### One turn -/

structure ScInv (cfg : Cfg) (fuel : Nat) (s0 : St) (p : Sc × St) : Prop where
  reached : Reached cfg fuel s0 p.2
  input : InOk p.1.input
  lo : 1 ≤ p.1.state
  hi : p.1.state ≤ 35
  ent : entLike p.1.state = true → p.1.buf ≠ []
  com : comLike p.1.state = true → CommentText p.1.buf
  pi : p.1.state = sPi → '>' ∉ p.1.buf

/-- How many turns are left once the input has ended. -/
def rank (sc : Sc) : Nat :=
  if sc.state = sDone then 0
  else if sc.state = sCdata ∧ sc.buf = [] then 1
  else if entLike sc.state = true ∨ sc.state = sEmptytag then 3
  else 2

def mu (sc : Sc) : Nat :=
  if rem sc.input = 0 then rank sc
  else 4 + 2 * rem sc.input + (if entLike sc.state then 1 else 0)

theorem rank_le (sc : Sc) : rank sc ≤ 3 := by
  unfold rank
  repeat' split
  all_goals omega

theorem mu_less {a b : Sc} (h0 : rem a.input ≠ 0)
    (h : rem b.input < rem a.input ∨
      (rem b.input ≤ rem a.input ∧ entLike a.state = true ∧ entLike b.state = false)) : mu b < mu a := by
  have hr := rank_le b
  unfold mu
  rw [if_neg h0]
  by_cases hb : rem b.input = 0
  · rw [if_pos hb]; omega
  · rw [if_neg hb]
    rcases h with h | ⟨h1, h2, h3⟩
    · split <;> split <;> omega
    · rw [if_pos h2, if_neg (by rw [h3]; simp)]; omega

theorem rowOk_parts {st : Nat} {ch : Int} {a n : Nat} (h : rowOk st ch a n = true) :
    (1 ≤ n ∧ n ≤ 35) ∧
    (emptying a || a == aAdupSave || a == aEntityStart || a == aEntity || a == aLt ||
      a == aMinus3 || a == aMinus2 || a == aMinus || a == aSave || a == aSkip || a == aSp) = true ∧
    (a = aEntity ↔ entLike st = true) ∧
    (entLike st = true → ch = -1 ∨ n = st) ∧
    (ch = -1 → entLike st = true ∨ (st = sEmptytag ∧ a = aSave ∧ n = sAname) ∨
      (n = sDone ∧ (emptying a = true ∨ a = aSkip))) ∧
    (ch = -1 → st = sCdata → a = aPcdata) ∧
    (entLike n = true → a = aEntityStart ∨ a = aEntity) ∧
    (flushes st = true → (a == aSave || a == aPcdata || a == aEntityStart) = true) ∧
    (comLike n = true → (a = aSkip ∧ comLike st = true) ∨
      (a = aSave ∧ ch ≠ 45 ∧ comLike st = true ∧ ch ≠ -1) ∨ emptying a = true ∨
      (a = aMinus3 ∧ comLike st = true) ∨ (a = aMinus2 ∧ ch ≠ 45 ∧ comLike st = true ∧ ch ≠ -1) ∨
      (a = aMinus ∧ ch ≠ 45 ∧ comLike st = true ∧ ch ≠ -1)) ∧
    (n = sPi → (a = aSave ∧ ch ≠ 62 ∧ st = sPi ∧ ch ≠ -1) ∨ a = aPitarget) ∧
    (a = aCmnt → comLike st = true) ∧ (a = aPi → st = sPi) := by
  unfold rowOk at h
  simp only [Bool.and_eq_true] at h
  obtain ⟨⟨⟨⟨⟨⟨⟨⟨⟨⟨⟨⟨⟨h1, h2⟩, h3⟩, h4⟩, h5⟩, h6⟩, h7⟩, h8⟩, h9⟩, h10⟩, h11⟩, h12⟩, h13⟩, h14⟩ := h
  refine ⟨by simpa using h3, h4, ?_, ?_, ?_, ?_, ?_, ?_, ?_, ?_, ?_, ?_⟩
  · rw [beq_iff_eq] at h5
    rw [← h5, beq_iff_eq]
  · intro he
    rw [he] at h6
    simp only [Bool.not_true, Bool.false_or, Bool.and_eq_true, Bool.or_eq_true, beq_iff_eq,
      Bool.not_eq_true', bne_eq_false_iff_eq] at h6
    exact h6.2
  · intro he
    subst he
    simp only [bne_self_eq_false, Bool.false_or, Bool.or_eq_true, Bool.and_eq_true, beq_iff_eq] at h7
    rcases h7 with (h | h) | h
    · exact .inl h
    · exact .inr (.inl ⟨h.1.1, h.1.2, h.2⟩)
    · exact .inr (.inr h)
  · intro he hst
    subst he
    rw [hst] at h8
    simpa using h8
  · intro he
    rw [he] at h9
    simpa using h9
  · intro he
    rw [he] at h10
    simpa using h10
  · intro he
    rw [he] at h11
    simp only [Bool.not_true, Bool.false_or, Bool.or_eq_true, Bool.and_eq_true, beq_iff_eq,
      bne_iff_ne] at h11
    rcases h11 with ((((h | h) | h) | h) | h) | h
    · exact .inl h
    · exact .inr (.inl ⟨h.1.1.1, h.1.1.2, h.1.2, h.2⟩)
    · exact .inr (.inr (.inl h.1))
    · exact .inr (.inr (.inr (.inl h)))
    · exact .inr (.inr (.inr (.inr (.inl ⟨h.1.1.1, h.1.1.2, h.1.2, h.2⟩))))
    · exact .inr (.inr (.inr (.inr (.inr ⟨h.1.1.1, h.1.1.2, h.1.2, h.2⟩))))
  · intro he
    subst he
    simp only [beq_self_eq_true, Bool.not_true, Bool.false_or, Bool.or_eq_true, Bool.and_eq_true,
      beq_iff_eq, bne_iff_ne] at h12
    rcases h12 with h | h
    · exact .inl ⟨h.1.1.1, h.1.1.2, h.1.2, h.2⟩
    · exact .inr h
  · intro he
    rw [he] at h13
    simpa using h13
  · intro he
    rw [he] at h14
    simpa using h14

theorem byte_ne {n k : Nat} (h : n < 256) (hk : (n : Int) ≠ (k : Int)) (c : Char) (hc : c.toNat = k) :
    byte (n : Int) ≠ c := by
  intro he
  have := byte_toNat n h
  rw [he, hc] at this
  omega

theorem bufAfter_emptying {a : Nat} {ch : Int} {b : Str} (h : emptying a = true) :
    bufAfter a ch b = [] := by unfold bufAfter; rw [if_pos h]

theorem bufAfter_skip (ch : Int) (b : Str) : bufAfter aSkip ch b = b := rfl
theorem bufAfter_save (ch : Int) (b : Str) : bufAfter aSave ch b = b ++ [byte ch] := rfl
theorem bufAfter_minus (ch : Int) (b : Str) : bufAfter aMinus ch b = b ++ [byte 45, byte ch] := rfl
theorem bufAfter_minus2 (ch : Int) (b : Str) :
    bufAfter aMinus2 ch b = b ++ [byte 45, byte 32, byte 45, byte ch] := rfl
theorem bufAfter_minus3 (ch : Int) (b : Str) : bufAfter aMinus3 ch b = b ++ [byte 45, byte 32] := rfl
theorem bufAfter_entityStart (ch : Int) (b : Str) : bufAfter aEntityStart ch b = [byte ch] := rfl

theorem comLike_flush {st : Nat} (h : comLike st = true) : flushes st = false := by
  unfold comLike at h
  simp only [Bool.or_eq_true, beq_iff_eq] at h
  rcases h with ((((((((((h | h) | h) | h) | h) | h) | h) | h) | h) | h) | h) | h <;> subst h <;> decide

theorem turn_ok (hT : Total cfg fuel s0) {p : Sc × St} (h : ScInv cfg fuel s0 p)
    (hd : p.1.state ≠ sDone) :
    ∃ q, turn cfg fuel full p = .ok q ∧ ScInv cfg fuel s0 q ∧ mu q.1 < mu p.1 := by
  unfold turn
  simp only []
  have hiok := inOk_readChar h.input
  by_cases hctl : ¬ ((readChar p.1.input).1 ≥ 32 ∨ (readChar p.1.input).1 = 10 ∨
      (readChar p.1.input).1 = 9 ∨ (readChar p.1.input).1 = -1)
  · rw [if_pos hctl]
    have h0 : rem p.1.input ≠ 0 := fun h0 => hctl (.inr (.inr (.inr (read_end h0).1)))
    exact ⟨_, rfl, ⟨h.reached, hiok, h.lo, h.hi, h.ent, h.com, h.pi⟩,
      mu_less h0 (.inl (read_more h.input h0).2.1)⟩
  · rw [if_neg hctl]
    have hrow := rowOk_parts (row_ok p.1.state h.lo h.hi hd (readChar p.1.input).1 p.1.next)
    generalize hf : search p.1.state (readChar p.1.input).1 stateTable 0 p.1.next = f at hrow ⊢
    obtain ⟨a, n⟩ := f
    simp only [] at hrow ⊢
    obtain ⟨hnr, hlist, hae, hent, heof, heofc, hen, hfl, hcom, hpi, hcm, hpia⟩ := hrow
    by_cases ha : a = aEntity
    · -- a character reference
      have hst := hae.1 ha
      subst ha
      obtain ⟨q, h1, h2, h3, h4⟩ := entityAction_ok (full := full) hT
        (p := ({ p.1 with input := (readChar p.1.input).2, next := n }, p.2)) h.reached
        (readChar p.1.input).1 hst (h.ent hst)
        (by rcases hent hst with h | h
            · exact .inl h
            · exact .inr (by rw [h]; exact hst))
      have hact : act cfg fuel full aEntity (readChar p.1.input).1
          ({ p.1 with input := (readChar p.1.input).2, next := n }, p.2) = .ok q := h1
      rw [hact]
      refine ⟨_, rfl, ?_, ?_⟩
      · rcases h4 with ⟨_, hi, hq, hb⟩ | ⟨hq, hi⟩
        · refine ⟨h2, by rw [hi]; exact hiok, ?_, ?_, fun _ => hb, fun hc => ?_, fun hc => ?_⟩
          · show 1 ≤ q.1.next
            unfold entLike at hq
            simp only [Bool.or_eq_true, beq_iff_eq] at hq
            rcases hq with (hq | hq) | hq <;> rw [hq] <;> decide
          · show q.1.next ≤ 35
            unfold entLike at hq
            simp only [Bool.or_eq_true, beq_iff_eq] at hq
            rcases hq with (hq | hq) | hq <;> rw [hq] <;> decide
          · exfalso
            have hc' : comLike q.1.next = true := hc
            unfold entLike at hq
            simp only [Bool.or_eq_true, beq_iff_eq] at hq
            rcases hq with (hq | hq) | hq <;> rw [hq] at hc' <;> exact absurd hc' (by decide)
          · exfalso
            have hc' : q.1.next = sPi := hc
            rw [hc'] at hq
            exact absurd hq (by decide)
        · have hin : InOk q.1.input := by
            rcases hi with hi | hi
            · rw [hi]; exact hiok
            · rw [hi]; exact inOk_unget hiok
          refine ⟨h2, hin, ?_, ?_, fun hc => ?_, fun hc => ?_, fun hc => ?_⟩
          · show 1 ≤ q.1.next
            rw [hq]; decide
          · show q.1.next ≤ 35
            rw [hq]; decide
          · have hc' : entLike q.1.next = true := hc
            rw [hq] at hc'; exact absurd hc' (by decide)
          · have hc' : comLike q.1.next = true := hc
            rw [hq] at hc'; exact absurd hc' (by decide)
          · have hc' : q.1.next = sPi := hc
            rw [hq] at hc'; exact absurd hc' (by decide)
      · by_cases h0 : rem p.1.input = 0
        · have he := read_end h0
          rcases h4 with ⟨hne, _⟩ | ⟨hq, hi⟩
          · exact absurd he.1 hne
          · have hin : q.1.input = (readChar p.1.input).2 := by
              rcases hi with hi | hi
              · exact hi
              · rw [hi]; unfold In.unget; rw [if_pos he.2.1]
            unfold mu
            rw [if_pos h0, if_pos (by show rem q.1.input = 0; rw [hin]; exact he.2.2)]
            have r1 : rank p.1 = 3 := by
              unfold rank
              rw [if_neg hd, if_neg (fun hx => by rw [hx.1] at hst; exact absurd hst (by decide)),
                if_pos (.inl hst)]
            have r2 : rank { q.1 with state := q.1.next } = 2 := by
              unfold rank
              simp only [hq]
              rw [if_neg (by decide), if_neg (by rintro ⟨hx, _⟩; exact absurd hx (by decide)),
                if_neg (by decide)]
            rw [r1, r2]; omega
        · have hm := read_more h.input h0
          rcases h4 with ⟨_, hi, _, _⟩ | ⟨hq, hi⟩
          · exact mu_less h0 (.inl (by show rem q.1.input < _; rw [hi]; exact hm.2.1))
          · refine mu_less h0 (.inr ⟨?_, hst, by show entLike q.1.next = false; rw [hq]; decide⟩)
            show rem q.1.input ≤ _
            rcases hi with hi | hi
            · rw [hi]; exact Nat.le_of_lt hm.2.1
            · rw [hi]; exact hm.2.2
    · -- any other action
      obtain ⟨q, h1, h2⟩ := act_ok (full := full) hT
        (p := ({ p.1 with input := (readChar p.1.input).2, next := n }, p.2)) h.reached a
        (readChar p.1.input).1 hlist ha hfl (fun hc => h.com (hcm hc)) (fun hc => h.pi (hpia hc))
      rw [h1]
      have hnx : q.1.next = n ∨ q.1.next = sCdata := h2.moves.next
      have hnof : flushes p.1.state = false → q.1.buf = bufAfter a (readChar p.1.input).1 p.1.buf :=
        fun hf => h2.buf (fun _ => hf)
      have hnos : a ≠ aSave → q.1.buf = bufAfter a (readChar p.1.input).1 p.1.buf :=
        fun hs => h2.buf (fun h => absurd h hs)
      have chb : (readChar p.1.input).1 ≠ -1 →
          ∃ k : Nat, (readChar p.1.input).1 = (k : Int) ∧ k < 256 := by
        intro hne
        by_cases h0 : rem p.1.input = 0
        · exact absurd (read_end h0).1 hne
        · exact (read_more h.input h0).1
      refine ⟨_, rfl, ⟨h2.moves.reached, by rw [h2.moves.input]; exact hiok, ?_, ?_, ?_, ?_, ?_⟩, ?_⟩
      · show 1 ≤ q.1.next
        rcases hnx with hx | hx
        · rw [hx]; exact hnr.1
        · rw [hx]; decide
      · show q.1.next ≤ 35
        rcases hnx with hx | hx
        · rw [hx]; exact hnr.2
        · rw [hx]; decide
      · intro hc
        have hc' : entLike q.1.next = true := hc
        rcases hnx with hx | hx
        · rw [hx] at hc'
          rcases hen hc' with h | h
          · show q.1.buf ≠ []
            rw [hnos (by rw [h]; decide), h, bufAfter_entityStart]; simp
          · exact absurd h ha
        · rw [hx] at hc'; exact absurd hc' (by decide)
      · intro hc
        show CommentText q.1.buf
        have hc' : comLike q.1.next = true := hc
        rcases hnx with hx | hx
        · rw [hx] at hc'
          have b45 : byte 45 = '-' := by decide +kernel
          have b32 : byte 32 ≠ '-' := by decide +kernel
          rcases hcom hc' with ⟨h', hs⟩ | ⟨h', hne, hs, hne1⟩ | h' | ⟨h', hs⟩ | ⟨h', hne, hs, hne1⟩ |
              ⟨h', hne, hs, hne1⟩
          · rw [hnos (by rw [h']; decide), h', bufAfter_skip]; exact h.com hs
          · obtain ⟨k, hk, hlt⟩ := chb hne1
            rw [hnof (comLike_flush hs), h', bufAfter_save, hk]
            exact comment_snoc (h.com hs) (byte_ne hlt (by rw [← hk]; exact hne) '-' rfl)
          · rw [hnos (by intro hh; rw [hh] at h'; exact absurd h' (by decide)), bufAfter_emptying h']
            exact comment_nil
          · rw [hnos (by rw [h']; decide), h', bufAfter_minus3, b45]
            exact comment_minus (h.com hs) b32
          · obtain ⟨k, hk, hlt⟩ := chb hne1
            rw [hnos (by rw [h']; decide), h', bufAfter_minus2, b45, hk]
            have e : p.1.buf ++ ['-', byte 32, '-', byte (k : Int)] =
                (p.1.buf ++ ['-', byte 32]) ++ ['-', byte (k : Int)] := by simp
            rw [e]
            exact comment_minus (comment_minus (h.com hs) b32)
              (byte_ne hlt (by rw [← hk]; exact hne) '-' rfl)
          · obtain ⟨k, hk, hlt⟩ := chb hne1
            rw [hnos (by rw [h']; decide), h', bufAfter_minus, b45, hk]
            exact comment_minus (h.com hs) (byte_ne hlt (by rw [← hk]; exact hne) '-' rfl)
        · rw [hx] at hc'; exact absurd hc' (by decide)
      · intro hc
        show '>' ∉ q.1.buf
        have hc' : q.1.next = sPi := hc
        rcases hnx with hx | hx
        · rw [hx] at hc'
          rcases hpi hc' with ⟨h', hne, hs, hne1⟩ | h'
          · obtain ⟨k, hk, hlt⟩ := chb hne1
            rw [hnof (by rw [hs]; decide), h', bufAfter_save, hk]
            intro hm
            rcases List.mem_append.1 hm with hm | hm
            · exact h.pi hs hm
            · simp at hm
              exact byte_ne hlt (by rw [← hk]; exact hne) '>' rfl hm.symm
          · rw [hnos (by rw [h']; decide), h']
            rw [bufAfter_emptying (by decide)]; simp
        · rw [hx] at hc'; exact absurd hc' (by decide)
      · by_cases h0 : rem p.1.input = 0
        · have he := read_end h0
          have hnent : entLike p.1.state = false := by
            cases hx : entLike p.1.state with
            | false => rfl
            | true => exact absurd (hae.2 hx) ha
          have hz : mu { q.1 with state := q.1.next } = rank { q.1 with state := q.1.next } := by
            unfold mu
            rw [if_pos (by show rem q.1.input = 0; rw [h2.moves.input]; exact he.2.2)]
          have hy : mu p.1 = rank p.1 := by unfold mu; rw [if_pos h0]
          rw [hz, hy]
          have hin : q.1.next = n ∨ q.1.next = sCdata := hnx
          rcases heof he.1 with h' | ⟨hs, h', hn'⟩ | ⟨hn', h'⟩
          · rw [hnent] at h'; exact absurd h' (by simp)
          · have hq : q.1.next = n := h2.quiet (.inr (.inl ⟨h', by
              show flushes p.1.state = false
              rw [hs]; decide⟩))
            have r1 : rank p.1 = 3 := by
              unfold rank
              rw [if_neg hd, if_neg (fun hx => by rw [hs] at hx; exact absurd hx.1 (by decide)),
                if_pos (.inr hs)]
            have r2 : rank { q.1 with state := q.1.next } = 2 := by
              unfold rank
              simp only [hq, hn']
              rw [if_neg (by decide), if_neg (by rintro ⟨hx, _⟩; exact absurd hx (by decide)),
                if_neg (by decide)]
            rw [r1, r2]; omega
          · have hpos : 1 ≤ rank p.1 := by
              unfold rank; rw [if_neg hd]; repeat' split
              all_goals omega
            rcases hin with hx | hx
            · have r2 : rank { q.1 with state := q.1.next } = 0 := by
                unfold rank; simp only [hx, hn', if_true]
              omega
            · have hbe : q.1.buf = [] := by
                rcases h' with h' | h'
                · rw [hnos (by intro hh; rw [hh] at h'; exact absurd h' (by decide)),
                    bufAfter_emptying h']
                · have := h2.quiet (.inl h')
                  rw [hx] at this
                  have : sCdata = n := this
                  rw [hn'] at this
                  exact absurd this (by decide)
              have r2 : rank { q.1 with state := q.1.next } = 1 := by
                unfold rank
                simp only [hx, hbe]
                rw [if_neg (by decide), if_pos ⟨trivial, trivial⟩]
              rw [r2]
              have : rank p.1 ≠ 1 := by
                intro hr
                unfold rank at hr
                rw [if_neg hd] at hr
                by_cases hcd : p.1.state = sCdata ∧ p.1.buf = []
                · have := h2.quiet (.inr (.inr ⟨heofc he.1 hcd.1, hcd.2⟩))
                  rw [hx] at this
                  have : sCdata = n := this
                  rw [hn'] at this
                  exact absurd this (by decide)
                · rw [if_neg hcd] at hr
                  split at hr <;> omega
              omega
        · exact mu_less h0 (.inl (by
            show rem q.1.input < _; rw [h2.moves.input]; exact (read_more h.input h0).2.1))

theorem scanLoop_ok (hT : Total cfg fuel s0) : ∀ (n : Nat) (p : Sc × St), ScInv cfg fuel s0 p →
    mu p.1 ≤ n → ∃ q, scanLoop cfg fuel full n p = .ok q ∧ Reached cfg fuel s0 q.2
  | 0, p, h, hm => by
    have hd : p.1.state = sDone := by
      unfold mu at hm
      by_cases h0 : rem p.1.input = 0
      · rw [if_pos h0] at hm
        unfold rank at hm
        by_cases hd : p.1.state = sDone
        · exact hd
        · rw [if_neg hd] at hm
          repeat' split at hm
          all_goals omega
      · rw [if_neg h0] at hm; omega
    rw [scanLoop, if_pos hd]
    exact ⟨p, rfl, h.reached⟩
  | n + 1, p, h, hm => by
    rw [scanLoop]
    by_cases hd : p.1.state = sDone
    · rw [if_pos hd]; exact ⟨p, rfl, h.reached⟩
    · rw [if_neg hd]
      obtain ⟨q, h1, h2, h3⟩ := turn_ok (full := full) hT h hd
      rw [h1]
      exact scanLoop_ok hT n q h2 (by omega)

theorem start_inv (input : Str) (hb : Bytes input) :
    ScInv cfg fuel s0 (newScanner input, s0) :=
  ⟨⟨[], rfl, fun t ht => absurd ht (by simp)⟩, ⟨fun c hc => absurd hc (by simp [newScanner]), hb⟩,
    by show 1 ≤ sPcdata; decide, by show sPcdata ≤ 35; decide,
    fun h => absurd (show entLike sPcdata = true from h) (by decide),
    fun h => absurd (show comLike sPcdata = true from h) (by decide),
    fun h => absurd (show sPcdata = sPi from h) (by decide)⟩

/-- The scanner gets to the end of every input. -/
theorem scan_ends (hT : Total cfg fuel s0) (input : Str) (hb : Bytes input) (n : Nat)
    (hn : 2 * input.length + 4 ≤ n) :
    ∃ q, scanLoop cfg fuel full n (newScanner input, s0) = .ok q ∧ Reached cfg fuel s0 q.2 := by
  refine scanLoop_ok hT n _ (start_inv input hb) (Nat.le_trans ?_ hn)
  show mu (newScanner input) ≤ _
  unfold mu
  have hr : rem (newScanner input).input = input.length := rfl
  rw [hr]
  have := rank_le (newScanner input)
  split
  · omega
  · have : entLike (newScanner input).state = false := by
      show entLike sPcdata = false; decide
    rw [this]; simp; omega

end Verif.Taggle
