import Verif.Model.Base64
import Verif.Spec.Base64
set_option autoImplicit false
set_option linter.unusedSimpArgs false
set_option linter.unusedVariables false
namespace Verif.Base64
open Verif.Codecvt

/-- One output character of the encoder. -/
def step (st : St) (inp : List UInt8) : Option (Char × St × List UInt8) :=
  if exhausted st inp then
    if st.s = 0 then none else some ('=', nextState st, inp)
  else some (quadStep st inp)

def run : Nat → St → List UInt8 → List Char × St × List UInt8
  | 0, st, inp => ([], st, inp)
  | n + 1, st, inp =>
    match step st inp with
    | none => ([], st, inp)
    | some (ch, st', inp') =>
      let (o, r) := run n st' inp'
      (ch :: o, r)

theorem exhausted_nextState (st : St) (inp : List UInt8) :
    exhausted (nextState st) inp = exhausted st inp := rfl

theorem padLoop_run (n : Nat) : ∀ (st : St) (inp : List UInt8), exhausted st inp = true →
    run n st inp = ((padLoop n st).1, (padLoop n st).2, inp) := by
  induction n with
  | zero => intro st inp h; rfl
  | succ n ih =>
    intro st inp h
    unfold run padLoop step
    simp only [h, if_true]
    by_cases hs : st.s = 0
    · simp [hs]
    · simp only [hs, if_false]
      rw [ih (nextState st) inp (by rw [exhausted_nextState]; exact h)]

theorem padLoop_exhausted (n : Nat) (st : St) (inp : List UInt8) :
    exhausted (padLoop n st).2 inp = exhausted st inp := by
  induction n generalizing st with
  | zero => rfl
  | succ n ih =>
    unfold padLoop
    by_cases hs : st.s = 0
    · simp [hs]
    · simp only [hs, if_false]; rw [ih, exhausted_nextState]

theorem quadLoop_room (n : Nat) : ∀ (st : St) (inp : List UInt8),
    (quadLoop n st inp).2.2.2 = 0 ∨
      exhausted (quadLoop n st inp).2.1 (quadLoop n st inp).2.2.1 = true := by
  induction n with
  | zero => intro st inp; left; rfl
  | succ n ih =>
    intro st inp
    unfold quadLoop
    by_cases h : exhausted st inp = true
    · simp [h]
    · simp only [h, Bool.false_eq_true, if_false]
      rcases quadStep st inp with ⟨ch, st', inp'⟩
      simp only
      by_cases h2 : st'.s = 0 ∧ exhausted st' inp' = true
      · simp only [if_pos h2]; right; exact h2.2
      · simp only [if_neg h2]; exact ih _ _

theorem quadLoop_run (n : Nat) : ∀ (st : St) (inp : List UInt8),
    run n st inp =
      (let q := quadLoop n st inp
       let r := run q.2.2.2 q.2.1 q.2.2.1
       (q.1 ++ r.1, r.2)) := by
  induction n with
  | zero => intro st inp; simp [quadLoop, run]
  | succ n ih =>
    intro st inp
    by_cases h : exhausted st inp = true
    · simp [quadLoop, h]
    · have h' : exhausted st inp = false := by simpa using h
      unfold quadLoop
      rw [run]
      simp only [step, h']
      rcases hq : quadStep st inp with ⟨ch, st', inp'⟩
      simp only [Bool.false_eq_true, if_false]
      split
      · simp
      · rw [ih st' inp']
        simp

theorem doOut_eq_run (st : St) (inp : List UInt8) (n : Nat) :
    doOut st inp n =
      { status := if step (run n st inp).2.1 (run n st inp).2.2 = none then .ok else .incomplete
        st := (run n st inp).2.1, rest := (run n st inp).2.2, out := (run n st inp).1 } := by
  have hrun := quadLoop_run n st inp
  unfold doOut
  have hroom := quadLoop_room n st inp
  rcases hq : quadLoop n st inp with ⟨o1, st1, inp1, room1⟩
  rw [hq] at hroom hrun
  simp only at hroom hrun ⊢
  have key : run room1 st1 inp1 = ((padLoop room1 st1).1, (padLoop room1 st1).2, inp1) := by
    rcases hroom with h | h
    · subst h; rfl
    · exact padLoop_run _ _ _ h
  rw [key] at hrun
  simp only [hrun]
  rcases padLoop room1 st1 with ⟨o2, st2⟩
  simp only
  congr 1
  unfold step
  by_cases he : exhausted st2 inp1 = true <;> by_cases hs : st2.s = 0 <;> simp [he, hs]

theorem run_add (n m : Nat) : ∀ (st : St) (inp : List UInt8),
    run (n + m) st inp =
      ((run n st inp).1 ++ (run m (run n st inp).2.1 (run n st inp).2.2).1,
        (run m (run n st inp).2.1 (run n st inp).2.2).2) := by
  induction n with
  | zero => intro st inp; simp [run]
  | succ n ih =>
    intro st inp
    rw [Nat.succ_add]
    cases hs : step st inp with
    | none =>
      cases m <;> simp [run, hs]
    | some r =>
      rcases r with ⟨ch, st', inp'⟩
      have e1 : ∀ k, run (k + 1) st inp =
          (ch :: (run k st' inp').1, (run k st' inp').2) := by
        intro k; simp [run, hs]
      rw [e1, e1, ih st' inp']
      simp

theorem run_final (n : Nat) (st : St) (inp : List UInt8) (h : step st inp = none) :
    run n st inp = ([], st, inp) := by
  cases n <;> simp [run, h]

/-- driving with several buffers = one run of the total capacity -/
theorem drive_eq_run (caps : List Nat) : ∀ (st : St) (inp : List UInt8),
    (drive doOut st inp caps).out = (run caps.sum st inp).1 ∧
    (drive doOut st inp caps).st = (run caps.sum st inp).2.1 ∧
    (drive doOut st inp caps).rest = (run caps.sum st inp).2.2 ∧
    ((drive doOut st inp caps).status = .ok ↔
      caps ≠ [] ∧ step (run caps.sum st inp).2.1 (run caps.sum st inp).2.2 = none) := by
  induction caps with
  | nil => intro st inp; simp [drive, run]
  | cons c cs ih =>
    intro st inp
    rw [List.sum_cons, run_add]
    unfold drive
    rw [doOut_eq_run]
    by_cases hf : step (run c st inp).2.1 (run c st inp).2.2 = none
    · simp [hf, run_final]
    · simp only [hf, if_false]
      have := ih (run c st inp).2.1 (run c st inp).2.2
      obtain ⟨h1, h2, h3, h4⟩ := this
      refine ⟨by rw [h1], h2, h3, ?_⟩
      rw [h4]
      constructor
      · rintro ⟨_, h⟩; exact ⟨by simp, h⟩
      · rintro ⟨_, h⟩
        refine ⟨?_, h⟩
        intro hc; subst hc
        simp [run] at h
        exact hf h

theorem cs_eq_digit : ∀ i : Fin 64, cs i.val = Spec.Base64.digit i.val := by decide +kernel

theorem cs_digit (i : Nat) (h : i < 64) : cs i = Spec.Base64.digit i := cs_eq_digit ⟨i, h⟩

theorem and63 (n : Nat) : n &&& 63 = n % 64 := Nat.and_two_pow_sub_one_eq_mod n 6
theorem and3 (n : Nat) : n &&& 3 = n % 4 := Nat.and_two_pow_sub_one_eq_mod n 2
theorem and15 (n : Nat) : n &&& 15 = n % 16 := Nat.and_two_pow_sub_one_eq_mod n 4

/-- The whole output of the encoder from the initial state for input whose short tail does not
end in NUL. -/
def GoodTail (inp : List UInt8) : Prop := inp.length % 3 = 0 ∨ inp.getLast? ≠ some 0

theorem run_triple (a b c : UInt8) (t : List UInt8) (n : Nat) :
    run (n + 4) St.init (a :: b :: c :: t) =
      (let r := run n St.init t
       (Spec.Base64.digit (a.toNat >>> 2 &&& 63) ::
        Spec.Base64.digit (((a.toNat &&& 3) <<< 4) + (b.toNat >>> 4 &&& 15)) ::
        Spec.Base64.digit (((b.toNat &&& 15) <<< 2) + (c.toNat >>> 6 &&& 3)) ::
        Spec.Base64.digit (c.toNat &&& 63) :: r.1, r.2)) := by
  have ha := a.toNat_lt
  have hb := b.toNat_lt
  have hc := c.toNat_lt
  simp only [run, step, exhausted, quadStep, consume, nextState, setPrev, currentByte, St.init]
  simp [exhausted, quadStep, consume, nextState, setPrev, currentByte]
  simp only [and63, and3, and15, Nat.shiftRight_eq_div_pow, Nat.shiftLeft_eq]
  repeat' apply And.intro
  all_goals first | rfl | (apply cs_digit; omega)

theorem run_one (a : UInt8) (h : a ≠ 0) (n : Nat) :
    run (n + 4) St.init [a] =
      ([Spec.Base64.digit (a.toNat >>> 2 &&& 63),
        Spec.Base64.digit ((a.toNat &&& 3) <<< 4), '=', '='], St.init, []) := by
  have ha := a.toNat_lt
  have e3 : (1 : Fin 4) + 1 = 2 := rfl
  cases n <;>
  · simp [run, step, exhausted, quadStep, consume, nextState, setPrev, currentByte, St.init, h]
    simp only [and63, and3, and15, Nat.shiftRight_eq_div_pow, Nat.shiftLeft_eq]
    constructor <;> (apply cs_digit; omega)

theorem run_two (a b : UInt8) (h : b ≠ 0) (n : Nat) :
    run (n + 4) St.init [a, b] =
      ([Spec.Base64.digit (a.toNat >>> 2 &&& 63),
        Spec.Base64.digit (((a.toNat &&& 3) <<< 4) + (b.toNat >>> 4 &&& 15)),
        Spec.Base64.digit ((b.toNat &&& 15) <<< 2), '='], St.init, []) := by
  have ha := a.toNat_lt
  have hb := b.toNat_lt
  cases n <;>
  · simp [run, step, exhausted, quadStep, consume, nextState, setPrev, currentByte, St.init, h]
    simp only [and63, and3, and15, Nat.shiftRight_eq_div_pow, Nat.shiftLeft_eq]
    refine ⟨?_, ?_, ?_⟩ <;> (apply cs_digit; omega)

theorem run_init_nil (n : Nat) : run n St.init [] = ([], St.init, []) := by
  apply run_final; rfl

theorem spec_one (a : UInt8) : Spec.Base64.encode [a] =
    [Spec.Base64.digit (a.toNat >>> 2 &&& 63),
        Spec.Base64.digit ((a.toNat &&& 3) <<< 4), '=', '='] := by
  have ha := a.toNat_lt
  simp only [Spec.Base64.encode, and63, and3, and15, Nat.shiftRight_eq_div_pow, Nat.shiftLeft_eq]
  refine List.cons_eq_cons.mpr ⟨congrArg _ (by omega), List.cons_eq_cons.mpr ⟨congrArg _ (by omega), rfl⟩⟩

theorem spec_two (a b : UInt8) : Spec.Base64.encode [a, b] =
    [Spec.Base64.digit (a.toNat >>> 2 &&& 63),
        Spec.Base64.digit (((a.toNat &&& 3) <<< 4) + (b.toNat >>> 4 &&& 15)),
        Spec.Base64.digit ((b.toNat &&& 15) <<< 2), '='] := by
  have ha := a.toNat_lt
  have hb := b.toNat_lt
  simp only [Spec.Base64.encode, and63, and3, and15, Nat.shiftRight_eq_div_pow, Nat.shiftLeft_eq]
  refine List.cons_eq_cons.mpr ⟨congrArg _ (by omega), List.cons_eq_cons.mpr ⟨congrArg _ (by omega),
    List.cons_eq_cons.mpr ⟨congrArg _ (by omega), rfl⟩⟩⟩

theorem spec_triple (a b c : UInt8) (t : List UInt8) : Spec.Base64.encode (a :: b :: c :: t) =
    Spec.Base64.digit (a.toNat >>> 2 &&& 63) ::
        Spec.Base64.digit (((a.toNat &&& 3) <<< 4) + (b.toNat >>> 4 &&& 15)) ::
        Spec.Base64.digit (((b.toNat &&& 15) <<< 2) + (c.toNat >>> 6 &&& 3)) ::
        Spec.Base64.digit (c.toNat &&& 63) :: Spec.Base64.encode t := by
  have ha := a.toNat_lt
  have hb := b.toNat_lt
  have hc := c.toNat_lt
  simp only [Spec.Base64.encode, and63, and3, and15, Nat.shiftRight_eq_div_pow, Nat.shiftLeft_eq]
  refine List.cons_eq_cons.mpr ⟨congrArg _ (by omega), List.cons_eq_cons.mpr ⟨congrArg _ (by omega),
    List.cons_eq_cons.mpr ⟨congrArg _ (by omega), List.cons_eq_cons.mpr ⟨congrArg _ (by omega), rfl⟩⟩⟩⟩

theorem goodTail_triple {a b c : UInt8} {t : List UInt8} (h : GoodTail (a :: b :: c :: t)) :
    GoodTail t := by
  unfold GoodTail at *
  rcases h with h | h
  · left; simp at h; omega
  · cases t with
    | nil => left; rfl
    | cons x xs => right; simpa using h

theorem run_encode : ∀ (inp : List UInt8), GoodTail inp → ∀ n, 
    run ((Spec.Base64.encode inp).length + n) St.init inp = (Spec.Base64.encode inp, St.init, [])
  | [], _, n => by rw [run_init_nil]; rfl
  | [a], h, n => by
    have ha : a ≠ 0 := by
      rcases h with h | h
      · simp at h
      · simpa using h
    rw [spec_one]
    rw [show (List.length [Spec.Base64.digit (a.toNat >>> 2 &&& 63),
        Spec.Base64.digit ((a.toNat &&& 3) <<< 4), '=', '='] + n) = n + 4 by simp; omega]
    exact run_one a ha n
  | [a, b], h, n => by
    have hb : b ≠ 0 := by
      rcases h with h | h
      · simp at h
      · simpa using h
    rw [spec_two]
    simp only [List.length_cons, List.length_nil]
    rw [show (0 + 1 + 1 + 1 + 1 + n) = n + 4 by omega]
    exact run_two a b hb n
  | a :: b :: c :: t, h, n => by
    rw [spec_triple]
    simp only [List.length_cons]
    rw [show (Spec.Base64.encode t).length + 1 + 1 + 1 + 1 + n =
      ((Spec.Base64.encode t).length + n) + 4 by omega]
    rw [run_triple]
    simp only
    rw [run_encode t (goodTail_triple h) n]

end Verif.Base64
