import Verif.Lemmas.Base64
set_option autoImplicit false
set_option linter.unusedSimpArgs false
set_option linter.unusedVariables false
namespace Verif.Base64
open Verif.Codecvt

/-- decoding with unlimited room -/
def decodeStep (st : St) (b : Char) : List UInt8 × St :=
  match charset.findIdx? (· = b) with
  | none => ([], if b = '=' then nextState st else st)
  | some c => ((decodeByte st.s st.prev.toNat c).toList, nextState (setPrev st (UInt8.ofNat c)))

def decodeAll : St → List Char → List UInt8
  | _, [] => []
  | st, b :: t => (decodeStep st b).1 ++ decodeAll (decodeStep st b).2 t

theorem inLoop_decodeAll : ∀ (inp : List Char) (room : Nat) (st : St),
    decodeAll st inp = (inLoop inp room st).1 ++
      decodeAll (inLoop inp room st).2.1 (inLoop inp room st).2.2 := by
  intro inp
  induction inp with
  | nil => intro room st; rfl
  | cons b t ih =>
    intro room st
    cases room with
    | zero => rfl
    | succ room =>
      unfold inLoop
      simp only [decodeAll]
      cases hf : charset.findIdx? (· = b) with
      | none =>
        simp only [decodeStep, hf, List.nil_append]
        exact ih _ _
      | some c =>
        simp only [decodeStep, hf]
        cases hd : decodeByte st.s st.prev.toNat c with
        | none =>
          simp only [Option.toList, List.nil_append]
          exact ih _ _
        | some byte =>
          simp only [Option.toList, List.cons_append, List.nil_append]
          rw [← ih]

theorem inLoop_room : ∀ (inp : List Char) (room : Nat) (st : St), inp.length < room →
    (inLoop inp room st).2.2 = [] := by
  intro inp
  induction inp with
  | nil => intro room st _; rfl
  | cons b t ih =>
    intro room st h
    cases room with
    | zero => simp at h
    | succ room =>
      simp only [List.length_cons] at h
      unfold inLoop
      cases hf : charset.findIdx? (· = b) with
      | none => exact ih _ _ (by omega)
      | some c =>
        cases hd : decodeByte st.s st.prev.toNat c with
        | none => simp only [hd]; exact ih _ _ (by omega)
        | some byte => simp only [hd]; exact ih _ _ (by omega)

theorem drive_doIn (caps : List Nat) : ∀ (st : St) (inp : List Char),
    (drive doIn st inp caps).status = .ok →
      (drive doIn st inp caps).out = decodeAll st inp := by
  induction caps with
  | nil => intro st inp h; simp [drive] at h
  | cons c cs ih =>
    intro st inp
    have hd := inLoop_decodeAll inp c st
    unfold drive doIn
    rcases hl : inLoop inp c st with ⟨out, st', rest⟩
    rw [hl] at hd
    simp only at hd ⊢
    cases rest with
    | nil => simp [decodeAll] at hd ⊢; exact hd.symm
    | cons x xs =>
      simp only [List.isEmpty_cons, Bool.false_eq_true, if_false]
      intro h
      have := ih st' (x :: xs) h
      rw [hd]
      unfold doIn at this
      rw [this]

theorem find_digit : ∀ i : Fin 64,
    charset.findIdx? (· = Spec.Base64.digit i.val) = some i.val := by decide +kernel

theorem decodeStep_digit (st : St) (i : Nat) (h : i < 64) :
    decodeStep st (Spec.Base64.digit i) =
      ((decodeByte st.s st.prev.toNat i).toList, nextState (setPrev st (UInt8.ofNat i))) := by
  unfold decodeStep
  rw [show charset.findIdx? (fun x => decide (x = Spec.Base64.digit i)) = some i from find_digit ⟨i, h⟩]

theorem decodeStep_pad (st : St) : decodeStep st '=' = ([], nextState st) := by
  have : charset.findIdx? (fun x => decide (x = '=')) = none := by decide +kernel
  simp [decodeStep, this]

theorem toNat_ofNat_lt (i : Nat) (h : i < 64) : (UInt8.ofNat i).toNat = i := by
  simp [UInt8.toNat_ofNat]; omega

theorem u8_ext {a b : UInt8} (h : a.toNat = b.toNat) : a = b := UInt8.toNat.inj h

theorem byte1 (a : UInt8) (y : Nat) (h : y < 16) :
    UInt8.ofNat (((a.toNat >>> 2 &&& 63) <<< 2) ||| (((a.toNat &&& 3) <<< 4) + y) >>> 4) = a := by
  have ha := a.toNat_lt
  apply u8_ext
  rw [UInt8.toNat_ofNat']
  rw [← Nat.shiftLeft_add_eq_or_of_lt]
  · simp only [and63, and3, and15, Nat.shiftRight_eq_div_pow, Nat.shiftLeft_eq]; omega
  · simp only [and63, and3, and15, Nat.shiftRight_eq_div_pow, Nat.shiftLeft_eq]; omega

theorem byte2 (b : UInt8) (x y : Nat) (h : y < 4) :
    UInt8.ofNat (((x <<< 4) + (b.toNat >>> 4 &&& 15)) <<< 4 ||| (((b.toNat &&& 15) <<< 2) + y) >>> 2) = b := by
  have ha := b.toNat_lt
  apply u8_ext
  rw [UInt8.toNat_ofNat']
  rw [← Nat.shiftLeft_add_eq_or_of_lt]
  · simp only [and63, and3, and15, Nat.shiftRight_eq_div_pow, Nat.shiftLeft_eq]; omega
  · simp only [and63, and3, and15, Nat.shiftRight_eq_div_pow, Nat.shiftLeft_eq]; omega

theorem byte3 (c : UInt8) (x : Nat) :
    UInt8.ofNat (((x <<< 2) + (c.toNat >>> 6 &&& 3)) <<< 6 ||| (c.toNat &&& 63)) = c := by
  have ha := c.toNat_lt
  apply u8_ext
  rw [UInt8.toNat_ofNat']
  rw [← Nat.shiftLeft_add_eq_or_of_lt]
  · simp only [and63, and3, and15, Nat.shiftRight_eq_div_pow, Nat.shiftLeft_eq]; omega
  · simp only [and63, and3, and15, Nat.shiftRight_eq_div_pow, Nat.shiftLeft_eq]; omega

theorem lt1 (a : UInt8) : a.toNat >>> 2 &&& 63 < 64 := by
  rw [and63]; omega
theorem lt2 (a b : Nat) : ((a &&& 3) <<< 4) + (b >>> 4 &&& 15) < 64 := by
  simp only [and3, and15, Nat.shiftLeft_eq]; omega
theorem lt3 (a b : Nat) : ((a &&& 15) <<< 2) + (b >>> 6 &&& 3) < 64 := by
  simp only [and3, and15, Nat.shiftLeft_eq]; omega
theorem lt4 (a : Nat) : a &&& 63 < 64 := by
  rw [and63]; omega

theorem f01 : (0 : Fin 4) + 1 = 1 := rfl
theorem f12 : (1 : Fin 4) + 1 = 2 := rfl
theorem f23 : (2 : Fin 4) + 1 = 3 := rfl
theorem f30 : (3 : Fin 4) + 1 = 0 := rfl
theorem d0 (p c : Nat) : (decodeByte 0 p c).toList = [] := rfl
theorem d1 (p c : Nat) : (decodeByte 1 p c).toList = [UInt8.ofNat ((p <<< 2) ||| (c >>> 4))] := rfl
theorem d2 (p c : Nat) : (decodeByte 2 p c).toList = [UInt8.ofNat ((p <<< 4) ||| (c >>> 2))] := rfl
theorem d3 (p c : Nat) : (decodeByte 3 p c).toList = [UInt8.ofNat ((p <<< 6) ||| c)] := rfl

theorem decode_encode : ∀ (inp : List UInt8) (p : UInt8),
    decodeAll ⟨0, p⟩ (Spec.Base64.encode inp) = inp
  | [], _ => rfl
  | [a], p => by
    have h2 : ((a.toNat &&& 3) <<< 4) < 64 := by have := lt2 a.toNat 0; simpa using this
    rw [spec_one]
    simp only [decodeAll, decodeStep_pad, decodeStep_digit _ _ (lt1 a), decodeStep_digit _ _ h2]
    have := byte1 a 0 (by omega)
    simp only [Nat.add_zero] at this
    simp only [nextState, setPrev, f01, f12, f23, d0, d1, toNat_ofNat_lt _ (lt1 a), this, List.nil_append,
      List.cons_append]
  | [a, b], p => by
    have h3 : ((b.toNat &&& 15) <<< 2) < 64 := by have := lt3 b.toNat 0; simpa using this
    rw [spec_two]
    simp only [decodeAll, decodeStep_pad, decodeStep_digit _ _ (lt1 a),
      decodeStep_digit _ _ (lt2 a.toNat b.toNat), decodeStep_digit _ _ h3]
    have e1 := byte1 a (b.toNat >>> 4 &&& 15) (by rw [and15]; omega)
    have e2 := byte2 b (a.toNat &&& 3) 0 (by omega)
    simp only [Nat.add_zero] at e2
    simp only [nextState, setPrev, f01, f12, f23, d0, d1, d2, toNat_ofNat_lt _ (lt1 a),
      toNat_ofNat_lt _ (lt2 a.toNat b.toNat), e1, e2, List.nil_append, List.cons_append]
  | a :: b :: c :: t, p => by
    rw [spec_triple]
    simp only [decodeAll, decodeStep_digit _ _ (lt1 a),
      decodeStep_digit _ _ (lt2 a.toNat b.toNat), decodeStep_digit _ _ (lt3 b.toNat c.toNat),
      decodeStep_digit _ _ (lt4 c.toNat)]
    have e1 := byte1 a (b.toNat >>> 4 &&& 15) (by rw [and15]; omega)
    have e2 := byte2 b (a.toNat &&& 3) (c.toNat >>> 6 &&& 3) (by rw [and3]; omega)
    have e3 := byte3 c (b.toNat &&& 15)
    have ih := decode_encode t (UInt8.ofNat (c.toNat &&& 63))
    simp only [nextState, setPrev, f01, f12, f23, f30, d0, d1, d2, d3, toNat_ofNat_lt _ (lt1 a),
      toNat_ofNat_lt _ (lt2 a.toNat b.toNat),
      toNat_ofNat_lt _ (lt3 b.toNat c.toNat), e1, e2, e3, ih, List.nil_append, List.cons_append]

/-- characters outside the alphabet (and not `=`) are skipped -/
theorem decodeAll_filter : ∀ (st : St) (inp : List Char),
    decodeAll st (inp.filter (fun b => charset.contains b || b = '=')) = decodeAll st inp := by
  intro st inp
  induction inp generalizing st with
  | nil => rfl
  | cons b t ih =>
    by_cases hb : (charset.contains b || decide (b = '=')) = true
    · rw [List.filter_cons_of_pos (p := fun b => charset.contains b || decide (b = '=')) hb]
      simp only [decodeAll]
      rw [ih]
    · rw [List.filter_cons_of_neg (p := fun b => charset.contains b || decide (b = '=')) hb]
      simp only [decodeAll]
      simp only [Bool.or_eq_true, not_or, decide_eq_true_eq] at hb
      have : charset.findIdx? (fun x => decide (x = b)) = none := by
        rw [List.findIdx?_eq_none_iff]
        intro x hx
        have : x ≠ b := by
          rintro rfl; exact hb.1 (List.contains_iff_mem.mpr hx)
        simpa using this
      simp only [decodeStep, this, if_neg hb.2, List.nil_append]
      exact ih st


/-- two completed runs agree -/
theorem run_unique (n m : Nat) (st : St) (inp : List UInt8)
    (hn : step (run n st inp).2.1 (run n st inp).2.2 = none)
    (hm : step (run m st inp).2.1 (run m st inp).2.2 = none) : run n st inp = run m st inp := by
  rcases Nat.le_total n m with h | h
  · obtain ⟨k, rfl⟩ := Nat.exists_eq_add_of_le h
    rw [run_add, run_final k _ _ hn]; simp
  · obtain ⟨k, rfl⟩ := Nat.exists_eq_add_of_le h
    rw [run_add, run_final k _ _ hm]; simp

theorem doOut_status (st : St) (inp : List UInt8) (n : Nat) :
    (doOut st inp n).status = .ok ↔ step (run n st inp).2.1 (run n st inp).2.2 = none := by
  rw [doOut_eq_run]; simp

/-- Output for input with a bad tail: exactly what decodes to everything but the last byte. -/
theorem run_bad : ∀ (inp : List UInt8), ¬ GoodTail inp →
    ∃ e, (∀ n, run (inp.length * 4 + n) St.init inp = (e, St.init, [])) ∧
      ∀ p, decodeAll ⟨0, p⟩ e = inp.dropLast
  | [], h => by exact absurd (Or.inl rfl) h
  | [a], h => by
    have ha : a = 0 := by
      unfold GoodTail at h; simp at h; exact h
    subst ha
    refine ⟨['A', '=', '=', '='], ?_, ?_⟩
    · intro n
      rw [show [(0 : UInt8)].length * 4 + n = n + 4 by simp; omega]
      cases n <;> rfl
    · intro p
      have hA := decodeStep_digit ⟨0, p⟩ 0 (by omega)
      have e0 : Spec.Base64.digit 0 = 'A' := by decide
      rw [e0] at hA
      simp only [decodeAll, decodeStep_pad, hA, d0]
      rfl
  | [a, b], h => by
    have hb : b = 0 := by
      unfold GoodTail at h; simp at h; exact h
    subst hb
    refine ⟨[Spec.Base64.digit (a.toNat >>> 2 &&& 63),
        Spec.Base64.digit ((a.toNat &&& 3) <<< 4), '=', '='], ?_, ?_⟩
    · intro n
      have ha := a.toNat_lt
      rw [show [a, (0 : UInt8)].length * 4 + n = (n + 4) + 4 by simp; omega]
      simp [run, step, exhausted, quadStep, consume, nextState, setPrev, currentByte, St.init]
      simp only [and63, and3, and15, Nat.shiftRight_eq_div_pow, Nat.shiftLeft_eq]
      constructor <;> (apply cs_digit; omega)
    · intro p
      have := decode_encode [a] p
      rw [spec_one] at this
      simpa using this
  | a :: b :: c :: t, h => by
    have ht : ¬ GoodTail t := by
      intro g; apply h
      unfold GoodTail at *
      cases t with
      | nil => left; simp
      | cons x xs =>
        rcases g with g | g
        · left; simp at g ⊢; omega
        · right; simpa using g
    obtain ⟨e, he, hd⟩ := run_bad t ht
    have htne : t ≠ [] := by
      rintro rfl; exact ht (Or.inl rfl)
    refine ⟨Spec.Base64.digit (a.toNat >>> 2 &&& 63) ::
        Spec.Base64.digit (((a.toNat &&& 3) <<< 4) + (b.toNat >>> 4 &&& 15)) ::
        Spec.Base64.digit (((b.toNat &&& 15) <<< 2) + (c.toNat >>> 6 &&& 3)) ::
        Spec.Base64.digit (c.toNat &&& 63) :: e, ?_, ?_⟩
    · intro n
      rw [show (a :: b :: c :: t).length * 4 + n = (t.length * 4 + (n + 8)) + 4 by
        simp; omega]
      rw [run_triple]
      simp only
      rw [he (n + 8)]
    · intro p
      have e1 := byte1 a (b.toNat >>> 4 &&& 15) (by rw [and15]; omega)
      have e2 := byte2 b (a.toNat &&& 3) (c.toNat >>> 6 &&& 3) (by rw [and3]; omega)
      have e3 := byte3 c (b.toNat &&& 15)
      simp only [decodeAll, decodeStep_digit _ _ (lt1 a),
        decodeStep_digit _ _ (lt2 a.toNat b.toNat), decodeStep_digit _ _ (lt3 b.toNat c.toNat),
        decodeStep_digit _ _ (lt4 c.toNat)]
      simp only [nextState, setPrev, f01, f12, f23, f30, d0, d1, d2, d3, toNat_ofNat_lt _ (lt1 a),
        toNat_ofNat_lt _ (lt2 a.toNat b.toNat),
        toNat_ofNat_lt _ (lt3 b.toNat c.toNat), e1, e2, e3, hd, List.nil_append, List.cons_append]
      rw [List.dropLast_cons_of_ne_nil (by simp), List.dropLast_cons_of_ne_nil (by simp),
        List.dropLast_cons_of_ne_nil htne]

end Verif.Base64
