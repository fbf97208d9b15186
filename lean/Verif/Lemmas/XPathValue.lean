import Verif.Model.XPathString
import Verif.Spec.XPath
import Verif.Lemmas.Text
set_option autoImplicit false
set_option linter.unusedSimpArgs false
set_option linter.unusedVariables false
/-! Lemmas about XPath numbers, strings and comparisons. -/
namespace Verif.XPath
open Verif.Spec.XPath (IsRound IsFloor IsCeiling IsMod Contains FirstAt pick)

/-! ## numbers -/

theorem floor_bounds (q : Rat) : (q.floor : Rat) ≤ q ∧ q < (q.floor : Rat) + 1 := by
  refine ⟨Rat.floor_le q, ?_⟩
  have := @Rat.lt_floor q
  grind

theorem ceil_bounds (q : Rat) : q ≤ (q.ceil : Rat) ∧ (q.ceil : Rat) - 1 < q := by
  have h := floor_bounds (-q)
  have e : q.ceil = -((-q).floor) := by
    rw [Rat.ceil_eq_neg_floor_neg]
  rw [e, Rat.intCast_neg]
  grind

theorem floor_unique (q : Rat) (n : Int) (h1 : (n : Rat) ≤ q) (h2 : q < (n : Rat) + 1) : q.floor = n := by
  have a := floor_bounds q
  have b1 : n ≤ q.floor := Rat.le_floor_iff.mpr h1
  have : (q.floor : Rat) < ((n + 1 : Int) : Rat) := by
    rw [Rat.intCast_add]
    have : ((1 : Int) : Rat) = 1 := rfl
    grind
  have := Rat.intCast_lt_intCast.mp this
  omega

theorem ceil_unique (q : Rat) (n : Int) (h1 : q ≤ (n : Rat)) (h2 : (n : Rat) - 1 < q) : q.ceil = n := by
  rw [Rat.ceil_eq_neg_floor_neg, floor_unique (-q) (-n)]
  · omega
  · rw [Rat.intCast_neg]; grind
  · rw [Rat.intCast_neg]; grind

theorem floor_int (n : Int) : (n : Rat).floor = n :=
  floor_unique _ n (Rat.le_refl) (by grind)

theorem ceil_int (n : Int) : (n : Rat).ceil = n :=
  ceil_unique _ n (Rat.le_refl) (by grind)

theorem truncate_int (n : Int) : truncate (n : Rat) = n := by
  unfold truncate
  split
  · exact ceil_int n
  · exact floor_int n

theorem round_is (v : Num) : IsRound v (roundNumber v) := by
  cases v with
  | fin q =>
    rw [roundNumber]
    split
    · refine ⟨0, ?_, ?_, ?_⟩
      · rename_i h; rw [h]; rfl
      · rename_i h; have : ((0:Int):Rat) = 0 := rfl
        grind
      · rename_i h; have : ((0:Int):Rat) = 0 := rfl
        grind
    · split
      · refine ⟨0, rfl, ?_, ?_⟩ <;> (have : ((0:Int):Rat) = 0 := rfl) <;> grind
      · refine ⟨_, rfl, ?_, ?_⟩
        · have := floor_bounds (q + 1/2); grind
        · have := floor_bounds (q + 1/2); grind
  | _ => rfl

theorem round_unique (v a b : Num) (ha : IsRound v a) (hb : IsRound v b) : a = b := by
  cases v with
  | fin q =>
    obtain ⟨n, rfl, h1, h2⟩ := ha
    obtain ⟨m, rfl, h3, h4⟩ := hb
    have x : n < m + 1 := by
      have : (n : Rat) < ((m + 1 : Int) : Rat) := by
        rw [Rat.intCast_add]
        have : ((1 : Int) : Rat) = 1 := rfl
        grind
      exact Rat.intCast_lt_intCast.mp this
    have y : m < n + 1 := by
      have : (m : Rat) < ((n + 1 : Int) : Rat) := by
        rw [Rat.intCast_add]
        have : ((1 : Int) : Rat) = 1 := rfl
        grind
      exact Rat.intCast_lt_intCast.mp this
    have : n = m := by omega
    rw [this]
  | _ => exact ha.trans hb.symm

theorem floor_is (v : Num) : IsFloor v (floorFn v) := by
  cases v with
  | fin q => exact ⟨q.floor, rfl, Rat.floor_le q, fun m h => Rat.le_floor_iff.mpr h⟩
  | _ => rfl

theorem ceil_is (v : Num) : IsCeiling v (ceilingFn v) := by
  cases v with
  | fin q =>
    refine ⟨q.ceil, rfl, (ceil_bounds q).1, fun m h => ?_⟩
    have h2 := ceil_bounds q
    have : (q.ceil : Rat) < ((m + 1 : Int) : Rat) := by
      rw [Rat.intCast_add]
      have : ((1 : Int) : Rat) = 1 := rfl
      grind
    have := Rat.intCast_lt_intCast.mp this
    omega
  | _ => rfl

/-! ## find -/

theorem isPrefixOf_iff (t s : List Char) : t.isPrefixOf s = true ↔ ∃ b, s = t ++ b := by
  rw [List.isPrefixOf_iff_prefix]
  constructor
  · rintro ⟨b, h⟩; exact ⟨b, h.symm⟩
  · rintro ⟨b, h⟩; exact ⟨b, h.symm⟩

theorem find_some (s t : List Char) (i : Nat) (h : find s t = some i) :
    i + t.length ≤ s.length ∧ FirstAt s t (s.take i) (s.drop (i + t.length)) := by
  induction s generalizing i with
  | nil =>
    rw [find] at h
    split at h
    · rename_i h0; subst h0
      cases h
      exact ⟨by simp, by simp, by simp⟩
    · cases h
  | cons c cs ih =>
    rw [find] at h
    split at h
    · rename_i hp
      cases h
      obtain ⟨b, hb⟩ := (isPrefixOf_iff _ _).mp hp
      rw [hb]
      exact ⟨by simp, by simp, by simp⟩
    · rename_i hp
      cases hf : find cs t with
      | none => rw [hf] at h; cases h
      | some j =>
        rw [hf] at h
        cases h
        obtain ⟨hl, h1, h2⟩ := ih j hf
        refine ⟨by simp; omega, ?_, ?_⟩
        · have : j + 1 + t.length = (j + t.length) + 1 := by omega
          rw [this]
          simp only [List.take_succ_cons, List.drop_succ_cons, List.cons_append]
          rw [← h1]
        · intro a' b' he
          cases a' with
          | nil => exact absurd ((isPrefixOf_iff _ _).mpr ⟨b', by simpa using he⟩) hp
          | cons d ds =>
            have : cs = ds ++ t ++ b' := by simpa using (List.cons.inj (by simpa using he)).2
            have := h2 ds b' this
            simp only [List.length_take, List.length_cons] at this ⊢
            omega

theorem find_none (s t : List Char) (h : find s t = none) : ¬ Contains s t := by
  induction s with
  | nil =>
    rw [find] at h
    split at h
    · cases h
    · rename_i h0
      rintro ⟨a, b, hab⟩
      simp at hab
      exact h0 hab.2.1
  | cons c cs ih =>
    rw [find] at h
    split at h
    · cases h
    · rename_i hp
      have hf : find cs t = none := by simpa using h
      rintro ⟨a, b, hab⟩
      cases a with
      | nil => exact hp ((isPrefixOf_iff _ _).mpr ⟨b, by simpa using hab⟩)
      | cons d ds =>
        exact ih hf ⟨ds, b, by simpa using (List.cons.inj (by simpa using hab)).2⟩

theorem contains_iff (s t : List Char) : containsFn s t = true ↔ Contains s t := by
  unfold containsFn
  cases hf : find s t with
  | none => simpa using find_none s t hf
  | some i =>
    simp only [Option.isSome_some, true_iff]
    exact ⟨_, _, (find_some s t i hf).2.1⟩

theorem startsLoop_iff (v t : List Char) : startsLoop v t = true ↔ ∃ b, v = t ++ b := by
  induction v generalizing t with
  | nil =>
    cases t with
    | nil => simp [startsLoop]
    | cons => simp [startsLoop]
  | cons c cs ih =>
    cases t with
    | nil => simp [startsLoop]
    | cons d ds =>
      rw [startsLoop]
      split
      · rename_i h
        simp
        intro h'; exact absurd h' h
      · rename_i h
        simp only [Decidable.not_not] at h
        subst h
        rw [ih]
        simp

theorem startsWith_iff (v t : List Char) : startsWithFn v t = true ↔ ∃ b, v = t ++ b := by
  unfold startsWithFn
  split
  · rename_i h
    simp only [Bool.false_eq_true, false_iff]
    rintro ⟨b, rfl⟩
    simp at h
    omega
  · exact startsLoop_iff v t

theorem firstAt_unique (s t a b a' b' : List Char) (h : FirstAt s t a b) (h' : FirstAt s t a' b') :
    a = a' ∧ b = b' := by
  have hl : a.length = a'.length := Nat.le_antisymm (h.2 _ _ h'.1) (h'.2 _ _ h.1)
  have he : a ++ (t ++ b) = a' ++ (t ++ b') := by
    have := h.1.symm.trans h'.1
    simpa using this
  obtain ⟨h1, h2⟩ := List.append_inj he hl
  exact ⟨h1, (List.append_inj h2 rfl).2⟩

/-! ## substring -/

theorem pick_range (s : List Char) (k lo hi : Nat) :
    pick (fun p => decide (lo ≤ p) && decide (p < hi)) k s = (s.take (hi - k)).drop (lo - k) := by
  induction s generalizing k with
  | nil => simp [pick]
  | cons c cs ih =>
    rw [pick, ih]
    by_cases h1 : lo ≤ k
    · have e1 : lo - k = 0 := by omega
      have e2 : lo - (k + 1) = 0 := by omega
      by_cases h2 : k < hi
      · have e3 : hi - k = (hi - (k + 1)) + 1 := by omega
        rw [if_pos (by simp [h1, h2]), e1, e2, e3]
        simp
      · have e3 : hi - k = 0 := by omega
        have e4 : hi - (k + 1) = 0 := by omega
        rw [if_neg (by simp [h1, h2])]
        simp [e1, e2, e3, e4]
    · have e1 : lo - k = (lo - (k + 1)) + 1 := by omega
      rw [if_neg (by simp [h1])]
      by_cases h2 : k < hi
      · have e3 : hi - k = (hi - (k + 1)) + 1 := by omega
        rw [e1, e3]
        simp
      · have e3 : hi - k = 0 := by omega
        have e4 : hi - (k + 1) = 0 := by omega
        simp [e3, e4]

theorem pick_congr (f g : Nat → Bool) (s : List Char) (k : Nat)
    (h : ∀ p, k ≤ p → p < k + s.length → f p = g p) : pick f k s = pick g k s := by
  induction s generalizing k with
  | nil => rfl
  | cons c cs ih =>
    rw [pick, pick, h k (Nat.le_refl _) (by simp), ih]
    intro p h1 h2
    exact h p (by omega) (by simp at h2 ⊢; omega)

theorem pick_none (f : Nat → Bool) (s : List Char) (k : Nat)
    (h : ∀ p, k ≤ p → p < k + s.length → f p = false) : pick f k s = [] := by
  rw [pick_congr f (fun _ => false) s k h]
  generalize k = k
  clear h
  induction s generalizing k with
  | nil => rfl
  | cons c cs ih => rw [pick]; simpa using ih (k + 1)

/-! ## translate -/

theorem findChar_eq (l : List Char) (c : Char) : findChar l c = l.idxOf? c := by
  induction l with
  | nil => rfl
  | cons d ds ih =>
    rw [findChar, ih]
    rw [List.idxOf?_cons]
    by_cases h : d = c
    · simp [h]
    · simp [h]


theorem translateLoop_keep (src dst pre rest : List Char)
    (h : ∀ c ∈ rest, ∀ r, src.idxOf? c = some r → r < dst.length) :
    ∃ tail, translateLoop src dst rest.length (pre ++ rest) pre.length pre.length =
      (pre ++ tail, pre.length + tail.length) ∧ tail = Verif.Spec.XPath.translate rest src dst := by
  induction rest generalizing pre with
  | nil => exact ⟨[], rfl, rfl⟩
  | cons c cs ih =>
    have hcs : ∀ c ∈ cs, ∀ r, src.idxOf? c = some r → r < dst.length :=
      fun d hd => h d (List.mem_cons_of_mem _ hd)
    simp only [List.length_cons, translateLoop]
    have e0 : (pre ++ c :: cs)[pre.length]? = some c := by simp
    rw [e0]
    simp only [findChar_eq]
    cases hr : src.idxOf? c with
    | none =>
      obtain ⟨tail, ht, hs⟩ := ih (pre ++ [c]) hcs
      refine ⟨c :: tail, ?_, ?_⟩
      · simp only [List.append_assoc, List.singleton_append, List.length_append, List.length_cons,
          List.length_nil, Nat.zero_add] at ht
        simp only [ht, List.length_cons]
        rw [Nat.add_assoc, Nat.add_comm 1]
      · rw [hs]
        simp [Spec.XPath.translate, Spec.XPath.translate1, hr]
    | some r =>
      have hlt := h c (List.mem_cons_self ..) r hr
      obtain ⟨d, hd⟩ : ∃ d, dst[r]? = some d := ⟨dst[r], by simp [hlt]⟩
      simp only [hd]
      obtain ⟨tail, ht, hs⟩ := ih (pre ++ [d]) hcs
      have e1 : (pre ++ c :: cs).set pre.length d = pre ++ d :: cs := by simp
      refine ⟨d :: tail, ?_, ?_⟩
      · simp only [List.append_assoc, List.singleton_append, List.length_append, List.length_cons,
          List.length_nil, Nat.zero_add] at ht
        simp only [e1, ht, List.length_cons]
        rw [Nat.add_assoc, Nat.add_comm 1]
      · rw [hs]
        simp [Spec.XPath.translate, Spec.XPath.translate1, hr, hd]

/-- The gap state: the first `p` places are output, places from `i` on are still input. -/
theorem translateLoop_gap (src dst out gap rest : List Char) (hg : gap ≠ [])
    (h : ∀ c ∈ rest, src.idxOf? c ≠ none) :
    ∃ tail more, translateLoop src dst rest.length (out ++ gap ++ rest) (out.length + gap.length) out.length =
      (out ++ tail ++ more, out.length + tail.length) ∧ tail = Verif.Spec.XPath.translate rest src dst := by
  induction rest generalizing out gap with
  | nil => exact ⟨[], gap, by simp [translateLoop], rfl⟩
  | cons c cs ih =>
    have hcs : ∀ c ∈ cs, src.idxOf? c ≠ none := fun d hd => h d (List.mem_cons_of_mem _ hd)
    simp only [List.length_cons, translateLoop]
    have e0 : (out ++ gap ++ c :: cs)[out.length + gap.length]? = some c := by
      rw [← List.length_append]; simp
    rw [e0]
    simp only [findChar_eq]
    cases hr : src.idxOf? c with
    | none => exact absurd hr (h c (List.mem_cons_self ..))
    | some r =>
      cases hd : dst[r]? with
      | none =>
        obtain ⟨tail, more, ht, hs⟩ := ih out (gap ++ [c]) (by simp) hcs
        refine ⟨tail, more, ?_, ?_⟩
        · simp only [hd]
          simpa [Nat.add_assoc] using ht
        · rw [hs]; simp [Spec.XPath.translate, Spec.XPath.translate1, hr, hd]
      | some d =>
        obtain ⟨g, gs, rfl⟩ := List.exists_cons_of_ne_nil hg
        have e1 : (out ++ (g :: gs) ++ c :: cs).set out.length d = out ++ [d] ++ (gs ++ [c]) ++ cs := by
          simp
        obtain ⟨tail, more, ht, hs⟩ := ih (out ++ [d]) (gs ++ [c]) (by simp) hcs
        refine ⟨d :: tail, more, ?_, ?_⟩
        · simp only [hd, e1]
          have e2 : out.length + (g :: gs).length + 1 = (out ++ [d]).length + (gs ++ [c]).length := by
            simp; omega
          rw [e2]
          simp only [List.length_append, List.length_cons, List.length_nil, Nat.zero_add] at ht ⊢
          rw [ht]
          simp
          omega
        · rw [hs]; simp [Spec.XPath.translate, Spec.XPath.translate1, hr, hd]

theorem translateLoop_append (src dst a b : List Char)
    (ha : ∀ c ∈ a, ∀ r, src.idxOf? c = some r → r < dst.length) :
    ∀ pre, ∃ tail, tail = Verif.Spec.XPath.translate a src dst ∧
    translateLoop src dst (a.length + b.length) (pre ++ a ++ b) pre.length pre.length =
    translateLoop src dst b.length (pre ++ tail ++ b) (pre.length + tail.length) (pre.length + tail.length) := by
  induction a with
  | nil => intro pre; exact ⟨[], rfl, by simp⟩
  | cons c cs ih =>
    intro pre
    have hcs : ∀ c ∈ cs, ∀ r, src.idxOf? c = some r → r < dst.length :=
      fun d hd => ha d (List.mem_cons_of_mem _ hd)
    have en : (c :: cs).length + b.length = (cs.length + b.length) + 1 := by simp; omega
    rw [en, translateLoop]
    have e0 : (pre ++ (c :: cs) ++ b)[pre.length]? = some c := by simp
    rw [e0]
    simp only [findChar_eq]
    cases hr : src.idxOf? c with
    | none =>
      obtain ⟨tail, hs, ht⟩ := ih hcs (pre ++ [c])
      refine ⟨c :: tail, ?_, ?_⟩
      · rw [hs]; simp [Spec.XPath.translate, Spec.XPath.translate1, hr]
      · simpa [Nat.add_assoc, Nat.add_comm 1] using ht
    | some r =>
      have hlt := ha c (List.mem_cons_self ..) r hr
      obtain ⟨d, hd⟩ : ∃ d, dst[r]? = some d := ⟨dst[r], by simp [hlt]⟩
      simp only [hd]
      have e1 : (pre ++ (c :: cs) ++ b).set pre.length d = pre ++ [d] ++ cs ++ b := by simp
      obtain ⟨tail, hs, ht⟩ := ih hcs (pre ++ [d])
      refine ⟨d :: tail, ?_, ?_⟩
      · rw [hs]; simp [Spec.XPath.translate, Spec.XPath.translate1, hr, hd]
      · simp only [e1]
        simpa [Nat.add_assoc, Nat.add_comm 1] using ht

theorem translate_good (src dst a b : List Char)
    (ha : ∀ c ∈ a, ∀ r, src.idxOf? c = some r → r < dst.length)
    (hb : ∀ c ∈ b, src.idxOf? c ≠ none) :
    translateFn (a ++ b) src dst = Verif.Spec.XPath.translate (a ++ b) src dst := by
  have happ : Verif.Spec.XPath.translate (a ++ b) src dst =
      Verif.Spec.XPath.translate a src dst ++ Verif.Spec.XPath.translate b src dst := by
    simp [Spec.XPath.translate]
  rw [happ]
  -- move the characters of `b` that are not deleted into `a`
  induction b generalizing a with
  | nil =>
    obtain ⟨tail, ht, hs⟩ := translateLoop_keep src dst [] a ha
    unfold translateFn
    simp only [List.nil_append, List.length_nil, List.append_nil, Nat.zero_add] at ht ⊢
    rw [ht, ← hs]
    simp [Spec.XPath.translate]
  | cons c cs ih =>
    have hcs : ∀ c ∈ cs, src.idxOf? c ≠ none := fun d hd => hb d (List.mem_cons_of_mem _ hd)
    cases hr : src.idxOf? c with
    | none => exact absurd hr (hb c (List.mem_cons_self ..))
    | some r =>
      by_cases hlt : r < dst.length
      · have := ih (a ++ [c]) (by
          intro d hd r' hr'
          rcases List.mem_append.mp hd with h | h
          · exact ha d h r' hr'
          · rw [List.mem_singleton] at h
            subst h
            rw [hr] at hr'; cases hr'; exact hlt) hcs (by simp [Spec.XPath.translate])
        simpa [Spec.XPath.translate] using this
      · obtain ⟨tail, hs, ht⟩ := translateLoop_append src dst a (c :: cs) ha []
        unfold translateFn
        simp only [List.nil_append, List.length_nil, Nat.zero_add] at ht
        have hl : (a ++ c :: cs).length = a.length + (c :: cs).length := by simp
        rw [hl, ht]
        have e0 : (tail ++ c :: cs)[tail.length]? = some c := by simp
        have hd : dst[r]? = none := by simp; omega
        simp only [List.length_cons, translateLoop, e0, findChar_eq, hr, hd]
        obtain ⟨t2, more, h2, hs2⟩ := translateLoop_gap src dst tail [c] cs (by simp) hcs
        have e3 : tail ++ c :: cs = tail ++ [c] ++ cs := by simp
        rw [e3]
        simp only [List.length_singleton] at h2
        rw [h2]
        have : Verif.Spec.XPath.translate (c :: cs) src dst = Verif.Spec.XPath.translate cs src dst := by
          simp [Spec.XPath.translate, Spec.XPath.translate1, hr, hd]
        rw [this, ← hs2, ← hs]
        exact List.take_left' (by simp)

end Verif.XPath
