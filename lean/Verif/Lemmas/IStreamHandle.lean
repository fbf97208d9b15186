import Verif.Spec.IStreamHandle
set_option autoImplicit false
set_option linter.unusedSimpArgs false
set_option linter.unusedVariables false
namespace Verif.IStreamHandle
open Verif.Spec.IStreamHandle (Target Sp Legal NotSelf AllLegal stream)

/-- The handle of a counter and what it holds. -/
def handle (k : Nat) : Target → H
  | .nothing => ⟨none, some k, false⟩
  | .lent x => ⟨some x, some k, false⟩
  | .own x => ⟨some x, some k, true⟩

theorem handle_counter (k : Nat) (t : Target) : (handle k t).counter = some k := by cases t <;> rfl

theorem handle_inj {k k' : Nat} {t t' : Target} (h : handle k t = handle k' t') : k = k' ∧ t = t' := by
  cases t <;> cases t' <;> simp_all [handle]

def uses (k : Nat) : Option H → Bool
  | none => false
  | some h => h.counter == some k

def count (n : Nat) (hs : Nat → Option H) (k : Nat) : Nat := (List.range n).countP fun i => uses k (hs i)

theorem countP_put (l : List Nat) (hd : l.Nodup) (hs : Nat → Option H) (i : Nat) (v : Option H) (k : Nat) (hi : i ∈ l) :
    (l.countP fun j => uses k (put hs i v j)) + (uses k (hs i)).toNat =
      (l.countP fun j => uses k (hs j)) + (uses k v).toNat := by
  induction l with
  | nil => cases hi
  | cons a l ih =>
    have hc := List.nodup_cons.1 hd
    rw [List.countP_cons, List.countP_cons]
    by_cases ha : a = i
    · subst ha
      have h1 : (l.countP fun j => uses k (put hs a v j)) = l.countP fun j => uses k (hs j) := by
        refine List.countP_congr fun j hj => ?_
        have : j ≠ a := fun h => hc.1 (h ▸ hj)
        unfold put; rw [if_neg this]
      have h2 : put hs a v a = v := by unfold put; rw [if_pos rfl]
      rw [h1, h2]
      cases uses k (hs a) <;> cases uses k v <;> simp
    · have hil : i ∈ l := by
        rcases List.mem_cons.1 hi with h | h
        · exact absurd h.symm ha
        · exact h
      have h2 : put hs i v a = hs a := by unfold put; rw [if_neg ha]
      have := ih hc.2 hil
      rw [h2]; omega

theorem count_put (n : Nat) (hs : Nat → Option H) (i : Nat) (v : Option H) (k : Nat) (hi : i < n) :
    count n (put hs i v) k + (uses k (hs i)).toNat = count n hs k + (uses k v).toNat :=
  countP_put _ List.nodup_range hs i v k (List.mem_range.2 hi)

theorem count_pos {n : Nat} {hs : Nat → Option H} {k : Nat} : 0 < count n hs k ↔ ∃ i, i < n ∧ uses k (hs i) = true := by
  unfold count
  rw [List.countP_pos_iff]
  constructor
  · rintro ⟨i, hi, h⟩; exact ⟨i, List.mem_range.1 hi, h⟩
  · rintro ⟨i, hi, h⟩; exact ⟨i, List.mem_range.2 hi, h⟩

theorem uses_handle (k k' : Nat) (t : Target) : uses k (some (handle k' t)) = decide (k' = k) := by
  unfold uses; dsimp only; rw [handle_counter]
  by_cases h : k' = k <;> simp [h]

structure Inv (n : Nat) (s : St) (p : Sp) : Prop where
  hb : ∀ i, n ≤ i → p.hold i = none
  hm : ∀ i, (s.hs i = none ∧ p.hold i = none) ∨ ∃ k t, s.hs i = some (handle k t) ∧ p.hold i = some t
  sh : ∀ i j k t t', s.hs i = some (handle k t) → s.hs j = some (handle k t') → t = t'
  ow : ∀ i j k k' x, s.hs i = some (handle k (.own x)) → s.hs j = some (handle k' (.own x)) → k = k'
  ct : ∀ k, s.cnt k = if count n s.hs k = 0 then none else some (count n s.hs k : Int)
  nx : ∀ k, s.next ≤ k → count n s.hs k = 0
  gv : ∀ i x, p.hold i = some (.own x) → x ∈ p.given
  dl : ∀ x, x ∈ s.deleted ↔ x ∈ p.given ∧ ∀ i, p.hold i ≠ some (.own x)
  nd : s.deleted.Nodup

theorem inv_init (n : Nat) : Inv n init Spec.IStreamHandle.init := by
  have hc : ∀ k, count n init.hs k = 0 := by
    intro k
    refine Nat.eq_zero_of_not_pos fun h => ?_
    obtain ⟨i, _, hi⟩ := count_pos.1 h
    cases hi
  refine ⟨fun _ _ => rfl, fun i => .inl ⟨rfl, rfl⟩, (fun i j k t t' h => by cases h), (fun i j k k' x h => by cases h), ?_,
    fun k _ => hc k, (fun i x h => by cases h), ?_, by simp [init]⟩
  · intro k; rw [hc, if_pos rfl]; rfl
  · intro x; simp [init, Spec.IStreamHandle.init]

variable {n : Nat} {s : St} {p : Sp}

theorem Inv.lt (h : Inv n s p) {i : Nat} (hi : p.hold i ≠ none) : i < n :=
  Nat.lt_of_not_le fun hl => hi (h.hb i hl)

theorem Inv.live (h : Inv n s p) {i : Nat} {t : Target} (hi : p.hold i = some t) : ∃ k, s.hs i = some (handle k t) := by
  rcases h.hm i with ⟨_, h2⟩ | ⟨k, t', h1, h2⟩
  · rw [h2] at hi; cases hi
  · rw [h2] at hi; cases hi; exact ⟨k, h1⟩

theorem Inv.dead (h : Inv n s p) {i : Nat} (hi : p.hold i = none) : s.hs i = none := by
  rcases h.hm i with ⟨h1, _⟩ | ⟨k, t', h1, h2⟩
  · exact h1
  · rw [h2] at hi; cases hi

theorem Inv.held (h : Inv n s p) {i k : Nat} {t : Target} (hi : s.hs i = some (handle k t)) : p.hold i = some t := by
  rcases h.hm i with ⟨h1, _⟩ | ⟨k', t', h1, h2⟩
  · rw [h1] at hi; cases hi
  · rw [h1] at hi
    cases (handle_inj (Option.some.inj hi)).2; exact h2

theorem Inv.pos (h : Inv n s p) {i k : Nat} {t : Target} (hi : s.hs i = some (handle k t)) : 0 < count n s.hs k :=
  count_pos.2 ⟨i, h.lt (by rw [h.held hi]; simp), by rw [hi, uses_handle]; simp⟩

theorem put_same {α : Type} (f : Nat → α) (i : Nat) (v : α) : put f i v i = v := if_pos rfl
theorem put_other {α : Type} (f : Nat → α) {i j : Nat} (v : α) (h : j ≠ i) : put f i v j = f j := if_neg h
theorem put_put {α : Type} (f : Nat → α) (i : Nat) (v w : α) : put (put f i v) i w = put f i w := by
  funext j; unfold put; by_cases h : j = i <;> simp [h]
theorem sput_same (f : Nat → Option Target) (i : Nat) (v : Option Target) : Spec.IStreamHandle.put f i v i = v := if_pos rfl
theorem sput_other (f : Nat → Option Target) {i j : Nat} (v : Option Target) (h : j ≠ i) :
    Spec.IStreamHandle.put f i v j = f j := if_neg h
theorem sput_sput (f : Nat → Option Target) (i : Nat) (v w : Option Target) :
    Spec.IStreamHandle.put (Spec.IStreamHandle.put f i v) i w = Spec.IStreamHandle.put f i w := by
  funext j; unfold Spec.IStreamHandle.put; by_cases h : j = i <;> simp [h]

/-- A handle with a counter of its own. -/
theorem set_inv (h : Inv n s p) {i : Nat} (hi : i < n) (hn : p.hold i = none) (t : Target) (g : List Nat)
    (hg : (∃ x, t = .own x ∧ x ∉ p.given ∧ g = p.given ++ [x]) ∨ ((∀ x, t ≠ .own x) ∧ g = p.given)) :
    ∃ s', set s i (handle 0 t).is (handle 0 t).owner = some s' ∧
      Inv n s' ⟨Spec.IStreamHandle.put p.hold i (some t), g⟩ := by
  have hh : (⟨(handle 0 t).is, some s.next, (handle 0 t).owner⟩ : H) = handle s.next t := by cases t <;> rfl
  have hs0 := h.dead hn
  refine ⟨⟨put s.hs i (some (handle s.next t)), put s.cnt s.next (some 1), s.next + 1, s.deleted⟩, ?_, ?_⟩
  · unfold set
    dsimp only
    rw [hh]
    unfold addRef
    rw [handle_counter]
    dsimp only
    rw [put_same]
    dsimp only
    rw [put_put]; rfl
  have hcnt : ∀ k, count n (put s.hs i (some (handle s.next t))) k = count n s.hs k + (if s.next = k then 1 else 0) := by
    intro k
    have := count_put n s.hs i (some (handle s.next t)) k hi
    rw [hs0, uses_handle] at this
    by_cases hk : s.next = k
    · rw [if_pos hk]; simp [uses, hk] at this; rw [hk]; exact this
    · rw [if_neg hk]; simp [uses, hk] at this; exact this
  have hz := h.nx s.next (Nat.le_refl _)
  have hfresh : ∀ j t', s.hs j ≠ some (handle s.next t') := fun j t' hj => by
    have := h.pos hj; omega
  have hgiven : ∀ x, x ∈ p.given → x ∈ g := by
    rcases hg with ⟨x, _, _, rfl⟩ | ⟨_, rfl⟩
    · intro y hy; simp [hy]
    · exact fun _ h => h
  refine ⟨?_, ?_, ?_, ?_, ?_, ?_, ?_, ?_, h.nd⟩
  · intro j hj
    show Spec.IStreamHandle.put p.hold i (some t) j = none
    rw [sput_other _ _ (by omega)]; exact h.hb j hj
  · intro j
    show (put s.hs i (some (handle s.next t)) j = none ∧ Spec.IStreamHandle.put p.hold i (some t) j = none) ∨ _
    by_cases hj : j = i
    · exact .inr ⟨s.next, t, by rw [hj]; exact put_same _ _ _, by rw [hj]; exact sput_same _ _ _⟩
    · rcases h.hm j with ⟨h1, h2⟩ | ⟨k, t', h1, h2⟩
      · exact .inl ⟨by rw [put_other _ _ hj]; exact h1, by rw [sput_other _ _ hj]; exact h2⟩
      · exact .inr ⟨k, t', (put_other _ _ hj).trans h1, (sput_other _ _ hj).trans h2⟩
  · intro a b k t1 t2 ha hb
    dsimp only at ha hb
    by_cases hai : a = i <;> by_cases hbi : b = i
    · rw [hai, put_same] at ha; rw [hbi, put_same] at hb
      have e1 := (handle_inj (Option.some.inj ha)).2
      have e2 := (handle_inj (Option.some.inj hb)).2
      exact e1.symm.trans e2
    · rw [hai, put_same] at ha; rw [put_other _ _ hbi] at hb
      have e1 := (handle_inj (Option.some.inj ha)).1
      rw [← e1] at hb
      exact absurd hb (hfresh _ _)
    · rw [put_other _ _ hai] at ha; rw [hbi, put_same] at hb
      have e1 := (handle_inj (Option.some.inj hb)).1
      rw [← e1] at ha
      exact absurd ha (hfresh _ _)
    · rw [put_other _ _ hai] at ha; rw [put_other _ _ hbi] at hb
      exact h.sh a b k t1 t2 ha hb
  · have key : ∀ b k' x, t = .own x → s.hs b ≠ some (handle k' (.own x)) := by
      intro b k' x ht hb
      rcases hg with ⟨y, hy, hyg, _⟩ | ⟨hy, _⟩
      · rw [ht] at hy; cases hy
        exact hyg (h.gv b x (h.held hb))
      · exact hy x ht
    intro a b k k' x ha hb
    dsimp only at ha hb
    by_cases hai : a = i <;> by_cases hbi : b = i
    · rw [hai, put_same] at ha; rw [hbi, put_same] at hb
      have e1 := (handle_inj (Option.some.inj ha)).1
      have e2 := (handle_inj (Option.some.inj hb)).1
      exact e1.symm.trans e2
    · rw [hai, put_same] at ha; rw [put_other _ _ hbi] at hb
      exact absurd hb (key b k' x (handle_inj (Option.some.inj ha)).2)
    · rw [put_other _ _ hai] at ha; rw [hbi, put_same] at hb
      exact absurd ha (key a k x (handle_inj (Option.some.inj hb)).2)
    · rw [put_other _ _ hai] at ha; rw [put_other _ _ hbi] at hb
      exact h.ow a b k k' x ha hb
  · intro k
    show put s.cnt s.next (some 1) k = _
    dsimp only
    rw [hcnt]
    by_cases hk : s.next = k
    · rw [if_pos hk, ← hk, put_same, hz, if_neg (by omega)]; rfl
    · rw [if_neg hk, put_other _ _ (fun h => hk h.symm)]; exact h.ct k
  · intro k hk
    dsimp only at hk ⊢
    rw [hcnt, h.nx k (by omega), if_neg (by omega)]
  · intro j x hj
    dsimp only at hj
    by_cases hji : j = i
    · rw [hji, sput_same] at hj
      rcases hg with ⟨y, hy, _, rfl⟩ | ⟨hy, _⟩
      · cases hj; cases hy; simp
      · cases hj; exact absurd rfl (hy x)
    · rw [sput_other _ _ hji] at hj; exact hgiven x (h.gv j x hj)
  · intro x
    show x ∈ s.deleted ↔ x ∈ g ∧ ∀ j, Spec.IStreamHandle.put p.hold i (some t) j ≠ some (.own x)
    rw [h.dl]
    constructor
    · rintro ⟨h1, h2⟩
      refine ⟨hgiven x h1, fun j => ?_⟩
      by_cases hji : j = i
      · rw [hji, sput_same]
        intro ht
        rcases hg with ⟨y, hy, hyg, _⟩ | ⟨hy, _⟩
        · cases ht; cases hy; exact hyg h1
        · cases ht; exact hy x rfl
      · rw [sput_other _ _ hji]; exact h2 j
    · rintro ⟨h1, h2⟩
      have hi' := h2 i
      rw [sput_same] at hi'
      refine ⟨?_, fun j => ?_⟩
      · rcases hg with ⟨y, hy, hyg, rfl⟩ | ⟨hy, rfl⟩
        · rcases List.mem_append.1 h1 with h1 | h1
          · exact h1
          · cases List.mem_singleton.1 h1; rw [hy] at hi'; exact absurd rfl hi'
        · exact h1
      · by_cases hji : j = i
        · rw [hji, hn]; simp
        · have := h2 j; rw [sput_other _ _ hji] at this; exact this

/-- A handle made from another. -/
theorem copy_inv (h : Inv n s p) {i j : Nat} (hi : i < n) (hn : p.hold i = none) {k : Nat} {t : Target}
    (hj : s.hs j = some (handle k t)) :
    ∃ s', addRef { s with hs := put s.hs i (some (handle k t)) } (handle k t) = some s' ∧
      Inv n s' { p with hold := Spec.IStreamHandle.put p.hold i (some t) } := by
  have hs0 := h.dead hn
  have hp := h.pos hj
  have hcnt : ∀ k', count n (put s.hs i (some (handle k t))) k' = count n s.hs k' + (if k = k' then 1 else 0) := by
    intro k'
    have := count_put n s.hs i (some (handle k t)) k' hi
    rw [hs0, uses_handle] at this
    by_cases hk : k = k'
    · rw [if_pos hk]; simp [uses, hk] at this; rw [hk]; exact this
    · rw [if_neg hk]; simp [uses, hk] at this; exact this
  refine ⟨{ s with hs := put s.hs i (some (handle k t)), cnt := put s.cnt k (some ((count n s.hs k : Int) + 1)) }, ?_, ?_⟩
  · unfold addRef
    rw [handle_counter]
    dsimp only
    rw [h.ct k, if_neg (by omega)]
  have hsame : ∀ a k1 t1, put s.hs i (some (handle k t)) a = some (handle k1 t1) →
      ∃ b, s.hs b = some (handle k1 t1) := by
    intro a k1 t1 ha
    by_cases hai : a = i
    · rw [hai, put_same] at ha
      exact ⟨j, hj.trans ha⟩
    · rw [put_other _ _ hai] at ha; exact ⟨a, ha⟩
  refine ⟨?_, ?_, ?_, ?_, ?_, ?_, ?_, ?_, h.nd⟩
  · intro a ha
    show Spec.IStreamHandle.put p.hold i (some t) a = none
    rw [sput_other _ _ (by omega)]; exact h.hb a ha
  · intro a
    show (put s.hs i (some (handle k t)) a = none ∧ Spec.IStreamHandle.put p.hold i (some t) a = none) ∨ _
    by_cases hj : a = i
    · exact .inr ⟨k, t, by rw [hj]; exact put_same _ _ _, by rw [hj]; exact sput_same _ _ _⟩
    · rcases h.hm a with ⟨h1, h2⟩ | ⟨k, t', h1, h2⟩
      · exact .inl ⟨by rw [put_other _ _ hj]; exact h1, by rw [sput_other _ _ hj]; exact h2⟩
      · exact .inr ⟨k, t', (put_other _ _ hj).trans h1, (sput_other _ _ hj).trans h2⟩
  · intro a b k1 t1 t2 ha hb
    obtain ⟨a', ha'⟩ := hsame a k1 t1 ha
    obtain ⟨b', hb'⟩ := hsame b k1 t2 hb
    exact h.sh a' b' k1 t1 t2 ha' hb'
  · intro a b k1 k2 x ha hb
    obtain ⟨a', ha'⟩ := hsame a k1 _ ha
    obtain ⟨b', hb'⟩ := hsame b k2 _ hb
    exact h.ow a' b' k1 k2 x ha' hb'
  · intro k1
    show put s.cnt k (some ((count n s.hs k : Int) + 1)) k1 = _
    dsimp only
    rw [hcnt]
    by_cases hk : k = k1
    · rw [if_pos hk, ← hk, put_same, if_neg (by omega)]; rfl
    · rw [if_neg hk, put_other _ _ (fun h => hk h.symm)]; exact h.ct k1
  · intro k1 hk
    dsimp only at hk ⊢
    have h0 := h.nx k1 hk
    rw [hcnt, h0, if_neg (by rintro rfl; omega)]
  · intro a x ha
    dsimp only at ha
    by_cases hai : a = i
    · rw [hai, sput_same] at ha
      exact h.gv j x ((h.held hj).trans ha)
    · rw [sput_other _ _ hai] at ha; exact h.gv a x ha
  · intro x
    show x ∈ s.deleted ↔ x ∈ p.given ∧ ∀ a, Spec.IStreamHandle.put p.hold i (some t) a ≠ some (.own x)
    rw [h.dl]
    refine and_congr_right fun _ => ⟨fun h2 a => ?_, fun h2 a => ?_⟩
    · by_cases hai : a = i
      · rw [hai, sput_same]
        intro ht
        exact h2 j ((h.held hj).trans ht)
      · rw [sput_other _ _ hai]; exact h2 a
    · by_cases hai : a = i
      · rw [hai, hn]; simp
      · have := h2 a; rw [sput_other _ _ hai] at this; exact this

/-- A handle lets go. -/
theorem remove_inv (h : Inv n s p) {i k : Nat} {t : Target} (hi : s.hs i = some (handle k t)) :
    ∃ s', removeRef s i (handle k t) = some s' ∧ s'.hs = put s.hs i (some null) ∧
      Inv n { s' with hs := put s.hs i none } { p with hold := Spec.IStreamHandle.put p.hold i none } := by
  have hp := h.pos hi
  have hin : i < n := h.lt (by rw [h.held hi]; simp)
  have hcnt : ∀ k', count n (put s.hs i none) k' + (if k = k' then 1 else 0) = count n s.hs k' := by
    intro k'
    have := count_put n s.hs i none k' hin
    rw [hi, uses_handle] at this
    by_cases hk : k = k'
    · rw [if_pos hk]; simp [uses, hk] at this; rw [← hk] at this ⊢; exact this
    · rw [if_neg hk]; simp [uses, hk] at this; exact this
  have hother : ∀ a, a ≠ i → ∀ k1 t1, s.hs a = some (handle k1 t1) → put s.hs i none a = some (handle k1 t1) :=
    fun a ha k1 t1 h1 => (put_other _ _ ha).trans h1
  have hsame : ∀ a k1 t1, put s.hs i none a = some (handle k1 t1) → a ≠ i ∧ s.hs a = some (handle k1 t1) := by
    intro a k1 t1 ha
    by_cases hai : a = i
    · rw [hai, put_same] at ha; cases ha
    · rw [put_other _ _ hai] at ha; exact ⟨hai, ha⟩
  have hrest : ∀ cnt' del', (∀ k', cnt' k' = if count n (put s.hs i none) k' = 0 then none else some (count n (put s.hs i none) k' : Int)) →
      (∀ x, x ∈ del' ↔ x ∈ p.given ∧ ∀ a, Spec.IStreamHandle.put p.hold i none a ≠ some (.own x)) → del'.Nodup →
      Inv n ⟨put s.hs i none, cnt', s.next, del'⟩ { p with hold := Spec.IStreamHandle.put p.hold i none } := by
    intro cnt' del' h1 h2 h3
    refine ⟨?_, ?_, ?_, ?_, h1, ?_, ?_, h2, h3⟩
    · intro a ha
      show Spec.IStreamHandle.put p.hold i none a = none
      rw [sput_other _ _ (by omega)]; exact h.hb a ha
    · intro a
      show (put s.hs i none a = none ∧ Spec.IStreamHandle.put p.hold i none a = none) ∨ _
      by_cases hj : a = i
      · exact .inl ⟨by rw [hj]; exact put_same _ _ _, by rw [hj]; exact sput_same _ _ _⟩
      · rcases h.hm a with ⟨h1, h2⟩ | ⟨k, t', h1, h2⟩
        · exact .inl ⟨by rw [put_other _ _ hj]; exact h1, by rw [sput_other _ _ hj]; exact h2⟩
        · exact .inr ⟨k, t', (put_other _ _ hj).trans h1, (sput_other _ _ hj).trans h2⟩
    · intro a b k1 t1 t2 ha hb
      exact h.sh a b k1 t1 t2 (hsame a k1 t1 ha).2 (hsame b k1 t2 hb).2
    · intro a b k1 k2 x ha hb
      exact h.ow a b k1 k2 x (hsame a k1 _ ha).2 (hsame b k2 _ hb).2
    · intro k1 hk
      have := h.nx k1 hk
      have := hcnt k1
      show count n (put s.hs i none) k1 = 0
      omega
    · intro a x ha
      dsimp only at ha
      by_cases hai : a = i
      · rw [hai, sput_same] at ha; cases ha
      · rw [sput_other _ _ hai] at ha; exact h.gv a x ha
  have hheld := h.held hi
  -- what does not change for streams this handle does not own
  have hne : ∀ x, t ≠ .own x → (x ∈ s.deleted ↔ x ∈ p.given ∧ ∀ a, Spec.IStreamHandle.put p.hold i none a ≠ some (.own x)) := by
    intro x hx
    rw [h.dl]
    refine and_congr_right fun _ => ⟨fun h2 a => ?_, fun h2 a => ?_⟩
    · by_cases hai : a = i
      · rw [hai, sput_same]; simp
      · rw [sput_other _ _ hai]; exact h2 a
    · by_cases hai : a = i
      · rw [hai, hheld]; intro hc; cases hc; exact hx rfl
      · have := h2 a; rw [sput_other _ _ hai] at this; exact this
  have hk := hcnt k
  rw [if_pos rfl] at hk
  unfold removeRef
  rw [handle_counter]
  dsimp only
  rw [h.ct k, if_neg (by omega)]
  dsimp only
  by_cases h1 : (count n s.hs k : Int) - 1 = 0
  · rw [if_pos h1]
    have hone : count n s.hs k = 1 := by omega
    have hcnt' : ∀ k', put s.cnt k none k' = if count n (put s.hs i none) k' = 0 then none else some (count n (put s.hs i none) k' : Int) := by
      intro k'
      by_cases hkk : k = k'
      · rw [← hkk, put_same, if_pos (by omega)]
      · have := hcnt k'
        rw [if_neg hkk] at this
        rw [put_other _ _ (fun h => hkk h.symm), h.ct k']
        rw [show count n (put s.hs i none) k' = count n s.hs k' by omega]
    by_cases ht : ∃ x, t = .own x
    · obtain ⟨x, rfl⟩ := ht
      have hxd : x ∉ s.deleted := fun hx => ((h.dl x).1 hx).2 i hheld
      have hd : deleteStream s (some x) = some { s with deleted := s.deleted ++ [x] } := by
        unfold deleteStream; dsimp only; rw [if_neg hxd]
      show ∃ s', (match (if true = true then deleteStream s (some x) else some s) with
        | none => none
        | some s => some { s with cnt := put s.cnt k none, hs := put s.hs i (some null) }) = some s' ∧ _
      rw [if_pos rfl, hd]
      refine ⟨_, rfl, rfl, hrest _ _ hcnt' ?_ ?_⟩
      · intro y
        by_cases hy : y = x
        · rw [hy]
          refine ⟨fun _ => ⟨h.gv i x hheld, fun a => ?_⟩, fun _ => by simp⟩
          by_cases hai : a = i
          · rw [hai, sput_same]; simp
          · rw [sput_other _ _ hai]
            intro hc
            obtain ⟨k2, hk2⟩ := h.live hc
            have e := h.ow i a k k2 x hi hk2
            rw [← e] at hk2
            have : 0 < count n (put s.hs i none) k :=
              count_pos.2 ⟨a, h.lt (by rw [hc]; simp), by rw [hother a hai _ _ hk2, uses_handle]; simp⟩
            omega
        · rw [← hne y (fun hc => hy (by cases hc; rfl))]
          simp [hy]
      · rw [List.nodup_append]
        refine ⟨h.nd, by simp, ?_⟩
        intro a ha b hb
        cases List.mem_singleton.1 hb
        rintro rfl
        exact hxd ha
    · have hown : (handle k t).owner = false := by
        cases t with
        | nothing => rfl
        | lent x => rfl
        | own x => exact absurd ⟨x, rfl⟩ ht
      rw [hown, if_neg (by decide)]
      exact ⟨_, rfl, rfl, hrest _ _ hcnt' (fun x => hne x fun hc => ht ⟨x, hc⟩) h.nd⟩
  · rw [if_neg h1]
    refine ⟨_, rfl, rfl, hrest _ _ ?_ ?_ h.nd⟩
    · intro k'
      show put s.cnt k (some ((count n s.hs k : Int) - 1)) k' = _
      by_cases hkk : k = k'
      · rw [← hkk, put_same, if_neg (by omega)]
        congr 1; omega
      · have := hcnt k'
        rw [if_neg hkk] at this
        rw [put_other _ _ (fun h => hkk h.symm), h.ct k']
        rw [show count n (put s.hs i none) k' = count n s.hs k' by omega]
    · intro x
      by_cases hx : t = .own x
      · have hpos : 0 < count n (put s.hs i none) k := by omega
        obtain ⟨a, han, ha⟩ := count_pos.1 hpos
        have : ∃ k1 t1, put s.hs i none a = some (handle k1 t1) := by
          by_cases hai : a = i
          · rw [hai, put_same] at ha; cases ha
          · rw [put_other _ _ hai] at ha ⊢
            rcases h.hm a with ⟨h1, _⟩ | ⟨k1, t1, h1, _⟩
            · rw [h1] at ha; cases ha
            · exact ⟨k1, t1, h1⟩
        obtain ⟨k1, t1, hkt⟩ := this
        rw [hkt, uses_handle] at ha
        have hk1 : k1 = k := by simpa using ha
        obtain ⟨hai, hkt⟩ := hsame a k1 t1 hkt
        rw [hk1] at hkt
        have ht1 := h.sh i a k t t1 hi hkt
        constructor
        · intro hd
          exact absurd hheld (by rw [hx]; exact ((h.dl x).1 hd).2 i)
        · rintro ⟨_, h2⟩
          have h3 := h2 a
          rw [sput_other _ _ hai, h.held hkt, ← ht1, hx] at h3
          exact absurd rfl h3
      · exact hne x hx

/-! ### Calls -/

theorem addRef_eq (h : Inv n s p) {j k : Nat} {t : Target} (hj : s.hs j = some (handle k t)) :
    addRef s (handle k t) = some { s with cnt := put s.cnt k (some ((count n s.hs k : Int) + 1)) } := by
  have hp := h.pos hj
  unfold addRef
  rw [handle_counter]
  dsimp only
  rw [h.ct k, if_neg (by omega)]

theorem set_hs (s : St) (f : Nat → Option H) (i : Nat) (a : Option Nat) (b : Bool)
    (h : ∀ v, put s.hs i v = put f i v) : set s i a b = set { s with hs := f } i a b := by
  unfold set
  dsimp only
  rw [h]

theorem make_inv (h : Inv n s p) {i : Nat} (hi : i < n) (hn : p.hold i = none) (t : Target) (g : List Nat)
    (hg : (∃ x, t = .own x ∧ x ∉ p.given ∧ g = p.given ++ [x]) ∨ ((∀ x, t ≠ .own x) ∧ g = p.given)) :
    ∃ s', make s i (handle 0 t).is (handle 0 t).owner = some s' ∧
      Inv n s' ⟨Spec.IStreamHandle.put p.hold i (some t), g⟩ := by
  unfold make
  rw [h.dead hn]
  exact set_inv h hi hn t g hg

theorem renew_inv (h : Inv n s p) {i : Nat} (hn : p.hold i ≠ none) (t : Target) (g : List Nat)
    (hg : (∃ x, t = .own x ∧ x ∉ p.given ∧ g = p.given ++ [x]) ∨ ((∀ x, t ≠ .own x) ∧ g = p.given)) :
    ∃ s', renew s i (handle 0 t).is (handle 0 t).owner = some s' ∧
      Inv n s' ⟨Spec.IStreamHandle.put p.hold i (some t), g⟩ := by
  obtain ⟨t0, ht0⟩ := Option.ne_none_iff_exists'.1 hn
  obtain ⟨k, hk⟩ := h.live ht0
  obtain ⟨s1, h1, h2, h3⟩ := remove_inv h hk
  unfold renew
  rw [hk]
  dsimp only
  rw [h1]
  dsimp only
  rw [set_hs s1 (put s.hs i none) i _ _ (fun v => by rw [h2, put_put, put_put])]
  obtain ⟨s2, h4, h5⟩ := set_inv h3 (h.lt hn) (sput_same _ _ _) t g hg
  refine ⟨s2, h4, ?_⟩
  dsimp only at h5
  rw [sput_sput] at h5
  exact h5

theorem removeRef_comm (s : St) (i k k' : Nat) (t : Target) (v : Option Int) (hk : k ≠ k') :
    removeRef { s with cnt := put s.cnt k' v } i (handle k t) =
      (removeRef s i (handle k t)).map fun b => { b with cnt := put b.cnt k' v } := by
  have hcomm : ∀ w : Option Int, put (put s.cnt k' v) k w = put (put s.cnt k w) k' v := by
    intro w
    funext m
    unfold put
    by_cases h1 : m = k
    · rw [if_pos h1, if_neg (fun h2 => hk (h1.symm.trans h2)), if_pos h1]
    · rw [if_neg h1, if_neg h1]
  unfold removeRef
  rw [handle_counter]
  dsimp only
  rw [put_other _ _ hk]
  cases s.cnt k with
  | none => rfl
  | some c =>
    dsimp only
    by_cases h1 : c - 1 = 0
    · rw [if_pos h1, if_pos h1]
      by_cases ho : (handle k t).owner = true
      · rw [if_pos ho, if_pos ho]
        unfold deleteStream
        cases (handle k t).is with
        | none => dsimp only; rw [hcomm]; rfl
        | some x =>
          dsimp only
          by_cases hx : x ∈ s.deleted
          · rw [if_pos hx, if_pos hx]; rfl
          · rw [if_neg hx, if_neg hx]; dsimp only; rw [hcomm]; rfl
      · rw [if_neg ho, if_neg ho]; dsimp only; rw [hcomm]; rfl
    · rw [if_neg h1, if_neg h1, hcomm]; rfl

theorem assign_inv (h : Inv n s p) {i j : Nat} (hij : i ≠ j) (hi : p.hold i ≠ none) (hj : p.hold j ≠ none) :
    ∃ s', step s (.assign i j) = some s' ∧ Inv n s' { p with hold := Spec.IStreamHandle.put p.hold i (p.hold j) } := by
  obtain ⟨t, ht⟩ := Option.ne_none_iff_exists'.1 hi
  obtain ⟨t', ht'⟩ := Option.ne_none_iff_exists'.1 hj
  obtain ⟨k, hk⟩ := h.live ht
  obtain ⟨k', hk'⟩ := h.live ht'
  obtain ⟨s1, h1, h2, h3⟩ := remove_inv h hk
  have hj1 : (put s.hs i none) j = some (handle k' t') := (put_other _ _ (fun e => hij e.symm)).trans hk'
  obtain ⟨s2, h4, h5⟩ := copy_inv h3 (h.lt hi) (sput_same _ _ _) (j := j) hj1
  refine ⟨s2, ?_, ?_⟩
  · unfold step
    dsimp only
    rw [hk, hk']
    dsimp only
    rw [addRef_eq h hk']
    dsimp only
    have hp := h.pos hk
    by_cases hkk : k = k'
    · subst hkk
      have htwo : 2 ≤ count n s.hs k := by
        have e := count_put n s.hs i none k (h.lt hi)
        rw [hk, uses_handle] at e
        have : 0 < count n (put s.hs i none) k := count_pos.2 ⟨j, h.lt hj, by rw [hj1, uses_handle]; simp⟩
        simp [uses] at e
        omega
      have hr : removeRef { s with cnt := put s.cnt k (some ((count n s.hs k : Int) + 1)) } i (handle k t) =
          some { s with cnt := put s.cnt k (some ((count n s.hs k : Int))), hs := put s.hs i (some null) } := by
        unfold removeRef
        rw [handle_counter]
        dsimp only
        rw [put_same]
        dsimp only
        rw [if_neg (by omega), put_put, show ((count n s.hs k : Int) + 1 - 1) = count n s.hs k by omega]
      have hr1 : removeRef s i (handle k t) =
          some { s with cnt := put s.cnt k (some ((count n s.hs k : Int) - 1)), hs := put s.hs i (some null) } := by
        unfold removeRef
        rw [handle_counter]
        dsimp only
        rw [h.ct k, if_neg (by omega)]
        dsimp only
        rw [if_neg (by omega)]
      rw [hr1] at h1
      cases h1
      rw [hr]
      dsimp only
      rw [put_other _ _ (fun e => hij e.symm), hk']
      dsimp only
      rw [← h4]
      unfold addRef
      rw [handle_counter]
      dsimp only
      rw [put_same]
      dsimp only
      rw [put_put, put_put, put_put, show ((count n s.hs k : Int) - 1 + 1) = count n s.hs k by omega]
    · rw [removeRef_comm s i k k' t _ hkk, h1]
      dsimp only [Option.map_some]
      rw [h2, put_other _ _ (fun e => hij e.symm), hk']
      dsimp only
      rw [← h4]
      unfold addRef
      rw [handle_counter]
      dsimp only
      have hc : s1.cnt k' = some (count n s.hs k' : Int) := by
        have hp' := h.pos hk'
        have e := h3.ct k'
        dsimp only at e
        have e2 := count_put n s.hs i none k' (h.lt hi)
        rw [hk, uses_handle] at e2
        simp [uses, hkk] at e2
        rw [e, e2, if_neg (by omega)]
      rw [hc]
      dsimp only
      rw [put_put, put_put]
  · dsimp only at h5
    rw [sput_sput, ← ht'] at h5
    exact h5

theorem step_inv (h : Inv n s p) (op : Op) (hl : Legal n p op) (hs : NotSelf op) :
    ∃ s', step s op = some s' ∧ Inv n s' (Spec.IStreamHandle.step p op) := by
  cases op with
  | construct i => exact make_inv h hl.1 hl.2 .nothing _ (.inr ⟨fun x => by simp, rfl⟩)
  | constructRef i x => exact make_inv h hl.1 hl.2 (.lent x) _ (.inr ⟨fun x => by simp, rfl⟩)
  | constructOwned i x => exact make_inv h hl.1 hl.2.1 (.own x) _ (.inl ⟨x, rfl, hl.2.2, rfl⟩)
  | copy i j =>
    obtain ⟨t, ht⟩ := Option.ne_none_iff_exists'.1 hl.2.2
    obtain ⟨k, hk⟩ := h.live ht
    obtain ⟨s', h1, h2⟩ := copy_inv h hl.1 hl.2.1 hk
    refine ⟨s', ?_, ?_⟩
    · unfold step; dsimp only; rw [h.dead hl.2.1, hk]; exact h1
    · show Inv n s' { p with hold := Spec.IStreamHandle.put p.hold i (p.hold j) }
      rw [ht]; exact h2
  | destroy i =>
    obtain ⟨t, ht⟩ := Option.ne_none_iff_exists'.1 hl
    obtain ⟨k, hk⟩ := h.live ht
    obtain ⟨s1, h1, h2, h3⟩ := remove_inv h hk
    refine ⟨{ s1 with hs := put s.hs i none }, ?_, h3⟩
    unfold step
    dsimp only
    rw [hk]
    dsimp only
    rw [h1]
    dsimp only
    rw [h2, put_put]
  | assign i j => exact assign_inv h hs hl.1 hl.2
  | assignRef i x => exact renew_inv h hl (.lent x) _ (.inr ⟨fun x => by simp, rfl⟩)
  | assignOwned i x => exact renew_inv h hl.1 (.own x) _ (.inl ⟨x, rfl, hl.2, rfl⟩)
  | release i => exact renew_inv h hl .nothing _ (.inr ⟨fun x => by simp, rfl⟩)

theorem run_inv (ops : List Op) (h : Inv n s p) (hl : AllLegal n p ops) (hs : ∀ op ∈ ops, NotSelf op) :
    ∃ s', run s ops = some s' ∧ Inv n s' (Spec.IStreamHandle.run p ops) := by
  induction ops generalizing s p with
  | nil => exact ⟨s, rfl, h⟩
  | cons op ops ih =>
    obtain ⟨s1, h1, h2⟩ := step_inv h op hl.1 (hs op (by simp))
    obtain ⟨s2, h3, h4⟩ := ih h2 hl.2 fun o ho => hs o (by simp [ho])
    refine ⟨s2, ?_, h4⟩
    rw [run, h1]; exact h3

theorem run_append (s : St) (a b : List Op) : run s (a ++ b) = match run s a with
    | none => none
    | some s => run s b := by
  induction a generalizing s with
  | nil => rfl
  | cons op a ih =>
    rw [List.cons_append, run, run]
    cases step s op with
    | none => rfl
    | some s => exact ih s

end Verif.IStreamHandle
