import Verif.Spec.XsltOutput
set_option autoImplicit false
set_option linter.unusedSimpArgs false
set_option linter.unusedVariables false
/-! Lemmas about the output: escaping and buffering. -/
namespace Verif.Xslt
open Verif.Spec.XsltOutput Verif.XPath

theorem find_two_none (a b : Char) (s : Str) (h : find s [a, b] = none) : spaceBetween a b s = s := by
  induction s with
  | nil => rfl
  | cons x s ih =>
    rw [find] at h
    cases s with
    | nil => rfl
    | cons y rest =>
      by_cases hp : [a, b].isPrefixOf (x :: y :: rest) = true
      · rw [if_pos hp] at h; cases h
      · rw [if_neg hp] at h
        rw [Option.map_eq_none_iff] at h
        have hn : ¬ (x = a ∧ y = b) := by
          rintro ⟨rfl, rfl⟩; exact hp (by simp [List.isPrefixOf])
        rw [spaceBetween, if_neg hn, ih h]

theorem find_two_some (a b : Char) (s : Str) (k : Nat) (h : find s [a, b] = some k) :
    ∃ post, s = s.take k ++ a :: b :: post ∧ k = (s.take k).length ∧
      spaceBetween a b s = s.take k ++ a :: ' ' :: spaceBetween a b (b :: post) := by
  induction s generalizing k with
  | nil => simp [find] at h
  | cons x s ih =>
    rw [find] at h
    by_cases hp : [a, b].isPrefixOf (x :: s) = true
    · rw [if_pos hp] at h
      cases h
      cases s with
      | nil => simp [List.isPrefixOf] at hp
      | cons y rest =>
        have : x = a ∧ y = b := by
          simp [List.isPrefixOf] at hp; exact ⟨hp.1.symm, hp.2.symm⟩
        obtain ⟨rfl, rfl⟩ := this
        exact ⟨rest, by simp, by simp, by simp [spaceBetween]⟩
    · rw [if_neg hp] at h
      rw [Option.map_eq_some_iff] at h
      obtain ⟨j, hj, rfl⟩ := h
      obtain ⟨post, h1, h2, h3⟩ := ih j hj
      refine ⟨post, ?_, ?_, ?_⟩
      · rw [List.take_succ_cons, List.cons_append, ← h1]
      · rw [List.take_succ_cons, List.length_cons, ← h2]
      · cases s with
        | nil => simp [find] at hj
        | cons y rest =>
          have hn : ¬ (x = a ∧ y = b) := by
            rintro ⟨rfl, rfl⟩; exact hp (by simp [List.isPrefixOf])
          rw [spaceBetween, if_neg hn, h3, List.take_succ_cons, List.cons_append]

theorem find_skip (a b : Char) (hb : b ≠ ' ') (ha : a ≠ ' ') (s : Str) :
    find (a :: ' ' :: s) [a, b] = (find s [a, b]).map (· + 2) := by
  rw [find, if_neg (by simp [List.isPrefixOf, hb]), find, if_neg (by simp [List.isPrefixOf, ha])]
  cases find s [a, b] <;> simp

theorem escapeLoop_eq (a b : Char) (hb : b ≠ ' ') (ha : a ≠ ' ') (n : Nat) (pre post : Str)
    (hn : post.length < n) :
    escapeLoop [a, b] [a, ' ', b] n (pre ++ a :: b :: post) pre.length =
      some (pre ++ a :: ' ' :: spaceBetween a b (b :: post)) := by
  induction n generalizing pre post with
  | zero => omega
  | succ n ih =>
    rw [escapeLoop]
    have e : (pre ++ a :: b :: post).take pre.length ++ [a, ' ', b] ++
        (pre ++ a :: b :: post).drop (pre.length + [a, b].length) = pre ++ a :: ' ' :: b :: post := by
      simp
    simp only [e]
    have e2 : (pre ++ a :: ' ' :: b :: post).drop pre.length = a :: ' ' :: b :: post := by simp
    rw [e2, find_skip a b hb ha]
    cases hf : find (b :: post) [a, b] with
    | none => simp [find_two_none a b _ hf]
    | some k =>
      obtain ⟨post', h1, h2, h3⟩ := find_two_some a b _ k hf
      simp only [Option.map_some]
      have hl : (b :: post).length = k + (2 + post'.length) := by
        have := congrArg List.length h1
        rw [List.length_append, ← h2] at this
        simp only [List.length_cons] at this ⊢
        omega
      rw [List.length_cons] at hl
      have e3 : pre ++ a :: ' ' :: b :: post = (pre ++ a :: ' ' :: (b :: post).take k) ++ a :: b :: post' := by
        conv => lhs; rw [h1]
        simp
      have e4 : pre.length + (k + 2) = (pre ++ a :: ' ' :: (b :: post).take k).length := by
        rw [List.length_append, List.length_cons, List.length_cons, ← h2]
      rw [e3, e4, ih _ _ (by omega), h3]
      simp

theorem escape_eq (a b : Char) (hb : b ≠ ' ') (ha : a ≠ ' ') (s : Str) :
    escape s [a, b] [a, ' ', b] = some (spaceBetween a b s) := by
  unfold escape
  cases hf : find s [a, b] with
  | none => simp [find_two_none a b s hf]
  | some k =>
    obtain ⟨post, h1, h2, h3⟩ := find_two_some a b s k hf
    simp only []
    have hl := congrArg List.length h1
    rw [List.length_append, List.length_cons, List.length_cons] at hl
    rw [h3]
    have := escapeLoop_eq a b hb ha s.length (s.take k) post (by omega)
    rw [← h1, ← h2] at this
    exact this

theorem spaceBetween_getLast (a b : Char) (s : Str) : (spaceBetween a b s).getLast? = s.getLast? := by
  fun_induction spaceBetween a b s with
  | case1 x y rest h ih =>
    rw [List.getLast?_cons, List.getLast?_cons, ih, List.getLast?_cons_cons, List.getLast?_cons]
    simp
  | case2 x y rest h ih =>
    rw [List.getLast?_cons, ih, List.getLast?_cons_cons, List.getLast?_cons]
    simp
  | case3 s h => rfl

theorem commentText_eq (s : Str) : commentText s = some (commentOf s) := by
  unfold commentText commentOf
  rw [escape_eq '-' '-' (by decide) (by decide)]
  simp only [Option.map_some, spaceBetween_getLast]

theorem piData_eq (s : Str) : piData s = some (piOf s) := by
  unfold piData piOf
  exact escape_eq '?' '>' (by decide) (by decide) s

/-! What the escaped text looks like. -/

theorem spaceBetween_apart (a b : Char) (hb : b ≠ ' ') (ha : a ≠ ' ') (s : Str) :
    ¬ ∃ x y, spaceBetween a b s = x ++ a :: b :: y := by
  have key : ∀ x y, spaceBetween a b s ≠ x ++ a :: b :: y := by
    fun_induction spaceBetween a b s with
    | case1 u v rest h ih =>
      intro x y hx
      obtain ⟨rfl, rfl⟩ := h
      match x, hx with
      | [], hx => simp at hx; exact hb hx.1.symm
      | [c], hx => simp at hx; exact ha hx.2.1.symm
      | c :: d :: x', hx => simp at hx; exact ih x' y hx.2.2
    | case2 u v rest h ih =>
      intro x y hx
      match x, hx with
      | [], hx =>
        simp only [List.nil_append, List.cons.injEq] at hx
        obtain ⟨rfl, hx⟩ := hx
        have h0 : (spaceBetween u b (v :: rest)).head? = some v := by
          cases rest with
          | nil => rfl
          | cons w r => rw [spaceBetween]; split <;> rfl
        rw [hx] at h0
        simp at h0
        exact h ⟨rfl, h0.symm⟩
      | c :: x', hx => simp at hx; exact ih x' y hx.2
    | case3 s h =>
      intro x y hx
      match s, h with
      | [], _ => simp at hx
      | [c], _ =>
        have := congrArg List.length hx
        simp at this
        omega
      | c :: d :: r, h => exact absurd rfl (h c d r)
  rintro ⟨x, y, h⟩
  exact key x y h

/-! Buffering: inside an attribute, comment or processing instruction. -/

mutual
theorem bufferedI (i : Instr) (hp : Plain i) (s : Out) (n : Nat) (hs : s.buffering = n + 1) :
    exec s i = { s with buffer := if n = 0 then s.buffer ++ ownText (.cons i .nil) else s.buffer } := by
  match i, hp with
  | .text t, _ =>
    rw [exec, characters, if_pos (by omega)]
    by_cases hn : n = 0
    · subst hn; simp [hs, ownText]
    · rw [if_neg (by omega)]; simp [hn]
  | .element p l u b, _ =>
    have : startElement s p l u = (false, s) := by rw [startElement, if_pos (by omega)]
    rw [exec, this]
    cases n <;> simp [ownText]
  | .attr p l u b, hp =>
    rw [Plain] at hp
    have : startAttribute s p l u = { s with buffering := s.buffering + 1 } := by
      rw [startAttribute, if_pos (by omega)]
    rw [exec, this, buffered b hp _ (n + 1) (by simp [hs])]
    simp only [Nat.add_eq_zero_iff, Nat.succ_ne_self, and_false, if_false]
    rw [endAttribute, popBuffering]
    have h1 : decide (s.buffering + 1 - 1 ≠ 0) = true := by simp [hs]
    simp only [h1, if_true]
    cases n <;> simp [ownText]
  | .comment b, hp =>
    rw [Plain] at hp
    have : startComment s = { s with buffering := s.buffering + 1 } := by
      rw [startComment, if_pos (by omega)]
    rw [exec, this, buffered b hp _ (n + 1) (by simp [hs])]
    simp only [Nat.add_eq_zero_iff, Nat.succ_ne_self, and_false, if_false]
    rw [endComment, popBuffering]
    have h1 : decide (s.buffering + 1 - 1 ≠ 0) = true := by simp [hs]
    simp only [h1, if_true]
    cases n <;> simp [ownText]
  | .pi t b, hp =>
    rw [Plain] at hp
    have : startPI s t = { s with buffering := s.buffering + 1 } := by
      rw [startPI, if_pos (by omega)]
    rw [exec, this, buffered b hp _ (n + 1) (by simp [hs])]
    simp only [Nat.add_eq_zero_iff, Nat.succ_ne_self, and_false, if_false]
    rw [endPI, popBuffering]
    have h1 : decide (s.buffering + 1 - 1 ≠ 0) = true := by simp [hs]
    simp only [h1, if_true]
    cases n <;> simp [ownText]
theorem buffered (is : Instrs) (hp : Plains is) (s : Out) (n : Nat) (hs : s.buffering = n + 1) :
    execs s is = { s with buffer := if n = 0 then s.buffer ++ ownText is else s.buffer } := by
  match is, hp with
  | .nil, _ => rw [execs]; cases n <;> simp [ownText]
  | .cons i rest, hp =>
    rw [Plains] at hp
    rw [execs, bufferedI i hp.1 s n hs, buffered rest hp.2 _ n (by simp [hs])]
    by_cases hn : n = 0
    · subst hn
      simp only [if_true, List.append_assoc]
      cases i <;> simp [ownText]
    · simp [hn]
end

end Verif.Xslt
