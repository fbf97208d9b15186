import Verif.Spec.InputSource
set_option autoImplicit false
set_option linter.unusedSimpArgs false
set_option linter.unusedVariables false
namespace Verif.InputSource
open Verif.Spec.InputSource hiding Str
open Verif.Uri (Out)

section
variable {σ : Type}

/-- The newest entry for a key is the one that counts. -/
theorem lookup_filter (m k : Str) (reg : Registry σ) :
    (reg.filter fun e => decide (e.1 ≠ m)).lookup k = if k = m then none else reg.lookup k := by
  induction reg with
  | nil => simp
  | cons e reg ih =>
    by_cases h : e.1 = m
    · rw [List.filter_cons_of_neg (by simp [h]), ih, List.lookup_cons]
      by_cases h' : k = m
      · rw [if_pos h', if_pos h']
      · rw [if_neg h', if_neg h', show (k == e.1) = false by rw [h]; simpa using h']
    · rw [List.filter_cons_of_pos (by simp [h]), List.lookup_cons, List.lookup_cons, ih]
      by_cases h' : k = e.1
      · have hk : ¬ k = m := fun c => h (h'.symm.trans c)
        rw [show (k == e.1) = true by simpa using h']
        simp only [if_neg hk]
      · rw [show (k == e.1) = false by simpa using h']

theorem find_step (k : Str) (reg : Registry σ) (op : Op σ) :
    findResolver k (reg.step op) = match op with
      | .register m r => if k = m then some r else findResolver k reg
      | .unregister m => if k = m then none else findResolver k reg := by
  cases op with
  | register m r =>
    show ((m, r) :: reg.filter fun e => decide (e.1 ≠ m)).lookup k = _
    rw [List.lookup_cons, lookup_filter]
    by_cases h : k = m
    · rw [show (k == m) = true by simpa using h]; simp [h]
    · rw [show (k == m) = false by simpa using h]; simp only [h, if_false]; rfl
  | unregister m =>
    show (reg.filter fun e => decide (e.1 ≠ m)).lookup k = _
    rw [lookup_filter]; rfl

theorem find_history (k : Str) : ∀ (ops : List (Op σ)) (reg : Registry σ),
    findResolver k (ops.foldl Registry.step reg) =
      match lastFor k ops with
      | some r => some r
      | none => if lastFor.mentions k ops then none else findResolver k reg := by
  intro ops
  induction ops with
  | nil => intro reg; rfl
  | cons op ops ih =>
    intro reg
    rw [List.foldl_cons, ih, find_step]
    cases op with
    | register m r =>
      rw [lastFor, lastFor.mentions]
      cases lastFor k ops with
      | some r' => rfl
      | none =>
        dsimp only
        by_cases hm : lastFor.mentions k ops = true
        · simp [hm]
        · by_cases e : m = k
          · simp [hm, e]
          · have : ¬ k = m := fun h => e h.symm
            simp [hm, e, this]
    | unregister m =>
      rw [lastFor, lastFor.mentions]
      cases lastFor k ops with
      | some r' => rfl
      | none =>
        dsimp only
        by_cases hm : lastFor.mentions k ops = true
        · simp [hm]
        · by_cases e : m = k
          · simp [hm, e]
          · have : ¬ k = m := fun h => e h.symm
            simp [hm, e, this]
end

/-! Addresses. -/

theorem find_none {c : Char} {s : Str} (h : c ∉ s) : Uri.find [c] s = none := by
  induction s with
  | nil => rfl
  | cons x s ih =>
    rw [List.mem_cons, not_or] at h
    rw [Uri.find, if_neg (by simp [List.isPrefixOf, h.1]), ih h.2]
    rfl

theorem find_some {c : Char} {s t : Str} (h : c ∉ s) : Uri.find [c] (s ++ c :: t) = some s.length := by
  induction s with
  | nil => rw [List.nil_append, Uri.find, if_pos (by simp [List.isPrefixOf])]; rfl
  | cons x s ih =>
    rw [List.mem_cons, not_or] at h
    rw [List.cons_append, Uri.find, if_neg (by simp [List.isPrefixOf, h.1]), ih h.2]
    rfl

theorem takeWhile_slash {h p : Str} (hs : '/' ∉ h) :
    (h ++ '/' :: p).takeWhile (· ≠ '/') = h ∧ (h ++ '/' :: p).dropWhile (· ≠ '/') = '/' :: p := by
  induction h with
  | nil => simp
  | cons x h ih =>
    rw [List.mem_cons, not_or] at hs
    have : x ≠ '/' := fun e => hs.1 e.symm
    simpa [this] using ih hs.2

theorem takeWhile_all {h : Str} (hs : ':' ∉ h) : h.takeWhile (· ≠ ':') = h ∧ h.dropWhile (· ≠ ':') = [] := by
  induction h with
  | nil => simp
  | cons x h ih =>
    rw [List.mem_cons, not_or] at hs
    have : x ≠ ':' := fun e => hs.1 e.symm
    simpa [this] using ih hs.2

theorem parse_address {a : Address} (h : a.Plain) :
    ∃ u, Uri.parse a.text = .ok u ∧ u.scheme = a.scheme ∧ u.host = a.host ∧ u.path = a.path ∧ u.port = [] := by
  obtain ⟨⟨s1, s2⟩, ⟨h1, h2⟩, p, hp⟩ := h
  have e : a.text = a.scheme ++ ':' :: ('/' :: '/' :: (a.host ++ '/' :: p)) := by
    rw [Address.text, hp]
    simp
  have ep : Uri.parseUri a.text = .ok ⟨a.scheme, a.host, [], a.path, false⟩ := by
    rw [Uri.parseUri, e, find_some s1]
    dsimp only
    rw [if_neg (by omega)]
    rw [show (a.scheme ++ ':' :: ('/' :: '/' :: (a.host ++ '/' :: p))).take a.scheme.length = a.scheme by simp,
      show (a.scheme ++ ':' :: ('/' :: '/' :: (a.host ++ '/' :: p))).drop (a.scheme.length + 1) =
        '/' :: '/' :: (a.host ++ '/' :: p) by
        rw [← List.drop_drop]; simp]
    rw [Uri.parseRest, Uri.parseAuthority]
    simp only [(takeWhile_slash h2).1, (takeWhile_slash h2).2, (takeWhile_all h1).1, (takeWhile_all h1).2]
    simp [hp]
  rw [Uri.parse, ep]
  exact ⟨_, rfl, rfl, rfl, rfl, rfl⟩

theorem parse_name {n : Str} (h : ':' ∉ n) :
    ∃ u, Uri.parse n = .ok u ∧ u.scheme = [] ∧ u.path = Uri.fixSlashes n := by
  rw [Uri.parse, Uri.parseUri, find_none h]
  exact ⟨_, rfl, rfl, rfl⟩

theorem fix_id {n : Str} (h : '\\' ∉ n) : Uri.fixSlashes n = n := by
  unfold Uri.fixSlashes
  induction n with
  | nil => rfl
  | cons x n ih =>
    rw [List.mem_cons, not_or] at h
    rw [List.map_cons, ih h.2, if_neg (fun e => h.1 e.symm)]

/-! Responses. -/

theorem takeWhile_line {l r : Str} (h : '\n' ∉ l) :
    (l ++ '\n' :: r).takeWhile (· ≠ '\n') = l ∧ (l ++ '\n' :: r).dropWhile (· ≠ '\n') = '\n' :: r := by
  induction l with
  | nil => simp
  | cons x l ih =>
    rw [List.mem_cons, not_or] at h
    have : x ≠ '\n' := fun e => h.1 e.symm
    simpa [this] using ih h.2

theorem takeWhile_last {l : Str} (h : '\n' ∉ l) :
    l.takeWhile (· ≠ '\n') = l ∧ l.dropWhile (· ≠ '\n') = [] := by
  induction l with
  | nil => simp
  | cons x l ih =>
    rw [List.mem_cons, not_or] at h
    have : x ≠ '\n' := fun e => h.1 e.symm
    simpa [this] using ih h.2

theorem getline_line {l r : Str} (h : '\n' ∉ l) (hl : l.length ≤ 1023) :
    getline (l ++ '\n' :: r) = (l, some r) := by
  rw [getline]
  simp only [(takeWhile_line h).1, (takeWhile_line h).2, if_pos hl]

theorem getline_last {l : Str} (h : '\n' ∉ l) (hl : l.length ≤ 1023) : getline l = (l, none) := by
  rw [getline]
  simp only [(takeWhile_last h).1, (takeWhile_last h).2, if_pos hl]

theorem getline_long {l r : Str} (h : '\n' ∉ l) (hl : 1023 < l.length) (hr : r = [] ∨ ∃ t, r = '\n' :: t) :
    getline (l ++ r) = (l.take 1023, none) := by
  have : (l ++ r).takeWhile (· ≠ '\n') = l := by
    rcases hr with rfl | ⟨t, rfl⟩
    · rw [List.append_nil, (takeWhile_last h).1]
    · exact (takeWhile_line h).1
  rw [getline]
  simp only [this]
  rw [if_neg (by omega)]

theorem skip_end {s : Str} (h : (getline s).1.head? = some '\r') : skipHeaders s = some ((getline s).2.getD []) := by
  rw [skipHeaders, if_pos h]

theorem skip_next {s rest : Str} (h : (getline s).1.head? ≠ some '\r') (hr : (getline s).2 = some rest) :
    skipHeaders s = skipHeaders rest := by
  rw [skipHeaders, if_neg h]
  split
  · rename_i r e
    rw [hr] at e
    cases e
    rfl
  · rename_i e
    rw [hr] at e
    cases e

theorem skip_never {s : Str} (h : (getline s).1.head? ≠ some '\r') (hr : (getline s).2 = none) :
    skipHeaders s = none := by
  rw [skipHeaders, if_neg h]
  split
  · rename_i r e
    rw [hr] at e
    cases e
  · rfl

theorem skip_response (hs : List Str) (content : Str) (h : ∀ x ∈ hs, Header x) :
    skipHeaders (response hs content) = some content := by
  induction hs with
  | nil =>
    have : getline (response [] content) = (['\r'], some content) :=
      getline_line (l := ['\r']) (r := content) (by decide) (by decide)
    rw [skip_end (by rw [this]; rfl), this]
    rfl
  | cons x hs ih =>
    obtain ⟨h1, h2, h3, h4⟩ := h x List.mem_cons_self
    have e : response (x :: hs) content = (x ++ ['\r']) ++ '\n' :: response hs content := by
      simp [response]
    have g : getline (response (x :: hs) content) = (x ++ ['\r'], some (response hs content)) := by
      rw [e]
      refine getline_line ?_ ?_
      · rw [List.mem_append, not_or]; exact ⟨h1, by decide⟩
      · simp; omega
    rw [skip_next (rest := response hs content), ih fun y hy => h y (List.mem_cons_of_mem _ hy)]
    · rw [g]
      cases x with
      | nil => exact absurd rfl h2
      | cons c x => exact h3
    · rw [g]

theorem skip_lines : ∀ (n : Nat) (s : Str), s.length ≤ n → (∀ l ∈ lines s, l.head? ≠ some '\r') → skipHeaders s = none := by
  intro n
  induction n with
  | zero =>
    intro s hn _
    cases s with
    | nil => exact skip_never (by decide) (by decide)
    | cons c s => simp at hn
  | succ n ih =>
    intro s hn hl
    -- the first line and what follows
    have key : ∀ s : Str, (∃ l, '\n' ∉ l ∧ s = l ∧ lines s = [l]) ∨
        ∃ l r, '\n' ∉ l ∧ s = l ++ '\n' :: r ∧ lines s = l :: lines r := by
      intro s
      induction s with
      | nil => exact .inl ⟨[], by simp, rfl, rfl⟩
      | cons c s ihs =>
        by_cases hc : c = '\n'
        · right
          refine ⟨[], s, by simp, by rw [hc]; rfl, by rw [lines, if_pos hc]⟩
        · rcases ihs with ⟨l, h1, h2, h3⟩ | ⟨l, r, h1, h2, h3⟩
          · left
            refine ⟨c :: l, ?_, by rw [h2], by rw [lines, if_neg hc, h3]⟩
            rw [List.mem_cons, not_or]
            exact ⟨fun e => hc e.symm, h1⟩
          · right
            refine ⟨c :: l, r, ?_, by rw [h2]; rfl, by rw [lines, if_neg hc, h3]⟩
            rw [List.mem_cons, not_or]
            exact ⟨fun e => hc e.symm, h1⟩
    have long : ∀ l : Str, (l.take 1023).head? = l.head? := by
      intro l; cases l <;> rfl
    rcases key s with ⟨l, h1, h2, h3⟩ | ⟨l, r, h1, h2, h3⟩
    · subst h2
      have h0 := hl s (by rw [h3]; exact List.mem_cons_self)
      by_cases hlen : s.length ≤ 1023
      · have g := getline_last h1 hlen
        exact skip_never (by rw [g]; exact h0) (by rw [g])
      · have g := getline_long (r := []) h1 (by omega) (.inl rfl)
        rw [List.append_nil] at g
        exact skip_never (by rw [g, long]; exact h0) (by rw [g])
    · have h0 := hl l (by rw [h3]; exact List.mem_cons_self)
      subst h2
      by_cases hlen : l.length ≤ 1023
      · have g := getline_line (r := r) h1 hlen
        rw [skip_next (rest := r) (by rw [g]; exact h0) (by rw [g])]
        refine ih r ?_ fun x hx => hl x (by rw [h3]; exact List.mem_cons_of_mem _ hx)
        simp at hn
        omega
      · have g := getline_long (r := '\n' :: r) h1 (by omega) (.inr ⟨r, rfl⟩)
        exact skip_never (by rw [g, long]; exact h0) (by rw [g])

theorem skip_long (hs : List Str) (l rest : Str) (h : ∀ x ∈ hs, Header x) (h1 : '\n' ∉ l)
    (h2 : l.head? ≠ some '\r') (h3 : 1023 < l.length) (hr : rest = [] ∨ ∃ t, rest = '\n' :: t) :
    skipHeaders ((hs.flatMap fun x => x ++ "\r\n".toList) ++ (l ++ rest)) = none := by
  induction hs with
  | nil =>
    have g := getline_long (r := rest) h1 h3 hr
    refine skip_never ?_ (by rw [List.flatMap_nil, List.nil_append, g])
    rw [List.flatMap_nil, List.nil_append, g]
    cases l with
    | nil => simp at h3
    | cons c l => exact h2
  | cons x hs ih =>
    obtain ⟨k1, k2, k3, k4⟩ := h x List.mem_cons_self
    have e : ((x :: hs).flatMap fun x => x ++ "\r\n".toList) ++ (l ++ rest) =
        (x ++ ['\r']) ++ '\n' :: ((hs.flatMap fun x => x ++ "\r\n".toList) ++ (l ++ rest)) := by
      simp
    have g : getline (((x :: hs).flatMap fun x => x ++ "\r\n".toList) ++ (l ++ rest)) =
        (x ++ ['\r'], some ((hs.flatMap fun x => x ++ "\r\n".toList) ++ (l ++ rest))) := by
      rw [e]
      refine getline_line ?_ ?_
      · rw [List.mem_append, not_or]; exact ⟨k1, by decide⟩
      · simp; omega
    rw [skip_next (rest := (hs.flatMap fun x => x ++ "\r\n".toList) ++ (l ++ rest)),
      ih fun y hy => h y (List.mem_cons_of_mem _ hy)]
    · rw [g]
      cases x with
      | nil => exact absurd rfl k2
      | cons c x => exact k3
    · rw [g]

/-! The request. -/

theorem request_eq (u : Uri.Uri) : request u = "GET ".toList ++ u.path ++ " HTTP/1.0\n".toList ++
    "Host: ".toList ++ u.host ++ "\n".toList ++ "Connection: close\n".toList ++ "\n".toList := by
  delta request
  rfl

theorem lines_ne_nil (s : Str) : lines s ≠ [] := by
  cases s with
  | nil => simp [lines]
  | cons c s =>
    rw [lines]
    split
    · simp
    · split <;> simp

theorem lines_append {l r : Str} (h : '\n' ∉ l) : lines (l ++ '\n' :: r) = l :: lines r := by
  induction l with
  | nil => rw [List.nil_append, lines, if_pos rfl]
  | cons c l ih =>
    rw [List.mem_cons, not_or] at h
    rw [List.cons_append, lines, if_neg (fun e => h.1 e.symm), ih h.2]

end Verif.InputSource
