import Verif.Lemmas.Uri
set_option autoImplicit false
set_option linter.unusedSimpArgs false
set_option linter.unusedVariables false
namespace Verif.Uri
open Verif.Spec.Uri

theorem find_colon_none (s : List Char) (h : ':' ∉ s) : find [':'] s = none := by
  induction s with
  | nil => rfl
  | cons c s ih =>
    simp at h
    rw [find, ih h.2]
    simp [List.isPrefixOf, h.1]

theorem find_colon_some (a b : List Char) (h : ':' ∉ a) : find [':'] (a ++ ':' :: b) = some a.length := by
  induction a with
  | nil => simp [find, List.isPrefixOf]
  | cons c s ih =>
    simp at h
    rw [List.cons_append, find, ih h.2]
    simp [List.isPrefixOf, h.1]

theorem find_colon_inv : ∀ (s : List Char) (d : Nat), find [':'] s = some d →
    ':' ∉ s.take d ∧ s = s.take d ++ ':' :: s.drop (d + 1)
  | [], d, h => by simp [find, List.isPrefixOf] at h
  | c :: s, d, h => by
    rw [find] at h
    by_cases hc : c = ':'
    · subst hc; simp [List.isPrefixOf] at h; subst h; simp
    · simp [List.isPrefixOf, Ne.symm hc] at h
      obtain ⟨d', h1, rfl⟩ := h
      have := find_colon_inv s d' h1
      refine ⟨?_, ?_⟩
      · simp [Ne.symm hc, this.1]
      · simp only [List.take_succ_cons, List.drop_succ_cons, List.cons_append]
        rw [← this.2]

theorem fix_id (s : List Char) (h : '\\' ∉ s) : fixSlashes s = s := by
  unfold fixSlashes
  conv => rhs; rw [← List.map_id s]
  apply List.map_congr_left
  intro c hc
  rw [if_neg]; · rfl
  intro e; subst e; exact h hc

theorem fix_no (s : List Char) : '\\' ∉ fixSlashes s := by
  unfold fixSlashes
  intro h
  obtain ⟨c, _, h⟩ := List.mem_map.mp h
  split at h
  · exact absurd h (by decide)
  · contradiction

theorem fix_colon (s : List Char) : ':' ∈ fixSlashes s ↔ ':' ∈ s := by
  unfold fixSlashes
  rw [List.mem_map]
  constructor
  · rintro ⟨c, hc, h⟩
    split at h
    · exact absurd h (by decide)
    · subst h; exact hc
  · intro h; exact ⟨':', h, by decide⟩

theorem parse_nocolon (s : List Char) (h : ':' ∉ s) :
    parse s = .ok ⟨[], [], [], fixSlashes s, false⟩ := by
  unfold parse parseUri
  rw [find_colon_none s h]
  simp [Out.bind, absolute]

/-- Parsing `scheme:rest`. -/
theorem parse_scheme (sc rest : List Char) (h : ':' ∉ sc) (hl : sc.length ≠ 1) :
    parseUri (sc ++ ':' :: rest) = parseRest sc rest := by
  unfold parseUri
  rw [find_colon_some sc rest h]
  simp only [if_neg hl]
  have h1 : (sc ++ ':' :: rest).take sc.length = sc := by simp
  have h2 : (sc ++ ':' :: rest).drop (sc.length + 1) = rest := by
    rw [List.drop_append]; simp
  rw [h1, h2]

theorem takeWhile_no (p : Char) (a b : List Char) (h : p ∉ a) :
    (a ++ p :: b).takeWhile (· ≠ p) = a ∧ (a ++ p :: b).dropWhile (· ≠ p) = p :: b := by
  induction a with
  | nil => simp
  | cons c a ih =>
    simp at h
    have := ih h.2
    simp only [List.cons_append]
    rw [List.takeWhile_cons_of_pos (by simp [Ne.symm h.1]), List.dropWhile_cons_of_pos (by simp [Ne.symm h.1])]
    exact ⟨by rw [this.1], this.2⟩

theorem takeWhile_all (p : Char) (a : List Char) (h : p ∉ a) :
    a.takeWhile (· ≠ p) = a ∧ a.dropWhile (· ≠ p) = [] := by
  induction a with
  | nil => simp
  | cons c a ih =>
    simp at h
    have := ih h.2
    rw [List.takeWhile_cons_of_pos (by simp [Ne.symm h.1]), List.dropWhile_cons_of_pos (by simp [Ne.symm h.1])]
    exact ⟨by rw [this.1], this.2⟩

theorem takeWhile_mem (p : Char) (a : List Char) : p ∉ a.takeWhile (· ≠ p) := by
  intro h
  induction a with
  | nil => simp at h
  | cons c a ih =>
    by_cases hc : c = p
    · simp [hc] at h
    · rw [List.takeWhile_cons_of_pos (by simp [hc])] at h
      cases List.mem_cons.mp h with
      | inl e => exact hc e.symm
      | inr e => exact ih e

theorem dropWhile_head (p : Char) (a : List Char) :
    a.dropWhile (· ≠ p) = [] ∨ ∃ t, a.dropWhile (· ≠ p) = p :: t := by
  induction a with
  | nil => simp
  | cons c a ih =>
    by_cases hc : c = p
    · right; simp [hc]
    · rw [List.dropWhile_cons_of_pos (by simp [hc])]; exact ih

/-- authority without a slash -/
theorem auth_all (u : List Char) (h : '/' ∉ u) : parseAuthority u = (u, [], []) := by
  unfold parseAuthority
  simp only [(takeWhile_all '/' u h).2, if_true]

/-- authority, no port -/
theorem auth_host (h p : List Char) (h1 : '/' ∉ h) (h2 : ':' ∉ h) :
    parseAuthority (h ++ '/' :: p) = (h, [], '/' :: p) := by
  unfold parseAuthority
  simp only [(takeWhile_no '/' h p h1).1, (takeWhile_no '/' h p h1).2, (takeWhile_all ':' h h2).1,
    (takeWhile_all ':' h h2).2]
  simp

theorem auth_port (h q p : List Char) (h1 : '/' ∉ h) (h2 : ':' ∉ h) (h3 : '/' ∉ q) :
    parseAuthority (h ++ ':' :: q ++ '/' :: p) = (h, q, '/' :: p) := by
  have hn : '/' ∉ h ++ ':' :: q := by simp [h1, h3]
  unfold parseAuthority
  simp only [(takeWhile_no '/' _ p hn).1, (takeWhile_no '/' _ p hn).2, (takeWhile_no ':' h q h2).1,
    (takeWhile_no ':' h q h2).2]
  simp

theorem auth_shape (u : List Char) :
    let a := parseAuthority u
    '/' ∉ a.1 ∧ '/' ∉ a.2.1 ∧
    ((a.2.1 = [] ∧ a.2.2 = []) ∨ (':' ∉ a.1 ∧ ∃ t, a.2.2 = '/' :: t)) := by
  unfold parseAuthority
  simp only
  split
  · rename_i h
    have hu : '/' ∉ u := by
      intro hm
      induction u with
      | nil => simp at hm
      | cons c u ih =>
        by_cases hc : c = '/'
        · simp [hc] at h
        · rw [List.dropWhile_cons_of_pos (by simp [hc])] at h
          cases List.mem_cons.mp hm with
          | inl e => exact hc e.symm
          | inr e => exact ih h e
    exact ⟨hu, by simp, Or.inl ⟨rfl, rfl⟩⟩
  · rename_i h
    have hno := takeWhile_mem '/' u
    refine ⟨?_, ?_, Or.inr ⟨takeWhile_mem ':' _, ?_⟩⟩
    · intro hm; exact hno (List.takeWhile_subset _ hm)
    · intro hm; exact hno (List.dropWhile_subset _ (List.mem_of_mem_drop hm))
    · rcases dropWhile_head '/' u with e | e
      · exact absurd e h
      · exact e

/-- What a parsed URI looks like. -/
structure Shape (u : Uri) : Prop where
  scheme : ':' ∉ u.scheme
  host : '/' ∉ u.host
  port : '/' ∉ u.port
  rest : (u.port = [] ∧ u.path = []) ∨ (':' ∉ u.host ∧ ∃ t, u.path = '/' :: t) ∨ u.host = []
  abs : u.isAbsolute = absolute u

theorem parse_shape (s : List Char) (u : Uri) (h : parse s = .ok u) : Shape u := by
  unfold parse Out.bind at h
  split at h <;> try contradiction
  rename_i v hv
  cases h
  unfold parseUri at hv
  split at hv
  · cases hv; constructor <;> simp [absolute]
  · rename_i d hd
    split at hv
    · cases hv
      constructor <;> simp [absolute]
    · unfold parseRest at hv
      have hs := (find_colon_inv s d hd).1
      split at hv
      · contradiction
      · contradiction
      · cases hv
        have := auth_shape ‹List Char›
        exact ⟨hs, this.1, this.2.1, by rcases this.2.2 with h | h <;> simp [h], rfl⟩
      · cases hv
        exact ⟨hs, by simp, by simp, by simp, rfl⟩

theorem print_parse (u : Uri) (hs : Shape u) (hp : Printable u.scheme u.host u.port u.path) : parse u.asString = .ok u := by
  obtain ⟨sc, ho, po, pa, ab⟩ := u
  obtain ⟨h1, h2, h3, h4, h5⟩ := hs
  simp only at h1 h2 h3 h4 h5
  have h5 : ab = absolute ⟨sc, ho, po, pa, false⟩ := h5
  subst h5
  rcases hp with ⟨e1, e2, e3, e4, e5⟩ | ⟨e1, e2⟩ | ⟨e1, e2, e3, e4⟩
  · simp only at e1 e2 e3 e4 e5
    subst e1 e2 e3
    have : (⟨[], [], [], pa, absolute ⟨[], [], [], pa, false⟩⟩ : Uri).asString = pa := by
      simp [Uri.asString, absolute]
    have ha : absolute ⟨[], [], [], pa, false⟩ = false := by simp [absolute]
    simp only [absolute] at this ha ⊢
    rw [this, parse_nocolon pa e4, fix_id pa e5]
    simp
  · simp only at e1 e2
    have hsc : sc ≠ [] := by intro h; simp [h] at e1
    have ha : absolute ⟨sc, ho, po, pa, false⟩ = true := by simp [absolute, hsc, e2]
    rw [ha]
    have hl : sc.length ≠ 1 := by omega
    have key : parseUri (⟨sc, ho, po, pa, true⟩ : Uri).asString = .ok ⟨sc, ho, po, pa, false⟩ := by
      have hstr : (⟨sc, ho, po, pa, true⟩ : Uri).asString =
          sc ++ ':' :: '/' :: '/' :: (ho ++ (if po = [] then [] else ':' :: po) ++ pa) := by
        simp [Uri.asString, hsc, e2]
      rw [hstr, parse_scheme _ _ h1 hl]
      simp only [parseRest]
      rcases h4 with ⟨k1, k2⟩ | ⟨k1, t, k2⟩ | k1
      · subst k1 k2
        simp only [if_true, List.append_nil]
        rw [auth_all ho h2]
      · subst k2
        by_cases hpo : po = []
        · subst hpo
          simp only [if_true, List.append_nil]
          rw [auth_host ho t h2 k1]
        · simp only [if_neg hpo]
          rw [auth_port ho po t h2 k1 h3]
      · exact absurd k1 e2
    unfold parse
    rw [key]
    simp only [Out.bind]
    have : absolute ⟨sc, ho, po, pa, false⟩ = true := by simp [absolute, hsc, e2]
    rw [this]
  · simp only at e1 e2 e3 e4
    subst e2 e3
    have hsc : sc ≠ [] := by intro h; simp [h] at e1
    have hl : sc.length ≠ 1 := by omega
    rcases e4 with ⟨k1, t, k2⟩ | ⟨k1, k2, k3, k4⟩
    · subst k1 k2
      have ha : absolute ⟨"file".toList, [], [], '/' :: t, false⟩ = true := by simp [absolute]
      have ha' : absolute ⟨"file".toList, [], [], '/' :: t, false⟩ = true := by simp [absolute]
      rw [ha]
      have hstr : (⟨"file".toList, [], [], '/' :: t, true⟩ : Uri).asString =
          "file".toList ++ ':' :: '/' :: '/' :: ([] ++ '/' :: t) := by
        simp [Uri.asString]
      unfold parse
      rw [hstr, parse_scheme _ _ h1 hl]
      simp only [parseRest, auth_host [] t (by simp) (by simp), Out.bind, ha']
    · by_cases hf : sc = "file".toList ∧ pa[0]? = some '/'
      · -- same as above
        obtain ⟨hf1, hf2⟩ := hf
        obtain ⟨t, rfl⟩ : ∃ t, pa = '/' :: t := by
          cases pa with
          | nil => simp at k1
          | cons c t => simp at hf2; subst hf2; exact ⟨t, rfl⟩
        subst hf1
        have ha : absolute ⟨"file".toList, [], [], '/' :: t, false⟩ = true := by simp [absolute]
        have ha' : absolute ⟨"file".toList, [], [], '/' :: t, false⟩ = true := by simp [absolute]
        rw [ha]
        have hstr : (⟨"file".toList, [], [], '/' :: t, true⟩ : Uri).asString =
            "file".toList ++ ':' :: '/' :: '/' :: ([] ++ '/' :: t) := by
          simp [Uri.asString]
        unfold parse
        rw [hstr, parse_scheme _ _ h1 hl]
        simp only [parseRest, auth_host [] t (by simp) (by simp), Out.bind, ha']
      · have habs : ∀ b, absolute ⟨sc, [], [], pa, b⟩ = false := by
          intro b
          unfold absolute
          by_cases hfile : sc = "file".toList
          · have q1 : pa[0]? ≠ some '/' := fun h => hf ⟨hfile, h⟩
            have q2 : pa[1]? ≠ some ':' := fun h => k4 ⟨hfile, h⟩
            simp only [q1, q2]; simp
          · simp only [hfile]; simp
        rw [habs]
        have hstr : (⟨sc, [], [], pa, false⟩ : Uri).asString = sc ++ ':' :: pa := by
          simp [Uri.asString, hsc]
        unfold parse
        rw [hstr, parse_scheme _ _ h1 hl]
        unfold parseRest
        split
        · exact absurd rfl k1
        · exact absurd rfl k2
        · exact absurd ⟨_, rfl⟩ k3
        · simp [Out.bind, habs]

/-! ## walking -/

theorem walk_nodd (A B : List (List Char)) (h : dotdot ∉ B) :
    walk A B = A ++ B.filter (· ≠ dot) := by
  induction B generalizing A with
  | nil => simp [walk]
  | cons s t ih =>
    simp at h
    rw [walk, if_neg (Ne.symm h.1), ih _ h.2]
    by_cases hs : s = dot <;> simp [hs]

theorem walk_nodot (A B : List (List Char)) (h : dot ∉ B) : walk A B = codeWalk A B := by
  induction B generalizing A with
  | nil => rfl
  | cons s t ih =>
    simp at h
    rw [walk, codeWalk, ih _ h.2, if_neg (Ne.symm h.1)]

theorem walk_append (A B C : List (List Char)) : walk A (B ++ C) = walk (walk A B) C := by
  induction B generalizing A with
  | nil => rfl
  | cons s t ih => simp [walk, ih]

theorem codeWalk_nodot (A B : List (List Char)) (hA : dot ∉ A) (hB : dot ∉ B) :
    dot ∉ codeWalk A B := by
  induction B generalizing A with
  | nil => exact hA
  | cons s t ih =>
    simp at hB
    rw [codeWalk]
    apply ih _ _ hB.2
    split
    · intro h; exact hA (List.dropLast_subset _ h)
    · simp [hA, hB.1]

theorem filter_walk (A B C : List (List Char)) (hA : dot ∉ A) (hB : dot ∉ B) (hC : dotdot ∉ C) :
    (codeWalk A (B ++ C)).filter (· ≠ dot) = walk A (B ++ C) := by
  have h1 := codeWalk_nodot A B hA hB
  rw [codeWalk_append, walk_append, walk_nodot A B hB, walk_nodd _ C hC, codeWalk_plain _ C
    (fun s hs e => hC (e ▸ hs)), List.filter_append]
  congr 1
  exact List.filter_eq_self.mpr (fun s hs => by
    have : s ≠ dot := fun e => h1 (e ▸ hs)
    simp [this])

end Verif.Uri
