import Verif.Model.Uri
import Verif.Spec.Uri
set_option autoImplicit false
set_option linter.unusedSimpArgs false
set_option linter.unusedVariables false
namespace Verif.Uri
open Verif.Spec.Uri

theorem render_append (a b : List (List Char)) : render (a ++ b) = render a ++ render b := by
  induction a with
  | nil => rfl
  | cons s t ih => simp [render, ih]

theorem render_single (s : List Char) : render [s] = '/' :: s := by simp [render]

theorem render_length (a : List (List Char)) : a.length ≤ (render a).length := by
  induction a with
  | nil => simp [render]
  | cons s t ih => simp [render]; omega

theorem renderRel_cons2 (s t : List Char) (l : List (List Char)) :
    renderRel (s :: t :: l) = s ++ '/' :: renderRel (t :: l) := by
  rw [renderRel]; simp

theorem render_cons (s : List Char) (l : List (List Char)) : render (s :: l) = '/' :: (s ++ render l) := rfl

theorem render_renderRel : ∀ (l : List (List Char)) (s : List Char),
    render (s :: l) = '/' :: renderRel (s :: l)
  | [], s => by simp [render, renderRel]
  | t :: l, s => by
    rw [render, render_renderRel l t, renderRel_cons2]
    simp

/-- the pattern `/d/` -/
def pat (d : List Char) : List Char := '/' :: (d ++ ['/'])

theorem prefix_seg (d s : List Char) (rest : List (List Char)) (hd : Segment d) (hs : Segment s) :
    (d ++ ['/']).isPrefixOf (s ++ render rest) = true ↔ s = d ∧ rest ≠ [] := by
  induction d generalizing s with
  | nil =>
    cases s with
    | nil =>
      cases rest with
      | nil => simp [render]
      | cons a b => simp [render]
    | cons c s =>
      have : c ≠ '/' := by intro h; subst h; exact hs (by simp)
      simp [List.isPrefixOf, Ne.symm this]
  | cons x d ih =>
    cases s with
    | nil =>
      have hx : x ≠ '/' := by intro h; subst h; exact hd (by simp)
      cases rest with
      | nil => simp [render]
      | cons a b => simp [render, List.isPrefixOf, hx]
    | cons c s =>
      have h1 := ih s (fun h => hd (by simp [h])) (fun h => hs (by simp [h]))
      simp only [List.cons_append, List.isPrefixOf, Bool.and_eq_true, beq_iff_eq, h1]
      constructor
      · rintro ⟨rfl, rfl, h⟩; exact ⟨rfl, h⟩
      · rintro ⟨h, h'⟩; cases h; exact ⟨rfl, rfl, h'⟩

theorem find_skip (d s r : List Char) (hs : Segment s) :
    find (pat d) (s ++ r) = (find (pat d) r).map (· + s.length) := by
  induction s with
  | nil => simp
  | cons c s ih =>
    have hc : c ≠ '/' := by intro h; subst h; exact hs (by simp)
    rw [List.cons_append, find]
    have : (pat d).isPrefixOf (c :: (s ++ r)) = false := by
      simp [pat, List.isPrefixOf, Ne.symm hc]
    rw [this, ih (fun h => hs (by simp [h]))]
    cases find (pat d) r <;> simp; omega

theorem find_step (d s : List Char) (rest : List (List Char)) (hd : Segment d) (hs : Segment s)
    (h : s ≠ d ∨ rest = []) :
    find (pat d) (render (s :: rest)) = (find (pat d) (render rest)).map (· + (s.length + 1)) := by
  rw [render, List.cons_append, find]
  have : (pat d).isPrefixOf ('/' :: (s ++ render rest)) = false := by
    rw [Bool.eq_false_iff]
    intro hp
    simp only [pat, List.isPrefixOf, Bool.and_eq_true] at hp
    have := (prefix_seg d s rest hd hs).mp hp.2
    rcases h with h | h
    · exact h this.1
    · exact this.2 h
  rw [this, find_skip d s _ hs]
  cases find (pat d) (render rest) <;> simp; omega

theorem find_none (d rf : List Char) (hd : Segment d) (hr : Segment rf) :
    ∀ pre : List (List Char), (∀ s ∈ pre, Segment s ∧ s ≠ d) →
      find (pat d) (render (pre ++ [rf])) = none
  | [], _ => by
    rw [List.nil_append, find_step d rf [] hd hr (Or.inr rfl)]
    simp [render, find, pat]
  | s :: pre, h => by
    have h1 := h s (by simp)
    rw [List.cons_append, find_step d s _ hd h1.1 (Or.inl h1.2),
      find_none d rf hd hr pre (fun x hx => h x (List.mem_cons_of_mem _ hx))]
    rfl

theorem find_some (d : List Char) (hd : Segment d) (post : List (List Char)) (hp : post ≠ []) :
    ∀ pre : List (List Char), (∀ s ∈ pre, Segment s ∧ s ≠ d) →
      find (pat d) (render (pre ++ d :: post)) = some (render pre).length
  | [], _ => by
    rw [List.nil_append, render_cons, find]
    have : (pat d).isPrefixOf ('/' :: (d ++ render post)) = true := by
      simp only [pat, List.isPrefixOf, Bool.and_eq_true]
      exact ⟨by simp, (prefix_seg d d post hd hd).mpr ⟨rfl, hp⟩⟩
    rw [this]; rfl
  | s :: pre, h => by
    have h1 := h s (by simp)
    rw [List.cons_append, find_step d s _ hd h1.1 (Or.inl h1.2),
      find_some d hd post hp pre (fun x hx => h x (List.mem_cons_of_mem _ hx))]
    simp [render]; omega

theorem findFrom_render (d : List Char) (A B : List (List Char)) :
    findFrom (pat d) (render (A ++ B)) (some (render A).length) =
      (find (pat d) (render B)).map (· + (render A).length) := by
  unfold findFrom
  rw [render_append]
  simp

theorem rfind_last (a x : List Char) (hx : Segment x) :
    rfind '/' (a ++ '/' :: x) = some a.length := by
  have h0 : rfind '/' x = none := by
    induction x with
    | nil => rfl
    | cons c x ih =>
      have hc : c ≠ '/' := by intro h; subst h; exact hx (by simp)
      rw [rfind, ih (fun h => hx (by simp [h]))]; simp [hc]
  induction a with
  | nil => simp [rfind, h0]
  | cons c a ih => rw [List.cons_append, rfind, ih]; simp

theorem erase_mid (a b c : List Char) : erase (a ++ (b ++ c)) a.length b.length = a ++ c := by
  unfold erase
  rw [List.drop_append]
  simp

/-- What the code does with the directory part of a reference: `.` counts as a segment. -/
def codeWalk (dir : List (List Char)) : List (List Char) → List (List Char)
  | [] => dir
  | s :: t => codeWalk (if s = dotdot then dir.dropLast else dir ++ [s]) t

theorem codeWalk_plain (A B : List (List Char)) (h : ∀ s ∈ B, s ≠ dotdot) :
    codeWalk A B = A ++ B := by
  induction B generalizing A with
  | nil => simp [codeWalk]
  | cons s t ih =>
    rw [codeWalk, if_neg (h s (by simp)), ih _ (fun x hx => h x (List.mem_cons_of_mem _ hx))]
    simp

theorem codeWalk_append (A B C : List (List Char)) :
    codeWalk A (B ++ C) = codeWalk (codeWalk A B) C := by
  induction B generalizing A with
  | nil => rfl
  | cons s t ih => simp [codeWalk, ih]

theorem split_first (d : List Char) : ∀ B : List (List Char),
    (∀ s ∈ B, s ≠ d) ∨ ∃ pre post, B = pre ++ d :: post ∧ ∀ s ∈ pre, s ≠ d
  | [] => Or.inl (by simp)
  | s :: t => by
    by_cases h : s = d
    · exact Or.inr ⟨[], t, by simp [h], by simp⟩
    · rcases split_first d t with h1 | ⟨pre, post, h1, h2⟩
      · left
        intro x hx
        cases List.mem_cons.mp hx with
        | inl e => rw [e]; exact h
        | inr e => exact h1 x e
      · refine Or.inr ⟨s :: pre, post, by simp [h1], ?_⟩
        intro x hx
        cases List.mem_cons.mp hx with
        | inl e => rw [e]; exact h
        | inr e => exact h2 x e

theorem seg_dotdot : Segment dotdot := by unfold Segment dotdot; decide
theorem seg_dot : Segment dot := by unfold Segment dot; decide

theorem dotDotLoop_spec (rf : List Char) (hrf : Segment rf) : ∀ (n : Nat) (fuel : Nat)
    (A B : List (List Char)), B.length ≤ n → n < fuel → (∀ s ∈ A, Segment s) →
    (∀ s ∈ B, Segment s) →
    dotDotLoop fuel (render (A ++ (B ++ [rf]))) (some (render A).length) =
      .ok (render (codeWalk A B ++ [rf])) := by
  intro n
  induction n with
  | zero =>
    intro fuel A B hn hf hA hB
    obtain ⟨f, rfl⟩ : ∃ f, fuel = f + 1 := ⟨fuel - 1, by omega⟩
    have : B = [] := List.length_eq_zero_iff.mp (by omega)
    subst this
    rw [dotDotLoop]
    have hf0 := findFrom_render dotdot A ([] ++ [rf])
    rw [find_none dotdot rf seg_dotdot hrf [] (by simp)] at hf0
    rw [show (['/', '.', '.', '/'] : List Char) = pat dotdot from rfl, hf0]
    simp [codeWalk]
  | succ n ih =>
    intro fuel A B hn hf hA hB
    obtain ⟨f, rfl⟩ : ∃ f, fuel = f + 1 := ⟨fuel - 1, by omega⟩
    rw [dotDotLoop]
    rw [show (['/', '.', '.', '/'] : List Char) = pat dotdot from rfl]
    have hf0 := findFrom_render dotdot A (B ++ [rf])
    rcases split_first dotdot B with h1 | ⟨pre, post, rfl, h2⟩
    · rw [find_none dotdot rf seg_dotdot hrf B (fun s hs => ⟨hB s hs, h1 s hs⟩)] at hf0
      rw [hf0, codeWalk_plain A B h1]
      simp
    · have hpre : ∀ s ∈ pre, Segment s ∧ s ≠ dotdot := fun s hs => ⟨hB s (by simp [hs]), h2 s hs⟩
      have hassoc : pre ++ dotdot :: post ++ [rf] = pre ++ dotdot :: (post ++ [rf]) := by simp
      rw [hassoc] at hf0 ⊢
      rw [find_some dotdot seg_dotdot (post ++ [rf]) (by simp) pre hpre] at hf0
      have hdots : (render pre).length + (render A).length = (render (A ++ pre)).length := by
        rw [render_append]; simp; omega
      simp only [Option.map_some, hdots] at hf0
      rw [hf0]
      simp only
      have hcw : codeWalk A (pre ++ dotdot :: post) = codeWalk ((A ++ pre).dropLast) post := by
        rw [codeWalk_append, codeWalk_plain A pre h2, codeWalk, if_pos rfl]
      rw [hcw]
      rw [show A ++ (pre ++ dotdot :: (post ++ [rf])) = (A ++ pre) ++ dotdot :: (post ++ [rf]) by simp]
      have hpost : ∀ s ∈ post, Segment s := fun s hs => hB s (by simp [hs])
      have hlen : post.length ≤ n := by simp at hn; omega
      rcases List.eq_nil_or_concat (A ++ pre) with h0 | ⟨C, x, hC⟩
      · rw [h0]
        simp only [render, List.nil_append, List.length_nil, Nat.lt_irrefl, if_false, gt_iff_lt]
        have := ih f [] post hlen (by omega) (by simp) hpost
        simp only [render, List.nil_append, List.length_nil] at this
        exact this
      · rw [List.concat_eq_append] at hC
        rw [hC]
        have hx : Segment x := by
          have : x ∈ A ++ pre := by rw [hC]; simp
          rcases List.mem_append.mp this with h | h
          · exact hA x h
          · exact (hpre x h).1
        have hCs : ∀ s ∈ C, Segment s := by
          intro s hs
          have : s ∈ A ++ pre := by rw [hC]; simp [hs]
          rcases List.mem_append.mp this with h | h
          · exact hA s h
          · exact (hpre s h).1
        have hpos : 0 < (render (C ++ [x])).length := by
          rw [render_append]; simp [render]; omega
        rw [if_pos hpos]
        have hr : rfindUpto '/' (render (C ++ [x] ++ dotdot :: (post ++ [rf])))
            ((render (C ++ [x])).length - 1) = some (render C).length := by
          unfold rfindUpto
          rw [show (render (C ++ [x])).length - 1 + 1 = (render (C ++ [x])).length by omega]
          rw [render_append (C ++ [x]), List.take_left, render_append, render_single]
          exact rfind_last _ _ hx
        rw [hr]
        simp only [List.dropLast_concat]
        rw [← ih f C post hlen (by omega) hCs hpost]
        congr 1
        have hsplit : render (C ++ [x] ++ dotdot :: (post ++ [rf])) =
            render C ++ (('/' :: x ++ '/' :: dotdot) ++ render (post ++ [rf])) := by
          rw [List.append_assoc, render_append]; simp [render]
        have hcount : (render (C ++ [x])).length + 3 - (render C).length =
            ('/' :: x ++ '/' :: dotdot).length := by
          rw [render_append, render_single]; simp [dotdot]; omega
        rw [hsplit, hcount, erase_mid, ← render_append]

theorem dotLoop_spec (rf : List Char) (hrf : Segment rf) : ∀ (n : Nat) (fuel : Nat)
    (A B : List (List Char)), B.length ≤ n → n < fuel → (∀ s ∈ A, Segment s) →
    (∀ s ∈ B, Segment s) →
    dotLoop fuel (render (A ++ (B ++ [rf]))) (some (render A).length) =
      .ok (render (A ++ B.filter (· ≠ dot) ++ [rf])) := by
  intro n
  induction n with
  | zero =>
    intro fuel A B hn hf hA hB
    obtain ⟨f, rfl⟩ : ∃ f, fuel = f + 1 := ⟨fuel - 1, by omega⟩
    have : B = [] := List.length_eq_zero_iff.mp (by omega)
    subst this
    rw [dotLoop]
    have hf0 := findFrom_render dot A ([] ++ [rf])
    rw [find_none dot rf seg_dot hrf [] (by simp)] at hf0
    rw [show (['/', '.', '/'] : List Char) = pat dot from rfl, hf0]
    simp
  | succ n ih =>
    intro fuel A B hn hf hA hB
    obtain ⟨f, rfl⟩ : ∃ f, fuel = f + 1 := ⟨fuel - 1, by omega⟩
    rw [dotLoop]
    rw [show (['/', '.', '/'] : List Char) = pat dot from rfl]
    have hf0 := findFrom_render dot A (B ++ [rf])
    rcases split_first dot B with h1 | ⟨pre, post, rfl, h2⟩
    · rw [find_none dot rf seg_dot hrf B (fun s hs => ⟨hB s hs, h1 s hs⟩)] at hf0
      have : B.filter (· ≠ dot) = B := List.filter_eq_self.mpr (fun s hs => by simp [h1 s hs])
      rw [hf0, this]
      simp
    · have hpre : ∀ s ∈ pre, Segment s ∧ s ≠ dot := fun s hs => ⟨hB s (by simp [hs]), h2 s hs⟩
      have hassoc : pre ++ dot :: post ++ [rf] = pre ++ dot :: (post ++ [rf]) := by simp
      rw [hassoc] at hf0 ⊢
      rw [find_some dot seg_dot (post ++ [rf]) (by simp) pre hpre] at hf0
      have hdots : (render pre).length + (render A).length = (render (A ++ pre)).length := by
        rw [render_append]; simp; omega
      simp only [Option.map_some, hdots] at hf0
      rw [hf0]
      simp only
      have hpf : pre.filter (· ≠ dot) = pre := List.filter_eq_self.mpr (fun s hs => by simp [h2 s hs])
      have hfil : A ++ (pre ++ dot :: post).filter (· ≠ dot) = (A ++ pre) ++ post.filter (· ≠ dot) := by
        rw [List.filter_append, hpf]; simp
      rw [hfil, ← ih f (A ++ pre) post (by simp at hn; omega) (by omega) ?_ (fun s hs => hB s (by simp [hs]))]
      · congr 1
        have hsplit : render (A ++ (pre ++ dot :: (post ++ [rf]))) =
            render (A ++ pre) ++ (('/' :: dot) ++ render (post ++ [rf])) := by
          rw [← List.append_assoc, render_append]; simp [render]
        rw [hsplit, show 2 = ('/' :: dot).length from rfl, erase_mid, ← render_append]
      · intro s hs
        rcases List.mem_append.mp hs with h | h
        · exact hA s h
        · exact (hpre s h).1

theorem codeWalk_seg (A B : List (List Char)) (hA : ∀ s ∈ A, Segment s) (hB : ∀ s ∈ B, Segment s) :
    ∀ s ∈ codeWalk A B, Segment s := by
  induction B generalizing A with
  | nil => exact hA
  | cons s t ih =>
    rw [codeWalk]
    refine ih _ ?_ (fun x hx => hB x (List.mem_cons_of_mem _ hx))
    split
    · intro x hx; exact hA x (List.dropLast_subset _ hx)
    · intro x hx
      rcases List.mem_append.mp hx with h | h
      · exact hA x h
      · simp at h; subst h; exact hB x (by simp)

theorem combinePath_exact (sb : List (List Char)) (bf : List Char) (rd : List (List Char))
    (rf : List Char) (hsb : ∀ s ∈ sb, Segment s) (hbf : Segment bf) (hrd : ∀ s ∈ rd, Segment s)
    (hrf : Segment rf) :
    combinePath (render (sb ++ [bf])) (renderRel (rd ++ [rf])) =
      .ok (render ((codeWalk sb rd).filter (· ≠ dot) ++ [rf])) := by
  have hb : render (sb ++ [bf]) = render sb ++ '/' :: bf := by rw [render_append, render_single]
  have hdir : directory (render (sb ++ [bf])) = render sb ++ ['/'] := by
    unfold directory
    rw [hb]
    split
    · rename_i hl
      rcases List.eq_nil_or_concat bf with h | ⟨b, x, h⟩
      · rw [h]
      · rw [List.concat_eq_append] at h
        subst h
        rw [show render sb ++ '/' :: (b ++ [x]) = (render sb ++ '/' :: b) ++ [x] by simp] at hl
        rw [List.getLast?_concat] at hl
        simp at hl; subst hl
        exact absurd (show '/' ∈ b ++ ['/'] by simp) hbf
    · rw [rfind_last _ _ hbf]
      simp [List.take_append, List.take_of_length_le]
  have hne : render (sb ++ [bf]) ≠ [] := by rw [hb]; simp
  unfold combinePath
  rw [if_neg hne]
  simp only [hdir]
  rw [if_neg (by simp)]
  have hpath : render sb ++ ['/'] ++ renderRel (rd ++ [rf]) = render (sb ++ (rd ++ [rf])) := by
    rw [render_append]
    cases rd with
    | nil => simp [render, renderRel]
    | cons r rd =>
      rw [List.cons_append, render_renderRel]; simp
  rw [hpath]
  have hpos : (render sb ++ ['/']).length - 1 = (render sb).length := by simp
  rw [hpos]
  have hlen := render_length (sb ++ (rd ++ [rf]))
  rw [dotDotLoop_spec rf hrf rd.length _ sb rd (Nat.le_refl _) (by simp at hlen ⊢; omega) hsb hrd]
  simp only [Out.bind]
  have hs := codeWalk_seg sb rd hsb hrd
  have hlen2 := render_length (codeWalk sb rd ++ [rf])
  have := dotLoop_spec rf hrf (codeWalk sb rd).length ((render (codeWalk sb rd ++ [rf])).length + 1)
    [] (codeWalk sb rd) (Nat.le_refl _) (by simp at hlen2 ⊢; omega) (by simp) hs
  simpa [render] using this

/-! ## splitting -/

/-- Every string is a relative reference. -/
theorem exists_rel : ∀ r : List Char, ∃ rd rf, r = renderRel (rd ++ [rf]) ∧
    (∀ s ∈ rd, Segment s) ∧ Segment rf
  | [] => ⟨[], [], by simp [renderRel], by simp, by simp [Segment]⟩
  | c :: r => by
    obtain ⟨rd, rf, h1, h2, h3⟩ := exists_rel r
    by_cases hc : c = '/'
    · subst hc
      refine ⟨[] :: rd, rf, ?_, ?_, h3⟩
      · rw [h1]
        cases rd with
        | nil => simp [renderRel]
        | cons a rd => simp [renderRel_cons2]
      · intro s hs
        cases List.mem_cons.mp hs with
        | inl e => rw [e]; simp [Segment]
        | inr e => exact h2 s e
    · cases rd with
      | nil =>
        refine ⟨[], c :: rf, ?_, by simp, ?_⟩
        · simp [renderRel] at h1 ⊢; exact h1
        · intro h
          cases List.mem_cons.mp h with
          | inl e => exact hc e.symm
          | inr e => exact h3 e
      | cons a rd =>
        refine ⟨(c :: a) :: rd, rf, ?_, ?_, h3⟩
        · rw [h1]
          cases rd with
          | nil => simp [renderRel]
          | cons b rd => simp [renderRel_cons2]
        · intro s hs
          cases List.mem_cons.mp hs with
          | inl e =>
            rw [e]; intro h
            cases List.mem_cons.mp h with
            | inl e => exact hc e.symm
            | inr e => exact h2 a (by simp) e
          | inr e => exact h2 s (by simp [e])

theorem exists_abs (p : List Char) (h : p[0]? = some '/') : ∃ sb bf, p = render (sb ++ [bf]) ∧
    (∀ s ∈ sb, Segment s) ∧ Segment bf := by
  cases p with
  | nil => simp at h
  | cons c r =>
    simp at h; subst h
    obtain ⟨rd, rf, h1, h2, h3⟩ := exists_rel r
    refine ⟨rd, rf, ?_, h2, h3⟩
    cases rd with
    | nil => simp [render, renderRel] at h1 ⊢; exact h1
    | cons a rd => rw [List.cons_append, render_renderRel, h1]; simp

end Verif.Uri
