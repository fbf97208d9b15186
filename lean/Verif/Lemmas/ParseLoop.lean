import Verif.Spec.ParseLoop
set_option autoImplicit false
set_option linter.unusedSimpArgs false
set_option linter.unusedVariables false
namespace Verif.ParseLoop
open Verif.Spec.ParseLoop

variable {σ : Type}

theorem read_short {n : Nat} {s : Stream} (hg : Good s) (h : s.rest.length < n) :
    s.read n = ({ s with rest := [], eof := true, fail := true }, s.rest) := by
  obtain ⟨h1, h2, h3, h4⟩ := hg
  unfold Stream.read
  rw [h2, h3, h4, h1]
  simp [h]

theorem read_long {n : Nat} {s : Stream} (hg : Good s) (h : ¬ s.rest.length < n) :
    s.read n = ({ s with rest := s.rest.drop n }, s.rest.take n) := by
  obtain ⟨h1, h2, h3, h4⟩ := hg
  unfold Stream.read
  rw [h2, h3, h4]
  simp [h]

theorem loop_gives (feed : Feed σ) : ∀ (k : Nat) (p : σ) (s : Stream), Good s → s.rest.length < 10240 * k →
    ∃ p' evs r, loop feed (k + 1) p s = some (p', evs, r) ∧ Gives feed p s.rest evs r
  | 0, p, s, _, h => by simp at h
  | k + 1, p, s, hg, h => by
    unfold loop
    rw [if_neg (by rw [hg.2.1]; exact Bool.false_ne_true)]
    by_cases hl : s.rest.length < 10 * 1024
    · rw [read_short hg hl]
      dsimp only
      cases hf : feed p s.rest true with
      | mk p' ok =>
        cases ok with
        | true =>
          dsimp only
          rw [if_pos rfl]
          refine ⟨p', [.give s.rest true], true, ?_, .last p p' s.rest hf⟩
          unfold loop
          simp
        | false =>
          refine ⟨p', [.give s.rest true], false, rfl, ?_⟩
          have := Gives.error (feed := feed) p p' s.rest [] true hf (fun _ => rfl)
          rwa [List.append_nil] at this
    · rw [read_long hg hl]
      dsimp only
      rw [hg.2.1]
      cases hf : feed p (s.rest.take (10 * 1024)) false with
      | mk p' ok =>
        cases ok with
        | true =>
          dsimp only
          rw [if_pos rfl]
          obtain ⟨q, evs, r, h1, h2⟩ := loop_gives feed k p' { s with rest := s.rest.drop (10 * 1024), eof := false }
            ⟨hg.1, rfl, hg.2.2.1, hg.2.2.2⟩ (by
              show (s.rest.drop (10 * 1024)).length < 10240 * k
              rw [List.length_drop]; omega)
          refine ⟨q, .give (s.rest.take (10 * 1024)) false :: evs, r, ?_, ?_⟩
          · rw [h1]; rfl
          · have := Gives.more (feed := feed) p p' (s.rest.take (10 * 1024)) _ evs r (by
              intro he
              have := congrArg List.length he
              rw [List.length_take, List.length_nil] at this
              omega) hf h2
            rwa [List.take_append_drop] at this
        | false =>
          refine ⟨p', [.give (s.rest.take (10 * 1024)) false], false, rfl, ?_⟩
          have := Gives.error (feed := feed) p p' (s.rest.take (10 * 1024)) (s.rest.drop (10 * 1024)) false hf
            (fun h => by cases h)
          rwa [List.take_append_drop] at this

theorem parse_reads (init : σ) (feed : Feed σ) (h : Handler) (hh : h ≠ .throws) (k : Nat) (b : Bool)
    (source : Option Stream) (hs : ∀ s, source = some s → Good s ∧ s.rest.length < 10240 * k) :
    ∃ evs, parse init feed h (k + 1) ⟨b, init⟩ source = some (⟨false, init⟩, evs, true) ∧
      Reads init feed (h == .returns) source evs := by
  cases source with
  | none =>
    cases h with
    | throws => exact absurd rfl hh
    | none => exact ⟨_, rfl, .unresolved⟩
    | returns => exact ⟨_, rfl, .unresolved⟩
  | some s =>
    obtain ⟨hg, hl⟩ := hs s rfl
    obtain ⟨p', evs, r, h1, h2⟩ := loop_gives feed k init s hg hl
    unfold parse
    dsimp only
    rw [h1]
    cases r with
    | true => exact ⟨_, rfl, .ok s evs h2⟩
    | false =>
      cases h with
      | throws => exact absurd rfl hh
      | none =>
        refine ⟨_, rfl, ?_⟩
        show Reads init feed false _ _
        have := Reads.error (init := init) (reports := false) s evs h2
        simpa using this
      | returns =>
        refine ⟨_, rfl, ?_⟩
        show Reads init feed true _ _
        have := Reads.error (init := init) (reports := true) s evs h2
        simpa using this

theorem parseAll_reads (init : σ) (feed : Feed σ) (h : Handler) (hh : h ≠ .throws) (k : Nat) :
    ∀ (ss : List (Option Stream)), (∀ s, some s ∈ ss → Good s ∧ s.rest.length < 10240 * k) →
    ∃ l, parseAll init feed h (k + 1) ⟨false, init⟩ ss = some (⟨false, init⟩, l) ∧
      ReadsEach init feed (h == .returns) ss l
  | [], _ => ⟨[], rfl, .nil⟩
  | s :: ss, hs => by
    obtain ⟨evs, h1, h2⟩ := parse_reads init feed h hh k false s fun x hx => hs x (hx ▸ List.mem_cons_self)
    obtain ⟨l, h3, h4⟩ := parseAll_reads init feed h hh k ss fun x hx => hs x (List.mem_cons_of_mem _ hx)
    refine ⟨evs :: l, ?_, .cons _ _ _ _ h2 h4⟩
    unfold parseAll
    rw [h1]
    dsimp only
    rw [h3]
    rfl

theorem bound : ∀ ss : List (Option Stream), ∃ k, ∀ s, some s ∈ ss → s.rest.length < 10240 * k
  | [] => ⟨0, fun s h => nomatch h⟩
  | none :: ss => by
    obtain ⟨k, h⟩ := bound ss
    refine ⟨k, fun s hs => ?_⟩
    rcases List.mem_cons.1 hs with hs | hs
    · cases hs
    · exact h s hs
  | some x :: ss => by
    obtain ⟨k, h⟩ := bound ss
    refine ⟨k + x.rest.length + 1, fun s hs => ?_⟩
    rcases List.mem_cons.1 hs with hs | hs
    · cases hs; omega
    · have := h s hs; omega

theorem loopXml2_whole (feed : Feed σ) : ∀ (k : Nat) (p : σ) (s : Stream), Good s → s.rest.length < 4096 * k →
    ∃ p' evs, loopXml2 feed (k + 1) p s = some (p', evs) ∧ Whole s.rest evs
  | 0, p, s, _, h => by simp at h
  | k + 1, p, s, hg, h => by
    unfold loopXml2
    rw [if_neg (by rw [hg.2.1]; exact Bool.false_ne_true)]
    by_cases hl : s.rest.length < 4096
    · rw [read_short hg hl]
      dsimp only
      refine ⟨(feed p s.rest true).1, [.give s.rest true], ?_, .last _⟩
      unfold loopXml2
      simp
    · rw [read_long hg hl]
      dsimp only
      rw [hg.2.1]
      obtain ⟨q, evs, h1, h2⟩ := loopXml2_whole feed k (feed p (s.rest.take 4096) false).1
        { s with rest := s.rest.drop 4096, eof := false }
        ⟨hg.1, rfl, hg.2.2.1, hg.2.2.2⟩ (by
          show (s.rest.drop 4096).length < 4096 * k
          rw [List.length_drop]; omega)
      refine ⟨q, .give (s.rest.take 4096) false :: evs, ?_, ?_⟩
      · rw [h1]; rfl
      · have := Whole.more (s.rest.take 4096) _ evs (by
          intro he
          have := congrArg List.length he
          rw [List.length_take, List.length_nil] at this
          omega) h2
        rwa [List.take_append_drop] at this

/-- A stream that failed without reaching its end. -/
theorem loop_stuck (feed : Feed σ) (p : σ) (h0 : feed p [] false = (p, true)) : ∀ (k : Nat) (s : Stream),
    s.eof = false → (s.fail || s.bad) = true → loop feed k p s = none
  | 0, _, _, _ => rfl
  | k + 1, s, he, hf => by
    unfold loop
    rw [if_neg (by rw [he]; exact Bool.false_ne_true)]
    have hr : s.read (10 * 1024) = ({ s with fail := true }, []) := by
      unfold Stream.read
      rw [he, Bool.false_or, hf, if_pos rfl]
    rw [hr]
    dsimp only
    rw [he, h0]
    dsimp only
    rw [if_pos rfl, loop_stuck feed p h0 k { s with fail := true, eof := false } rfl rfl]
    rfl

theorem loopXml2_stuck (feed : Feed σ) : ∀ (k : Nat) (p : σ) (s : Stream),
    s.eof = false → (s.fail || s.bad) = true → loopXml2 feed k p s = none
  | 0, _, _, _, _ => rfl
  | k + 1, p, s, he, hf => by
    unfold loopXml2
    rw [if_neg (by rw [he]; exact Bool.false_ne_true)]
    have hr : s.read 4096 = ({ s with fail := true }, []) := by
      unfold Stream.read
      rw [he, Bool.false_or, hf, if_pos rfl]
    rw [hr]
    dsimp only
    rw [he, loopXml2_stuck feed k _ { s with fail := true, eof := false } rfl rfl]
    rfl

/-- A stream that breaks. -/
theorem loop_breaks (feed : Feed σ) (l : List Byte) (P : σ → Prop)
    (h0 : ∀ p bs, P p → bs <:+: l → (feed p bs false).2 = true ∧ P (feed p bs false).1) :
    ∀ (k : Nat) (p : σ) (s : Stream), P p → s.rest <:+ l → s.eof = false → s.breaks = true → loop feed k p s = none
  | 0, _, _, _, _, _, _ => rfl
  | k + 1, p, s, hp, hl, he, hb => by
    unfold loop
    rw [if_neg (by rw [he]; exact Bool.false_ne_true)]
    have hr : (s.read (10 * 1024)).1.eof = false ∧ (s.read (10 * 1024)).1.breaks = true ∧
        (s.read (10 * 1024)).1.rest <:+ l ∧ (s.read (10 * 1024)).2 <:+: l := by
      unfold Stream.read
      rw [he, hb]
      split
      · exact ⟨rfl, rfl, hl, List.nil_infix⟩
      · split
        · exact ⟨rfl, rfl, List.nil_suffix, List.nil_infix⟩
        · exact ⟨rfl, rfl, (List.drop_suffix _ _).trans hl, (List.take_prefix _ _).isInfix.trans hl.isInfix⟩
    obtain ⟨h1, h2, h3, h4⟩ := hr
    dsimp only
    rw [h1, if_pos (h0 _ _ hp h4).1, loop_breaks feed l P h0 k _ _ (h0 _ _ hp h4).2 h3 h1 h2]
    rfl

end Verif.ParseLoop
