import Verif.Lemmas.XsltMessage2
set_option autoImplicit false
set_option linter.unusedSimpArgs false
set_option linter.unusedVariables false
/-! Without warnings, all stands where it may. -/
namespace Verif.XsltMessage
open Verif.Xslt (Str QN Out)
open Verif.Spec.XsltMessage

/-- All that the outputs are given is proper, from the places they are at. -/
def Given (s : S) (inside outside main : Xslt.Instrs) : Prop :=
  (s.toMsg ≠ 0 → ∀ c, At c s.msg → (behinds c inside).isSome = true) ∧
  (s.toMsg = 0 → ∀ c d, At c s.msg → At d s.main → (behinds c outside).isSome = true ∧ (behinds d main).isSome = true)

theorem at_not_text {c : Place} {o : Out} (h : At c o) (hb : ¬ o.buffering ≠ 0) : c ≠ .text := by
  rintro rfl
  exact hb (by rw [show o.buffering = 1 from h]; simp)

/-- From what holds after the output in use was given something. -/
theorem given_put {s : S} {o : Out} {c' : Place} {bi bm bo : Xslt.Instrs} {i j : Xslt.Instr}
    (hg : Given (s.put o) bi bo bm) (ho : ∀ c, At c s.sink → At c' o)
    (hi : ∀ c, At c s.sink → (behinds c' bi).isSome = true → (behind c i).isSome = true)
    (hj : ∀ c, At c s.sink → (behinds c' bm).isSome = true → (behind c j).isSome = true) :
    Given s (.cons i .nil) bo (.cons j .nil) := by
  refine ⟨fun h0 c hc => ?_, fun h0 c d hc hd => ?_⟩
  · rw [behind_one]
    rw [← sink_msg _ h0] at hc
    exact hi c hc (hg.1 (by rw [put_toMsg]; exact h0) c' (by rw [put_msg _ _ h0]; exact ho c hc))
  · rw [behind_one]
    rw [← sink_main _ h0] at hd
    have := hg.2 (by rw [put_toMsg]; exact h0) c c' (by rw [put_msg' _ _ h0]; exact hc) (by rw [put_main _ _ h0]; exact ho d hd)
    exact ⟨this.1, hj d hd this.2⟩

/-- The same for an instruction without content. -/
theorem given_one {s : S} {i j : Xslt.Instr} (hi : ∀ c, At c s.sink → (behind c i).isSome = true)
    (hj : ∀ c, At c s.sink → (behind c j).isSome = true) : Given s (.cons i .nil) .nil (.cons j .nil) := by
  refine ⟨fun h0 c hc => ?_, fun h0 c d hc hd => ⟨by simp [behinds], ?_⟩⟩
  · rw [behind_one]
    rw [← sink_msg _ h0] at hc
    exact hi c hc
  · rw [behind_one]
    rw [← sink_main _ h0] at hd
    exact hj d hd

theorem body_quiet {s : S} {body : MInstrs} {o : Out} {g : S → Out}
    (h : (andThen (execs body (s.put o)) fun s => (s.put (g s), .on)).2 = .on)
    (hw : (andThen (execs body (s.put o)) fun s => (s.put (g s), .on)).1.warnings = s.warnings) :
    (execs body (s.put o)).2 = .on ∧ (execs body (s.put o)).1.warnings = (s.put o).warnings := by
  obtain ⟨h1, h2, -, -, -⟩ := quiet_split (frame_execs body (s.put o)) (b := false) (fun s' => frame_put s' (g s')) h
    (hw.trans (put_warnings s o).symm)
  exact ⟨h1, h2⟩

theorem first_of {o : Out} {c : Place} (h : At c o) (hb : ¬ o.buffering ≠ 0) (hp : ¬ o.pendingElement = false) : c = .first := by
  cases c with
  | first => rfl
  | text => exact absurd rfl (at_not_text h hb)
  | tree => exact absurd h.2.2.2 hp

mutual
theorem given_exec : ∀ (i : MInstr) (s : S), copies i = false → (exec i s).2 = .on → (exec i s).1.warnings = s.warnings →
    Given s (content i) (messages i) (without i)
  | .text t, s, hk, h, hw => by
    rw [content, messages, without]
    refine given_one (fun c _ => ?_) (fun c _ => ?_) <;> (rw [behind]; split <;> rfl)
  | .element p l u body, s, hk, h, hw => by
    rw [exec] at h hw
    rw [content, messages, without]
    by_cases hb : s.sink.buffering ≠ 0
    · rw [if_pos hb] at h hw
      exact absurd hw (warn_not h)
    · rw [if_neg hb] at h hw
      obtain ⟨h1, h2⟩ := body_quiet h hw
      refine given_put (c' := .first) (given_execs body _ (by rw [copies] at hk; exact hk) h1 h2)
        (fun c hc => (startElement_at p l u (at_not_text hc hb) hc).2) (fun c hc hs => ?_) (fun c hc hs => ?_) <;>
      · rw [behind, if_pos ⟨at_not_text hc hb, hs⟩]
        rfl
  | .attr p l u body, s, hk, h, hw => by
    rw [exec] at h hw
    rw [content, messages, without]
    obtain ⟨h1, h2, h3, h4, h5⟩ := quiet_split (frame_startAttribute p l u s) (b := terminatess body) (fun s' => by
        have := frame_andThen (frame_execs body s') (b := false)
          (f := fun s => (s.put (Xslt.endAttribute s.sink), .on)) fun s' _ => frame_put s' _
        simpa using this) h hw
    have hb : ¬ s.sink.buffering ≠ 0 := by
      intro hb
      unfold startAttribute at h1 h2
      rw [if_pos hb] at h1 h2
      obtain ⟨h7, h8⟩ := andThen_on h1
      rw [h8] at h2
      exact absurd ((put_warnings _ _).symm.trans h2) (warn_not h7)
    have hp : ¬ s.sink.pendingElement = false := by
      intro hp
      unfold startAttribute at h1 h2
      rw [if_neg hb] at h1 h2
      dsimp only at h1 h2
      rw [if_pos hp] at h1 h2
      exact absurd (h2.trans (put_warnings s _).symm) (warn_not h1)
    rw [startAttribute_quiet h1 h2] at h3 h4
    obtain ⟨h6, h7⟩ := body_quiet h3 (h4.trans (put_warnings _ _))
    refine given_put (c' := .text) (given_execs body _ (by rw [copies] at hk; exact hk) h6 h7)
      (fun c hc => ?_) (fun c hc hs => ?_) (fun c hc hs => ?_)
    · rw [first_of hc hb hp] at hc
      exact (startAttribute_at p l u hc).1
    · rw [behind, if_pos ⟨first_of hc hb hp, hs⟩]
      rfl
    · rw [behind, if_pos ⟨first_of hc hb hp, hs⟩]
      rfl
  | .copyAttribute u l q v, s, hk, h, hw => by
    rw [copies] at hk
    cases hk
  | .comment body, s, hk, h, hw => by
    rw [exec] at h hw
    rw [content, messages, without]
    obtain ⟨h1, h2, h3, h4, h5⟩ := quiet_split (frame_warnIfBuffering s) (b := terminatess body)
      (fun s' => frame_body _ (fun s => frame_execs body s) _) h hw
    have hb : ¬ s.sink.buffering ≠ 0 := by
      intro hb
      unfold warnIfBuffering at h1 h2
      rw [if_pos hb] at h1 h2
      exact absurd h2 (warn_not h1)
    rw [warnIfBuffering_quiet h1 h2] at h3 h4
    obtain ⟨h6, h7⟩ := body_quiet h3 h4
    refine given_put (c' := .text) (given_execs body _ (by rw [copies] at hk; exact hk) h6 h7)
      (fun c hc => (startComment_at (at_not_text hc hb) hc).1) (fun c hc hs => ?_) (fun c hc hs => ?_) <;>
    · rw [behind, if_pos ⟨at_not_text hc hb, hs⟩]
      rfl
  | .pi t body, s, hk, h, hw => by
    rw [exec] at h hw
    rw [content, messages, without]
    obtain ⟨h1, h2, h3, h4, h5⟩ := quiet_split (frame_warnIfBuffering s) (b := terminatess body)
      (fun s' => frame_body _ (fun s => frame_execs body s) _) h hw
    have hb : ¬ s.sink.buffering ≠ 0 := by
      intro hb
      unfold warnIfBuffering at h1 h2
      rw [if_pos hb] at h1 h2
      exact absurd h2 (warn_not h1)
    rw [warnIfBuffering_quiet h1 h2] at h3 h4
    obtain ⟨h6, h7⟩ := body_quiet h3 h4
    refine given_put (c' := .text) (given_execs body _ (by rw [copies] at hk; exact hk) h6 h7)
      (fun c hc => (startPI_at t (at_not_text hc hb) hc).1) (fun c hc hs => ?_) (fun c hc hs => ?_) <;>
    · rw [behind, if_pos ⟨at_not_text hc hb, hs⟩]
      rfl
  | .message t body, s, hk, h, hw => by
    rw [exec] at h hw
    dsimp only at h hw
    rw [content, messages, without]
    obtain ⟨h1, h2⟩ := andThen_on h
    rw [h2] at hw
    have := (given_execs body { s with toMsg := s.toMsg + 1 } (by rw [copies] at hk; exact hk) h1 hw).1 (by simp)
    exact ⟨fun _ => this, fun _ c d hc hd => ⟨this c hc, by simp [behinds]⟩⟩
theorem given_execs : ∀ (is : MInstrs) (s : S), copiess is = false → (execs is s).2 = .on → (execs is s).1.warnings = s.warnings →
    Given s (contents is) (messagess is) (withouts is)
  | .nil, s, hk, h, hw => by
    rw [contents, messagess, withouts]
    exact ⟨fun _ c _ => by simp [behinds], fun _ c d _ _ => ⟨by simp [behinds], by simp [behinds]⟩⟩
  | .cons i rest, s, hk, h, hw => by
    rw [execs] at h hw
    rw [copiess, Bool.or_eq_false_iff] at hk
    rw [contents, messagess, withouts]
    obtain ⟨h1, h2, h3, h4, h5⟩ := quiet_split (frame_exec i s) (b := terminatess rest) (fun s' => frame_execs rest s') h hw
    have ha := given_exec i s hk.1 h1 h2
    have hb := given_execs rest _ hk.2 h3 h4
    have hsay := says_exec i s h1 h2
    have ht := (frame_exec i s).toMsg
    refine ⟨fun h0 c hc => ?_, fun h0 c d hc hd => ?_⟩
    · obtain ⟨c', hc'⟩ := Option.isSome_iff_exists.mp (ha.1 h0 c hc)
      rw [behinds_join, hc']
      exact hb.1 (by rw [ht]; exact h0) c' (by rw [hsay.1 h0]; exact at_execs _ _ _ _ hc' hc)
    · have := ha.2 h0 c d hc hd
      obtain ⟨c', hc'⟩ := Option.isSome_iff_exists.mp this.1
      obtain ⟨d', hd'⟩ := Option.isSome_iff_exists.mp this.2
      rw [behinds_join, hc', behinds_join, hd']
      exact hb.2 (by rw [ht]; exact h0) c' d' (by rw [hsay.2 h0]; exact at_execs _ _ _ _ hc' hc)
        (by rw [main_exec i s h0 h1]; exact at_execs _ _ _ _ hd' hd)
end

end Verif.XsltMessage
