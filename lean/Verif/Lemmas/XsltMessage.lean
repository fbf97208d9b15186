import Verif.Spec.XsltMessage
set_option autoImplicit false
set_option linter.unusedSimpArgs false
set_option linter.unusedVariables false
namespace Verif.XsltMessage
open Verif.Xslt (Str QN Out)
open Verif.Spec.XsltMessage

theorem xexecs_join : ∀ (a b : Xslt.Instrs) (s : Out), Xslt.execs s (join a b) = Xslt.execs (Xslt.execs s a) b
  | .nil, b, s => by simp [join, Xslt.execs]
  | .cons i a, b, s => by rw [join, Xslt.execs, Xslt.execs, xexecs_join a b]

theorem xexecs_one (i : Xslt.Instr) (s : Out) : Xslt.execs s (.cons i .nil) = Xslt.exec s i := by
  rw [Xslt.execs, Xslt.execs]

theorem andThen_on {r : S × Status} {f : S → S × Status} (h : (andThen r f).2 = .on) :
    r.2 = .on ∧ andThen r f = f r.1 := by
  unfold andThen at h ⊢
  split at h <;> simp_all

theorem put_toMsg (s : S) (o : Out) : (s.put o).toMsg = s.toMsg := by unfold S.put; split <;> rfl
theorem put_hasSink (s : S) (o : Out) : (s.put o).hasSink = s.hasSink := by unfold S.put; split <;> rfl
theorem put_warnings (s : S) (o : Out) : (s.put o).warnings = s.warnings := by unfold S.put; split <;> rfl
theorem sink_put (s : S) (o : Out) : (s.put o).sink = o := by
  unfold S.sink
  rw [put_toMsg]
  unfold S.put
  split <;> rfl
theorem put_main (s : S) (o : Out) (h : s.toMsg = 0) : (s.put o).main = o := by unfold S.put; rw [if_pos h]
theorem put_main' (s : S) (o : Out) (h : s.toMsg ≠ 0) : (s.put o).main = s.main := by unfold S.put; rw [if_neg h]
theorem put_msg (s : S) (o : Out) (h : s.toMsg ≠ 0) : (s.put o).msg = o := by unfold S.put; rw [if_neg h]
theorem put_msg' (s : S) (o : Out) (h : s.toMsg = 0) : (s.put o).msg = s.msg := by unfold S.put; rw [if_pos h]
theorem sink_main (s : S) (h : s.toMsg = 0) : s.sink = s.main := if_pos h
theorem sink_msg (s : S) (h : s.toMsg ≠ 0) : s.sink = s.msg := if_neg h

theorem warn_frame (w : Str) (s : S) : (warn w s).1.toMsg = s.toMsg ∧ (warn w s).1.main = s.main ∧
    s.warnings ≤ (warn w s).1.warnings ∧ ((warn w s).2 = .on → s.warnings < (warn w s).1.warnings) ∧
    (s.hasSink = true → (warn w s).2 = .on) ∧ (warn w s).1.hasSink = s.hasSink ∧ (warn w s).2 ≠ .thrown := by
  unfold warn
  split
  · simp
  · simp_all

/-- Whatever happens, this many are redirected as before, warnings are not taken back, and only null pointers and
messages that terminate end it. -/
structure Frame (s : S) (t : Bool) (r : S × Status) : Prop where
  toMsg : r.1.toMsg = s.toMsg
  hasSink : r.1.hasSink = s.hasSink
  warnings : s.warnings ≤ r.1.warnings
  on : s.hasSink = true → t = false → r.2 = .on
  thrown : r.2 = .thrown → t = true
  stays : r.2 = .on → s.warnings = r.1.warnings → t = false
  main : s.toMsg ≠ 0 → r.1.main = s.main

theorem frame_andThen {s : S} {a b : Bool} {r : S × Status} {f : S → S × Status} (h : Frame s a r)
    (hf : ∀ s', s'.toMsg = s.toMsg → Frame s' b (f s')) : Frame s (a || b) (andThen r f) := by
  unfold andThen
  obtain ⟨s1, st⟩ := r
  cases st with
  | on =>
    have h2 := hf s1 h.toMsg
    refine ⟨h2.toMsg.trans h.toMsg, h2.hasSink.trans h.hasSink, Nat.le_trans h.warnings h2.warnings, ?_, ?_, ?_, ?_⟩
    · intro hs hab
      simp only [Bool.or_eq_false_iff] at hab
      exact h2.on (h.hasSink.trans hs) hab.2
    · intro ht; rw [h2.thrown ht, Bool.or_true]
    · intro ho hw
      have h3 := h.warnings
      have h4 := h2.warnings
      simp only at h3 h4 hw ⊢
      rw [h.stays rfl (by simp only; omega), h2.stays ho (by omega)]
      rfl
    · intro hm
      exact (h2.main (by rw [h.toMsg]; exact hm)).trans (h.main hm)
  | thrown =>
    refine ⟨h.toMsg, h.hasSink, h.warnings, ?_, ?_, ?_, h.main⟩
    · intro hs hab
      simp only [Bool.or_eq_false_iff] at hab
      exact h.on hs hab.1
    · intro ht; rw [h.thrown ht, Bool.true_or]
    · intro ho; cases ho
  | undefined =>
    refine ⟨h.toMsg, h.hasSink, h.warnings, ?_, ?_, ?_, h.main⟩
    · intro hs hab
      simp only [Bool.or_eq_false_iff] at hab
      exact h.on hs hab.1
    · intro ht; cases ht
    · intro ho; cases ho

theorem frame_put (s : S) (o : Out) : Frame s false (s.put o, .on) :=
  ⟨put_toMsg s o, put_hasSink s o, Nat.le_of_eq (put_warnings s o).symm, fun _ _ => rfl, (fun h => by cases h),
    fun _ _ => rfl, put_main' s o⟩

theorem frame_refl (s : S) : Frame s false (s, .on) :=
  ⟨rfl, rfl, Nat.le_refl _, fun _ _ => rfl, (fun h => by cases h), fun _ _ => rfl, fun _ => rfl⟩

theorem frame_warn (w : Str) (s : S) : Frame s false (warn w s) := by
  obtain ⟨h1, h2, h3, h4, h5, h6, h7⟩ := warn_frame w s
  exact ⟨h1, h6, h3, fun h _ => h5 h, fun h => absurd h h7, fun _ _ => rfl, fun _ => h2⟩

/-- A warning excuses what is not carried out. -/
theorem frame_skip (w : Str) (s : S) (t : Bool) : Frame s t (warn w s) := by
  obtain ⟨h1, h2, h3, h4, h5, h6, h7⟩ := warn_frame w s
  exact ⟨h1, h6, h3, fun h _ => h5 h, fun h => absurd h h7, fun ho hw => absurd (h4 ho) (by omega), fun _ => h2⟩

theorem frame_startAttribute (p l u : Str) (s : S) : Frame s false (startAttribute p l u s) := by
  unfold startAttribute
  split
  · exact frame_andThen (frame_warn _ s) fun s' _ => frame_put s' _
  · dsimp only
    split
    · have := frame_andThen (frame_put s (Xslt.startAttribute s.sink p l u)) (b := false) (f := warn noElement)
        fun s' _ => frame_warn _ s'
      exact this
    · exact frame_put s _

theorem frame_addAttribute (u l : Str) (q : QN) (v : Str) (s : S) : Frame s false (addAttribute u l q v s) := by
  unfold addAttribute
  split
  · exact frame_warn _ s
  · exact frame_put s _

theorem frame_warnIfBuffering (s : S) : Frame s false (warnIfBuffering s) := by
  unfold warnIfBuffering
  split
  · exact frame_warn _ s
  · exact frame_refl s

theorem frame_body {s : S} {t : Bool} {f : S → S × Status} (o : Out) (hb : ∀ s, Frame s t (f s)) (g : S → Out) :
    Frame s t (andThen (f (s.put o)) fun s => (s.put (g s), .on)) := by
  have h := frame_andThen (frame_put s o) (b := t) (f := f) fun s' _ => hb s'
  have h2 := frame_andThen h (b := false) (f := fun s => (s.put (g s), .on)) fun s' _ => frame_put s' _
  simpa [andThen] using h2

mutual
theorem frame_exec : ∀ (i : MInstr) (s : S), Frame s (terminates i) (exec i s)
  | .text t, s => by rw [exec, terminates]; exact frame_put s _
  | .element p l u body, s => by
    rw [exec, terminates]
    split
    · exact frame_skip _ s _
    · exact frame_body _ (fun s => frame_execs body s) _
  | .attr p l u body, s => by
    rw [exec, terminates]
    have := frame_andThen (frame_startAttribute p l u s) (b := terminatess body)
      (f := fun s => andThen (execs body s) fun s => (s.put (Xslt.endAttribute s.sink), .on)) fun s' _ => by
        have := frame_andThen (frame_execs body s') (b := false)
          (f := fun s => (s.put (Xslt.endAttribute s.sink), .on)) fun s' _ => frame_put s' _
        simpa using this
    simpa using this
  | .copyAttribute u l q v, s => by rw [exec, terminates]; exact frame_addAttribute u l q v s
  | .comment body, s => by
    rw [exec, terminates]
    have := frame_andThen (frame_warnIfBuffering s) (b := terminatess body)
      (f := fun s => andThen (execs body (s.put (Xslt.startComment s.sink))) fun s => (s.put (Xslt.endComment s.sink), .on))
      fun s' _ => frame_body _ (fun s => frame_execs body s) _
    simpa using this
  | .pi t body, s => by
    rw [exec, terminates]
    have := frame_andThen (frame_warnIfBuffering s) (b := terminatess body)
      (f := fun s => andThen (execs body (s.put (Xslt.startPI s.sink t))) fun s => (s.put (Xslt.endPI s.sink), .on))
      fun s' _ => frame_body _ (fun s => frame_execs body s) _
    simpa using this
  | .message t body, s => by
    rw [exec, terminates]
    have h := frame_execs body { s with toMsg := s.toMsg + 1 }
    generalize execs body { s with toMsg := s.toMsg + 1 } = r at h
    obtain ⟨s1, st⟩ := r
    have h1 : s1.toMsg = s.toMsg + 1 := h.toMsg
    have h2 : s1.hasSink = s.hasSink := h.hasSink
    have h3 : s.warnings ≤ s1.warnings := h.warnings
    have h4 : s1.main = s.main := h.main (by simp)
    cases st with
    | on =>
      have h5 : s.warnings = s1.warnings → terminatess body = false := fun e => h.stays rfl e
      refine ⟨?_, h2, h3, ?_, ?_, ?_, fun _ => h4⟩
      · simp [andThen, h1]
      · intro _ ht
        simp only [Bool.or_eq_false_iff] at ht
        simp [andThen, ht.1]
      · intro ht
        cases t with
        | true => rfl
        | false => simp [andThen] at ht
      · intro ho hw
        cases t with
        | true => simp [andThen] at ho
        | false => simpa using h5 hw
    | thrown =>
      refine ⟨?_, h2, h3, ?_, ?_, ?_, fun _ => h4⟩
      · simp [andThen, h1]
      · intro hs ht
        simp only [Bool.or_eq_false_iff] at ht
        exact h.on hs ht.2
      · intro _; rw [h.thrown rfl, Bool.or_true]
      · intro ho; cases ho
    | undefined =>
      refine ⟨?_, h2, h3, ?_, ?_, ?_, fun _ => h4⟩
      · simp [andThen, h1]
      · intro hs ht
        simp only [Bool.or_eq_false_iff] at ht
        exact h.on hs ht.2
      · intro ht; cases ht
      · intro ho; cases ho
theorem frame_execs : ∀ (is : MInstrs) (s : S), Frame s (terminatess is) (execs is s)
  | .nil, s => by rw [execs, terminatess]; exact frame_refl s
  | .cons i rest, s => by
    rw [execs, terminatess]
    exact frame_andThen (frame_exec i s) fun s' _ => frame_execs rest s'
end

/-! the result -/

/-- `s.put o`, then `f`, then `g`. -/
theorem main_body {s : S} (h0 : s.toMsg = 0) {body : MInstrs} {o : Out} {g : Out → Out}
    (ih : ∀ s, s.toMsg = 0 → (execs body s).2 = .on → (execs body s).1.main = Xslt.execs s.main (withouts body))
    (h : (andThen (execs body (s.put o)) fun s => (s.put (g s.sink), .on)).2 = .on) :
    (andThen (execs body (s.put o)) fun s => (s.put (g s.sink), .on)).1.main = g (Xslt.execs o (withouts body)) := by
  obtain ⟨h1, h2⟩ := andThen_on h
  rw [h2]
  have h3 : (s.put o).toMsg = 0 := (put_toMsg s o).trans h0
  have h4 : (execs body (s.put o)).1.toMsg = 0 := (frame_execs body _).toMsg.trans h3
  show ((execs body (s.put o)).1.put _).main = _
  rw [put_main _ _ h4, sink_main _ h4, ih _ h3 h1, put_main _ _ h0]

mutual
theorem main_exec : ∀ (i : MInstr) (s : S), s.toMsg = 0 → (exec i s).2 = .on →
    (exec i s).1.main = Xslt.execs s.main (without i)
  | .text t, s, h0, h => by
    rw [exec, without, xexecs_one, Xslt.exec, put_main _ _ h0, sink_main _ h0]
  | .element p l u body, s, h0, h => by
    rw [exec] at h ⊢
    rw [without, xexecs_one, Xslt.exec]
    by_cases hb : s.sink.buffering ≠ 0
    · rw [if_pos hb] at h ⊢
      rw [sink_main _ h0] at hb
      rw [(warn_frame _ s).2.1]
      simp [Xslt.startElement, hb]
    · rw [if_neg hb] at h ⊢
      rw [main_body (g := fun o => Xslt.endElement o l u) h0 (fun s => main_execs body s) h]
      rw [sink_main _ h0] at hb ⊢
      have e : (Xslt.startElement s.main p l u).1 = true := by
        unfold Xslt.startElement
        rw [if_neg hb]
      rw [if_pos e]
  | .attr p l u body, s, h0, h => by
    rw [exec] at h ⊢
    rw [without, xexecs_one, Xslt.exec]
    obtain ⟨h1, h2⟩ := andThen_on h
    rw [h2] at h ⊢
    obtain ⟨h3, h4⟩ := andThen_on h
    rw [h4]
    have hf := frame_startAttribute p l u s
    have h5 : (startAttribute p l u s).1.toMsg = 0 := hf.toMsg.trans h0
    have h6 := (frame_execs body (startAttribute p l u s).1).toMsg.trans h5
    dsimp only
    rw [put_main _ _ h6, sink_main _ h6, main_execs body _ h5 h3]
    have : (startAttribute p l u s).1.main = Xslt.startAttribute s.main p l u := by
      unfold startAttribute at h1 ⊢
      by_cases hb : s.sink.buffering ≠ 0
      · rw [if_pos hb] at h1 ⊢
        obtain ⟨h7, h8⟩ := andThen_on h1
        rw [h8]
        have h9 : (warn notText s).1.toMsg = 0 := (warn_frame _ s).1.trans h0
        dsimp only
        rw [put_main _ _ h9, sink_main _ h9, (warn_frame _ s).2.1]
      · rw [if_neg hb]
        dsimp only
        split
        · rw [(warn_frame _ _).2.1, put_main _ _ h0, sink_main _ h0]
        · rw [put_main _ _ h0, sink_main _ h0]
    rw [this]
  | .copyAttribute u l q v, s, h0, h => by
    rw [exec, without, xexecs_one, Xslt.exec, addAttribute]
    rw [sink_main _ h0]
    split
    · rename_i hp
      rw [(warn_frame _ s).2.1]
      simp [Xslt.addAttribute, hp]
    · rw [put_main _ _ h0]
  | .comment body, s, h0, h => by
    rw [exec] at h ⊢
    rw [without, xexecs_one, Xslt.exec]
    obtain ⟨h1, h2⟩ := andThen_on h
    rw [h2] at h ⊢
    have hf := frame_warnIfBuffering s
    have h5 : (warnIfBuffering s).1.toMsg = 0 := hf.toMsg.trans h0
    rw [main_body (g := Xslt.endComment) h5 (fun s => main_execs body s) h, sink_main _ h5]
    have : (warnIfBuffering s).1.main = s.main := by
      unfold warnIfBuffering
      split
      · exact (warn_frame _ s).2.1
      · rfl
    rw [this]
  | .pi t body, s, h0, h => by
    rw [exec] at h ⊢
    rw [without, xexecs_one, Xslt.exec]
    obtain ⟨h1, h2⟩ := andThen_on h
    rw [h2] at h ⊢
    have hf := frame_warnIfBuffering s
    have h5 : (warnIfBuffering s).1.toMsg = 0 := hf.toMsg.trans h0
    rw [main_body (g := Xslt.endPI) h5 (fun s => main_execs body s) h, sink_main _ h5]
    have : (warnIfBuffering s).1.main = s.main := by
      unfold warnIfBuffering
      split
      · exact (warn_frame _ s).2.1
      · rfl
    rw [this]
  | .message t body, s, h0, h => by
    rw [without, Xslt.execs]
    rw [exec]
    show (andThen _ _).1.main = _
    have hm := (frame_execs body { s with toMsg := s.toMsg + 1 }).main (by simp)
    unfold andThen
    split
    · exact hm
    · exact hm
theorem main_execs : ∀ (is : MInstrs) (s : S), s.toMsg = 0 → (execs is s).2 = .on →
    (execs is s).1.main = Xslt.execs s.main (withouts is)
  | .nil, s, h0, h => by rw [execs, withouts, Xslt.execs]
  | .cons i rest, s, h0, h => by
    rw [execs] at h ⊢
    obtain ⟨h1, h2⟩ := andThen_on h
    rw [h2] at h ⊢
    rw [main_execs rest _ ((frame_exec i s).toMsg.trans h0) h, main_exec i s h0 h1, withouts, xexecs_join]
end

/-! the messages -/

/-- Nothing was warned of. -/
theorem warn_not {w : Str} {s : S} (h : (warn w s).2 = .on) : (warn w s).1.warnings ≠ s.warnings := by
  have := (warn_frame w s).2.2.2.1 h
  omega

theorem startAttribute_quiet {p l u : Str} {s : S} (h : (startAttribute p l u s).2 = .on)
    (hw : (startAttribute p l u s).1.warnings = s.warnings) :
    startAttribute p l u s = (s.put (Xslt.startAttribute s.sink p l u), .on) := by
  unfold startAttribute at h hw ⊢
  split
  · rename_i hb
    rw [if_pos hb] at h hw
    obtain ⟨h1, h2⟩ := andThen_on h
    rw [h2] at hw
    exact absurd ((put_warnings _ _).symm.trans hw) (warn_not h1)
  · rename_i hb
    rw [if_neg hb] at h hw
    dsimp only at h hw ⊢
    split
    · rename_i hp
      rw [if_pos hp] at h hw
      exact absurd (hw.trans (put_warnings s _).symm) (warn_not h)
    · rfl

theorem warnIfBuffering_quiet {s : S} (h : (warnIfBuffering s).2 = .on) (hw : (warnIfBuffering s).1.warnings = s.warnings) :
    warnIfBuffering s = (s, .on) := by
  unfold warnIfBuffering at h hw ⊢
  split
  · rename_i hb
    rw [if_pos hb] at h hw
    exact absurd hw (warn_not h)
  · rfl

/-- Between two counts that are the same. -/
theorem quiet_split {s : S} {a b : Bool} {r : S × Status} {f : S → S × Status} (hr : Frame s a r)
    (hf : ∀ s, Frame s b (f s)) (h : (andThen r f).2 = .on) (hw : (andThen r f).1.warnings = s.warnings) :
    r.2 = .on ∧ r.1.warnings = s.warnings ∧ (f r.1).2 = .on ∧ (f r.1).1.warnings = r.1.warnings ∧ andThen r f = f r.1 := by
  obtain ⟨h1, h2⟩ := andThen_on h
  rw [h2] at h hw
  have h3 := hr.warnings
  have h4 := (hf r.1).warnings
  exact ⟨h1, by omega, h, by omega, h2⟩

/-- What is written as messages: inside of a message, and outside. -/
def Says (s : S) (inside outside : Xslt.Instrs) (r : S × Status) : Prop :=
  (s.toMsg ≠ 0 → r.1.msg = Xslt.execs s.msg inside) ∧ (s.toMsg = 0 → r.1.msg = Xslt.execs s.msg outside)

theorem says_body {s : S} {body : MInstrs} {o : Out} {g : Out → Out}
    (ih : ∀ s, (execs body s).2 = .on → (execs body s).1.warnings = s.warnings →
      Says s (contents body) (messagess body) (execs body s))
    (h : (andThen (execs body (s.put o)) fun s => (s.put (g s.sink), .on)).2 = .on)
    (hw : (andThen (execs body (s.put o)) fun s => (s.put (g s.sink), .on)).1.warnings = s.warnings) :
    (s.toMsg ≠ 0 → (andThen (execs body (s.put o)) fun s => (s.put (g s.sink), .on)).1.msg =
      g (Xslt.execs o (contents body))) ∧
    (s.toMsg = 0 → (andThen (execs body (s.put o)) fun s => (s.put (g s.sink), .on)).1.msg =
      Xslt.execs s.msg (messagess body)) := by
  obtain ⟨h1, h2, -, -, h5⟩ := quiet_split (frame_execs body (s.put o)) (b := false) (fun s' => frame_put s' (g s'.sink)) h
    (hw.trans (put_warnings s o).symm)
  have hi := ih _ h1 h2
  have ht := (frame_execs body (s.put o)).toMsg
  rw [put_toMsg] at ht
  rw [h5]
  dsimp only
  refine ⟨fun h0 => ?_, fun h0 => ?_⟩
  · rw [put_msg _ _ (by rw [ht]; exact h0), sink_msg _ (by rw [ht]; exact h0), hi.1 (by rw [put_toMsg]; exact h0), put_msg _ _ h0]
  · rw [put_msg' _ _ (by rw [ht]; exact h0), hi.2 (by rw [put_toMsg]; exact h0), put_msg' _ _ h0]

mutual
theorem says_exec : ∀ (i : MInstr) (s : S), (exec i s).2 = .on → (exec i s).1.warnings = s.warnings →
    Says s (content i) (messages i) (exec i s)
  | .text t, s, h, hw => by
    rw [exec, content, messages]
    refine ⟨fun h0 => ?_, fun h0 => ?_⟩
    · rw [xexecs_one, Xslt.exec, put_msg _ _ h0, sink_msg _ h0]
    · rw [Xslt.execs, put_msg' _ _ h0]
  | .element p l u body, s, h, hw => by
    rw [exec] at h hw ⊢
    rw [content, messages]
    by_cases hb : s.sink.buffering ≠ 0
    · rw [if_pos hb] at h hw
      exact absurd hw (warn_not h)
    · rw [if_neg hb] at h hw ⊢
      have := says_body (g := fun o => Xslt.endElement o l u) (fun s => says_execs body s) h hw
      refine ⟨fun h0 => ?_, this.2⟩
      rw [this.1 h0, xexecs_one, Xslt.exec]
      rw [sink_msg _ h0] at hb ⊢
      have e : (Xslt.startElement s.msg p l u).1 = true := by
        unfold Xslt.startElement
        rw [if_neg hb]
      rw [if_pos e]
  | .attr p l u body, s, h, hw => by
    rw [exec] at h hw ⊢
    rw [content, messages]
    obtain ⟨h1, h2, h3, h4, h5⟩ := quiet_split (frame_startAttribute p l u s) (b := terminatess body) (fun s' => by
        have := frame_andThen (frame_execs body s') (b := false)
          (f := fun s => (s.put (Xslt.endAttribute s.sink), .on)) fun s' _ => frame_put s' _
        simpa using this) h hw
    rw [h5]
    rw [startAttribute_quiet h1 h2] at h3 h4 ⊢
    have := says_body (g := Xslt.endAttribute) (fun s => says_execs body s) h3 (h4.trans (put_warnings _ _))
    refine ⟨fun h0 => ?_, this.2⟩
    dsimp only
    rw [this.1 h0, xexecs_one, Xslt.exec, sink_msg _ h0]
  | .copyAttribute u l q v, s, h, hw => by
    rw [exec, addAttribute] at h hw ⊢
    rw [content, messages]
    split
    · rename_i hp
      rw [if_pos hp] at h hw
      exact absurd hw (warn_not h)
    · refine ⟨fun h0 => ?_, fun h0 => ?_⟩
      · rw [xexecs_one, Xslt.exec, put_msg _ _ h0, sink_msg _ h0]
      · rw [Xslt.execs, put_msg' _ _ h0]
  | .comment body, s, h, hw => by
    rw [exec] at h hw ⊢
    rw [content, messages]
    obtain ⟨h1, h2, h3, h4, h5⟩ := quiet_split (frame_warnIfBuffering s) (b := terminatess body)
      (fun s' => frame_body _ (fun s => frame_execs body s) _) h hw
    rw [h5]
    rw [warnIfBuffering_quiet h1 h2] at h3 h4 ⊢
    have := says_body (g := Xslt.endComment) (fun s => says_execs body s) h3 h4
    refine ⟨fun h0 => ?_, this.2⟩
    dsimp only
    rw [this.1 h0, xexecs_one, Xslt.exec, sink_msg _ h0]
  | .pi t body, s, h, hw => by
    rw [exec] at h hw ⊢
    rw [content, messages]
    obtain ⟨h1, h2, h3, h4, h5⟩ := quiet_split (frame_warnIfBuffering s) (b := terminatess body)
      (fun s' => frame_body _ (fun s => frame_execs body s) _) h hw
    rw [h5]
    rw [warnIfBuffering_quiet h1 h2] at h3 h4 ⊢
    have := says_body (g := Xslt.endPI) (fun s => says_execs body s) h3 h4
    refine ⟨fun h0 => ?_, this.2⟩
    dsimp only
    rw [this.1 h0, xexecs_one, Xslt.exec, sink_msg _ h0]
  | .message t body, s, h, hw => by
    rw [exec] at h hw ⊢
    dsimp only at h hw ⊢
    rw [content, messages]
    obtain ⟨h1, h2⟩ := andThen_on h
    rw [h2] at hw ⊢
    have := (says_execs body { s with toMsg := s.toMsg + 1 } h1 hw).1 (by simp)
    exact ⟨fun _ => this, fun _ => this⟩
theorem says_execs : ∀ (is : MInstrs) (s : S), (execs is s).2 = .on → (execs is s).1.warnings = s.warnings →
    Says s (contents is) (messagess is) (execs is s)
  | .nil, s, h, hw => by
    rw [execs, contents, messagess]
    exact ⟨fun _ => by rw [Xslt.execs], fun _ => by rw [Xslt.execs]⟩
  | .cons i rest, s, h, hw => by
    rw [execs] at h hw ⊢
    rw [contents, messagess]
    obtain ⟨h1, h2, h3, h4, h5⟩ := quiet_split (frame_exec i s) (b := terminatess rest) (fun s' => frame_execs rest s') h hw
    rw [h5]
    have ha := says_exec i s h1 h2
    have hb := says_execs rest _ h3 h4
    have ht := (frame_exec i s).toMsg
    refine ⟨fun h0 => ?_, fun h0 => ?_⟩
    · rw [hb.1 (by rw [ht]; exact h0), ha.1 h0, xexecs_join]
    · rw [hb.2 (by rw [ht]; exact h0), ha.2 h0, xexecs_join]
end

/-! no warning sink -/

/-- Without a warning sink nothing is counted. -/
def Quiet (s : S) (r : S × Status) : Prop := s.hasSink = false → r.1.hasSink = false ∧ r.1.warnings = s.warnings

theorem quiet_warn (w : Str) (s : S) : Quiet s (warn w s) := by
  intro h
  unfold warn
  rw [h]
  exact ⟨h, rfl⟩

theorem quiet_put (s : S) (o : Out) (st : Status) : Quiet s (s.put o, st) :=
  fun h => ⟨(put_hasSink s o).trans h, put_warnings s o⟩

theorem quiet_andThen {s : S} {r : S × Status} {f : S → S × Status} (h : Quiet s r) (hf : ∀ s, Quiet s (f s)) :
    Quiet s (andThen r f) := by
  intro hs
  obtain ⟨h1, h2⟩ := h hs
  unfold andThen
  split
  · exact ⟨(hf _ h1).1, (hf _ h1).2.trans h2⟩
  · exact ⟨h1, h2⟩

theorem quiet_body {s : S} {f : S → S × Status} (o : Out) (hb : ∀ s, Quiet s (f s)) (g : S → Out) :
    Quiet s (andThen (f (s.put o)) fun s => (s.put (g s), .on)) := by
  have h := quiet_andThen (quiet_put s o .on) hb
  exact quiet_andThen h fun s => quiet_put s _ _

theorem quiet_warnIfBuffering (s : S) : Quiet s (warnIfBuffering s) := by
  unfold warnIfBuffering
  split
  · exact quiet_warn _ s
  · exact fun h => ⟨h, rfl⟩

theorem quiet_startAttribute (p l u : Str) (s : S) : Quiet s (startAttribute p l u s) := by
  unfold startAttribute
  split
  · exact quiet_andThen (quiet_warn _ s) fun s' => quiet_put s' _ _
  · dsimp only
    split
    · exact quiet_andThen (quiet_put s _ .on) fun s' => quiet_warn noElement s'
    · exact quiet_put s _ _

mutual
theorem quiet_exec : ∀ (i : MInstr) (s : S), Quiet s (exec i s)
  | .text t, s => by rw [exec]; exact quiet_put s _ _
  | .element p l u body, s => by
    rw [exec]
    split
    · exact quiet_warn _ s
    · exact quiet_body _ (fun s => quiet_execs body s) _
  | .attr p l u body, s => by
    rw [exec]
    exact quiet_andThen (quiet_startAttribute p l u s) fun s => quiet_andThen (quiet_execs body s) fun s => quiet_put s _ _
  | .copyAttribute u l q v, s => by
    rw [exec, addAttribute]
    split
    · exact quiet_warn _ s
    · exact quiet_put s _ _
  | .comment body, s => by
    rw [exec]
    exact quiet_andThen (quiet_warnIfBuffering s) fun s => quiet_body _ (fun s => quiet_execs body s) _
  | .pi t body, s => by
    rw [exec]
    exact quiet_andThen (quiet_warnIfBuffering s) fun s => quiet_body _ (fun s => quiet_execs body s) _
  | .message t body, s => by
    rw [exec]
    intro hs
    have h := quiet_andThen (f := fun s => (s, if t then .thrown else .on))
      (quiet_execs body { s with toMsg := s.toMsg + 1 }) (fun s h => ⟨h, rfl⟩) hs
    exact h
theorem quiet_execs : ∀ (is : MInstrs) (s : S), Quiet s (execs is s)
  | .nil, s => by rw [execs]; exact fun h => ⟨h, rfl⟩
  | .cons i rest, s => by
    rw [execs]
    exact quiet_andThen (quiet_exec i s) fun s => quiet_execs rest s
end

theorem noSink_execs (is : MInstrs) (s : S) (h : s.hasSink = false) : (execs is s).1.warnings = s.warnings :=
  (quiet_execs is s h).2

/-! a warning sink -/

/-- With a warning sink there is no null pointer. -/
def Safe (s : S) (r : S × Status) : Prop := s.hasSink = true → r.1.hasSink = true ∧ r.2 ≠ .undefined

theorem safe_warn (w : Str) (s : S) : Safe s (warn w s) := by
  intro h
  unfold warn
  rw [if_pos h]
  exact ⟨h, by simp⟩

theorem safe_put (s : S) (o : Out) : Safe s (s.put o, .on) :=
  fun h => ⟨(put_hasSink s o).trans h, by simp⟩

theorem safe_andThen {s : S} {r : S × Status} {f : S → S × Status} (h : Safe s r) (hf : ∀ s, Safe s (f s)) :
    Safe s (andThen r f) := by
  intro hs
  obtain ⟨h1, h2⟩ := h hs
  unfold andThen
  split
  · exact hf _ h1
  · exact ⟨h1, h2⟩

theorem safe_body {s : S} {f : S → S × Status} (o : Out) (hb : ∀ s, Safe s (f s)) (g : S → Out) :
    Safe s (andThen (f (s.put o)) fun s => (s.put (g s), .on)) := by
  have h := safe_andThen (safe_put s o) hb
  exact safe_andThen h fun s => safe_put s _

theorem safe_warnIfBuffering (s : S) : Safe s (warnIfBuffering s) := by
  unfold warnIfBuffering
  split
  · exact safe_warn _ s
  · exact fun h => ⟨h, by simp⟩

theorem safe_startAttribute (p l u : Str) (s : S) : Safe s (startAttribute p l u s) := by
  unfold startAttribute
  split
  · exact safe_andThen (safe_warn _ s) fun s' => safe_put s' _
  · dsimp only
    split
    · exact safe_andThen (safe_put s _) fun s' => safe_warn noElement s'
    · exact safe_put s _

mutual
theorem safe_exec : ∀ (i : MInstr) (s : S), Safe s (exec i s)
  | .text t, s => by rw [exec]; exact safe_put s _
  | .element p l u body, s => by
    rw [exec]
    split
    · exact safe_warn _ s
    · exact safe_body _ (fun s => safe_execs body s) _
  | .attr p l u body, s => by
    rw [exec]
    exact safe_andThen (safe_startAttribute p l u s) fun s => safe_andThen (safe_execs body s) fun s => safe_put s _
  | .copyAttribute u l q v, s => by
    rw [exec, addAttribute]
    split
    · exact safe_warn _ s
    · exact safe_put s _
  | .comment body, s => by
    rw [exec]
    exact safe_andThen (safe_warnIfBuffering s) fun s => safe_body _ (fun s => safe_execs body s) _
  | .pi t body, s => by
    rw [exec]
    exact safe_andThen (safe_warnIfBuffering s) fun s => safe_body _ (fun s => safe_execs body s) _
  | .message t body, s => by
    rw [exec]
    intro hs
    have h := safe_andThen (f := fun s => (s, if t then .thrown else .on))
      (safe_execs body { s with toMsg := s.toMsg + 1 }) (fun s h => ⟨h, by cases t <;> simp⟩) hs
    exact h
theorem safe_execs : ∀ (is : MInstrs) (s : S), Safe s (execs is s)
  | .nil, s => by rw [execs]; exact fun h => ⟨h, by simp⟩
  | .cons i rest, s => by
    rw [execs]
    exact safe_andThen (safe_exec i s) fun s => safe_execs rest s
end

end Verif.XsltMessage
