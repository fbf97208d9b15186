import Verif.Lemmas.XsltMessage
set_option autoImplicit false
set_option linter.unusedSimpArgs false
set_option linter.unusedVariables false
namespace Verif.XsltMessage
open Verif.Xslt (Str QN Out)
open Verif.Spec.XsltMessage

theorem behinds_join : ∀ (a b : Xslt.Instrs) (c : Place), behinds c (join a b) = (behinds c a).bind fun c' => behinds c' b
  | .nil, b, c => by simp [join, behinds]
  | .cons i a, b, c => by
    rw [join, behinds, behinds]
    cases behind c i with
    | none => rfl
    | some c' => exact behinds_join a b c'

theorem behind_one (i : Xslt.Instr) (c : Place) : behinds c (.cons i .nil) = behind c i := by
  rw [behinds]
  cases behind c i with
  | none => rfl
  | some c' => simp [behinds]

/-- The output is at this place. -/
def At (c : Place) (o : Out) : Prop :=
  match c with
  | .text => o.buffering = 1
  | .first => o.buffering = 0 ∧ o.pendingAttribute = none ∧ o.textMode = false ∧ o.pendingElement = true
  | .tree => o.buffering = 0 ∧ o.pendingAttribute = none ∧ o.textMode = false ∧ o.pendingElement = false

/-- Text is buffered. -/
theorem text_execs : ∀ (is : Xslt.Instrs) (c : Place) (o : Out), behinds .text is = some c → o.buffering = 1 →
    c = .text ∧ ∃ b, Xslt.execs o is = { o with buffer := b }
  | .nil, c, o, h, ho => by
    rw [behinds] at h
    cases h
    exact ⟨rfl, o.buffer, by rw [Xslt.execs]⟩
  | .cons i rest, c, o, h, ho => by
    rw [behinds] at h
    cases i with
    | text t =>
      simp only [behind, if_pos] at h
      have e : Xslt.characters o t = { o with buffer := o.buffer ++ t } := by simp [Xslt.characters, ho]
      obtain ⟨h1, b, hb⟩ := text_execs rest c { o with buffer := o.buffer ++ t } h ho
      exact ⟨h1, b, by rw [Xslt.execs, Xslt.exec, e, hb]⟩
    | element p l u body => simp [behind] at h
    | attr p l u body => simp [behind] at h
    | copyAttribute u l q v => simp [behind] at h
    | comment body => simp [behind] at h
    | pi t body => simp [behind] at h

theorem flushElement_at {o : Out} (h0 : o.buffering = 0) (h1 : o.pendingAttribute = none) (h2 : o.textMode = false) :
    At .tree (Xslt.flushElement o) := by
  unfold Xslt.flushElement
  split
  · rename_i h
    rcases h with h | h
    · exact ⟨h0, h1, h2, h⟩
    · exact absurd h1 h
  · rw [if_neg (by rw [h2]; simp)]
    dsimp only
    split
    · exact ⟨h0, h1, h2, rfl⟩
    · exact ⟨h0, h1, h2, rfl⟩

/-- What flushing keeps, whatever is buffered. -/
theorem flushElement_keeps {o : Out} (h1 : o.pendingAttribute = none) (h2 : o.textMode = false) :
    (Xslt.flushElement o).buffering = o.buffering ∧ (Xslt.flushElement o).pendingAttribute = none ∧
    (Xslt.flushElement o).textMode = false ∧ (Xslt.flushElement o).pendingElement = false := by
  unfold Xslt.flushElement
  split
  · rename_i h
    rcases h with h | h
    · exact ⟨rfl, h1, h2, h⟩
    · exact absurd h1 h
  · rw [if_neg (by rw [h2]; simp)]
    dsimp only
    split
    · exact ⟨rfl, h1, h2, rfl⟩
    · exact ⟨rfl, h1, h2, rfl⟩

theorem flushCurrent_keeps {o : Out} (h1 : o.pendingAttribute = none) (h2 : o.textMode = false) :
    (Xslt.flushCurrent o).buffering = o.buffering ∧ (Xslt.flushCurrent o).pendingAttribute = none ∧
    (Xslt.flushCurrent o).textMode = false ∧ (Xslt.flushCurrent o).pendingElement = false := by
  unfold Xslt.flushCurrent
  by_cases hp : o.pendingText = true
  · rw [if_pos hp]
    have := flushElement_keeps (o := { (if Xslt.isCDATA o then Xslt.emit .endCDATA o else o) with pendingText := false })
      (by dsimp only; split <;> exact h1) (by dsimp only; split <;> exact h2)
    obtain ⟨a, b, c, d⟩ := this
    refine ⟨a.trans ?_, b, c, d⟩
    dsimp only
    split <;> rfl
  · rw [if_neg hp]
    exact flushElement_keeps h1 h2

theorem at_calm {c : Place} {o : Out} (hc : c ≠ .text) (h : At c o) :
    o.buffering = 0 ∧ o.pendingAttribute = none ∧ o.textMode = false := by
  cases c with
  | text => exact absurd rfl hc
  | first => exact ⟨h.1, h.2.1, h.2.2.1⟩
  | tree => exact ⟨h.1, h.2.1, h.2.2.1⟩

theorem at_tree {o : Out} (h : o.buffering = 0 ∧ o.pendingAttribute = none ∧ o.textMode = false ∧ o.pendingElement = false) :
    At .tree o := h

theorem behind_text {c c' : Place} {i : Xslt.Instr} (h : behind c i = some c') (hc : c ≠ .text) : c' ≠ .text := by
  cases i with
  | text t => simp only [behind, if_neg hc] at h; cases h; simp
  | element p l u body => rw [behind] at h; split at h <;> cases h; simp
  | attr p l u body => rw [behind] at h; split at h <;> cases h; simp
  | copyAttribute u l q v => rw [behind] at h; split at h <;> cases h; simp
  | comment body => rw [behind] at h; split at h <;> cases h; simp
  | pi t body => rw [behind] at h; split at h <;> cases h; simp

theorem behinds_text : ∀ (is : Xslt.Instrs) {c c' : Place}, behinds c is = some c' → c ≠ .text → c' ≠ .text
  | .nil, c, c', h, hc => by rw [behinds] at h; cases h; exact hc
  | .cons i rest, c, c', h, hc => by
    rw [behinds] at h
    cases hi : behind c i with
    | none => rw [hi] at h; cases h
    | some c1 => rw [hi] at h; exact behinds_text rest h (behind_text hi hc)

theorem startElement_at {c : Place} {o : Out} (p l u : Str) (hc : c ≠ .text) (h : At c o) :
    (Xslt.startElement o p l u).1 = true ∧ At .first (Xslt.startElement o p l u).2 := by
  obtain ⟨h0, h1, h2⟩ := at_calm hc h
  have hk := flushCurrent_keeps h1 h2
  unfold Xslt.startElement
  rw [if_neg (by rw [h0]; simp)]
  exact ⟨rfl, hk.1.trans h0, hk.2.1, hk.2.2.1, rfl⟩

theorem endElement_at {c : Place} {o : Out} (l u : Str) (hc : c ≠ .text) (h : At c o) : At .tree (Xslt.endElement o l u) := by
  obtain ⟨h0, h1, h2⟩ := at_calm hc h
  have hk := flushCurrent_keeps h1 h2
  unfold Xslt.endElement
  rw [if_neg (by rw [h0]; simp)]
  dsimp only
  rw [if_neg (by rw [hk.2.2.1]; simp)]
  exact ⟨hk.1.trans h0, hk.2.1, hk.2.2.1, hk.2.2.2⟩

theorem startAttribute_at {o : Out} (p l u : Str) (h : At .first o) :
    (Xslt.startAttribute o p l u).buffering = 1 ∧ (Xslt.startAttribute o p l u).textMode = false ∧
    (Xslt.startAttribute o p l u).pendingElement = true := by
  obtain ⟨h0, h1, h2, h3⟩ := h
  unfold Xslt.startAttribute
  rw [if_neg (by rw [h0]; simp)]
  dsimp only
  rw [if_neg (by rw [h3]; simp)]
  exact ⟨rfl, h2, h3⟩

theorem endAttribute_at {o : Out} (h0 : o.buffering = 1) (h2 : o.textMode = false) (h3 : o.pendingElement = true) :
    At .first (Xslt.endAttribute o) := by
  unfold Xslt.endAttribute Xslt.popBuffering
  simp only [h0]
  split
  · rename_i h
    simp at h
  · split
    · rename_i h
      exact ⟨rfl, h, h2, h3⟩
    · exact ⟨rfl, rfl, h2, h3⟩

theorem startComment_at {c : Place} {o : Out} (hc : c ≠ .text) (h : At c o) :
    (Xslt.startComment o).buffering = 1 ∧ (Xslt.startComment o).pendingAttribute = none ∧
    (Xslt.startComment o).textMode = false ∧ (Xslt.startComment o).pendingElement = false := by
  obtain ⟨h0, h1, h2⟩ := at_calm hc h
  unfold Xslt.startComment
  rw [if_neg (by rw [h0]; simp)]
  exact flushCurrent_keeps (o := { o with buffering := 1, buffer := [] }) h1 h2

theorem startPI_at {c : Place} {o : Out} (t : Str) (hc : c ≠ .text) (h : At c o) :
    (Xslt.startPI o t).buffering = 1 ∧ (Xslt.startPI o t).pendingAttribute = none ∧
    (Xslt.startPI o t).textMode = false ∧ (Xslt.startPI o t).pendingElement = false := by
  obtain ⟨h0, h1, h2⟩ := at_calm hc h
  unfold Xslt.startPI
  rw [if_neg (by rw [h0]; simp)]
  exact flushCurrent_keeps (o := { o with buffering := 1, buffer := [] }) h1 h2

theorem endComment_at {o : Out} (h : o.buffering = 1 ∧ o.pendingAttribute = none ∧ o.textMode = false ∧ o.pendingElement = false) :
    At .tree (Xslt.endComment o) := by
  obtain ⟨h0, h1, h2, h3⟩ := h
  unfold Xslt.endComment Xslt.popBuffering
  simp only [h0]
  split
  · rename_i h
    simp at h
  · rw [if_neg (by rw [h2]; simp)]
    split
    · exact ⟨rfl, h1, h2, h3⟩
    · exact ⟨rfl, h1, h2, h3⟩

theorem endPI_at {o : Out} (h : o.buffering = 1 ∧ o.pendingAttribute = none ∧ o.textMode = false ∧ o.pendingElement = false) :
    At .tree (Xslt.endPI o) := by
  obtain ⟨h0, h1, h2, h3⟩ := h
  unfold Xslt.endPI Xslt.popBuffering
  simp only [h0]
  split
  · rename_i h
    simp at h
  · rw [if_neg (by rw [h2]; simp)]
    split
    · exact ⟨rfl, h1, h2, h3⟩
    · exact ⟨rfl, h1, h2, h3⟩

theorem characters_at {c : Place} {o : Out} (t : Str) (hc : c ≠ .text) (h : At c o) : At .tree (Xslt.characters o t) := by
  obtain ⟨h0, h1, h2⟩ := at_calm hc h
  have hk := flushElement_keeps h1 h2
  unfold Xslt.characters
  rw [if_neg (by rw [h0]; simp)]
  dsimp only
  split
  · rename_i i hi
    rw [hk.2.1] at hi
    cases hi
  · have hf : At .tree (Xslt.flushElement o) := ⟨hk.1.trans h0, hk.2.1, hk.2.2.1, hk.2.2.2⟩
    generalize Xslt.flushElement o = o' at hf
    obtain ⟨a1, a2, a3, a4⟩ := hf
    split
    · exact ⟨a1, a2, a3, a4⟩
    · split
      · exact ⟨a1, a2, a3, a4⟩
      · exact ⟨a1, a2, a3, a4⟩

mutual
theorem at_exec : ∀ (i : Xslt.Instr) (c c' : Place) (o : Out), behind c i = some c' → At c o → At c' (Xslt.exec o i)
  | .text t, c, c', o, h, ho => by
    rw [Xslt.exec]
    rw [behind] at h
    by_cases hc : c = .text
    · rw [if_pos hc] at h
      subst hc
      cases h
      have hb : o.buffering = 1 := ho
      show (Xslt.characters o t).buffering = 1
      simp [Xslt.characters, hb]
    · rw [if_neg hc] at h
      cases h
      exact characters_at t hc ho
  | .element p l u body, c, c', o, h, ho => by
    rw [Xslt.exec]
    rw [behind] at h
    split at h
    · rename_i hh
      cases h
      obtain ⟨h1, h2⟩ := startElement_at p l u hh.1 ho
      rw [if_pos h1]
      obtain ⟨c1, hc1⟩ := Option.isSome_iff_exists.mp hh.2
      exact endElement_at l u (behinds_text body hc1 (by simp)) (at_execs body _ _ _ hc1 h2)
    · cases h
  | .attr p l u body, c, c', o, h, ho => by
    rw [Xslt.exec]
    rw [behind] at h
    split at h
    · rename_i hh
      cases h
      obtain ⟨rfl, h2⟩ := hh
      obtain ⟨c1, hc1⟩ := Option.isSome_iff_exists.mp h2
      obtain ⟨a1, a2, a3⟩ := startAttribute_at p l u ho
      obtain ⟨-, b, hb⟩ := text_execs body c1 _ hc1 a1
      rw [hb]
      exact endAttribute_at a1 a2 a3
    · cases h
  | .copyAttribute u l q v, c, c', o, h, ho => by
    rw [Xslt.exec]
    rw [behind] at h
    split at h
    · rename_i hh
      cases h
      subst hh
      obtain ⟨a1, a2, a3, a4⟩ := ho
      unfold Xslt.addAttribute
      rw [if_neg (by rw [a4]; simp)]
      exact ⟨a1, a2, a3, a4⟩
    · cases h
  | .comment body, c, c', o, h, ho => by
    rw [Xslt.exec]
    rw [behind] at h
    split at h
    · rename_i hh
      cases h
      obtain ⟨c1, hc1⟩ := Option.isSome_iff_exists.mp hh.2
      have hs := startComment_at hh.1 ho
      obtain ⟨-, b, hb⟩ := text_execs body c1 _ hc1 hs.1
      rw [hb]
      exact endComment_at hs
    · cases h
  | .pi t body, c, c', o, h, ho => by
    rw [Xslt.exec]
    rw [behind] at h
    split at h
    · rename_i hh
      cases h
      obtain ⟨c1, hc1⟩ := Option.isSome_iff_exists.mp hh.2
      have hs := startPI_at t hh.1 ho
      obtain ⟨-, b, hb⟩ := text_execs body c1 _ hc1 hs.1
      rw [hb]
      exact endPI_at hs
    · cases h
theorem at_execs : ∀ (is : Xslt.Instrs) (c c' : Place) (o : Out), behinds c is = some c' → At c o → At c' (Xslt.execs o is)
  | .nil, c, c', o, h, ho => by rw [behinds] at h; cases h; rw [Xslt.execs]; exact ho
  | .cons i rest, c, c', o, h, ho => by
    rw [behinds] at h
    rw [Xslt.execs]
    cases hi : behind c i with
    | none => rw [hi] at h; cases h
    | some c1 => rw [hi] at h; exact at_execs rest c1 c' _ h (at_exec i c c1 o hi ho)
end

/-! nothing to warn of -/

/-- Both outputs are at places from which all that is written to them is proper. -/
def Ready (s : S) (inside outside main : Xslt.Instrs) : Prop :=
  (s.toMsg ≠ 0 → ∃ c, At c s.msg ∧ (behinds c inside).isSome = true) ∧
  (s.toMsg = 0 → (∃ c, At c s.msg ∧ (behinds c outside).isSome = true) ∧ ∃ c, At c s.main ∧ (behinds c main).isSome = true)

theorem at_buffering {c : Place} {o : Out} (hc : c ≠ .text) (h : At c o) : ¬ o.buffering ≠ 0 := by
  rw [(at_calm hc h).1]; simp

/-- The instruction that the output in use is given, and its place. -/
theorem ready_sink {s : S} {i j : Xslt.Instr} {outside : Xslt.Instrs}
    (h : Ready s (.cons i .nil) outside (.cons j .nil)) :
    ∃ c, At c s.sink ∧ ((s.toMsg ≠ 0 ∧ (behind c i).isSome = true) ∨ (s.toMsg = 0 ∧ (behind c j).isSome = true)) := by
  by_cases h0 : s.toMsg = 0
  · obtain ⟨c, hc, hb⟩ := (h.2 h0).2
    rw [behind_one] at hb
    exact ⟨c, by rw [sink_main _ h0]; exact hc, Or.inr ⟨h0, hb⟩⟩
  · obtain ⟨c, hc, hb⟩ := h.1 h0
    rw [behind_one] at hb
    exact ⟨c, by rw [sink_msg _ h0]; exact hc, Or.inl ⟨h0, hb⟩⟩

/-- After the output in use was given something. -/
theorem ready_put {s : S} {o : Out} {c : Place} {inside outside main inside' main' : Xslt.Instrs}
    (h : Ready s inside' outside main') (hc : At c o)
    (hi : s.toMsg ≠ 0 → (behinds c inside).isSome = true) (hm : s.toMsg = 0 → (behinds c main).isSome = true) :
    Ready (s.put o) inside outside main := by
  refine ⟨fun h0 => ?_, fun h0 => ?_⟩
  · rw [put_toMsg] at h0
    exact ⟨c, by rw [put_msg _ _ h0]; exact hc, hi h0⟩
  · rw [put_toMsg] at h0
    exact ⟨by rw [put_msg' _ _ h0]; exact (h.2 h0).1, c, by rw [put_main _ _ h0]; exact hc, hm h0⟩

/-- Nothing was warned of. -/
def Fine (s : S) (r : S × Status) : Prop := r.1.warnings = s.warnings ∧ r.2 ≠ .undefined

theorem fine_put (s : S) (o : Out) : Fine s (s.put o, .on) := ⟨put_warnings s o, by simp⟩

theorem fine_andThen {s : S} {o : Out} {f : S → S × Status} (g : S → Out) (h : Fine (s.put o) (f (s.put o))) :
    Fine s (andThen (f (s.put o)) fun s => (s.put (g s), .on)) := by
  obtain ⟨h1, h2⟩ := h
  rw [put_warnings] at h1
  unfold andThen
  split
  · exact ⟨(put_warnings _ _).trans h1, by simp⟩
  · exact ⟨h1, h2⟩

mutual
theorem proper_exec : ∀ (i : MInstr) (s : S), Ready s (content i) (messages i) (without i) →
    Fine s (exec i s)
  | .text t, s, h => by rw [exec]; exact fine_put _ _
  | .element p l u body, s, h => by
    rw [content, messages, without] at h
    obtain ⟨c, hc, hb⟩ := ready_sink h
    have hct : c ≠ .text := by
      rcases hb with ⟨_, hb⟩ | ⟨_, hb⟩ <;> (rw [behind] at hb; split at hb; · rename_i hh; exact hh.1
                                            · cases hb)
    rw [exec, if_neg (at_buffering hct hc)]
    refine fine_andThen (f := execs body) _ (proper_execs body _ (ready_put h (startElement_at p l u hct hc).2 (fun h0 => ?_) (fun h0 => ?_)))
    · rcases hb with ⟨_, hb⟩ | ⟨h1, hb⟩
      · rw [behind] at hb; split at hb
        · rename_i hh; exact hh.2
        · cases hb
      · exact absurd h1 h0
    · rcases hb with ⟨h1, hb⟩ | ⟨_, hb⟩
      · exact absurd h0 h1
      · rw [behind] at hb; split at hb
        · rename_i hh; exact hh.2
        · cases hb
  | .attr p l u body, s, h => by
    rw [content, messages, without] at h
    obtain ⟨c, hc, hb⟩ := ready_sink h
    have hct : c = .first := by
      rcases hb with ⟨_, hb⟩ | ⟨_, hb⟩ <;> (rw [behind] at hb; split at hb; · rename_i hh; exact hh.1
                                            · cases hb)
    subst hct
    have e : startAttribute p l u s = (s.put (Xslt.startAttribute s.sink p l u), .on) := by
      unfold startAttribute
      rw [if_neg (at_buffering (by simp) hc)]
      dsimp only
      rw [if_neg (by rw [hc.2.2.2]; simp)]
    rw [exec, e]
    show Fine s (andThen (execs body (s.put (Xslt.startAttribute s.sink p l u))) fun s => (s.put (Xslt.endAttribute s.sink), .on))
    refine fine_andThen (f := execs body) _ (proper_execs body _ (ready_put (c := .text) h (startAttribute_at p l u hc).1 (fun h0 => ?_) (fun h0 => ?_)))
    · rcases hb with ⟨_, hb⟩ | ⟨h1, hb⟩
      · rw [behind] at hb; split at hb
        · rename_i hh; exact hh.2
        · cases hb
      · exact absurd h1 h0
    · rcases hb with ⟨h1, hb⟩ | ⟨_, hb⟩
      · exact absurd h0 h1
      · rw [behind] at hb; split at hb
        · rename_i hh; exact hh.2
        · cases hb
  | .copyAttribute u l q v, s, h => by
    rw [content, messages, without] at h
    obtain ⟨c, hc, hb⟩ := ready_sink h
    have hct : c = .first := by
      rcases hb with ⟨_, hb⟩ | ⟨_, hb⟩ <;> (rw [behind] at hb; split at hb; · rename_i hh; exact hh
                                            · cases hb)
    subst hct
    rw [exec, addAttribute, if_neg (by rw [hc.2.2.2]; simp)]
    exact fine_put _ _
  | .comment body, s, h => by
    rw [content, messages, without] at h
    obtain ⟨c, hc, hb⟩ := ready_sink h
    have hct : c ≠ .text := by
      rcases hb with ⟨_, hb⟩ | ⟨_, hb⟩ <;> (rw [behind] at hb; split at hb; · rename_i hh; exact hh.1
                                            · cases hb)
    rw [exec, warnIfBuffering, if_neg (at_buffering hct hc)]
    show Fine s (andThen (execs body (s.put (Xslt.startComment s.sink))) fun s => (s.put (Xslt.endComment s.sink), .on))
    refine fine_andThen (f := execs body) _ (proper_execs body _ (ready_put (c := .text) h (startComment_at hct hc).1 (fun h0 => ?_) (fun h0 => ?_)))
    · rcases hb with ⟨_, hb⟩ | ⟨h1, hb⟩
      · rw [behind] at hb; split at hb
        · rename_i hh; exact hh.2
        · cases hb
      · exact absurd h1 h0
    · rcases hb with ⟨h1, hb⟩ | ⟨_, hb⟩
      · exact absurd h0 h1
      · rw [behind] at hb; split at hb
        · rename_i hh; exact hh.2
        · cases hb
  | .pi t body, s, h => by
    rw [content, messages, without] at h
    obtain ⟨c, hc, hb⟩ := ready_sink h
    have hct : c ≠ .text := by
      rcases hb with ⟨_, hb⟩ | ⟨_, hb⟩ <;> (rw [behind] at hb; split at hb; · rename_i hh; exact hh.1
                                            · cases hb)
    rw [exec, warnIfBuffering, if_neg (at_buffering hct hc)]
    show Fine s (andThen (execs body (s.put (Xslt.startPI s.sink t))) fun s => (s.put (Xslt.endPI s.sink), .on))
    refine fine_andThen (f := execs body) _ (proper_execs body _ (ready_put (c := .text) h (startPI_at t hct hc).1 (fun h0 => ?_) (fun h0 => ?_)))
    · rcases hb with ⟨_, hb⟩ | ⟨h1, hb⟩
      · rw [behind] at hb; split at hb
        · rename_i hh; exact hh.2
        · cases hb
      · exact absurd h1 h0
    · rcases hb with ⟨h1, hb⟩ | ⟨_, hb⟩
      · exact absurd h0 h1
      · rw [behind] at hb; split at hb
        · rename_i hh; exact hh.2
        · cases hb
  | .message t body, s, h => by
    rw [content, messages, without] at h
    have hr : ∃ c, At c s.msg ∧ (behinds c (contents body)).isSome = true := by
      by_cases h0 : s.toMsg = 0
      · exact (h.2 h0).1
      · exact h.1 h0
    have := proper_execs body { s with toMsg := s.toMsg + 1 } ⟨fun _ => hr, fun h0 => by simp at h0⟩
    rw [exec]
    show Fine s ({ (andThen _ _).1 with toMsg := _ }, (andThen _ _).2)
    unfold andThen
    split
    · exact ⟨this.1, by dsimp only; split <;> simp⟩
    · exact this
theorem proper_execs : ∀ (is : MInstrs) (s : S), Ready s (contents is) (messagess is) (withouts is) →
    Fine s (execs is s)
  | .nil, s, h => by rw [execs]; exact ⟨rfl, by simp⟩
  | .cons i rest, s, h => by
    rw [contents, messagess, withouts] at h
    have hsplit : ∀ {a b : Xslt.Instrs} {c : Place}, (behinds c (join a b)).isSome = true →
        ∃ c', behinds c a = some c' ∧ (behinds c' b).isSome = true := by
      intro a b c hh
      rw [behinds_join] at hh
      cases ha : behinds c a with
      | none => rw [ha] at hh; cases hh
      | some c' => rw [ha] at hh; exact ⟨c', rfl, hh⟩
    have hfine : Fine s (exec i s) := by
      refine proper_exec i s ⟨fun h0 => ?_, fun h0 => ?_⟩
      · obtain ⟨c, hc, hb⟩ := h.1 h0
        obtain ⟨c', hc', _⟩ := hsplit hb
        exact ⟨c, hc, by rw [hc']; rfl⟩
      · obtain ⟨⟨c, hc, hb⟩, d, hd, hdb⟩ := h.2 h0
        obtain ⟨c', hc', _⟩ := hsplit hb
        obtain ⟨d', hd', _⟩ := hsplit hdb
        exact ⟨⟨c, hc, by rw [hc']; rfl⟩, d, hd, by rw [hd']; rfl⟩
    have h1 := hfine.1
    rw [execs]
    match hs : (exec i s).2 with
    | .on =>
      have e : andThen (exec i s) (fun s => execs rest s) = execs rest (exec i s).1 := by unfold andThen; rw [hs]
      rw [e]
      suffices hh : Fine (exec i s).1 (execs rest (exec i s).1) from ⟨hh.1.trans h1, hh.2⟩
      apply proper_execs rest _
      have hsay := says_exec i s hs h1
      have ht := (frame_exec i s).toMsg
      refine ⟨fun h0 => ?_, fun h0 => ?_⟩
      · rw [ht] at h0
        obtain ⟨c, hc, hb⟩ := h.1 h0
        obtain ⟨c', hc', hb'⟩ := hsplit hb
        exact ⟨c', by rw [hsay.1 h0]; exact at_execs _ _ _ _ hc' hc, hb'⟩
      · rw [ht] at h0
        obtain ⟨⟨c, hc, hb⟩, d, hd, hdb⟩ := h.2 h0
        obtain ⟨c', hc', hb'⟩ := hsplit hb
        obtain ⟨d', hd', hdb'⟩ := hsplit hdb
        exact ⟨⟨c', by rw [hsay.2 h0]; exact at_execs _ _ _ _ hc' hc, hb'⟩, d',
          by rw [main_exec i s h0 hs]; exact at_execs _ _ _ _ hd' hd, hdb'⟩
    | .thrown =>
      have e : andThen (exec i s) (fun s => execs rest s) = exec i s := by unfold andThen; rw [hs]
      rw [e]
      exact hfine
    | .undefined =>
      have e : andThen (exec i s) (fun s => execs rest s) = exec i s := by unfold andThen; rw [hs]
      rw [e]
      exact hfine
end

end Verif.XsltMessage
