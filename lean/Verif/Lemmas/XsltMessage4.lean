import Verif.Lemmas.XsltMessage3
set_option autoImplicit false
set_option linter.unusedSimpArgs false
set_option linter.unusedVariables false
/-! The warnings of a result. -/
namespace Verif.XsltMessage
open Verif.Xslt (Str QN Out)
open Verif.Spec.XsltMessage

/-- The warnings are all that was written as messages. -/
def Lines (s : S) : Prop :=
  s.toMsg = 0 ∧ s.hasSink = true ∧ At .tree s.msg ∧ s.msg.elements = [] ∧
  ∃ ws : List Str, ws.length = s.warnings ∧ (∀ w ∈ ws, w = notText ∨ w = noElement) ∧
    s.msg.out = ws.flatMap fun w => [.characters w, .characters ['\n']]

theorem characters_line {o : Out} (t : Str) (h : At .tree o) (he : o.elements = []) :
    At .tree (Xslt.characters o t) ∧ (Xslt.characters o t).elements = [] ∧
    (Xslt.characters o t).out = o.out ++ [.characters t] := by
  refine ⟨characters_at t (by simp) h, ?_⟩
  obtain ⟨h0, h1, h2, h3⟩ := h
  have hf : Xslt.flushElement o = o := by unfold Xslt.flushElement; rw [if_pos (Or.inl h3)]
  unfold Xslt.characters
  rw [if_neg (by rw [h0]; simp), hf]
  dsimp only
  rw [h1]
  dsimp only
  split
  · exact ⟨he, rfl⟩
  · rw [if_neg (by simp [Xslt.isCDATA, he])]
    exact ⟨he, rfl⟩

theorem lines_put {s : S} (o : Out) (h : Lines s) : Lines (s.put o) := by
  obtain ⟨h0, h1, h2, h3, h4⟩ := h
  refine ⟨(put_toMsg _ _).trans h0, (put_hasSink _ _).trans h1, ?_, ?_, ?_⟩
  · rw [put_msg' _ _ h0]; exact h2
  · rw [put_msg' _ _ h0]; exact h3
  · rw [put_msg' _ _ h0, put_warnings]; exact h4

theorem lines_warn {s : S} {w : Str} (hw : w = notText ∨ w = noElement) (h : Lines s) : Lines (warn w s).1 := by
  obtain ⟨h0, h1, h2, h3, ws, h4, h5, h6⟩ := h
  obtain ⟨a1, a2, a3⟩ := characters_line w h2 h3
  obtain ⟨b1, b2, b3⟩ := characters_line ['\n'] a1 a2
  unfold warn
  rw [if_pos h1]
  refine ⟨h0, h1, b1, b2, ws ++ [w], by simp [h4], ?_, ?_⟩
  · intro v hv
    rcases List.mem_append.mp hv with hv | hv
    · exact h5 v hv
    · rw [List.mem_singleton.mp hv]; exact hw
  · show (Xslt.characters (Xslt.characters s.msg w) ['\n']).out = _
    rw [b3, a3, h6]
    simp

theorem lines_andThen {r : S × Status} {f : S → S × Status} (h : Lines r.1) (hf : ∀ s, Lines s → Lines (f s).1) :
    Lines (andThen r f).1 := by
  unfold andThen
  split
  · exact hf _ h
  · exact h

theorem lines_warnIfBuffering {s : S} (h : Lines s) : Lines (warnIfBuffering s).1 := by
  unfold warnIfBuffering
  split
  · exact lines_warn (Or.inl rfl) h
  · exact h

theorem lines_startAttribute {s : S} (p l u : Str) (h : Lines s) : Lines (startAttribute p l u s).1 := by
  unfold startAttribute
  split
  · exact lines_andThen (lines_warn (Or.inl rfl) h) fun s h => lines_put _ h
  · dsimp only
    split
    · exact lines_warn (Or.inr rfl) (lines_put _ h)
    · exact lines_put _ h

mutual
theorem lines_exec : ∀ (i : MInstr) (s : S), silent i = true → Lines s → Lines (exec i s).1
  | .text t, s, hi, h => by rw [exec]; exact lines_put _ h
  | .element p l u body, s, hi, h => by
    rw [silent] at hi
    rw [exec]
    split
    · exact lines_warn (Or.inl rfl) h
    · exact lines_andThen (lines_execs body _ hi (lines_put _ h)) fun s h => lines_put _ h
  | .attr p l u body, s, hi, h => by
    rw [silent] at hi
    rw [exec]
    exact lines_andThen (lines_startAttribute p l u h) fun s h =>
      lines_andThen (lines_execs body _ hi h) fun s h => lines_put _ h
  | .copyAttribute u l q v, s, hi, h => by
    rw [exec, addAttribute]
    split
    · exact lines_warn (Or.inr rfl) h
    · exact lines_put _ h
  | .comment body, s, hi, h => by
    rw [silent] at hi
    rw [exec]
    exact lines_andThen (lines_warnIfBuffering h) fun s h =>
      lines_andThen (lines_execs body _ hi (lines_put _ h)) fun s h => lines_put _ h
  | .pi t body, s, hi, h => by
    rw [silent] at hi
    rw [exec]
    exact lines_andThen (lines_warnIfBuffering h) fun s h =>
      lines_andThen (lines_execs body _ hi (lines_put _ h)) fun s h => lines_put _ h
  | .message t body, s, hi, h => by
    rw [silent] at hi
    cases hi
theorem lines_execs : ∀ (is : MInstrs) (s : S), silents is = true → Lines s → Lines (execs is s).1
  | .nil, s, hi, h => by rw [execs]; exact h
  | .cons i rest, s, hi, h => by
    rw [silents, Bool.and_eq_true] at hi
    rw [execs]
    exact lines_andThen (lines_exec i s hi.1 h) fun s h => lines_execs rest s hi.2 h
end

end Verif.XsltMessage
