import Verif.Lemmas.XsltSink4
set_option autoImplicit false
set_option linter.unusedSimpArgs false
set_option linter.unusedVariables false
/-!
# The `text` method
-/
namespace Verif.XsltSink
open Verif.Xslt (Str QN OAttr Event Instr Instrs Out exec execs transform flushElement flushCurrent isCDATA emit buffered)
open Verif.Spec.XsltOutput (Res result results Plain Plains)
open Verif.Spec.XsltSink

/-- `Output` for the `text` method, with no listed element. -/
structure TM (n : Nat) (s : Out) : Prop where
  buf : s.buffering = n
  att : s.pendingAttribute = none
  text : s.textMode = true
  els : ∀ e ∈ s.elements, (e.2, e.1.2) ∉ s.cdata

theorem tm_flush {n : Nat} {s : Out} (h : TM n s) : flushElement s = s := by
  rw [flushElement]
  by_cases h1 : s.pendingElement = false ∨ s.pendingAttribute ≠ none
  · rw [if_pos h1]
  · rw [if_neg h1, if_pos h.text]

theorem tm_cdata {n : Nat} {s : Out} (h : TM n s) : isCDATA s = false := by
  rw [isCDATA]
  cases he : s.elements with
  | nil => rfl
  | cons e es => simpa using h.els e (by simp [he])

/-- What `flush_current` does. -/
theorem tm_current {n : Nat} {s : Out} (h : TM n s) : TM n (flushCurrent s) ∧ (flushCurrent s).out = s.out ∧
    (flushCurrent s).cdata = s.cdata ∧ (flushCurrent s).elements = s.elements := by
  rw [flushCurrent, tm_cdata h]
  by_cases h1 : s.pendingText = true
  · rw [if_pos h1, if_neg (by simp), tm_flush (n := n)]
    · exact ⟨⟨h.buf, h.att, h.text, h.els⟩, rfl, rfl, rfl⟩
    · exact ⟨h.buf, h.att, h.text, h.els⟩
  · rw [if_neg h1, tm_flush h]
    exact ⟨h, rfl, rfl, rfl⟩

theorem tm_characters {s : Out} (h : TM 0 s) (ch : Str) : TM 0 (Verif.Xslt.characters s ch) ∧
    (Verif.Xslt.characters s ch).out = s.out ++ [.characters ch] ∧ (Verif.Xslt.characters s ch).cdata = s.cdata := by
  rw [Verif.Xslt.characters, if_neg (by simp [h.buf]), tm_flush h]
  simp only [h.att]
  by_cases h1 : s.pendingText = true
  · rw [if_pos h1]
    exact ⟨⟨h.buf, h.att, h.text, h.els⟩, rfl, rfl⟩
  · rw [if_neg h1, if_neg]
    · exact ⟨⟨h.buf, rfl, h.text, h.els⟩, rfl, rfl⟩
    · rw [tm_cdata (n := 0)]
      · simp
      · exact ⟨h.buf, rfl, h.text, h.els⟩

theorem textOf_append (a b : List Res) : textOf (a ++ b) = textOf a ++ textOf b := by
  induction a with
  | nil => rfl
  | cons r a ih => cases r <;> simp [textOf, ih]

mutual
theorem tm_exec (i : Instr) (hp : Plain i) (s : Out) (h : TM 0 s) (hu : Unlisted s.cdata (result i)) :
    TM 0 (exec s i) ∧ (exec s i).cdata = s.cdata ∧
      ∃ ts : List Str, (exec s i).out = s.out ++ ts.map .characters ∧ ts.flatten = textOf (result i) := by
  match i with
  | .text t =>
    rw [exec]
    obtain ⟨h1, h2, h3⟩ := tm_characters h t
    exact ⟨h1, h3, [t], h2, by simp [result, textOf]⟩
  | .element p l u b =>
    rw [Plain] at hp
    rw [result] at hu
    obtain ⟨c1, c2, c3, c4⟩ := tm_current h
    have e1 : (Verif.Xslt.startElement s p l u).1 = true := by
      rw [Verif.Xslt.startElement, if_neg (by simp [h.buf])]
    have hst : TM 0 (Verif.Xslt.startElement s p l u).2 ∧ (Verif.Xslt.startElement s p l u).2.cdata = s.cdata ∧
        (Verif.Xslt.startElement s p l u).2.out = s.out := by
      rw [Verif.Xslt.startElement, if_neg (by simp [h.buf])]
      refine ⟨⟨c1.buf, c1.att, c1.text, ?_⟩, c3, c2⟩
      intro e he
      rcases List.mem_cons.1 he with rfl | he
      · show (u, l) ∉ (flushCurrent s).cdata
        rw [c3]
        exact hu u l (Verif.Spec.XsltOutput.attrsOf [] b) (by simp)
      · exact c1.els e he
    obtain ⟨s1, s2, s3⟩ := hst
    obtain ⟨g1, g2, ts, g3, g4⟩ := tm_execs b hp _ s1 (by
      rw [s2]
      intro u' l' as ha
      exact hu u' l' as (by simp [ha]))
    obtain ⟨d1, d2, d3, d4⟩ := tm_current g1
    rw [exec, if_pos e1, Verif.Xslt.endElement, if_neg (by simp [g1.buf])]
    simp only
    rw [if_pos d1.text]
    refine ⟨⟨d1.buf, d1.att, d1.text, d1.els⟩, by rw [← s2, ← g2]; exact d3, ts, ?_, ?_⟩
    · show (flushCurrent _).out = _
      rw [d2, g3, s3]
    · rw [g4, result]
      show _ = textOf (results b ++ [.finish])
      rw [textOf_append]
      simp [textOf]
  | .attr p l u b =>
    rw [Plain] at hp
    have hst : ∃ s', Verif.Xslt.startAttribute s p l u = s' ∧ s'.buffering = 1 ∧ s'.textMode = true ∧
        s'.elements = s.elements ∧ s'.cdata = s.cdata ∧ s'.out = s.out := by
      refine ⟨_, rfl, ?_⟩
      rw [Verif.Xslt.startAttribute, if_neg (by simp [h.buf])]
      by_cases hq : s.pendingElement = false
      · rw [if_pos hq]
        exact ⟨rfl, h.text, rfl, rfl, rfl⟩
      · rw [if_neg hq]
        exact ⟨rfl, h.text, rfl, rfl, rfl⟩
    obtain ⟨s', e, b1, b2, b3, b4, b5⟩ := hst
    rw [exec, e, buffered b hp s' 0 (by rw [b1])]
    simp only [if_true, Verif.Xslt.endAttribute, Verif.Xslt.popBuffering]
    rw [if_neg (by simp [b1])]
    cases ha : s'.pendingAttribute with
    | none =>
      simp only
      refine ⟨⟨by simp [b1], rfl, b2, ?_⟩, b4, [], by simpa using b5, by simp [result, textOf]⟩
      show ∀ e ∈ s'.elements, _ ∉ s'.cdata
      rw [b3, b4]
      exact h.els
    | some k =>
      simp only
      refine ⟨⟨by simp [b1], rfl, b2, ?_⟩, b4, [], by simpa using b5, by simp [result, textOf]⟩
      show ∀ e ∈ s'.elements, _ ∉ s'.cdata
      rw [b3, b4]
      exact h.els
  | .copyAttribute u l q v => rw [Plain] at hp; cases hp
  | .comment b =>
    rw [Plain] at hp
    have hf : ∃ s', Verif.Xslt.startComment s = s' ∧ s'.buffering = 1 ∧ s'.pendingAttribute = none ∧ s'.textMode = true ∧
        (∀ e ∈ s'.elements, (e.2, e.1.2) ∉ s'.cdata) ∧ s'.cdata = s.cdata ∧ s'.out = s.out := by
      refine ⟨_, rfl, ?_⟩
      rw [Verif.Xslt.startComment, if_neg (by simp [h.buf])]
      obtain ⟨k1, k2, k3, k4⟩ := tm_current (n := 1) (s := { s with buffering := 1, buffer := [] })
        ⟨rfl, h.att, h.text, h.els⟩
      exact ⟨k1.buf, k1.att, k1.text, k1.els, k3, k2⟩
    obtain ⟨s', e, b1, b2, b3, b4, b5, b6⟩ := hf
    rw [exec, e, buffered b hp s' 0 (by rw [b1])]
    simp only [if_true, Verif.Xslt.endComment, Verif.Xslt.popBuffering]
    rw [if_neg (by simp [b1]), if_pos b3]
    exact ⟨⟨by simp [b1], b2, b3, b4⟩, b5, [], by simpa using b6, by simp [result, textOf]⟩
  | .pi t b =>
    rw [Plain] at hp
    have hf : ∃ s', Verif.Xslt.startPI s t = s' ∧ s'.buffering = 1 ∧ s'.pendingAttribute = none ∧ s'.textMode = true ∧
        (∀ e ∈ s'.elements, (e.2, e.1.2) ∉ s'.cdata) ∧ s'.cdata = s.cdata ∧ s'.out = s.out := by
      refine ⟨_, rfl, ?_⟩
      rw [Verif.Xslt.startPI, if_neg (by simp [h.buf])]
      obtain ⟨k1, k2, k3, k4⟩ := tm_current (n := 1) (s := { s with buffering := 1, buffer := [] })
        ⟨rfl, h.att, h.text, h.els⟩
      exact ⟨k1.buf, k1.att, k1.text, k1.els, k3, k2⟩
    obtain ⟨s', e, b1, b2, b3, b4, b5, b6⟩ := hf
    rw [exec, e, buffered b hp s' 0 (by rw [b1])]
    simp only [if_true, Verif.Xslt.endPI, Verif.Xslt.popBuffering]
    rw [if_neg (by simp [b1]), if_pos b3]
    exact ⟨⟨by simp [b1], b2, b3, b4⟩, b5, [], by simpa using b6, by simp [result, textOf]⟩

theorem tm_execs (is : Instrs) (hp : Plains is) (s : Out) (h : TM 0 s) (hu : Unlisted s.cdata (results is)) :
    TM 0 (execs s is) ∧ (execs s is).cdata = s.cdata ∧
      ∃ ts : List Str, (execs s is).out = s.out ++ ts.map .characters ∧ ts.flatten = textOf (results is) := by
  match is with
  | .nil =>
    rw [execs]
    exact ⟨h, rfl, [], by simp, rfl⟩
  | .cons i rest =>
    rw [Plains] at hp
    rw [results] at hu
    obtain ⟨h1, h2, ts, h3, h4⟩ := tm_exec i hp.1 s h fun u l as ha => hu u l as (by simp [ha])
    obtain ⟨g1, g2, ts2, g3, g4⟩ := tm_execs rest hp.2 _ h1 fun u l as ha => by
      rw [h2]
      exact hu u l as (by simp [ha])
    rw [execs]
    refine ⟨g1, g2.trans h2, ts ++ ts2, ?_, ?_⟩
    · rw [g3, h3]
      simp
    · rw [results, textOf_append, ← h4, ← g4]
      simp
end

/-- Text is written as it is. -/
theorem write_text (st : Settings) (ht : st.text = true) (ts : List Str) :
    write st (ts.map .characters) = ts.flatten := by
  have key : ∀ (ts : List Str) (s : Sink), s.set.text = true → s.disabled = true → s.inCdata = false → s.empty = false →
      s.seenRoot = false → ((ts.map Event.characters).foldl event s).out = s.out ++ ts.flatten := by
    intro ts
    induction ts with
    | nil => intro s _ _ _ _ _; simp
    | cons t ts ih =>
      intro s h1 h2 h3 h4 h5
      have hc : closeIfEmpty s = s := by
        rw [closeIfEmpty, if_neg (by simp [h4]), prolog, if_neg (by simp [h5]), decl, if_pos (by simp [h1])]
      have e : event s (.characters t) = put t s := by
        simp [event, characters, hc, h2, h3]
      rw [List.map_cons, List.foldl_cons, e, ih (put t s) h1 h2 h3 h4 h5]
      simp [put]
  have := key ts (start st) ht ht rfl rfl rfl
  rw [write, this]
  rfl

end Verif.XsltSink
