import Verif.Lemmas.SaxReader2
set_option autoImplicit false
set_option linter.unusedSimpArgs false
set_option linter.unusedVariables false
/-!
# Plain filters, parsers without filters, and features: lemmas
-/
namespace Verif.SaxReader
open Verif.Spec.SaxReader
open Verif.Sax (Str)

theorem through_plain (cs : List Call) (s : List Call) : through plain s cs = cs := by
  induction cs generalizing s with
  | nil => rfl
  | cons c cs ih => simp [through, plain, ih]

theorem pipe_plain (ss : List Stage) (h : ∀ s ∈ ss, s.1 = plain) (cs : List Call) : pipe ss cs = cs := by
  induction ss generalizing cs with
  | nil => rfl
  | cons s ss ih =>
    simp only [pipe]
    rw [h s (List.mem_cons_self ..), through_plain]
    exact ih (fun t ht => h t (List.mem_cons_of_mem _ ht)) cs

/-- A parser without filters, with all handlers set, and a program that sets none while it is called. -/
theorem each_direct (pr : Program) (depth p : Nat) (hs : Channel → Nat) (hq : ∀ l h c, pr.reacts l h c = [])
    (cs : List Call) (w : World) (h : (w.parsers p).slots = fun c => some (.user (hs c))) :
    if (watch pr (fun c => .user (hs c)) w.log w.answers cs).finished then
      ∃ w', each (report pr depth p) w cs = .ok w' ∧ w'.parsers = w.parsers ∧
        w'.log = (watch pr (fun c => .user (hs c)) w.log w.answers cs).log ∧
        w'.answers = (watch pr (fun c => .user (hs c)) w.log w.answers cs).answers
    else ∃ w', each (report pr depth p) w cs = .thrown w' ∧
        w'.log = (watch pr (fun c => .user (hs c)) w.log w.answers cs).log ∧
        w'.answers = (watch pr (fun c => .user (hs c)) w.log w.answers cs).answers := by
  induction cs generalizing w with
  | nil => simp [watch, each]
  | cons c cs ih =>
    have e : report pr depth p w c = w.user pr (hs c.channel) c := by
      simp only [report, h]
      cases depth <;> rfl
    let w1 : World := { w with log := w.log ++ [(hs c.channel, c)], answers := w.answers ++ asked (pr.answer (hs c.channel)) c }
    have e1 : w.user pr (hs c.channel) c = if pr.throws w.log (hs c.channel) c then .thrown w1 else .ok w1 := by
      cases c <;> simp [World.user, hq, World.sets, w1, asked]
    simp only [each, e, e1, watch, hq, resets]
    by_cases ht : pr.throws w.log (hs c.channel) c = true
    · simp only [ht, if_true, Out.bind, Bool.false_eq_true, if_false]
      exact ⟨w1, rfl, rfl, rfl⟩
    · simp only [ht, Bool.false_eq_true, if_false, Out.bind]
      exact ih w1 h

theorem direct_ends (pr : Program) (depth n p : Nat) (hs : Channel → Nat) (hq : ∀ l h c, pr.reacts l h c = [])
    (w : World) (body : List Call) (h : (w.parsers p).slots = fun c => some (.user (hs c))) :
    if (watch pr (fun c => .user (hs c)) w.log w.answers (reported body)).finished then
      ∃ w', parse pr depth n w (.parser p) body = .ok w' ∧
        w'.log = (watch pr (fun c => .user (hs c)) w.log w.answers (reported body)).log ∧
        w'.answers = (watch pr (fun c => .user (hs c)) w.log w.answers (reported body)).answers
    else ∃ w', parse pr depth n w (.parser p) body = .thrown w' ∧
        w'.log = (watch pr (fun c => .user (hs c)) w.log w.answers (reported body)).log ∧
        w'.answers = (watch pr (fun c => .user (hs c)) w.log w.answers (reported body)).answers := by
  have ep : parse pr depth n w (.parser p) body = parseParser pr depth w p body := by cases n <;> rfl
  rw [ep]
  have sl : ∀ (cs : List Call) l a, (watch pr (fun c => .user (hs c)) l a cs).slots = fun c => .user (hs c) := by
    intro cs
    induction cs with
    | nil => intro l a; rfl
    | cons c cs ih =>
      intro l a
      simp only [watch, hq, resets]
      split
      · rfl
      · exact ih _ _
  have tg : ∀ (w : World) b, (w.parsers p).slots = (fun c => some (.user (hs c))) →
      ((w.parsing p b).parsers p).slots = fun c => some (.user (hs c)) := by
    intro w b h
    simpa [World.parsing, World.setParser] using h
  have one : ∀ w c, each (report pr depth p) w [c] = report pr depth p w c := by
    intro w c
    simp only [each]
    cases report pr depth p w c <;> rfl
  -- the four parts, one after the other
  have step : ∀ (a b : List Call) (w : World) (k : World → Out), (w.parsers p).slots = (fun c => some (.user (hs c))) →
      (∀ w1, (w1.parsers p).slots = (fun c => some (.user (hs c))) →
        if (watch pr (fun c => .user (hs c)) w1.log w1.answers b).finished then
          ∃ w', k w1 = .ok w' ∧ w'.log = (watch pr (fun c => .user (hs c)) w1.log w1.answers b).log ∧
            w'.answers = (watch pr (fun c => .user (hs c)) w1.log w1.answers b).answers
        else ∃ w', k w1 = .thrown w' ∧ w'.log = (watch pr (fun c => .user (hs c)) w1.log w1.answers b).log ∧
            w'.answers = (watch pr (fun c => .user (hs c)) w1.log w1.answers b).answers) →
      if (watch pr (fun c => .user (hs c)) w.log w.answers (a ++ b)).finished then
        ∃ w', (each (report pr depth p) w a).bind k = .ok w' ∧
          w'.log = (watch pr (fun c => .user (hs c)) w.log w.answers (a ++ b)).log ∧
          w'.answers = (watch pr (fun c => .user (hs c)) w.log w.answers (a ++ b)).answers
      else ∃ w', (each (report pr depth p) w a).bind k = .thrown w' ∧
          w'.log = (watch pr (fun c => .user (hs c)) w.log w.answers (a ++ b)).log ∧
          w'.answers = (watch pr (fun c => .user (hs c)) w.log w.answers (a ++ b)).answers := by
    intro a b w k h K
    have T := each_direct pr depth p hs hq a w h
    rw [watch_append]
    by_cases hf : (watch pr (fun c => .user (hs c)) w.log w.answers a).finished = true
    · rw [if_pos hf] at T
      simp only [hf, if_true]
      obtain ⟨w1, h1, h2, h3, h4⟩ := T
      have := K w1 (by rw [h2]; exact h)
      rw [h3, h4] at this
      rw [sl, h1]
      exact this
    · rw [if_neg hf] at T
      simp only [hf, if_false]
      obtain ⟨w1, h1, h2, h3⟩ := T
      rw [h1]
      simp only [Bool.false_eq_true, if_false, hf]
      exact ⟨w1, rfl, h2, h3⟩
  unfold parseParser reported
  rw [show [Call.setDocumentLocator, .startDocument] ++ body ++ [.endDocument] =
    [.setDocumentLocator] ++ ([.startDocument] ++ (body ++ ([.endDocument] ++ []))) by simp]
  rw [← one w]
  refine step _ _ w _ h ?_
  intro w1 h1
  have := step [.startDocument] (body ++ ([.endDocument] ++ [])) (w1.parsing p true)
    (fun w => (each (report pr depth p) w body).bind fun w => (report pr depth p w .endDocument).bind fun w =>
      .ok (w.parsing p false)) (tg _ _ h1) ?_
  · rw [one] at this
    exact this
  intro w2 h2
  refine step _ _ w2 _ h2 ?_
  intro w3 h3
  rw [← one w3]
  refine step _ _ w3 _ h3 ?_
  intro w4 h4
  simp only [watch, if_true]
  exact ⟨_, rfl, rfl, rfl⟩

/-! ## Features -/

theorem get_chain (p : Nat) (n : Feature) : ∀ (fs : List Nat) (d : Nat) (w : World) (r : Reader), Chain w p r fs →
    fs.length ≤ d → getFeature d w r n = (w.parsers p).getFeature n
  | [], d, w, r, h, _ => by
    have h' : r = .parser p := h
    rw [h']
    cases d <;> rfl
  | f :: fs, d, w, r, ⟨e, r', h1, h2⟩, hl => by
    obtain ⟨d, rfl⟩ : ∃ m, d = m + 1 := ⟨d - 1, by simp only [List.length_cons] at hl; omega⟩
    rw [e]
    simp only [getFeature, h1]
    exact get_chain p n fs d w r' h2 (by simp only [List.length_cons] at hl; omega)

theorem set_chain (p : Nat) (n : Feature) (v : Bool) : ∀ (fs : List Nat) (d : Nat) (w : World) (r : Reader),
    Chain w p r fs → fs.length ≤ d → setFeature d w r n v = setFeature 0 w (.parser p) n v
  | [], d, w, r, h, _ => by
    have h' : r = .parser p := h
    rw [h']
    cases d <;> rfl
  | f :: fs, d, w, r, ⟨e, r', h1, h2⟩, hl => by
    obtain ⟨d, rfl⟩ : ∃ m, d = m + 1 := ⟨d - 1, by simp only [List.length_cons] at hl; omega⟩
    rw [e]
    rw [show setFeature (d + 1) w (.filter f) n v = setFeature d w r' n v by simp only [setFeature, h1]]
    exact set_chain p n v fs d w r' h2 (by simp only [List.length_cons] at hl; omega)

end Verif.SaxReader
