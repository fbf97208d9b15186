import Verif.Spec.SaxReader
set_option autoImplicit false
set_option linter.unusedSimpArgs false
set_option linter.unusedVariables false
/-!
# Chains of filters: lemmas
-/
namespace Verif.SaxReader
open Verif.Spec.SaxReader
open Verif.Sax (Str)

theorem through_append (m : List Call → Call → List Call) (s a b : List Call) :
    through m s (a ++ b) = through m s a ++ through m (s ++ a) b := by
  induction a generalizing s with
  | nil => simp [through]
  | cons c a ih => simp [through, ih, List.append_assoc]

/-- The stages after calls. -/
def after : List Stage → List Call → List Stage
  | [], _ => []
  | s :: ss, cs => (s.1, s.2 ++ cs) :: after ss (through s.1 s.2 cs)

theorem pipe_append (ss : List Stage) (a b : List Call) :
    pipe ss (a ++ b) = pipe ss a ++ pipe (after ss a) b := by
  induction ss generalizing a b with
  | nil => simp [pipe, after]
  | cons s ss ih => simp [pipe, after, through_append, ih]

theorem after_append (ss : List Stage) (a b : List Call) :
    after ss (a ++ b) = after (after ss a) b := by
  induction ss generalizing a b with
  | nil => simp [after]
  | cons s ss ih => simp [after, through_append, ih]

theorem after_nil (ss : List Stage) : after ss [] = ss := by
  induction ss with
  | nil => rfl
  | cons s ss ih => simp [after, through, ih]

theorem pipe_nil (ss : List Stage) : pipe ss [] = [] := by
  induction ss with
  | nil => rfl
  | cons s ss ih => simp [pipe, through, ih]

theorem watch_append (pr : Program) (sl : Channel → Handler) (lg : List (Nat × Call)) (an : List (Str × Str))
    (a b : List Call) :
    watch pr sl lg an (a ++ b) =
      if (watch pr sl lg an a).finished then
        watch pr (watch pr sl lg an a).slots (watch pr sl lg an a).log (watch pr sl lg an a).answers b
      else watch pr sl lg an a := by
  induction a generalizing sl lg an with
  | nil => simp [watch]
  | cons c a ih =>
    match hs : sl c.channel with
    | .user h =>
      simp only [List.cons_append, watch, hs]
      by_cases ht : pr.throws lg h c = true
      · simp [ht]
      · simp only [ht]; exact ih _ _ _
    | .default d =>
      simp only [List.cons_append, watch, hs]
      by_cases ht : fatal c = true
      · simp [ht]
      · simp only [ht]; exact ih _ _ _
    | .filter d =>
      simp only [List.cons_append, watch, hs]
      by_cases ht : fatal c = true
      · simp [ht]
      · simp only [ht]; exact ih _ _ _

theorem resets_direct (sl : Channel → Handler) (ss : List Set) (h : ∀ c, Direct (sl c))
    (hs : ∀ s ∈ ss, Direct s.handler) : ∀ c, Direct (resets sl ss c) := by
  induction ss generalizing sl with
  | nil => exact h
  | cons s ss ih =>
    refine ih _ ?_ (fun t ht => hs t (List.mem_cons_of_mem _ ht))
    intro c
    split
    · exact hs s (List.mem_cons_self ..)
    · exact h c

theorem watch_direct (pr : Program) {f : Nat} (hp : Polite pr f) (cs : List Call) (sl : Channel → Handler)
    (lg : List (Nat × Call)) (an : List (Str × Str)) (h : ∀ c, Direct (sl c)) :
    ∀ c, Direct ((watch pr sl lg an cs).slots c) := by
  induction cs generalizing sl lg an with
  | nil => exact h
  | cons c cs ih =>
    simp only [watch]
    split
    · rename_i u _
      have := resets_direct sl (pr.reacts lg u c) h (fun s hs => (hp lg u c s hs).2)
      split
      · exact this
      · exact ih _ _ _ this
    · split
      · exact h
      · exact ih _ _ _ h

/-- What calls through the chain leave alone. -/
structure Kept (w w' : World) (last : Nat) : Prop where
  parents : ∀ g, (w'.filters g).parent = (w.filters g).parent
  makes : ∀ g, (w'.filters g).makes = (w.filters g).makes
  slots : ∀ g, g ≠ last → (w'.filters g).slots = (w.filters g).slots
  parsers : w'.parsers = w.parsers

theorem Kept.refl (w : World) (last : Nat) : Kept w w last := ⟨fun _ => rfl, fun _ => rfl, fun _ _ => rfl, rfl⟩

theorem Kept.trans {w1 w2 w3 : World} {last : Nat} (a : Kept w1 w2 last) (b : Kept w2 w3 last) : Kept w1 w3 last :=
  ⟨fun g => (b.parents g).trans (a.parents g), fun g => (b.makes g).trans (a.makes g),
    fun g h => (b.slots g h).trans (a.slots g h), b.parsers.trans a.parsers⟩

/-- A call, or several, through filters `fs` whose last is `last` ended as `r` says, with stages `ss`. -/
def Tracks (o : Out) (w : World) (fs : List Nat) (last : Nat) (r : Watched) (ss : List Stage) : Prop :=
  if r.finished then
    ∃ w', o = .ok w' ∧ Kept w w' last ∧ w'.log = r.log ∧ w'.answers = r.answers ∧
      (w'.filters last).slots = r.slots ∧ stages w' fs = ss ∧ ∀ g, g ∉ fs → (w'.filters g).seen = (w.filters g).seen
  else ∃ w', o = .thrown w' ∧ Kept w w' last ∧ w'.log = r.log ∧ w'.answers = r.answers

theorem sets_polite (f : Nat) (ss : List Set) (w : World) (h : ∀ s ∈ ss, s.reader = .filter f) :
    Kept w (w.sets ss) f ∧ (w.sets ss).log = w.log ∧ (w.sets ss).answers = w.answers ∧
      ((w.sets ss).filters f).slots = resets (w.filters f).slots ss ∧
      ∀ g, ((w.sets ss).filters g).seen = (w.filters g).seen := by
  induction ss generalizing w with
  | nil => exact ⟨.refl _ _, rfl, rfl, rfl, fun _ => rfl⟩
  | cons s ss ih =>
    have hr := h s (List.mem_cons_self ..)
    obtain ⟨k, h1, h2, h3, h4⟩ := ih (w.set s) (fun t ht => h t (List.mem_cons_of_mem _ ht))
    have e : w.set s = w.setFilter f { w.filters f with
        slots := fun c => if c = s.channel then s.handler else (w.filters f).slots c } := by
      simp only [World.set, hr]
    have k0 : Kept w (w.set s) f := by
      rw [e]
      refine ⟨fun g => ?_, fun g => ?_, fun g hg => ?_, rfl⟩
      · simp only [World.setFilter]; split <;> simp_all
      · simp only [World.setFilter]; split <;> simp_all
      · simp only [World.setFilter, hg, if_false]
    simp only [World.sets]
    refine ⟨k0.trans k, by rw [h1, e]; rfl, by rw [h2, e]; rfl, ?_, fun g => ?_⟩
    · rw [h3, e]
      simp [World.setFilter, resets]
    · rw [h4, e]
      simp only [World.setFilter]; split <;> simp_all

theorem user_tracks (pr : Program) {last : Nat} (hp : Polite pr last) (w : World) (c : Call) (h : Nat)
    (hs : (w.filters last).slots c.channel = .user h) :
    Tracks (w.user pr h c) w [] last (watch pr (w.filters last).slots w.log w.answers [c]) [] := by
  let w1 : World := { w with
    log := w.log ++ [(h, c)],
    answers := match c with
      | .resolveEntity p s => w.answers ++ [pr.answer h p s]
      | _ => w.answers }
  have ea : w1.answers = w.answers ++ asked (pr.answer h) c := by
    cases c <;> simp [w1, asked]
  obtain ⟨k, h1, h2, h3, h4⟩ := sets_polite last (pr.reacts w.log h c) w1 (fun s hs => (hp _ _ _ s hs).1)
  have k' : Kept w (w1.sets (pr.reacts w.log h c)) last := ⟨k.parents, k.makes, k.slots, k.parsers⟩
  have eu : w.user pr h c = if pr.throws w.log h c then .thrown (w1.sets (pr.reacts w.log h c))
      else .ok (w1.sets (pr.reacts w.log h c)) := by
    cases c <;> rfl
  rw [eu]
  simp only [watch, hs, Tracks]
  by_cases ht : pr.throws w.log h c = true
  · simp only [ht, if_true, Bool.false_eq_true, if_false]
    exact ⟨_, rfl, k', h1, h2.trans ea⟩
  · simp only [ht, Bool.false_eq_true, if_false, if_true]
    exact ⟨_, rfl, k', h1, h2.trans ea, h3, rfl, fun g _ => h4 g⟩

theorem default_tracks (pr : Program) {last : Nat} (w : World) (c : Call) (d : Nat)
    (hs : (w.filters last).slots c.channel = .default d) :
    Tracks (w.byDefault c) w [] last (watch pr (w.filters last).slots w.log w.answers [c]) [] := by
  simp only [watch, hs, Tracks]
  cases c <;> simp [World.byDefault, fatal, asked] <;>
    first
      | exact Kept.refl _ _
      | exact ⟨Kept.refl _ _, rfl⟩
      | exact ⟨⟨fun _ => rfl, fun _ => rfl, fun _ _ => rfl, rfl⟩, rfl⟩
      | exact ⟨_, rfl, Kept.refl _ _, rfl, rfl⟩

/-- Calls one after the other, from one call. -/
theorem each_tracks (pr : Program) {last : Nat} (hp : Polite pr last) (fs : List Nat) (call : World → Call → Out)
    (I : World → Prop) (hd : ∀ w, I w → ∀ c, Direct ((w.filters last).slots c))
    (hI : ∀ w w', I w → Kept w w' last → (∀ c, Direct ((w'.filters last).slots c)) → I w')
    (step : ∀ w c, I w → Tracks (call w c) w fs last
      (watch pr (w.filters last).slots w.log w.answers (pipe (stages w fs) [c])) (after (stages w fs) [c]))
    (cs : List Call) (w : World) (h : I w) :
    Tracks (each call w cs) w fs last
      (watch pr (w.filters last).slots w.log w.answers (pipe (stages w fs) cs)) (after (stages w fs) cs) := by
  induction cs generalizing w with
  | nil =>
    simp only [each, pipe_nil, after_nil, watch, Tracks, if_true]
    exact ⟨_, rfl, .refl _ _, rfl, rfl, rfl, rfl, fun _ _ => rfl⟩
  | cons c cs ih =>
    have e1 : pipe (stages w fs) (c :: cs) = pipe (stages w fs) [c] ++ pipe (after (stages w fs) [c]) cs :=
      pipe_append _ [c] cs
    have e2 : after (stages w fs) (c :: cs) = after (after (stages w fs) [c]) cs := after_append _ [c] cs
    have st := step w c h
    rw [e1, e2, watch_append]
    by_cases hf : (watch pr (w.filters last).slots w.log w.answers (pipe (stages w fs) [c])).finished = true
    · simp only [Tracks, hf, if_true] at st
      obtain ⟨w1, h1, k1, h2, h3, h4, h5, h6⟩ := st
      have d1 : ∀ c, Direct ((w1.filters last).slots c) := by
        rw [h4]; exact watch_direct pr hp _ _ _ _ (hd w h)
      have := ih w1 (hI w w1 h k1 d1)
      simp only [hf, if_true, each, h1, Out.bind]
      rw [h2, h3, h4, h5] at this
      simp only [Tracks] at this ⊢
      split at this
      · rename_i hq
        simp only [hq, if_true]
        obtain ⟨w2, g1, k2, g2, g3, g4, g5, g6⟩ := this
        exact ⟨w2, g1, k1.trans k2, g2, g3, g4, g5, fun g hg => (g6 g hg).trans (h6 g hg)⟩
      · rename_i hq
        simp only [hq, if_false]
        obtain ⟨w2, g1, k2, g2, g3⟩ := this
        exact ⟨w2, g1, k1.trans k2, g2, g3⟩
    · rw [if_neg hf]
      simp only [Tracks] at st ⊢
      rw [if_neg hf] at st ⊢
      obtain ⟨w1, h1, k1, h2, h3⟩ := st
      refine ⟨w1, ?_, k1, h2, h3⟩
      simp only [each, h1, Out.bind]

/-- Each filter's handlers are all the next filter. -/
def Wired (w : World) : List Nat → Prop
  | f :: g :: fs => (∀ c, (w.filters f).slots c = .filter g) ∧ Wired w (g :: fs)
  | _ => True

theorem wired_kept {w w' : World} {last : Nat} (k : Kept w w' last) : ∀ (fs : List Nat),
    fs.Nodup → fs.getLast? = some last → Wired w fs → Wired w' fs
  | [], _, _, _ => trivial
  | [f], _, _, _ => trivial
  | f :: g :: fs, hn, hl, h => by
    have hl' : (g :: fs).getLast? = some last := by simpa using hl
    have : f ≠ last := by
      rintro rfl
      exact (List.nodup_cons.mp hn).1 (List.mem_of_getLast? hl')
    exact ⟨fun c => by rw [k.slots f this]; exact h.1 c, wired_kept k (g :: fs) (List.nodup_cons.mp hn).2 hl' h.2⟩

theorem calls_eq (F : Filter) (c : Call) :
    F.calls c = if c.channel = .entity then [c] else F.makes F.seen c := by
  cases c <;> simp [Filter.calls, Call.channel]

theorem push_kept (w : World) (f : Nat) (c : Call) (last : Nat) : Kept w (w.push f c) last := by
  refine ⟨fun g => ?_, fun g => ?_, fun g _ => ?_, rfl⟩ <;>
    simp only [World.push, World.setFilter] <;> split <;> simp_all

theorem push_slots (w : World) (f : Nat) (c : Call) (g : Nat) :
    ((w.push f c).filters g).slots = (w.filters g).slots := by
  simp only [World.push, World.setFilter]; split <;> simp_all

theorem push_seen (w : World) (f : Nat) (c : Call) (g : Nat) (h : g ≠ f) :
    ((w.push f c).filters g).seen = (w.filters g).seen := by
  simp only [World.push, World.setFilter]; split <;> simp_all

theorem stages_congr {w w' : World} (fs : List Nat) (hm : ∀ g, (w'.filters g).makes = (w.filters g).makes)
    (hs : ∀ g ∈ fs, (w'.filters g).seen = (w.filters g).seen) : stages w' fs = stages w fs := by
  unfold stages
  exact List.map_congr_left fun g hg => by rw [hm, hs g hg]

/-- A call of a filter, from those it makes. -/
theorem deliver_tracks (pr : Program) {last : Nat} (hp : Polite pr last) : ∀ (fs : List Nat) (f n : Nat) (w : World)
    (c : Call), (f :: fs).Nodup → (f :: fs).getLast? = some last → fs.length ≤ n → Wired w (f :: fs) →
    (∀ c, Direct ((w.filters last).slots c)) →
    Tracks (deliver pr (n + 1) w (.filter f) c) w (f :: fs) last
      (watch pr (w.filters last).slots w.log w.answers (pipe (stages w (f :: fs)) [c]))
      (after (stages w (f :: fs)) [c]) := by
  intro fs
  induction fs with
  | nil =>
    intro f n w c hn hl hlen hw hd
    obtain rfl : f = last := by simpa using hl
    have key := each_tracks pr hp [] (fun w o => deliver pr n w ((w.filters f).slots o.channel) o)
      (fun w => ∀ c, Direct ((w.filters f).slots c)) (fun w h => h) (fun w w' _ _ h => h)
      (fun w o h => by
        have := h o.channel
        match hs : (w.filters f).slots o.channel with
        | .user u => rw [show deliver pr n w (.user u) o = w.user pr u o by cases n <;> rfl]; exact user_tracks pr hp w o u hs
        | .default d => rw [show deliver pr n w (.default d) o = w.byDefault o by cases n <;> rfl]; exact default_tracks pr w o d hs
        | .filter g => rw [hs] at this; exact this.elim)
      ((w.filters f).calls c) (w.push f c) (by intro c'; rw [push_slots]; exact hd c')
    rw [push_slots] at key
    rw [show deliver pr (n + 1) w (.filter f) c = each (fun w o => deliver pr n w ((w.filters f).slots o.channel) o)
      (w.push f c) ((w.filters f).calls c) from rfl]
    have e : pipe (stages w [f]) [c] = (w.filters f).calls c := by
      simp [stages, pipe, through, calls_eq]
    rw [e]
    simp only [stages, List.map_nil, pipe, after] at key
    simp only [Tracks] at key ⊢
    have el : (w.push f c).log = w.log := rfl
    have ean : (w.push f c).answers = w.answers := rfl
    rw [el, ean] at key
    split at key
    · rename_i hq
      simp only [hq, if_true]
      obtain ⟨w2, g1, k2, g2, g3, g4, g5, g6⟩ := key
      refine ⟨w2, g1, (push_kept w f c f).trans k2, g2, g3, g4, ?_, ?_⟩
      · have := g6 f (by simp)
        simp only [stages, List.map_cons, List.map_nil, after, k2.makes, this]
        simp [World.push, World.setFilter]
      · intro g hg
        rw [g6 g (by simp), push_seen]
        simpa using hg
    · rename_i hq
      simp only [hq, if_false]
      obtain ⟨w2, g1, k2, g2, g3⟩ := key
      exact ⟨w2, g1, (push_kept w f c f).trans k2, g2, g3⟩
  | cons g fs ih =>
    intro f n w c hn hl hlen hw hd
    have hl' : (g :: fs).getLast? = some last := by simpa using hl
    have hn' := List.nodup_cons.mp hn
    have hne : f ≠ last := by rintro rfl; exact hn'.1 (List.mem_of_getLast? hl')
    obtain ⟨n, rfl⟩ : ∃ m, n = m + 1 := ⟨n - 1, by simp only [List.length_cons] at hlen; omega⟩
    have key := each_tracks pr hp (g :: fs) (fun w o => deliver pr (n + 1) w ((w.filters f).slots o.channel) o)
      (fun w => Wired w (f :: g :: fs) ∧ ∀ c, Direct ((w.filters last).slots c)) (fun w h => h.2)
      (fun w w' h k d => ⟨wired_kept k _ hn hl h.1, d⟩)
      (fun w o h => by
        rw [h.1.1 o.channel]
        exact ih g n w o hn'.2 hl' (by simp only [List.length_cons] at hlen; omega) h.1.2 h.2)
      ((w.filters f).calls c) (w.push f c)
      ⟨wired_kept (push_kept w f c last) _ hn hl hw, by intro c'; rw [push_slots]; exact hd c'⟩
    rw [push_slots] at key
    have es : stages (w.push f c) (g :: fs) = stages w (g :: fs) :=
      stages_congr _ (push_kept w f c last).makes
        (fun x hx => push_seen w f c x (by rintro rfl; exact hn'.1 hx))
    rw [show deliver pr (n + 1 + 1) w (.filter f) c = each (fun w o => deliver pr (n + 1) w ((w.filters f).slots o.channel) o)
      (w.push f c) ((w.filters f).calls c) from rfl]
    have e : pipe (stages w (f :: g :: fs)) [c] = pipe (stages w (g :: fs)) ((w.filters f).calls c) := by
      simp [stages, pipe, through, calls_eq]
    have e' : after (stages w (f :: g :: fs)) [c] = ((w.filters f).makes, (w.filters f).seen ++ [c]) ::
        after (stages w (g :: fs)) ((w.filters f).calls c) := by
      simp [stages, after, through, calls_eq]
    rw [e, e']
    rw [es] at key
    simp only [Tracks] at key ⊢
    have el : (w.push f c).log = w.log := rfl
    have ean : (w.push f c).answers = w.answers := rfl
    rw [el, ean] at key
    split at key
    · rename_i hq
      simp only [hq, if_true]
      obtain ⟨w2, g1, k2, g2, g3, g4, g5, g6⟩ := key
      refine ⟨w2, g1, (push_kept w f c last).trans k2, g2, g3, g4, ?_, ?_⟩
      · have := g6 f hn'.1
        rw [← g5]
        simp only [stages, List.map_cons, k2.makes, this]
        simp [World.push, World.setFilter]
      · intro x hx
        simp only [List.mem_cons, not_or] at hx
        rw [g6 x (by simp only [List.mem_cons, not_or]; exact hx.2), push_seen _ _ _ _ hx.1]
    · rename_i hq
      simp only [hq, if_false]
      obtain ⟨w2, g1, k2, g2, g3⟩ := key
      exact ⟨w2, g1, (push_kept w f c last).trans k2, g2, g3⟩

end Verif.SaxReader
