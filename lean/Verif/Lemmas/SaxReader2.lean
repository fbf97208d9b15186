import Verif.Lemmas.SaxReader
set_option autoImplicit false
set_option linter.unusedSimpArgs false
set_option linter.unusedVariables false
/-!
# Parsing through a chain of filters: lemmas
-/
namespace Verif.SaxReader
open Verif.Spec.SaxReader
open Verif.Sax (Str)

theorem chain_unique {w : World} {p q : Nat} : ∀ (a b : List Nat) (r : Reader), Chain w p r a → Chain w q r b → a = b
  | [], [], _, _, _ => rfl
  | [], g :: b, r, h1, h2 => by
    have h := h2.1; have h' : r = .parser p := h1; rw [h'] at h; cases h
  | f :: a, [], r, h1, h2 => by
    have h := h1.1; have h' : r = .parser q := h2; rw [h'] at h; cases h
  | f :: a, g :: b, r, h1, h2 => by
    obtain ⟨e1, r1, p1, c1⟩ := h1
    obtain ⟨e2, r2, p2, c2⟩ := h2
    rw [e1] at e2
    cases e2
    rw [p1] at p2
    cases p2
    rw [chain_unique a b _ c1 c2]

theorem chain_mem {w : World} {p : Nat} : ∀ (a : List Nat) (r : Reader), Chain w p r a → ∀ f ∈ a,
    ∃ b, b.length < a.length + 1 ∧ f :: b = a.drop (a.length - (b.length + 1)) ∧ Chain w p (.filter f) (f :: b)
  | [], _, _, f, hf => by cases hf
  | g :: a, r, h, f, hf => by
    obtain ⟨e1, r1, p1, c1⟩ := h
    rcases List.mem_cons.mp hf with rfl | hf
    · exact ⟨a, by simp only [List.length_cons]; omega, by simp, ⟨rfl, r1, p1, c1⟩⟩
    · obtain ⟨b, h1, h2, h3⟩ := chain_mem a r1 c1 f hf
      have hl : b.length + 1 ≤ a.length := by
        have := congrArg List.length h2
        simp only [List.length_cons, List.length_drop] at this
        omega
      refine ⟨b, by simp only [List.length_cons]; omega, ?_, h3⟩
      have : (g :: a).length - (b.length + 1) = (a.length - (b.length + 1)) + 1 := by
        simp only [List.length_cons]; omega
      rw [this, List.drop_succ_cons]
      exact h2

theorem chain_nodup {w : World} {p : Nat} : ∀ (a : List Nat) (r : Reader), Chain w p r a → a.Nodup
  | [], _, _ => List.nodup_nil
  | f :: a, r, h => by
    have h0 := h
    obtain ⟨e1, r1, p1, c1⟩ := h
    refine List.nodup_cons.mpr ⟨fun hf => ?_, chain_nodup a r1 c1⟩
    obtain ⟨b, h1, h2, h3⟩ := chain_mem a r1 c1 f hf
    rw [e1] at h0
    have := congrArg List.length (chain_unique _ _ _ h0 h3)
    have h4 := congrArg List.length h2
    simp only [List.length_cons, List.length_drop] at this h4
    have : b.length + 1 ≤ a.length := by omega
    omega

theorem chain_congr {w w' : World} {p : Nat} (hp : ∀ g, (w'.filters g).parent = (w.filters g).parent) :
    ∀ (a : List Nat) (r : Reader), Chain w p r a → Chain w' p r a
  | [], _, h => h
  | f :: a, r, ⟨e, r', h1, h2⟩ => ⟨e, r', by rw [hp]; exact h1, chain_congr hp a r' h2⟩

theorem setup_filter (w : World) (f g : Nat) :
    w.setup f (.filter g) = w.setFilter g { w.filters g with slots := fun _ => .filter f } := by
  unfold World.setup channels
  simp only [List.map_cons, List.map_nil, World.sets, World.set, World.setFilter, if_true]
  congr 1
  funext x
  by_cases h : x = g
  · simp only [h, if_true]
    congr 1
    funext c
    cases c <;> simp
  · simp only [h, if_false]

theorem setup_parser (w : World) (f p : Nat) :
    w.setup f (.parser p) = w.setParser p { w.parsers p with slots := fun _ => some (.filter f) } := by
  unfold World.setup channels
  simp only [List.map_cons, List.map_nil, World.sets, World.set, World.setParser, if_true]
  congr 1
  funext x
  by_cases h : x = p
  · simp only [h, if_true]
    congr 1
    funext c
    cases c <;> simp
  · simp only [h, if_false]

theorem wired_congr {w w' : World} : ∀ (fs : List Nat), (∀ g ∈ fs, (w'.filters g).slots = (w.filters g).slots) →
    Wired w fs → Wired w' fs
  | [], _, _ => trivial
  | [_], _, _ => trivial
  | f :: g :: fs, h, hw => ⟨fun c => by rw [h f (List.mem_cons_self ..)]; exact hw.1 c,
      wired_congr (g :: fs) (fun x hx => h x (List.mem_cons_of_mem _ hx)) hw.2⟩

/-- What setting up a parse changes. -/
structure SetUp (w w' : World) (p : Nat) (fs : List Nat) (last : Nat) : Prop where
  log : w'.log = w.log
  answers : w'.answers = w.answers
  parents : ∀ g, (w'.filters g).parent = (w.filters g).parent
  makes : ∀ g, (w'.filters g).makes = (w.filters g).makes
  seen : ∀ g, (w'.filters g).seen = (w.filters g).seen
  slots : (w'.filters last).slots = (w.filters last).slots
  others : ∀ g, g ∉ fs → (w'.filters g).slots = (w.filters g).slots
  parsers : ∀ q, q ≠ p → w'.parsers q = w.parsers q
  parser : ∃ s, w'.parsers p = { w.parsers p with slots := s }

theorem parse_setup (pr : Program) (depth p last : Nat) (body : List Call) : ∀ (fs : List Nat) (f n : Nat)
    (ups : List Nat) (w : World), Chain w p (.filter f) (f :: fs) → (fs ++ f :: ups).Nodup →
    (f :: ups).getLast? = some last → Wired w (f :: ups) → fs.length + 1 ≤ n →
    ∃ w' f1 rest, parse pr depth n w (.filter f) body = parseParser pr depth w' p body ∧
      fs.reverse ++ f :: ups = f1 :: rest ∧ Wired w' (f1 :: rest) ∧ (w'.parsers p).slots = (fun _ => some (.filter f1)) ∧
      SetUp w w' p fs last := by
  intro fs
  induction fs with
  | nil =>
    intro f n ups w hc hn hl hw hlen
    obtain ⟨n, rfl⟩ : ∃ m, n = m + 1 := ⟨n - 1, by simp only [List.length_nil] at hlen; omega⟩
    obtain ⟨_, r, hr, rfl⟩ := hc
    refine ⟨w.setup f (.parser p), f, ups, ?_, rfl, ?_, ?_, ?_⟩
    · simp only [parse, hr]
    · rw [setup_parser]; exact wired_congr (w := w) _ (fun _ _ => rfl) hw
    · rw [setup_parser]; simp [World.setParser]
    · rw [setup_parser]
      refine ⟨rfl, rfl, fun _ => rfl, fun _ => rfl, fun _ => rfl, rfl, fun _ _ => rfl, fun q hq => ?_,
        ⟨fun _ => some (.filter f), by simp [World.setParser]⟩⟩
      simp [World.setParser, hq]
  | cons g fs ih =>
    intro f n ups w hc hn hl hw hlen
    obtain ⟨n, rfl⟩ : ∃ m, n = m + 1 := ⟨n - 1, by simp only [List.length_cons] at hlen; omega⟩
    obtain ⟨_, r, hr, hc'⟩ := hc
    obtain ⟨rfl, r', hr', hc''⟩ := hc'
    have hg : g ∉ f :: ups := by
      rw [List.cons_append, List.nodup_cons] at hn
      intro h
      exact hn.1 (List.mem_append_right _ h)
    have eS := setup_filter w f g
    have hnl : last ≠ g := by
      rintro rfl
      exact hg (List.mem_of_getLast? hl)
    have hpar : ∀ x, ((w.setup f (.filter g)).filters x).parent = (w.filters x).parent := by
      intro x; rw [eS]; simp only [World.setFilter]; split <;> simp_all
    have hmk : ∀ x, ((w.setup f (.filter g)).filters x).makes = (w.filters x).makes := by
      intro x; rw [eS]; simp only [World.setFilter]; split <;> simp_all
    have hse : ∀ x, ((w.setup f (.filter g)).filters x).seen = (w.filters x).seen := by
      intro x; rw [eS]; simp only [World.setFilter]; split <;> simp_all
    have hsl : ∀ x, x ≠ g → ((w.setup f (.filter g)).filters x).slots = (w.filters x).slots := by
      intro x hx; rw [eS]; simp only [World.setFilter, hx, if_false]
    have hn2 : (fs ++ g :: f :: ups).Nodup := by
      have : (g :: fs ++ f :: ups).Perm (fs ++ g :: f :: ups) := by
        simpa using (List.perm_middle (a := g) (l₁ := fs) (l₂ := f :: ups)).symm
      exact this.nodup_iff.mp hn
    obtain ⟨w', f1, rest, h1, h2, h3, h4, h5⟩ := ih g n (f :: ups) (w.setup f (.filter g))
      (chain_congr hpar _ _ ⟨rfl, r', hr', hc''⟩) hn2 (by simpa using hl)
      ⟨fun c => by rw [eS]; simp [World.setFilter],
        wired_congr _ (fun x hx => hsl x (by rintro rfl; exact hg hx)) hw⟩
      (by simp only [List.length_cons] at hlen; omega)
    have e0 : (w.setup f (.filter g)).parsers = w.parsers := by rw [eS]; rfl
    refine ⟨w', f1, rest, ?_, ?_, h3, h4, ?_⟩
    · rw [← h1]; simp only [parse, hr]
    · rw [← h2]; simp
    · refine ⟨by rw [h5.log, eS]; rfl, by rw [h5.answers, eS]; rfl, fun x => (h5.parents x).trans (hpar x),
        fun x => (h5.makes x).trans (hmk x), fun x => (h5.seen x).trans (hse x),
        h5.slots.trans (hsl _ hnl), fun x hx => ?_, fun q hq => ?_, ?_⟩
      · simp only [List.mem_cons, not_or] at hx
        exact (h5.others x hx.2).trans (hsl x hx.1)
      · rw [h5.parsers q hq, e0]
      · obtain ⟨s, hs⟩ := h5.parser
        exact ⟨s, by rw [hs, e0]⟩

theorem seq (pr : Program) {o : Out} {w : World} {fs : List Nat} {p last : Nat} (S : List Stage)
    (sl : Channel → Handler) (lg : List (Nat × Call)) (an : List (Str × Str)) (a b : List Call) (k : World → Out)
    (T : Tracks o w fs last (watch pr sl lg an (pipe S a)) (after S a))
    (K : ∀ w1, Kept w w1 last → w1.log = (watch pr sl lg an (pipe S a)).log →
      w1.answers = (watch pr sl lg an (pipe S a)).answers →
      (w1.filters last).slots = (watch pr sl lg an (pipe S a)).slots → stages w1 fs = after S a →
      Ends (k w1) p last (watch pr (w1.filters last).slots w1.log w1.answers (pipe (stages w1 fs) b))) :
    Ends (o.bind k) p last (watch pr sl lg an (pipe S (a ++ b))) := by
  rw [pipe_append, watch_append]
  simp only [Tracks] at T
  by_cases hf : (watch pr sl lg an (pipe S a)).finished = true
  · rw [if_pos hf] at T ⊢
    obtain ⟨w1, h1, k1, h2, h3, h4, h5, h6⟩ := T
    have := K w1 k1 h2 h3 h4 h5
    rw [h2, h3, h4, h5] at this
    rw [h1]
    exact this
  · rw [if_neg hf] at T ⊢
    obtain ⟨w1, h1, k1, h2, h3⟩ := T
    rw [h1]
    simp only [Ends]
    rw [if_neg hf]
    exact ⟨w1, rfl, h2, h3⟩

/-- The state of a wired chain. -/
structure Ready (w : World) (p f1 : Nat) (rest : List Nat) (last : Nat) : Prop where
  wired : Wired w (f1 :: rest)
  direct : ∀ c, Direct ((w.filters last).slots c)
  slots : (w.parsers p).slots = fun _ => some (.filter f1)

theorem parser_ends (pr : Program) {last : Nat} (hp : Polite pr last) (p f1 n : Nat) (rest : List Nat) (w : World)
    (body : List Call) (hn : (f1 :: rest).Nodup) (hl : (f1 :: rest).getLast? = some last) (hlen : rest.length ≤ n)
    (hr : Ready w p f1 rest last) :
    Ends (parseParser pr (n + 1) w p body) p last
      (watch pr (w.filters last).slots w.log w.answers (pipe (stages w (f1 :: rest)) (reported body))) := by
  have one : ∀ w c, Ready w p f1 rest last → Tracks (report pr (n + 1) p w c) w (f1 :: rest) last
      (watch pr (w.filters last).slots w.log w.answers (pipe (stages w (f1 :: rest)) [c]))
      (after (stages w (f1 :: rest)) [c]) := by
    intro w c h
    have : report pr (n + 1) p w c = deliver pr (n + 1) w (.filter f1) c := by
      simp only [report, h.slots]
    rw [this]
    exact deliver_tracks pr hp rest f1 n w c hn hl hlen h.wired h.direct
  have kept : ∀ w w', Ready w p f1 rest last → Kept w w' last → (∀ c, Direct ((w'.filters last).slots c)) →
      Ready w' p f1 rest last := by
    intro w w' h k d
    exact ⟨wired_kept k _ hn hl h.wired, d, by rw [k.parsers]; exact h.slots⟩
  have toggled : ∀ w b, Ready w p f1 rest last → Ready (w.parsing p b) p f1 rest last := by
    intro w b h
    exact ⟨wired_congr (w := w) _ (fun _ _ => rfl) h.wired, h.direct, by simpa [World.parsing, World.setParser] using h.slots⟩
  unfold parseParser reported
  rw [show [Call.setDocumentLocator, .startDocument] ++ body ++ [.endDocument] =
    [.setDocumentLocator] ++ ([.startDocument] ++ (body ++ [.endDocument])) by simp]
  refine seq pr _ _ _ _ _ _ _ (one w _ hr) ?_
  intro w1 k1 l1 a1 s1 e1
  have r1 := kept w w1 hr k1 (by rw [s1]; exact watch_direct pr hp _ _ _ _ hr.direct)
  have r1' := toggled w1 true r1
  refine seq (w := w1.parsing p true) pr _ _ _ _ _ _ _ (one _ _ r1') ?_
  intro w2 k2 l2 a2 s2 e2
  have r2 := kept _ w2 r1' k2 (by rw [s2]; exact watch_direct pr hp _ _ _ _ r1'.direct)
  refine seq pr _ _ _ _ _ _ _ (each_tracks pr hp _ (report pr (n + 1) p) (fun w => Ready w p f1 rest last)
    (fun w h => h.direct) kept one body w2 r2) ?_
  intro w3 k3 l3 a3 s3 e3
  have r3 := kept _ w3 r2 k3 (by rw [s3]; exact watch_direct pr hp _ _ _ _ r2.direct)
  rw [show [Call.endDocument] = [.endDocument] ++ [] from rfl]
  refine seq pr _ _ _ _ _ _ _ (one _ _ r3) ?_
  intro w4 k4 l4 a4 s4 e4
  rw [pipe_nil]
  simp only [watch, Ends, if_true]
  exact ⟨_, rfl, rfl, rfl, rfl, by simp [World.parsing, World.setParser]⟩

/-- Parsing through a chain. -/
theorem parse_ends (pr : Program) (depth n p f : Nat) (fs : List Nat) (w : World) (body : List Call)
    (hc : Chain w p (.filter f) (f :: fs)) (hp : Polite pr f) (hd : ∀ c, Direct ((w.filters f).slots c))
    (h1 : fs.length + 1 ≤ n) (h2 : fs.length + 1 ≤ depth) :
    Ends (parse pr depth n w (.filter f) body) p f
      (watch pr (w.filters f).slots w.log w.answers (pipe (stages w (f :: fs).reverse) (reported body))) := by
  have hn := chain_nodup _ _ hc
  have hn2 : (fs ++ [f]).Nodup := by
    have := List.nodup_cons.mp hn
    exact (List.perm_append_comm (l₁ := [f]) (l₂ := fs)).nodup_iff.mp hn
  obtain ⟨w', f1, rest, g1, g2, g3, g4, g5⟩ := parse_setup pr depth p f body fs f n [] w hc hn2 rfl trivial h1
  rw [g1]
  obtain ⟨d, rfl⟩ : ∃ d, depth = d + 1 := ⟨depth - 1, by omega⟩
  have hlen := congrArg List.length g2
  simp only [List.length_append, List.length_reverse, List.length_cons, List.length_nil] at hlen
  have hn3 : (f1 :: rest).Nodup := by
    rw [← g2]
    exact ((List.reverse_perm fs).append_right [f]).nodup_iff.mpr hn2
  have hl3 : (f1 :: rest).getLast? = some f := by rw [← g2]; simp
  have := parser_ends pr hp p f1 d rest w' body hn3 hl3 (by omega)
    ⟨g3, by intro c; rw [g5.slots]; exact hd c, g4⟩
  rw [g5.slots, g5.log, g5.answers, stages_congr _ g5.makes (fun g _ => g5.seen g), ← g2] at this
  simpa using this

end Verif.SaxReader
