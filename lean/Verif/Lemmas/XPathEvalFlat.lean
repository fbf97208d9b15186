import Verif.Lemmas.XPathEval
import Verif.Spec.XPathParse
set_option autoImplicit false
set_option linter.unusedSimpArgs false
set_option linter.unusedVariables false
namespace Verif.XPathEval
open Verif.XTree Verif.XPath
open Verif.Spec.XPathAxes Verif.Spec.XPathNodeSet Verif.Spec.XPathPath Verif.Spec.XPath Verif.Spec.XPathEval
open Verif.XPathParse (Expr Test flat flats flatStep flatSteps unbracket)

/-- What evaluation needs of its surroundings. -/
structure Ctx (E : Env) (K : Nat → Prop) (vars : List Char → List Char → Option Val) : Prop where
  hw : Forest E.w
  hK : Documents E.w K
  hsrt : StdSort (nodesLessThan E.w) E.srt
  hv : SameVariables E.w K E.vars vars

section
variable {E : Env} {K : Nat → Prop} {vars : List Char → List Char → Option Val}

theorem Ctx.good (c : Ctx E K vars) (e : Expr) : GoodE E K vars e := goodE c.hw c.hK c.hsrt c.hv e

/-! ## Nodes stay in the documents -/

theorem means_nodes (c : Ctx E K vars) {e : Expr} {x : XN} {i k : Int} {l : List XN} (hx : NodeIn E.w K x)
    (hs : Sound E.w E.cv vars e x i k) (h : Means E.w E.cv vars e x i k (.nodes l)) : ∀ y ∈ l, NodeIn E.w K y := by
  obtain ⟨v, m, h1, h2, _⟩ := c.good e x i k hx hs
  cases means_unique c.hw e h1 h
  exact (h2.2 l rfl).2

theorem candidates_nodes {a : Verif.XPathParse.Axis} {t : Test} {x : XN} {l : List XN} (hx : NodeIn E.w K x)
    (h : Candidates E.w a t x l) : ∀ y ∈ l, NodeIn E.w K y := by
  obtain ⟨ax, n, p, _, h2, h3, _, rfl⟩ := h
  intro y hy
  obtain ⟨r, hr, rfl⟩ := List.mem_map.1 hy
  exact ⟨hx.1, ((h2.1 r).1 (h3.subset hr)).1⟩

theorem stepMeans_nodes (c : Ctx E K vars) {s : Verif.XPathParse.Step} {x y : XN} {i k : Int} (hx : NodeIn E.w K x)
    (hs : SoundStep E.w E.cv vars s x i k) (h : StepMeans E.w E.cv vars s x i k y) : NodeIn E.w K y := by
  cases s with
  | test a t ps =>
    rw [StepMeans] at h
    obtain ⟨l, kept, h1, h2, h3⟩ := h
    exact candidates_nodes hx h1 y (predsMean_mem ps h2 y h3)
  | expr e ps =>
    rw [StepMeans] at h
    rw [SoundStep] at hs
    obtain ⟨l, kept, h1, h2, h3⟩ := h
    exact means_nodes c hx hs.1 h1 y (predsMean_mem ps h2 y h3)

/-! ## Parts -/

/-- An expression and the same with its paths written out. -/
def SameE (E : Env) (K : Nat → Prop) (vars : List Char → List Char → Option Val) (e e' : Expr) : Prop :=
  ∀ (x : XN) (i k : Int), NodeIn E.w K x → (Sound E.w E.cv vars e x i k ↔ Sound E.w E.cv vars e' x i k) ∧
    (Sound E.w E.cv vars e x i k → ∀ v, Means E.w E.cv vars e x i k v ↔ Means E.w E.cv vars e' x i k v)

def SameA (E : Env) (K : Nat → Prop) (vars : List Char → List Char → Option Val) (e e' : List Expr) : Prop :=
  ∀ (x : XN) (i k : Int), NodeIn E.w K x → (SoundArgs E.w E.cv vars e x i k ↔ SoundArgs E.w E.cv vars e' x i k) ∧
    (SoundArgs E.w E.cv vars e x i k → ∀ v, ArgsMean E.w E.cv vars e x i k v ↔ ArgsMean E.w E.cv vars e' x i k v)

def SameP (E : Env) (K : Nat → Prop) (vars : List Char → List Char → Option Val) (e e' : List Expr) : Prop :=
  ∀ (l : List XN), (∀ x ∈ l, NodeIn E.w K x) → (SoundPreds E.w E.cv vars e l ↔ SoundPreds E.w E.cv vars e' l) ∧
    (SoundPreds E.w E.cv vars e l → ∀ m, PredsMean E.w E.cv vars e l m ↔ PredsMean E.w E.cv vars e' l m)

def SameS (E : Env) (K : Nat → Prop) (vars : List Char → List Char → Option Val) (s s' : Verif.XPathParse.Step) : Prop :=
  (IsTest s ↔ IsTest s') ∧
  ∀ (x : XN) (i k : Int), NodeIn E.w K x → (SoundStep E.w E.cv vars s x i k ↔ SoundStep E.w E.cv vars s' x i k) ∧
    (SoundStep E.w E.cv vars s x i k → ∀ y, StepMeans E.w E.cv vars s x i k y ↔ StepMeans E.w E.cv vars s' x i k y)

def SameSs (E : Env) (K : Nat → Prop) (vars : List Char → List Char → Option Val) (s s' : List Verif.XPathParse.Step) : Prop :=
  ((∀ t ∈ s.tail, IsTest t) ↔ ∀ t ∈ s'.tail, IsTest t) ∧ ((∀ t ∈ s, IsTest t) ↔ ∀ t ∈ s', IsTest t) ∧
  ∀ (x : XN) (i k : Int), NodeIn E.w K x → (SoundSteps E.w E.cv vars s x i k ↔ SoundSteps E.w E.cv vars s' x i k) ∧
    (SoundSteps E.w E.cv vars s x i k → ∀ y, PathMeans E.w E.cv vars s x i k y ↔ PathMeans E.w E.cv vars s' x i k y)

theorem same_nil : SameA E K vars [] [] := fun x i k hx => ⟨Iff.rfl, fun _ _ => Iff.rfl⟩

theorem same_cons {e e' : Expr} {es es' : List Expr} (h : SameE E K vars e e') (hs : SameA E K vars es es') :
    SameA E K vars (e :: es) (e' :: es') := by
  intro x i k hx
  obtain ⟨h1, h2⟩ := h x i k hx
  obtain ⟨g1, g2⟩ := hs x i k hx
  simp only [SoundArgs, ArgsMean]
  refine ⟨by rw [h1, g1], fun hs v => ?_⟩
  simp only [h2 hs.1, g2 hs.2]

theorem kept_congr {w : World} {p q : XN → Int → Int → Val → Prop} {l m : List XN}
    (h : ∀ (i : Nat) (x : XN), l[i]? = some x → ∀ v, p x (i + 1) l.length v ↔ q x (i + 1) l.length v) :
    Kept w p l m ↔ Kept w q l m := by
  constructor
  · rintro ⟨keep, h1, h2, h3⟩
    refine ⟨keep, h1, h2, fun i x hx => ?_⟩
    obtain ⟨v, g1, g2⟩ := h3 i x hx
    exact ⟨v, (h i x hx v).1 g1, g2⟩
  · rintro ⟨keep, h1, h2, h3⟩
    refine ⟨keep, h1, h2, fun i x hx => ?_⟩
    obtain ⟨v, g1, g2⟩ := h3 i x hx
    exact ⟨v, (h i x hx v).2 g1, g2⟩

theorem samep_nil : SameP E K vars [] [] := fun x hx => ⟨Iff.rfl, fun _ _ => Iff.rfl⟩

theorem samep_cons {e e' : Expr} {es es' : List Expr} (h : SameE E K vars e e') (hs : SameP E K vars es es') :
    SameP E K vars (e :: es) (e' :: es') := by
  intro l hl
  have hn : ∀ (i : Nat) (x : XN), l[i]? = some x → NodeIn E.w K x := fun i x hx => hl x (List.mem_of_getElem? hx)
  simp only [SoundPreds, PredsMean]
  have s1 : (∀ (i : Nat) (x : XN), l[i]? = some x → Sound E.w E.cv vars e x (i + 1) l.length) ↔
      ∀ (i : Nat) (x : XN), l[i]? = some x → Sound E.w E.cv vars e' x (i + 1) l.length := by
    constructor
    · exact fun g i x hx => (h x _ _ (hn i x hx)).1.1 (g i x hx)
    · exact fun g i x hx => (h x _ _ (hn i x hx)).1.2 (g i x hx)
  have s2 : (∀ (i : Nat) (x : XN), l[i]? = some x → Sound E.w E.cv vars e x (i + 1) l.length) → ∀ m,
      Kept E.w (fun x i k v => Means E.w E.cv vars e x i k v) l m ↔
        Kept E.w (fun x i k v => Means E.w E.cv vars e' x i k v) l m :=
    fun g m => kept_congr fun i x hx v => (h x _ _ (hn i x hx)).2 (g i x hx) v
  refine ⟨?_, fun hs' m => ?_⟩
  · constructor
    · rintro ⟨g1, g2⟩
      refine ⟨s1.1 g1, fun m hm => ?_⟩
      have hm' := (s2 g1 m).2 hm
      exact ((hs m fun x hx => hl x (kept_mem hm' hx)).1).1 (g2 m hm')
    · rintro ⟨g1, g2⟩
      refine ⟨s1.2 g1, fun m hm => ?_⟩
      exact ((hs m fun x hx => hl x (kept_mem hm hx)).1).2 (g2 m ((s2 (s1.2 g1) m).1 hm))
  · obtain ⟨g1, g2⟩ := hs'
    constructor
    · rintro ⟨m', k1, k2⟩
      exact ⟨m', (s2 g1 m').1 k1, ((hs m' fun x hx => hl x (kept_mem k1 hx)).2 (g2 m' k1) m).1 k2⟩
    · rintro ⟨m', k1, k2⟩
      have k1' := (s2 g1 m').2 k1
      exact ⟨m', k1', ((hs m' fun x hx => hl x (kept_mem k1' hx)).2 (g2 m' k1') m).2 k2⟩

theorem same_call {u n : List Char} {es es' : List Expr} (hs : SameA E K vars es es') :
    SameE E K vars (.call u n es) (.call u n es') := by
  intro x i k hx
  obtain ⟨g1, g2⟩ := hs x i k hx
  simp only [Sound, Means]
  constructor
  · constructor
    · rintro ⟨h1, fn, h2, h3, h4⟩
      exact ⟨h1, fn, h2, g1.1 h3, fun vs hvs => h4 vs ((g2 h3 vs).2 hvs)⟩
    · rintro ⟨h1, fn, h2, h3, h4⟩
      exact ⟨h1, fn, h2, g1.2 h3, fun vs hvs => h4 vs ((g2 (g1.2 h3) vs).1 hvs)⟩
  · rintro ⟨h1, fn, h2, h3, h4⟩ v
    simp only [g2 h3]

theorem same_binary {op : Verif.XPathParse.Op} {a a' b b' : Expr} (ha : SameE E K vars a a') (hb : SameE E K vars b b') :
    SameE E K vars (.binary op a b) (.binary op a' b') := by
  intro x i k hx
  obtain ⟨a1, a2⟩ := ha x i k hx
  obtain ⟨b1, b2⟩ := hb x i k hx
  simp only [Sound, Means]
  constructor
  · constructor
    · rintro ⟨h1, h2, h3⟩
      exact ⟨a1.1 h1, b1.1 h2, fun va vb g1 g2 => h3 va vb ((a2 h1 va).2 g1) ((b2 h2 vb).2 g2)⟩
    · rintro ⟨h1, h2, h3⟩
      exact ⟨a1.2 h1, b1.2 h2, fun va vb g1 g2 => h3 va vb ((a2 (a1.2 h1) va).1 g1) ((b2 (b1.2 h2) vb).1 g2)⟩
  · rintro ⟨h1, h2, h3⟩ v
    have e : (fun vb => Means E.w E.cv vars b x i k vb) = fun vb => Means E.w E.cv vars b' x i k vb :=
      funext fun vb => propext (b2 h2 vb)
    rw [e]
    simp only [a2 h1]

theorem same_negative {a a' : Expr} (ha : SameE E K vars a a') : SameE E K vars (.negative a) (.negative a') := by
  intro x i k hx
  obtain ⟨a1, a2⟩ := ha x i k hx
  simp only [Sound, Means]
  exact ⟨a1, fun h v => by simp only [a2 h]⟩

theorem same_test {a : Verif.XPathParse.Axis} {t : Test} {ps ps' : List Expr} (h : SameP E K vars ps ps') :
    SameS E K vars (.test a t ps) (.test a t ps') := by
  refine ⟨Iff.rfl, fun x i k hx => ?_⟩
  simp only [SoundStep, StepMeans]
  have key : ∀ l, Candidates E.w a t x l → _ := fun l hc => h l (candidates_nodes hx hc)
  constructor
  · constructor
    · rintro ⟨h1, h2, h3, h4, h5⟩
      exact ⟨h1, h2, h3, h4, fun l hc => (key l hc).1.1 (h5 l hc)⟩
    · rintro ⟨h1, h2, h3, h4, h5⟩
      exact ⟨h1, h2, h3, h4, fun l hc => (key l hc).1.2 (h5 l hc)⟩
  · rintro ⟨h1, h2, h3, h4, h5⟩ y
    constructor
    · rintro ⟨l, kept, g1, g2, g3⟩
      exact ⟨l, kept, g1, ((key l g1).2 (h5 l g1) kept).1 g2, g3⟩
    · rintro ⟨l, kept, g1, g2, g3⟩
      exact ⟨l, kept, g1, ((key l g1).2 (h5 l g1) kept).2 g2, g3⟩

theorem same_expr (c : Ctx E K vars) {e e' : Expr} {ps ps' : List Expr} (he : SameE E K vars e e')
    (h : SameP E K vars ps ps') : SameS E K vars (.expr e ps) (.expr e' ps') := by
  refine ⟨Iff.rfl, fun x i k hx => ?_⟩
  obtain ⟨e1, e2⟩ := he x i k hx
  simp only [SoundStep, StepMeans]
  have key : Sound E.w E.cv vars e x i k → ∀ l, Means E.w E.cv vars e x i k (.nodes l) → _ :=
    fun hs l hc => h l (means_nodes c hx hs hc)
  constructor
  · constructor
    · rintro ⟨h1, h2, h3⟩
      exact ⟨e1.1 h1, fun v hv => h2 v ((e2 h1 v).2 hv), fun l hl =>
        (key h1 l ((e2 h1 _).2 hl)).1.1 (h3 l ((e2 h1 _).2 hl))⟩
    · rintro ⟨h1, h2, h3⟩
      have h1' := e1.2 h1
      exact ⟨h1', fun v hv => h2 v ((e2 h1' v).1 hv), fun l hl => (key h1' l hl).1.2 (h3 l ((e2 h1' _).1 hl))⟩
  · rintro ⟨h1, h2, h3⟩ y
    constructor
    · rintro ⟨l, kept, g1, g2, g3⟩
      exact ⟨l, kept, (e2 h1 _).1 g1, ((key h1 l g1).2 (h3 l g1) kept).1 g2, g3⟩
    · rintro ⟨l, kept, g1, g2, g3⟩
      have g1' := (e2 h1 _).2 g1
      exact ⟨l, kept, g1', ((key h1 l g1').2 (h3 l g1') kept).2 g2, g3⟩

theorem sames_nil : SameSs E K vars [] [] :=
  ⟨Iff.rfl, Iff.rfl, fun x i k hx => ⟨Iff.rfl, fun _ _ => Iff.rfl⟩⟩

theorem sames_cons (c : Ctx E K vars) {s s' : Verif.XPathParse.Step} {ss ss' : List Verif.XPathParse.Step}
    (h : SameS E K vars s s') (hs : SameSs E K vars ss ss') : SameSs E K vars (s :: ss) (s' :: ss') := by
  obtain ⟨t1, t2, t3⟩ := hs
  refine ⟨t2, by simp only [List.forall_mem_cons, h.1, t2], fun x i k hx => ?_⟩
  obtain ⟨h1, h2⟩ := h.2 x i k hx
  simp only [SoundSteps, PathMeans]
  have key : SoundStep E.w E.cv vars s x i k → ∀ m, StepMeans E.w E.cv vars s x i k m → _ :=
    fun hs m hm => t3 m i k (stepMeans_nodes c hx hs hm)
  constructor
  · constructor
    · rintro ⟨g1, g2⟩
      exact ⟨h1.1 g1, fun m hm => (key g1 m ((h2 g1 m).2 hm)).1.1 (g2 m ((h2 g1 m).2 hm))⟩
    · rintro ⟨g1, g2⟩
      have g1' := h1.2 g1
      exact ⟨g1', fun m hm => (key g1' m hm).1.2 (g2 m ((h2 g1' m).1 hm))⟩
  · rintro ⟨g1, g2⟩ y
    constructor
    · rintro ⟨m, k1, k2⟩
      exact ⟨m, (h2 g1 m).1 k1, ((key g1 m k1).2 (g2 m k1) y).1 k2⟩
    · rintro ⟨m, k1, k2⟩
      have k1' := (h2 g1 m).2 k1
      exact ⟨m, k1', ((key g1 m k1').2 (g2 m k1') y).2 k2⟩

/-! ## Paths in paths -/

theorem start_node {x : XN} (hx : NodeIn E.w K x) (b : Bool) : NodeIn E.w K (if b then (x.1, []) else x) := by
  split
  · exact ⟨hx.1, trivial⟩
  · exact hx

theorem same_path {b : Bool} {ss ss' : List Verif.XPathParse.Step} (h : SameSs E K vars ss ss') :
    SameE E K vars (.path b ss) (.path b ss') := by
  intro x i k hx
  obtain ⟨h1, h2⟩ := h.2.2 _ i k (start_node hx b)
  simp only [Sound, Means]
  refine ⟨by rw [h.1, h1], fun hs v => ?_⟩
  simp only [h2 hs.2]

theorem soundSteps_append (ts rest : List Verif.XPathParse.Step) (x : XN) (i k : Int) :
    SoundSteps E.w E.cv vars (ts ++ rest) x i k ↔
      SoundSteps E.w E.cv vars ts x i k ∧ ∀ m, PathMeans E.w E.cv vars ts x i k m → SoundSteps E.w E.cv vars rest m i k := by
  induction ts generalizing x with
  | nil => simp [SoundSteps, PathMeans]
  | cons t ts ih =>
    simp only [List.cons_append, SoundSteps, PathMeans, ih]
    constructor
    · rintro ⟨h1, h2⟩
      exact ⟨⟨h1, fun m hm => (h2 m hm).1⟩, fun m ⟨m', g1, g2⟩ => (h2 m' g1).2 m g2⟩
    · rintro ⟨⟨h1, h2⟩, h3⟩
      exact ⟨h1, fun m hm => ⟨h2 m hm, fun m' hm' => h3 m' ⟨m, hm, hm'⟩⟩⟩

theorem pathMeans_append (ts rest : List Verif.XPathParse.Step) (x y : XN) (i k : Int) :
    PathMeans E.w E.cv vars (ts ++ rest) x i k y ↔
      ∃ m, PathMeans E.w E.cv vars ts x i k m ∧ PathMeans E.w E.cv vars rest m i k y := by
  induction ts generalizing x with
  | nil => simp [PathMeans]
  | cons t ts ih =>
    simp only [List.cons_append, PathMeans, ih]
    constructor
    · rintro ⟨m, h1, m', h2, h3⟩; exact ⟨m', ⟨m, h1, h2⟩, h3⟩
    · rintro ⟨m', ⟨m, h1, h2⟩, h3⟩; exact ⟨m, h1, m', h2, h3⟩

theorem same_unbracket_cons (c : Ctx E K vars) {b : Bool} {t : Verif.XPathParse.Step} {ts rest : List Verif.XPathParse.Step} :
    SameE E K vars (.path b (.expr (.path false (t :: ts)) [] :: rest)) (.path b (t :: (ts ++ rest))) := by
  intro x i k hx
  have hst := start_node hx b
  have hstep : Sound E.w E.cv vars (.path false (t :: ts)) (if b then (x.1, []) else x) i k → ∀ m,
      StepMeans E.w E.cv vars (.expr (.path false (t :: ts)) []) (if b then (x.1, []) else x) i k m ↔
        PathMeans E.w E.cv vars (t :: ts) (if b then (x.1, []) else x) i k m := by
    intro hs m
    rw [StepMeans]
    constructor
    · rintro ⟨l, kept, h1, h2, h3⟩
      rw [PredsMean] at h2
      subst h2
      rw [Means] at h1
      obtain ⟨l', e, _, h4⟩ := h1
      cases e
      exact (h4 m).1 h3
    · intro hm
      obtain ⟨v, _, h1, _, _⟩ := c.good _ _ i k hst hs
      have h1' := h1
      rw [Means] at h1'
      obtain ⟨l, rfl, _, h4⟩ := h1'
      exact ⟨l, l, h1, by rw [PredsMean], (h4 m).2 hm⟩
  have hsound : Sound E.w E.cv vars (.path false (t :: ts)) (if b then (x.1, []) else x) i k ↔
      (∀ s ∈ ts, IsTest s) ∧ SoundSteps E.w E.cv vars (t :: ts) (if b then (x.1, []) else x) i k := by
    rw [Sound]
    simp
  have hss : SoundStep E.w E.cv vars (.expr (.path false (t :: ts)) []) (if b then (x.1, []) else x) i k ↔
      Sound E.w E.cv vars (.path false (t :: ts)) (if b then (x.1, []) else x) i k := by
    rw [SoundStep]
    refine ⟨fun h => h.1, fun h => ⟨h, fun v hv => ?_, fun l _ => by rw [SoundPreds]; trivial⟩⟩
    rw [Means] at hv
    obtain ⟨l, rfl, _⟩ := hv
    exact ⟨l, rfl⟩
  have e0 : t :: (ts ++ rest) = (t :: ts) ++ rest := rfl
  constructor
  · rw [Sound, Sound, SoundSteps, hss, e0, soundSteps_append]
    constructor
    · rintro ⟨h1, h2, h3⟩
      have h2' := hsound.1 h2
      refine ⟨?_, h2'.2, fun m hm => h3 m ((hstep h2 m).2 hm)⟩
      intro s hs
      rcases List.mem_append.1 (show s ∈ ts ++ rest from hs) with h | h
      · exact h2'.1 s h
      · exact h1 s h
    · rintro ⟨h1, h2, h3⟩
      have h2' := hsound.2 ⟨fun s hs => h1 s (List.mem_append.2 (.inl hs) : s ∈ ts ++ rest), h2⟩
      exact ⟨fun s hs => h1 s (List.mem_append.2 (.inr hs) : s ∈ ts ++ rest), h2', fun m hm => h3 m ((hstep h2' m).1 hm)⟩
  · intro hs v
    rw [Sound, SoundSteps, hss] at hs
    simp only [Means, e0, pathMeans_append]
    simp only [PathMeans]
    simp only [hstep hs.2.1]
    simp only [PathMeans]

theorem same_refl (e : Expr) : SameE E K vars e e := fun x i k hx => ⟨Iff.rfl, fun _ _ => Iff.rfl⟩

theorem same_trans {a b c : Expr} (h : SameE E K vars a b) (h' : SameE E K vars b c) : SameE E K vars a c := by
  intro x i k hx
  obtain ⟨h1, h2⟩ := h x i k hx
  obtain ⟨g1, g2⟩ := h' x i k hx
  exact ⟨h1.trans g1, fun hs v => (h2 hs v).trans (g2 (h1.1 hs) v)⟩

theorem same_symm {a b : Expr} (h : SameE E K vars a b) : SameE E K vars b a := by
  intro x i k hx
  obtain ⟨h1, h2⟩ := h x i k hx
  exact ⟨h1.symm, fun hs v => (h2 (h1.2 hs) v).symm⟩

theorem same_unbracket (c : Ctx E K vars) (b : Bool) (ss : List Verif.XPathParse.Step) :
    SameE E K vars (.path b ss) (.path b (unbracket ss)) := by
  unfold unbracket
  split
  · exact same_unbracket_cons c
  · exact same_refl _

mutual

theorem same_flat (c : Ctx E K vars) : ∀ e : Expr, SameE E K vars e (flat e)
  | .number t => by rw [flat]; exact same_refl _
  | .string t => by rw [flat]; exact same_refl _
  | .var u n => by rw [flat]; exact same_refl _
  | .call u n args => by rw [flat]; exact same_call (same_flats c args).1
  | .binary op a b => by rw [flat]; exact same_binary (same_flat c a) (same_flat c b)
  | .negative a => by rw [flat]; exact same_negative (same_flat c a)
  | .path b ss => by rw [flat]; exact same_trans (same_path (same_flatSteps c ss)) (same_unbracket c b _)

theorem same_flats (c : Ctx E K vars) : ∀ es : List Expr, SameA E K vars es (flats es) ∧ SameP E K vars es (flats es)
  | [] => by rw [flats]; exact ⟨same_nil, samep_nil⟩
  | e :: es => by
    rw [flats]
    exact ⟨same_cons (same_flat c e) (same_flats c es).1, samep_cons (same_flat c e) (same_flats c es).2⟩

theorem same_flatStep (c : Ctx E K vars) : ∀ s : Verif.XPathParse.Step, SameS E K vars s (flatStep s)
  | .test a t ps => by rw [flatStep]; exact same_test (same_flats c ps).2
  | .expr e ps => by rw [flatStep]; exact same_expr c (same_flat c e) (same_flats c ps).2

theorem same_flatSteps (c : Ctx E K vars) : ∀ ss : List Verif.XPathParse.Step, SameSs E K vars ss (flatSteps ss)
  | [] => by rw [flatSteps]; exact sames_nil
  | s :: ss => by rw [flatSteps]; exact sames_cons c (same_flatStep c s) (same_flatSteps c ss)

end

/-- Two expressions that are the same written out. -/
theorem good_flat (c : Ctx E K vars) {e e' : Expr} (h : flat e = flat e') {x : XN} {i k : Int} (hx : NodeIn E.w K x)
    (hs : Sound E.w E.cv vars e' x i k) :
    ∃ v m, Means E.w E.cv vars e' x i k v ∧ Rep E.w K m v ∧ Ends (fun f => eval E f e x i k) m := by
  have hsame : SameE E K vars e e' := by
    have h1 := same_flat c e
    rw [h] at h1
    exact same_trans h1 (same_symm (same_flat c e'))
  obtain ⟨h1, h2⟩ := hsame x i k hx
  obtain ⟨v, m, g1, g2, g3⟩ := c.good e x i k hx (h1.2 hs)
  exact ⟨v, m, (h2 (h1.2 hs) v).1 g1, g2, g3⟩

end

end Verif.XPathEval
