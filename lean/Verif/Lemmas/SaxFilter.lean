import Verif.Spec.SaxFilter
import Verif.Lemmas.Sax
set_option autoImplicit false
set_option linter.unusedSimpArgs false
set_option linter.unusedVariables false
namespace Verif.SaxFilter
open Verif.Spec.SaxFilter
open Verif.Spec (Sax.Scopes Sax.lookup Sax.declareOnce Sax.reserved Sax.initial)

theorem text_append (a b : List Ev) : text (a ++ b) = text a ++ text b := by
  simp [text]

theorem others_append (a b : List Ev) : others (a ++ b) = others a ++ others b := by
  simp [others]

theorem text_flush (b : Str) : text (flush b) = b := by
  unfold flush
  cases b with
  | nil => rfl
  | cons c b => simp [text, textOf]

theorem others_flush (b : Str) : others (flush b) = [] := by
  unfold flush
  cases b with
  | nil => rfl
  | cons c b => simp [others, textOf]

/-- What one event does. -/
theorem coalesce_cases (b : Str) (e : Ev) :
    (∃ s, textOf e = some s ∧ coalesce b e = (b ++ s, [])) ∨
    (textOf e = none ∧ delimits e = true ∧ coalesce b e = ([], flush b ++ [e])) ∨
    (textOf e = none ∧ delimits e = false ∧ coalesce b e = (b, [e])) := by
  cases e <;> simp [textOf, delimits, coalesce]

theorem run_cons {σ : Type} (f : σ → Ev → σ × List Ev) (s : σ) (e : Ev) (es : List Ev) :
    run f s (e :: es) = ((run f (f s e).1 es).1, (f s e).2 ++ (run f (f s e).1 es).2) := rfl

theorem coalesce_text (es : List Ev) : ∀ b : Str,
    text (run coalesce b es).2 ++ (run coalesce b es).1 = b ++ text es := by
  induction es with
  | nil => intro b; simp [run, text]
  | cons e es ih =>
    intro b
    rw [run_cons]
    rcases coalesce_cases b e with ⟨s, h1, h2⟩ | ⟨h1, _, h2⟩ | ⟨h1, _, h2⟩ <;> rw [h2] <;>
      have := ih (coalesce b e).1 <;> rw [h2] at this
    · simp only [List.nil_append, this]
      simp [text, h1]
    · simp only [text_append, List.append_assoc, this, text_flush]
      simp [text, h1]
    · simp only [text_append, List.append_assoc, this]
      simp [text, h1]

theorem coalesce_others (es : List Ev) : ∀ b : Str, others (run coalesce b es).2 = others es := by
  induction es with
  | nil => intro b; rfl
  | cons e es ih =>
    intro b
    rw [run_cons]
    rcases coalesce_cases b e with ⟨s, h1, h2⟩ | ⟨h1, _, h2⟩ | ⟨h1, _, h2⟩ <;> rw [h2]
    · simp only [List.nil_append, ih]
      simp [others, h1]
    · simp only [others_append, ih, others_flush]
      simp [others, h1]
    · simp only [others_append, ih]
      simp [others, h1]

theorem coalesced_cons {e : Ev} {es : List Ev} (h1 : textOf e = none) (h2 : Coalesced es) :
    Coalesced (e :: es) := by
  cases es with
  | nil => simp [Coalesced, h1]
  | cons e' es => exact ⟨by simp [h1], .inl h1, h2⟩

theorem coalesce_coalesced (es : List Ev) : ∀ b : Str, Coalesced (run coalesce b es).2 := by
  induction es with
  | nil => intro b; trivial
  | cons e es ih =>
    intro b
    rw [run_cons]
    rcases coalesce_cases b e with ⟨s, h1, h2⟩ | ⟨h1, _, h2⟩ | ⟨h1, _, h2⟩ <;> rw [h2]
    · exact ih _
    · unfold flush
      by_cases hb : b.isEmpty
      · rw [if_pos hb]
        exact coalesced_cons h1 (ih _)
      · rw [if_neg hb]
        refine ⟨?_, .inr h1, coalesced_cons h1 (ih _)⟩
        simp only [textOf]
        intro hc
        cases hc
        exact hb rfl
    · exact coalesced_cons h1 (ih _)

/-- Text in front of a stream in canonical form. -/
def prepend (b : Str) : List Ev → List Ev
  | .characters t :: r => .characters (b ++ t) :: r
  | r => if b = [] then r else .characters b :: r

theorem canon_prepend (b s : Str) (e : Ev) (es : List Ev) (h : textOf e = some s) :
    prepend b (canon (e :: es)) = prepend (b ++ s) (canon es) := by
  rw [canon, h]
  cases hc : canon es with
  | nil =>
    simp only [prepend]
    by_cases hs : s = [] <;> by_cases hb : b = [] <;> simp [hs, hb, prepend]
  | cons x r =>
    cases x <;> simp only [prepend] <;> (by_cases hs : s = [] <;> by_cases hb : b = [] <;> simp [hs, hb, prepend])

theorem prepend_nil (es : List Ev) : prepend [] es = es := by
  cases es with
  | nil => rfl
  | cons e es => cases e <;> rfl

theorem prepend_other (b : Str) (e : Ev) (r : List Ev) (h : textOf e = none) :
    prepend b (e :: r) = flush b ++ e :: r := by
  cases b with
  | nil => rw [prepend_nil]; rfl
  | cons c b => cases e <;> simp [textOf] at h <;> simp [prepend, flush]

theorem canon_other (e : Ev) (es : List Ev) (h : textOf e = none) : canon (e :: es) = e :: canon es := by
  rw [canon, h]

theorem coalesce_canon (es : List Ev) : ∀ b : Str, Closed (!b.isEmpty) es →
    run coalesce b es = ([], prepend b (canon es)) := by
  induction es with
  | nil =>
    intro b h
    cases b with
    | nil => rfl
    | cons c b => simp [Closed] at h
  | cons e es ih =>
    intro b h
    rw [run_cons]
    rw [Closed] at h
    rcases coalesce_cases b e with ⟨s, h1, h2⟩ | ⟨h1, h3, h2⟩ | ⟨h1, h3, h2⟩ <;> rw [h2] <;> rw [h1] at h
    · simp only [] at h
      have : Closed (!(b ++ s).isEmpty) es := by
        cases b <;> cases s <;> simpa using h
      rw [ih _ this, canon_prepend b s e es h1]
      rfl
    · simp only [h3, if_true] at h
      rw [ih [] h, canon_other e es h1, prepend_other b e _ h1, prepend_nil]
      simp
    · simp only [h3] at h
      obtain ⟨h4, h5⟩ : (!b.isEmpty) = false ∧ Closed false es := by simpa using h
      have hb : b = [] := by cases b <;> simp_all
      subst hb
      rw [ih [] h5, canon_other e es h1, prepend_nil, prepend_nil]
      rfl

/-! ## White space -/

/-- What the white space filter does with the events of a stream. -/
theorem strip_run (es : List Ev) : ∀ u, (run strip u es).2 = es.flatMap fun e => (strip () e).2 := by
  induction es with
  | nil => intro u; rfl
  | cons e es ih => intro u; rw [run_cons, ih]; simp

/-! ## PYX -/

theorem pyxEscape_unescape : ∀ (s : Str), ¬ ['\\', 'n'] <:+: s → unescape (pyxEscape s) = s
  | [], _ => rfl
  | c :: s, h => by
    have hs : ¬ ['\\', 'n'] <:+: s := fun hc => h (hc.trans (List.suffix_cons c s).isInfix)
    have ih := pyxEscape_unescape s hs
    rw [pyxEscape]
    by_cases h1 : c = '\n'
    · rw [if_pos h1, unescape, ih, h1]
    · rw [if_neg h1]
      by_cases h2 : c = '\\'
      · subst h2
        cases s with
        | nil => rfl
        | cons d s =>
          have hd : d ≠ 'n' := by
            intro hd
            subst hd
            exact h ⟨[], s, rfl⟩
          have : ∀ x, (pyxEscape (d :: s)) ≠ 'n' :: x := by
            intro x hx
            rw [pyxEscape] at hx
            by_cases h3 : d = '\n'
            · rw [if_pos h3] at hx; simp at hx
            · rw [if_neg h3] at hx; simp at hx; exact hd hx.1
          rw [unescape, ih]
          intro s' hs' 
          exact this _
      · rw [unescape, ih]
        intro s' h3 h4
        exact h2 h3

theorem pyxEscape_nolf (s : Str) : '\n' ∉ pyxEscape s := by
  induction s with
  | nil => simp [pyxEscape]
  | cons c s ih =>
    rw [pyxEscape]
    by_cases h : c = '\n'
    · rw [if_pos h]; simp [ih]
    · rw [if_neg h]; simp [ih, Ne.symm h]

theorem readPyx_line (l : Str) (hl : '\n' ∉ l) : ∀ (acc rest : Str),
    readPyx acc (l ++ '\n' :: rest) = match readLine (acc ++ l), readPyx [] rest with
      | some x, some xs => some (x :: xs)
      | _, _ => none := by
  induction l with
  | nil => intro acc rest; rw [List.nil_append, readPyx, if_pos rfl, List.append_nil]; cases readLine acc <;> cases readPyx [] rest <;> rfl
  | cons c l ih =>
    intro acc rest
    simp only [List.mem_cons, not_or] at hl
    rw [List.cons_append, readPyx, if_neg (Ne.symm hl.1), ih hl.2]
    simp

theorem cutSpace_append (n v : Str) (h : ' ' ∉ n) : cutSpace (n ++ ' ' :: v) = (n, v) := by
  induction n with
  | nil => rfl
  | cons c n ih =>
    simp only [List.mem_cons, not_or] at h
    rw [List.cons_append, cutSpace, if_neg (Ne.symm h.1), ih h.2]

/-- The announced mappings, kept in a `std::map`. -/
def MapRep (m : List (Str × Str)) (pending : List (Str × Str)) : Prop :=
  m.Pairwise (fun a b => a.1 < b.1) ∧
  ∀ p, (m.find? fun e => decide (e.1 = p)).map (·.2) =
    ((pending.filter fun e => decide (e.1 = p)).getLast?).map (·.2)

theorem str_lt_of_not {a b : Str} (h1 : ¬ a < b) (h2 : ¬ a = b) : b < a := by
  by_cases h : b < a
  · exact h
  · exact (h2 (List.le_antisymm (List.not_lt.mp h) (List.not_lt.mp h1))).elim

theorem mapSet_mem (k v : Str) (m : List (Str × Str)) (e : Str × Str) (h : e ∈ mapSet k v m) :
    e = (k, v) ∨ e ∈ m := by
  induction m with
  | nil => simpa [mapSet] using h
  | cons x m ih =>
    rw [mapSet] at h
    by_cases h1 : x.1 = k
    · rw [if_pos h1] at h
      rcases List.mem_cons.mp h with h | h
      · exact .inl h
      · exact .inr (List.mem_cons_of_mem _ h)
    · rw [if_neg h1] at h
      by_cases h2 : k < x.1
      · rw [if_pos h2] at h
        rcases List.mem_cons.mp h with h | h
        · exact .inl h
        · exact .inr h
      · rw [if_neg h2] at h
        rcases List.mem_cons.mp h with h | h
        · exact .inr (h ▸ List.mem_cons_self)
        · exact (ih h).imp id (List.mem_cons_of_mem _)

theorem mapSet_sorted (k v : Str) (m : List (Str × Str)) (h : m.Pairwise (fun a b => a.1 < b.1)) :
    (mapSet k v m).Pairwise (fun a b => a.1 < b.1) := by
  induction m with
  | nil => simp [mapSet]
  | cons x m ih =>
    rw [List.pairwise_cons] at h
    rw [mapSet]
    by_cases h1 : x.1 = k
    · rw [if_pos h1, List.pairwise_cons]
      exact ⟨fun e he => h1 ▸ h.1 e he, h.2⟩
    · rw [if_neg h1]
      by_cases h2 : k < x.1
      · rw [if_pos h2, List.pairwise_cons, List.pairwise_cons]
        refine ⟨?_, h⟩
        intro e he
        rcases List.mem_cons.mp he with he | he
        · exact he ▸ h2
        · exact Sax.str_trans h2 (h.1 e he)
      · rw [if_neg h2, List.pairwise_cons]
        refine ⟨?_, ih h.2⟩
        intro e he
        rcases mapSet_mem k v m e he with he | he
        · exact he ▸ str_lt_of_not h2 (fun hc => h1 hc.symm)
        · exact h.1 e he

theorem mapSet_find (k v p : Str) (m : List (Str × Str)) :
    (mapSet k v m).find? (fun e => decide (e.1 = p)) =
      if k = p then some (k, v) else m.find? (fun e => decide (e.1 = p)) := by
  induction m with
  | nil => rw [mapSet, List.find?_cons]; by_cases h : k = p <;> simp [h]
  | cons x m ih =>
    rw [mapSet]
    by_cases h1 : x.1 = k
    · rw [if_pos h1, List.find?_cons, List.find?_cons]
      by_cases h : k = p
      · simp [h]
      · simp [h, h1]
    · rw [if_neg h1]
      by_cases h2 : k < x.1
      · rw [if_pos h2, List.find?_cons]
        by_cases h : k = p <;> simp [h]
      · rw [if_neg h2, List.find?_cons, List.find?_cons, ih]
        by_cases h : k = p
        · subst h; simp [h1]
        · simp [h]

theorem mapRep_set (p u : Str) (m pending : List (Str × Str)) (h : MapRep m pending) :
    MapRep (mapSet p u m) (pending ++ [(p, u)]) := by
  refine ⟨mapSet_sorted p u m h.1, ?_⟩
  intro q
  rw [mapSet_find, List.filter_append]
  by_cases hq : p = q
  · simp [hq]
  · simp [hq, h.2 q]

theorem announced_eq (m pending : List (Str × Str)) (h : MapRep m pending) (p : Str) :
    announced pending p = if Sax.reserved p then none else
      (m.find? fun e => decide (e.1 = p)).map (·.2) := by
  unfold announced
  by_cases hr : Sax.reserved p
  · rw [if_pos hr]; simp [hr]
  · rw [if_neg hr, h.2]; simp [hr]

/-- Declaring the mappings of a sorted map in a new context. -/
theorem declareAll_rep (m : List (Str × Str)) : ∀ (c : Sax.Context) (s : Sax.NsState)
    (f : Str → Option Str) (t : Sax.Scopes), m.Pairwise (fun a b => a.1 < b.1) →
    Sax.Rep (c :: s) (f :: t) → (∀ e ∈ m, f e.1 = none) →
    ∃ s', declareAll m (c :: s) = some s' ∧
      Sax.Rep s' ((fun p => if Sax.reserved p then f p else
        ((m.find? fun e => decide (e.1 = p)).map (·.2)).or (f p)) :: t) := by
  induction m with
  | nil =>
    intro c s f t _ h _
    refine ⟨_, rfl, ?_⟩
    have : (fun p => if Sax.reserved p then f p else
        ((([] : List (Str × Str)).find? fun e => decide (e.1 = p)).map (·.2)).or (f p)) = f := by
      funext p; simp
    rw [this]; exact h
  | cons x m ih =>
    intro c s f t hs h hf
    obtain ⟨p, u⟩ := x
    rw [List.pairwise_cons] at hs
    rw [declareAll, Sax.declarePrefix]
    by_cases hr : Sax.reserved p
    · have hr' : p = Sax.xmlPrefix ∨ p = Sax.xmlnsPrefix := hr
      rw [if_pos hr']
      obtain ⟨s', h1, h2⟩ := ih c s f t hs.2 h (fun e he => hf e (List.mem_cons_of_mem _ he))
      refine ⟨s', h1, ?_⟩
      have : (fun q => if Sax.reserved q then f q else
          ((((p, u) :: m).find? fun e => decide (e.1 = q)).map (·.2)).or (f q)) =
          (fun q => if Sax.reserved q then f q else
          ((m.find? fun e => decide (e.1 = q)).map (·.2)).or (f q)) := by
        funext q
        by_cases hq : Sax.reserved q
        · rw [if_pos hq, if_pos hq]
        · have hpq : ¬ p = q := fun hc => hq (hc ▸ hr)
          rw [if_neg hq, if_neg hq, List.find?_cons]
          simp [hpq]
      rw [this]; exact h2
    · have hr' : ¬ (p = Sax.xmlPrefix ∨ p = Sax.xmlnsPrefix) := hr
      rw [if_neg hr']
      have hd := Sax.rep_declare p u s (f :: t) c h
      rw [Sax.declareOnce] at hd
      obtain ⟨s', h1, h2⟩ := ih _ s _ t hs.2 hd (by
        intro e he
        have hne : ¬ e.1 = p := fun hc => Sax.str_irrefl p (by have := hs.1 e he; rw [hc] at this; exact this)
        simp only [hne, false_and, if_false]
        exact hf e (List.mem_cons_of_mem _ he))
      refine ⟨s', h1, ?_⟩
      have hfp : f p = none := hf (p, u) List.mem_cons_self
      have : (fun q => if Sax.reserved q then f q else
          ((((p, u) :: m).find? fun e => decide (e.1 = q)).map (·.2)).or (f q)) =
          (fun q => if Sax.reserved q then (if q = p ∧ f q = none then some u else f q) else
          ((m.find? fun e => decide (e.1 = q)).map (·.2)).or (if q = p ∧ f q = none then some u else f q)) := by
        funext q
        by_cases hqp : q = p
        · subst hqp
          rw [if_neg hr, if_neg hr, List.find?_cons]
          have : m.find? (fun e => decide (e.1 = q)) = none := by
            rw [List.find?_eq_none]
            intro e he hc
            have := hs.1 e he
            rw [of_decide_eq_true hc] at this
            exact Sax.str_irrefl _ this
          simp [this, hfp]
        · have hpq : ¬ p = q := fun hc => hqp hc.symm
          rw [List.find?_cons]
          simp [hqp, hpq]
      rw [this]; exact h2

/-- Tracker and scopes. -/
def TRep (t : Tracker) (pending : List (Str × Str)) (sc : Sax.Scopes) : Prop :=
  Sax.Rep t.namespaces sc ∧ MapRep t.buffer pending

theorem track_rep (es : List Ev) : ∀ (t : Tracker) (pending : List (Str × Str)) (sc : Sax.Scopes)
    (r : List (Str × Str) × Sax.Scopes), TRep t pending sc → scopes es pending sc = some r →
    ∃ t', trackAll es t = some t' ∧ TRep t' r.1 r.2 := by
  induction es with
  | nil =>
    intro t pending sc r h hr
    simp only [scopes, Option.some.injEq] at hr
    subst hr
    exact ⟨t, rfl, h⟩
  | cons e es ih =>
    intro t pending sc r h hr
    rw [trackAll]
    cases e with
    | startPrefixMapping p u => exact ih _ _ _ r ⟨h.1, mapRep_set p u _ _ h.2⟩ hr
    | startElement a b c d =>
      rw [scopes] at hr
      obtain ⟨s', h1, h2⟩ := declareAll_rep t.buffer [] t.namespaces (fun _ => none) sc h.2.1
        ⟨List.Pairwise.nil, fun _ => rfl, h.1⟩ (fun _ _ => rfl)
      have hf : (fun p => if Sax.reserved p then (none : Option Str) else
          ((t.buffer.find? fun e => decide (e.1 = p)).map (·.2)).or none) = announced pending := by
        funext p
        rw [announced_eq _ _ h.2, Option.or_none]
      rw [hf] at h2
      simp only [track, Sax.pushContext, h1, Option.map_some, Option.bind_some]
      exact ih ⟨s', []⟩ [] _ r ⟨h2, List.Pairwise.nil, fun p => by simp⟩ hr
    | endElement a b c =>
      cases sc with
      | nil => simp [scopes] at hr
      | cons g sc =>
        cases sc with
        | nil => simp [scopes] at hr
        | cons f sc =>
          rw [scopes] at hr
          obtain ⟨h1, h2⟩ := h
          cases hns : t.namespaces with
          | nil => rw [hns] at h1; exact h1.elim
          | cons c ns =>
            rw [hns] at h1
            simp only [track, hns, Sax.popContext, Option.map_some, Option.bind_some]
            exact ih _ _ _ r ⟨h1.2.2, h2⟩ hr
    | _ => exact ih _ _ _ r h hr

theorem trep_init : TRep Tracker.init [] Sax.initial :=
  ⟨Sax.rep_init, List.Pairwise.nil, fun p => by simp [Tracker.init]⟩

/-! ### inScopeNamespaces -/

theorem getPrefixes_mem (p : Str) (hp : p ≠ []) (s : Sax.NsState) :
    p ∈ Sax.getPrefixes s ↔ (Sax.nsFind p s).isSome := by
  induction s with
  | nil => simp [Sax.getPrefixes, Sax.nsFind]
  | cons c s ih =>
    rw [Sax.getPrefixes, Sax.nsFind, List.mem_append, ih]
    cases hf : Sax.mmFind p c with
    | none =>
      have := (Sax.mmFind_none p c).mp hf
      simp only [or_iff_right_iff_imp]
      intro h
      simp only [List.mem_map, List.mem_filter] at h
      obtain ⟨e, ⟨he, _⟩, rfl⟩ := h
      exact (this e.2 he).elim
    | some u =>
      have := Sax.mmFind_some_mem p u c hf
      simp only [Option.isSome_some, iff_true]
      left
      simp only [List.mem_map, List.mem_filter]
      exact ⟨(p, u), ⟨this, by cases p <;> simp_all⟩, rfl⟩

theorem getPrefixes_nonempty (s : Sax.NsState) : ([] : Str) ∉ Sax.getPrefixes s := by
  induction s with
  | nil => simp [Sax.getPrefixes]
  | cons c s ih =>
    rw [Sax.getPrefixes, List.mem_append]
    simp [ih]

/-- A map with the right values. -/
def Vals (ns : Sax.NsState) (m : List (Str × Str)) : Prop :=
  m.Pairwise (fun a b => a.1 < b.1) ∧ ∀ e ∈ m, e.2 = Sax.getURI e.1 ns

theorem mapSet_keys (k v : Str) (m : List (Str × Str)) (p : Str) :
    (∃ u, (p, u) ∈ mapSet k v m) ↔ p = k ∨ ∃ u, (p, u) ∈ m := by
  have key : ∀ m : List (Str × Str), (∃ u, (p, u) ∈ m) ↔ (m.find? fun e => decide (e.1 = p)).isSome := by
    intro m
    rw [List.find?_isSome]
    constructor
    · rintro ⟨u, h⟩; exact ⟨_, h, by simp⟩
    · rintro ⟨⟨a, u⟩, h, h2⟩; simp at h2; subst h2; exact ⟨u, h⟩
  rw [key, key, mapSet_find]
  by_cases h : k = p
  · simp [h]
  · simp [h, Ne.symm h]

theorem vals_set (ns : Sax.NsState) (m : List (Str × Str)) (p : Str) (h : Vals ns m) :
    Vals ns (mapSet p (Sax.getURI p ns) m) := by
  refine ⟨mapSet_sorted _ _ _ h.1, ?_⟩
  intro e he
  rcases mapSet_mem _ _ _ _ he with he | he
  · rw [he]
  · exact h.2 e he

theorem scopeLoop_vals (ns : Sax.NsState) (ps : List Str) : ∀ m, Vals ns m →
    Vals ns (scopeLoop ns ps m) ∧
    ∀ p, (∃ u, (p, u) ∈ scopeLoop ns ps m) ↔ p ∈ ps ∨ ∃ u, (p, u) ∈ m := by
  induction ps with
  | nil => intro m h; exact ⟨h, fun p => by simp [scopeLoop]⟩
  | cons q ps ih =>
    intro m h
    rw [scopeLoop]
    by_cases hq : m.any (fun e => decide (e.1 = q)) = true
    · rw [if_pos hq]
      refine ⟨(ih m h).1, fun p => ?_⟩
      rw [(ih m h).2 p, List.mem_cons]
      constructor
      · rintro (h | h)
        · exact .inl (.inr h)
        · exact .inr h
      · rintro ((h | h) | h)
        · subst h
          rw [List.any_eq_true] at hq
          obtain ⟨⟨a, u⟩, h1, h2⟩ := hq
          simp at h2; subst h2
          exact .inr ⟨u, h1⟩
        · exact .inl h
        · exact .inr h
    · rw [if_neg hq]
      have := ih _ (vals_set ns m q h)
      refine ⟨this.1, fun p => ?_⟩
      rw [this.2 p, mapSet_keys, List.mem_cons]
      constructor
      · rintro (h | h | h)
        · exact .inl (.inr h)
        · exact .inl (.inl h)
        · exact .inr h
      · rintro ((h | h) | h)
        · exact .inr (.inl h)
        · exact .inl h
        · exact .inr (.inr h)

theorem inScope_spec (t : Tracker) (p u : Str) :
    (p, u) ∈ t.inScope ↔ u = t.getURI p ∧ (p = [] ∨ (Sax.nsFind p t.namespaces).isSome) := by
  have hl := scopeLoop_vals t.namespaces (Sax.getPrefixes t.namespaces) [] ⟨List.Pairwise.nil, by simp⟩
  have hv : Vals t.namespaces t.inScope := vals_set t.namespaces _ [] hl.1
  have hk : ∀ p, (∃ u, (p, u) ∈ t.inScope) ↔ p = [] ∨ p ∈ Sax.getPrefixes t.namespaces := by
    intro p
    unfold Tracker.inScope
    rw [mapSet_keys, hl.2 p]
    simp
  have hp : p = [] ∨ (Sax.nsFind p t.namespaces).isSome ↔ p = [] ∨ p ∈ Sax.getPrefixes t.namespaces := by
    by_cases h : p = []
    · simp [h]
    · rw [getPrefixes_mem p h]
  rw [hp, ← hk]
  constructor
  · intro h; exact ⟨hv.2 _ h, u, h⟩
  · rintro ⟨rfl, u', h⟩
    have : u' = t.getURI p := hv.2 _ h
    exact this ▸ h

theorem inScope_sorted (t : Tracker) : t.inScope.Pairwise (fun a b => a.1 < b.1) :=
  mapSet_sorted _ _ _ (scopeLoop_vals t.namespaces (Sax.getPrefixes t.namespaces) []
    ⟨List.Pairwise.nil, by simp⟩).1.1

end Verif.SaxFilter
