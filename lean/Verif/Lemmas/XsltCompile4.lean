import Verif.Lemmas.XsltCompile3
/- The handlers with children of their own kinds: parameters, sorts and branches. -/
set_option autoImplicit false
set_option linter.unusedSimpArgs false
set_option linter.unusedVariables false

namespace Verif.Lemmas.XsltCompile

open Verif.XsltCompile
open Verif.Spec.XsltCompile (Src events eventsAll xsltNs xmlNs Tag tag Att attr only white nothing
  Regular TextWhole Plain Careful AllPlain AllCareful nodes nodesAll select? name? avtOr sortOf nsOf literalAtts binding
  lang? priority? templateOf keyOf item content arguments branches sorted characters valueOr parametrised)

section
variable {ε μ ν π : Type} [DecidableEq ν]

theorem mem_nodesAll {k : Src} {ks : List Src} (hk : k ∈ ks) : ∀ x ∈ nodes k, x ∈ nodesAll ks := by
  induction ks with
  | nil => cases hk
  | cons y ys ih =>
    intro x hx
    rw [nodesAll, List.mem_append]
    cases hk with
    | head => exact Or.inl hx
    | tail _ h => exact Or.inr (ih h x hx)

theorem allPlain_self {el : El} {kids : List Src} (h : AllPlain (.elem el kids)) : Plain el kids :=
  h (el, kids) (by rw [nodes]; exact List.mem_cons_self)

theorem allCareful_self {el : El} {kids : List Src} (h : AllCareful (.elem el kids)) :
    Careful el kids :=
  h (el, kids) (by rw [nodes]; exact List.mem_cons_self)

theorem allPlain_kids {el : El} {kids : List Src} (h : AllPlain (.elem el kids))
    (ht : tag el ≠ some .text) : ∀ k ∈ kids, PlainIn k := by
  intro k hk
  cases k with
  | text ps => exact (allPlain_self h).texts ht ps hk
  | elem e ks =>
    intro x hx
    exact h x (by rw [nodes]; exact List.mem_cons_of_mem _ (mem_nodesAll hk x hx))

theorem allCareful_kids {el : El} {kids : List Src} (h : AllCareful (.elem el kids)) :
    ∀ k ∈ kids, AllCareful k := by
  intro k hk x hx
  exact h x (by rw [nodes]; exact List.mem_cons_of_mem _ (mem_nodesAll hk x hx))

theorem plainIn_elem {el : El} {kids : List Src} (h : PlainIn (.elem el kids)) :
    AllPlain (.elem el kids) := h

theorem events_elem (el : El) (kids : List Src) (rest : List Event) :
    events (.elem el kids) ++ rest = .start el :: (eventsAll kids ++ .finish :: rest) := by
  rw [events]; simp

theorem cond_sort (el : El) : (el.uri = SC.xslt ∧ el.loc = SC.eSort) ↔ tag el = some .sort :=
  (tag_some (t := .sort)).symm
theorem cond_with (el : El) : (el.uri = SC.xslt ∧ el.loc = SC.eWithParam) ↔ tag el = some .withParam :=
  (tag_some (t := .withParam)).symm
theorem cond_when (el : El) : (el.uri = SC.xslt ∧ el.loc = SC.eWhen) ↔ tag el = some .when :=
  (tag_some (t := .when)).symm
theorem cond_otherwise (el : El) : (el.uri = SC.xslt ∧ el.loc = SC.eOtherwise) ↔ tag el = some .otherwise :=
  (tag_some (t := .otherwise)).symm
theorem cond_param (el : El) : (el.uri = SC.xslt ∧ el.loc = SC.eParam) ↔ tag el = some .param :=
  (tag_some (t := .param)).symm

theorem tag_uri {el : El} {t : Tag} (h : tag el = some t) : el.uri = xsltNs := (tag_some.mp h).1

theorem binding_empty {E : Ext ε μ ν π} {el : El} (h : attr el .select = some []) :
    binding E el = none := by
  unfold binding
  have : select? E el = none := by unfold select?; rw [h]
  rw [this]
  cases only el [.name, .select] with
  | none => rfl
  | some u =>
    cases Verif.Spec.XsltCompile.need el .name with
    | none => rfl
    | some v => cases h2 : E.name el.scope v <;> simp [h2]

theorem binding_select {E : Ext ε μ ν π} {el : El} {ne : ν × Option ε} (h : binding E el = some ne)
    (hs : ne.2.isSome) : attr el .select ≠ none := by
  intro ha
  unfold binding at h
  have : select? E el = some none := by unfold select?; rw [ha]
  rw [this] at h
  cases ho : only el [.name, .select] with
  | none => rw [ho] at h; cases h
  | some u =>
    rw [ho] at h
    cases hn : Verif.Spec.XsltCompile.need el .name with
    | none => rw [hn] at h; cases h
    | some v =>
      rw [hn] at h
      cases h2 : E.name el.scope v with
      | none => simp [h2] at h
      | some n =>
        have : ne = (n, none) := by simpa [h2] using h.symm
        rw [this] at hs; cases hs

theorem settled_plain (E : Ext ε μ ν π) :
    (∀ e, Settled E (.ifThen e)) ∧ (∀ b, Settled E (.message b)) ∧ Settled E .comment ∧
    (∀ e, Settled E (.procInst e)) ∧ Settled E .copy ∧ (∀ e ns, Settled E (.element e ns)) ∧
    (∀ e ns, Settled E (.attribute e ns)) ∧ (∀ q u as, Settled E (.literal q u as)) ∧
    (∀ e, Settled E (.when e)) ∧ Settled E .otherwise ∧ (∀ p q u as, Settled E (.whole p q u as)) := by
  have key : ∀ m : Maker ε μ ν π, (∀ cur el, startInBox E cur el m = (openChild E cur el).map (fun f => (m, f))) →
      (∀ (s : Str) (items : List (Code ε ν)), charsInBox s items m =
        if blank s then some (.box m items) else some (.box m (items ++ [.text s false]))) → Settled E m := by
    intro m h1 h2
    refine ⟨h1, fun s items => ?_⟩
    rw [h2]; split <;> rfl
  refine ⟨fun _ => ?_, fun _ => ?_, ?_, fun _ => ?_, ?_, fun _ _ => ?_, fun _ _ => ?_, fun _ _ _ => ?_,
    fun _ => ?_, ?_, fun _ _ _ _ => ?_⟩ <;>
  exact key _ (fun _ _ => rfl) (fun _ _ => rfl)

theorem isBinding_of {E : Ext ε μ ν π} {mk : ν → Option ε → Maker ε μ ν π}
    (h1 : ∀ n e cur el, startInBox E cur el (mk n e) = (openChild E cur el).map (fun f => (mk n e, f)))
    (h2 : ∀ n (s : Str) (items : List (Code ε ν)), charsInBox s items (mk n none) =
        if blank s then some (.box (mk n none) items) else some (.box (mk n none) (items ++ [.text s false])))
    (h3 : ∀ n e (s : Str) (items : List (Code ε ν)), charsInBox s items (mk n (some e)) =
        if blank s then some (.box (mk n (some e)) items) else none) : IsBinding E mk := by
  refine ⟨fun n => ⟨h1 n none, fun s items => ?_⟩, fun n e t items => h3 n e t items⟩
  rw [h2]; split <;> rfl

theorem isBinding_variable (E : Ext ε μ ν π) : IsBinding E Maker.variable :=
  isBinding_of (fun _ _ _ _ => rfl) (fun _ _ _ => rfl) (fun _ _ _ _ => rfl)
theorem isBinding_param (E : Ext ε μ ν π) : IsBinding E Maker.param :=
  isBinding_of (fun _ _ _ _ => rfl) (fun _ _ _ => rfl) (fun _ _ _ _ => rfl)
theorem isBinding_with (E : Ext ε μ ν π) : IsBinding E Maker.withParam :=
  isBinding_of (fun _ _ _ _ => rfl) (fun _ _ _ => rfl) (fun _ _ _ _ => rfl)
theorem isBinding_global (E : Ext ε μ ν π) (b : Bool) : IsBinding E (Maker.global b) :=
  isBinding_of (fun _ _ _ _ => rfl) (fun _ _ _ => rfl) (fun _ _ _ _ => rfl)

/-- A variable, from its start to its end. -/
theorem binding_run {E : Ext ε μ ν π} {el : El} {kids : List Src} (h : ContentRun E kids)
    {mk : ν → Option ε → Maker ε μ ν π} (hmk : IsBinding E mk) (s : St ε μ ν π) (rest : List Event)
    (fs : List (Frame ε μ ν π)) (hc : Calm E s.current) (hp : AllPlain (.elem el kids))
    (ht : tag el = some .variable ∨ tag el = some .param ∨ tag el = some .withParam)
    (hk : (binding E el).bind (fun ne => valueOr E ne.2 kids) = none → AllCareful (.elem el kids)) :
    ((openVariable E s.current mk el).bind (fun f =>
      run E (eventsAll kids ++ .finish :: rest) (at' s (f :: fs)))) =
    (binding E el).bind (fun ne => (valueOr E ne.2 kids).bind (fun b =>
      (endBox (at' s (.box (mk ne.1 ne.2) b :: fs)) fs b (mk ne.1 ne.2)).bind (run E rest))) := by
  have hu : el.uri = xsltNs := by rcases ht with h | h | h <;> exact tag_uri h
  have hs : attr el .select ≠ some [] := by
    intro ha
    have hca := hk (by rw [binding_empty ha]; rfl)
    exact (allCareful_self hca).empty hu .select (by simp) ha
  rw [openVariable_eq ((allPlain_self hp).regular hu) hc hs]
  cases hb : binding E el with
  | none => rfl
  | some ne =>
    rw [hb] at hk
    refine value_run h hmk s rest ne.1 ne.2 fs hc (allPlain_kids hp ?_) ?_
    · rcases ht with h | h | h <;> rw [h] <;> decide
    · intro hv
      have hca := hk hv
      exact ⟨allCareful_kids hca, fun hsome => (allCareful_self hca).binding ht (binding_select hb hsome)⟩

/-- A sort, from its start to its end. -/
theorem sort_run {E : Ext ε μ ν π} {el : El} {kids : List Src} (s : St ε μ ν π) (rest : List Event)
    (fs : List (Frame ε μ ν π)) (hc : Calm E s.current) (hp : AllPlain (.elem el kids))
    (ht : tag el = some .sort) :
    ((openSort E s.current el).bind (fun f =>
      run E (eventsAll kids ++ .finish :: rest) (at' s (f :: fs)))) =
    (sortOf E el kids).bind (fun so => ((addSort so fs).map (fun fs => at' s fs)).bind (run E rest)) := by
  have hu := tag_uri ht
  rw [openSort_eq ((allPlain_self hp).regular hu) hc ((allPlain_self hp).lang hu), sortOf_nil el kids]
  cases sortOf E el [] with
  | none => rfl
  | some so =>
    show run E _ (at' s (.sort so :: fs)) = _
    rw [closed_run (closed_sort E so), Option.bind_some]
    by_cases hn : nothing kids = true
    · rw [if_pos hn, if_pos hn]; rfl
    · rw [if_neg hn, if_neg hn]; rfl

theorem arguments_with {E : Ext ε μ ν π} {el : El} {kids : List Src} (h2 : tag el = some .withParam)
    (b : Bool) (ks : List Src) :
    arguments E b (.elem el kids :: ks) = (binding E el).bind (fun ne =>
      (valueOr E ne.2 kids).bind (fun v =>
      (arguments E b ks).bind (fun r => some (r.1, (ne.1, ne.2, v) :: r.2)))) := by
  rw [arguments, h2]
  show (binding E el).bind _ = _
  congr 1
  funext ne
  unfold valueOr
  cases hn : ne.2 with
  | none => rfl
  | some e =>
    cases nothing kids <;> rfl

theorem run_start_apply {E : Ext ε μ ν π} (el : El) (es : List Event) (s : St ε μ ν π)
    (e : Option ε) (m : Option ν) (ss : List (SortBy ε)) (ps : List (ν × Option ε × List (Code ε ν)))
    (fs : List (Frame ε μ ν π)) :
    run E (.start el :: es) (at' s (.applyTemplates e m ss ps :: fs)) =
      if tag el = some .sort then
        (openSort E s.current el).bind (fun f => run E es (at' s (f :: .applyTemplates e m ss ps :: fs)))
      else if tag el = some .withParam then
        (openVariable E s.current .withParam el).bind (fun f => run E es (at' s (f :: .applyTemplates e m ss ps :: fs)))
      else none := by
  rw [run_cons]
  show Option.bind (start E el (at' s (.applyTemplates e m ss ps :: fs))) _ = _
  unfold start
  simp only [at_frames, cond_sort, cond_with, at_current]
  split
  · cases openSort E s.current el <;> rfl
  · split
    · cases openVariable E s.current .withParam el <;> rfl
    · rfl

theorem run_start_call {E : Ext ε μ ν π} (el : El) (es : List Event) (s : St ε μ ν π)
    (n : ν) (ps : List (ν × Option ε × List (Code ε ν))) (fs : List (Frame ε μ ν π)) :
    run E (.start el :: es) (at' s (.callTemplate n ps :: fs)) =
      if tag el = some .withParam then
        (openVariable E s.current .withParam el).bind (fun f => run E es (at' s (f :: .callTemplate n ps :: fs)))
      else none := by
  rw [run_cons]
  show Option.bind (start E el (at' s (.callTemplate n ps :: fs))) _ = _
  unfold start
  simp only [at_frames, cond_sort, cond_with, at_current]
  split
  · cases openVariable E s.current .withParam el <;> rfl
  · rfl

/-- The children of `xsl:apply-templates`. -/
theorem args_run {E : Ext ε μ ν π} (ks : List Src)
    (IH : ∀ el kids, Src.elem el kids ∈ ks → ContentRun E kids) (s : St ε μ ν π) (rest : List Event)
    (e : Option ε) (m : Option ν) (ss : List (SortBy ε)) (ps : List (ν × Option ε × List (Code ε ν)))
    (fs : List (Frame ε μ ν π)) (hc : Calm E s.current) (hp : ∀ k ∈ ks, PlainIn k)
    (hk : arguments E true ks = none → ∀ k ∈ ks, AllCareful k) :
    run E (eventsAll ks ++ rest) (at' s (.applyTemplates e m ss ps :: fs)) =
      (arguments E true ks).bind (fun r =>
        run E rest (at' s (.applyTemplates e m (ss ++ r.1) (ps ++ r.2) :: fs))) := by
  induction ks generalizing ss ps with
  | nil => rw [arguments]; simp only [Option.bind_some, List.append_nil]; rfl
  | cons k ks ih =>
    have ih' := ih (fun el kids h => IH el kids (List.mem_cons_of_mem _ h))
    have hp' := fun x hx => hp x (List.mem_cons_of_mem _ hx)
    cases k with
    | text qs =>
      rw [eventsAll, events, List.append_assoc, blanks_run (fun _ => rfl), arguments]
      by_cases hw : white qs.flatten
      · rw [if_pos hw, if_pos hw]
        refine ih' ss ps hp' (fun hn x hx => hk ?_ x (List.mem_cons_of_mem _ hx))
        rw [arguments, if_pos hw]; exact hn
      · rw [if_neg hw, if_neg hw]; rfl
    | elem el kids =>
      rw [eventsAll, List.append_assoc, events_elem, run_start_apply]
      have hpk := plainIn_elem (hp _ List.mem_cons_self)
      by_cases h1 : tag el = some .sort
      · have ea : arguments E true (.elem el kids :: ks) = (sortOf E el kids).bind (fun so =>
            (arguments E true ks).bind (fun r => some (so :: r.1, r.2))) := by
          rw [arguments, h1]; rfl
        rw [ea] at hk ⊢
        rw [if_pos h1, sort_run s _ _ hc hpk h1]
        cases hso : sortOf E el kids with
        | none => rfl
        | some so =>
          rw [hso] at hk
          show run E _ (at' s (.applyTemplates e m (ss ++ [so]) ps :: fs)) = _
          rw [ih' (ss ++ [so]) ps hp']
          · simp only [Option.bind_some]
            cases arguments E true ks with
            | none => rfl
            | some r => simp
          · intro hn x hx
            exact hk (by rw [hn]; rfl) x (List.mem_cons_of_mem _ hx)
      · rw [if_neg h1]
        by_cases h2 : tag el = some .withParam
        · have ea : arguments E true (.elem el kids :: ks) = (binding E el).bind (fun ne =>
              (valueOr E ne.2 kids).bind (fun b =>
              (arguments E true ks).bind (fun r => some (r.1, (ne.1, ne.2, b) :: r.2)))) := by
            exact arguments_with h2 _ ks
          rw [ea] at hk ⊢
          rw [if_pos h2, binding_run (IH el kids List.mem_cons_self) (isBinding_with E) s _ _ hc hpk
            (Or.inr (Or.inr h2))]
          · cases hb : binding E el with
            | none => rfl
            | some ne =>
              rw [hb] at hk
              simp only [Option.bind_some] at hk ⊢
              cases hv : valueOr E ne.2 kids with
              | none => rfl
              | some b =>
                rw [hv] at hk
                show run E _ (at' s (.applyTemplates e m ss (ps ++ [(ne.1, ne.2, b)]) :: fs)) = _
                rw [ih' ss _ hp']
                · simp only [Option.bind_some]
                  cases arguments E true ks with
                  | none => rfl
                  | some r => simp
                · intro hn x hx
                  exact hk (by rw [hn]; rfl) x (List.mem_cons_of_mem _ hx)
          · intro hn
            refine hk ?_ _ List.mem_cons_self
            cases hb : binding E el with
            | none => rfl
            | some ne =>
              rw [hb] at hn
              simp only [Option.bind_some] at hn ⊢
              rw [hn]; rfl
        · rw [if_neg h2]
          have ea : arguments E true (.elem el kids :: ks) = none := by
            rw [arguments]
            split
            · rename_i h; exact absurd h h1
            · rename_i h; exact absurd h h2
            · rfl
          rw [ea]; rfl

/-- The children of `xsl:call-template`. -/
theorem call_run {E : Ext ε μ ν π} (ks : List Src)
    (IH : ∀ el kids, Src.elem el kids ∈ ks → ContentRun E kids) (s : St ε μ ν π) (rest : List Event)
    (n : ν) (ps : List (ν × Option ε × List (Code ε ν)))
    (fs : List (Frame ε μ ν π)) (hc : Calm E s.current) (hp : ∀ k ∈ ks, PlainIn k)
    (hk : arguments E false ks = none → (∀ k ∈ ks, AllCareful k) ∧
      ∀ ps, Src.text ps ∈ ks → white ps.flatten) :
    run E (eventsAll ks ++ rest) (at' s (.callTemplate n ps :: fs)) =
      (arguments E false ks).bind (fun r =>
        run E rest (at' s (.callTemplate n (ps ++ r.2) :: fs))) := by
  induction ks generalizing ps with
  | nil => rw [arguments]; simp only [Option.bind_some, List.append_nil]; rfl
  | cons k ks ih =>
    have ih' := ih (fun el kids h => IH el kids (List.mem_cons_of_mem _ h))
    have hp' := fun x hx => hp x (List.mem_cons_of_mem _ hx)
    cases k with
    | text qs =>
      have hskip : ∀ (qs : List Str) (es : List Event),
          run E (qs.map Event.chars ++ es) (at' s (.callTemplate n ps :: fs)) =
            run E es (at' s (.callTemplate n ps :: fs)) := by
        intro qs es
        induction qs with
        | nil => rfl
        | cons q qs ihq => exact ihq
      rw [eventsAll, events, List.append_assoc, hskip, arguments]
      have hw : white qs.flatten := by
        apply Classical.byContradiction
        intro hw
        exact hw ((hk (by rw [arguments, if_neg hw])).2 qs List.mem_cons_self)
      rw [if_pos hw]
      refine ih' ps hp' (fun hn => ?_)
      have := hk (by rw [arguments, if_pos hw]; exact hn)
      exact ⟨fun x hx => this.1 x (List.mem_cons_of_mem _ hx),
        fun qs hq => this.2 qs (List.mem_cons_of_mem _ hq)⟩
    | elem el kids =>
      rw [eventsAll, List.append_assoc, events_elem, run_start_call]
      have hpk := plainIn_elem (hp _ List.mem_cons_self)
      by_cases h2 : tag el = some .withParam
      · have ea : arguments E false (.elem el kids :: ks) = (binding E el).bind (fun ne =>
            (valueOr E ne.2 kids).bind (fun b =>
            (arguments E false ks).bind (fun r => some (r.1, (ne.1, ne.2, b) :: r.2)))) := by
          exact arguments_with h2 _ ks
        rw [ea] at hk ⊢
        rw [if_pos h2, binding_run (IH el kids List.mem_cons_self) (isBinding_with E) s _ _ hc hpk
          (Or.inr (Or.inr h2))]
        · cases hb : binding E el with
          | none => rfl
          | some ne =>
            rw [hb] at hk
            simp only [Option.bind_some] at hk ⊢
            cases hv : valueOr E ne.2 kids with
            | none => rfl
            | some b =>
              rw [hv] at hk
              show run E _ (at' s (.callTemplate n (ps ++ [(ne.1, ne.2, b)]) :: fs)) = _
              rw [ih' _ hp']
              · simp only [Option.bind_some]
                cases arguments E false ks with
                | none => rfl
                | some r => simp
              · intro hn
                have := hk (by rw [hn]; rfl)
                exact ⟨fun x hx => this.1 x (List.mem_cons_of_mem _ hx),
                  fun qs hq => this.2 qs (List.mem_cons_of_mem _ hq)⟩
        · intro hn
          refine (hk ?_).1 _ List.mem_cons_self
          cases hb : binding E el with
          | none => rfl
          | some ne =>
            rw [hb] at hn
            simp only [Option.bind_some] at hn ⊢
            rw [hn]; rfl
      · rw [if_neg h2]
        have ea : arguments E false (.elem el kids :: ks) = none := by
          rw [arguments]
          split
          · rfl
          · rename_i h; exact absurd h h2
          · rfl
        rw [ea]; rfl

theorem run_start_choose {E : Ext ε μ ν π} (el : El) (es : List Event) (s : St ε μ ν π)
    (ws : List (ε × List (Code ε ν))) (o : Option (List (Code ε ν))) (sw : Bool)
    (fs : List (Frame ε μ ν π)) :
    run E (.start el :: es) (at' s (.choose ws o sw false :: fs)) =
      if tag el = some .when then
        (openWhen E s.current el).bind (fun f => run E es (at' s (f :: .choose ws o true false :: fs)))
      else if tag el = some .otherwise then
        (openOtherwise el).bind (fun f => run E es (at' s (f :: .choose ws o sw true :: fs)))
      else none := by
  rw [run_cons]
  show Option.bind (start E el (at' s (.choose ws o sw false :: fs))) _ = _
  unfold start
  simp only [at_frames, cond_when, cond_otherwise, at_current, Bool.false_eq_true, if_false]
  split
  · cases openWhen E s.current el <;> rfl
  · split
    · cases (openOtherwise el : Option (Frame ε μ ν π)) <;> rfl
    · rfl

/-- The children of `xsl:choose`. -/
theorem branches_run {E : Ext ε μ ν π} (ks : List Src)
    (IH : ∀ el kids, Src.elem el kids ∈ ks → ContentRun E kids) (s : St ε μ ν π) (rest : List Event)
    (ws : List (ε × List (Code ε ν))) (sw : Bool)
    (fs : List (Frame ε μ ν π)) (hc : Calm E s.current) (hp : ∀ k ∈ ks, PlainIn k)
    (hk : branches E ks = none → ∀ k ∈ ks, AllCareful k) :
    run E (eventsAll ks ++ rest) (at' s (.choose ws none sw false :: fs)) =
      (branches E ks).bind (fun r =>
        run E rest (at' s (.choose (ws ++ r.1) r.2 (sw || !r.1.isEmpty) r.2.isSome :: fs))) := by
  induction ks generalizing ws sw with
  | nil => rw [branches]; simp only [Option.bind_some, List.append_nil, List.isEmpty_nil, Bool.not_true, Bool.or_false]; rfl
  | cons k ks ih =>
    have ih' := ih (fun el kids h => IH el kids (List.mem_cons_of_mem _ h))
    have hp' := fun x hx => hp x (List.mem_cons_of_mem _ hx)
    cases k with
    | text qs =>
      rw [eventsAll, events, List.append_assoc, blanks_run (fun _ => rfl), branches]
      by_cases hw : white qs.flatten
      · rw [if_pos hw, if_pos hw]
        refine ih' ws sw hp' (fun hn x hx => hk ?_ x (List.mem_cons_of_mem _ hx))
        rw [branches, if_pos hw]; exact hn
      · rw [if_neg hw, if_neg hw]; rfl
    | elem el kids =>
      rw [eventsAll, List.append_assoc, events_elem, run_start_choose]
      have hpk := plainIn_elem (hp _ List.mem_cons_self)
      by_cases h1 : tag el = some .when
      · have ea : branches E (.elem el kids :: ks) = (only el [.test]).bind (fun _ =>
            (Verif.Spec.XsltCompile.need el .test).bind (fun v => (E.expr true true el.scope v).bind (fun e =>
            (content E kids).bind (fun b => (branches E ks).bind (fun r => some ((e, b) :: r.1, r.2)))))) := by
          rw [branches, h1]; rfl
        rw [ea] at hk ⊢
        rw [if_pos h1, openWhen_eq ((allPlain_self hpk).regular (tag_uri h1)) hc]
        cases ho : only el [.test] with
        | none => rfl
        | some u =>
          cases hn : Verif.Spec.XsltCompile.need el .test with
          | none => rfl
          | some v =>
            cases he : E.expr true true el.scope v with
            | none => simp [he]
            | some e =>
              rw [ho, hn] at hk
              simp only [Option.bind_some, he, bind] at hk ⊢
              rw [body_run (IH el kids List.mem_cons_self) s _ _ _ ((settled_plain E).2.2.2.2.2.2.2.2.1 e) hc
                (allPlain_kids hpk (by rw [h1]; decide))]
              · cases hcn : content E kids with
                | none => rfl
                | some b =>
                  rw [hcn] at hk
                  show run E _ (at' s (.choose (ws ++ [(e, b)]) none true false :: fs)) = _
                  rw [ih' _ _ hp']
                  · simp only [Option.bind_some]
                    cases branches E ks with
                    | none => rfl
                    | some r => simp
                  · intro hn2 x hx
                    exact hk (by rw [hn2]; rfl) x (List.mem_cons_of_mem _ hx)
              · intro hcn
                exact allCareful_kids (hk (by rw [hcn]; rfl) _ List.mem_cons_self)
      · rw [if_neg h1]
        by_cases h2 : tag el = some .otherwise
        · have ea : branches E (.elem el kids :: ks) = (only el []).bind (fun _ =>
              (content E kids).bind (fun b => if nothing ks then some ([], some b) else none)) := by
            rw [branches, h2]; rfl
          rw [ea] at hk ⊢
          rw [if_pos h2, openOtherwise_eq ((allPlain_self hpk).bare (tag_uri h2) (by simp [h2]))]
          cases ho : only el [] with
          | none => rfl
          | some u =>
            rw [ho] at hk
            simp only [Option.bind_some, bind] at hk ⊢
            rw [body_run (IH el kids List.mem_cons_self) s _ _ _ ((settled_plain E).2.2.2.2.2.2.2.2.2.1) hc
                (allPlain_kids hpk (by rw [h2]; decide))]
            · cases hcn : content E kids with
              | none => rfl
              | some b =>
                show run E _ (at' s (.choose ws (some b) sw true :: fs)) = _
                rw [closed_run (closed_choose E _ _ _)]
                simp only [Option.bind_some]
                by_cases hno : nothing ks = true
                · rw [if_pos hno, if_pos hno]; simp
                · rw [if_neg hno, if_neg hno]; rfl
            · intro hcn
              exact allCareful_kids (hk (by rw [hcn]; rfl) _ List.mem_cons_self)
        · rw [if_neg h2]
          have ea : branches E (.elem el kids :: ks) = none := by
            rw [branches]
            split
            · rename_i h; exact absurd h h1
            · rename_i h; exact absurd h h2
            · rfl
          rw [ea]; rfl

end
end Verif.Lemmas.XsltCompile
