import Verif.Lemmas.Taggle2
import Verif.Lemmas.Text
set_option autoImplicit false
set_option linter.unusedSimpArgs false
set_option linter.unusedVariables false
/-! # Lemmas about the HTML parser: documents, and that it always gets to the end -/
namespace Verif.Taggle
open Spec

variable {cfg : Cfg} {U P : Str} {base : List Ev → Prop} {root : Elem}

theorem congr_cdata {s : St} (h : Inv cfg U P base root s) :
    Inv cfg U P base root { s with cdata := false } :=
  ⟨h.body.congr rfl rfl rfl rfl rfl rfl, h.fresh, h.pc⟩

def AllInside (c : List Ev) : Prop := ∀ e ∈ c, Inside e
def AllOutside (c : List Ev) : Prop := ∀ e ∈ c, Inside e ∧ NotText e

theorem inv_handle_doc (hr : root.preclosed = false) {fuel : Nat} {s t : St} {tok : Tok}
    (h : Inv cfg U P AllInside root s) (ht : handle cfg fuel s tok = .ok t) :
    Inv cfg U P AllInside root t := by
  have add : ∀ c e, AllInside c → Inside e → AllInside (c ++ [e]) := by
    intro c e hc he x hx
    rcases List.mem_append.1 hx with hx | hx
    · exact hc x hx
    · simp at hx; subst hx; exact he
  have hk := keep_handle ht
  refine ⟨body_handle hr h (fun c e hc he _ => add c e hc he)
    (fun _ c x hc _ => add c _ hc (.characters x))
    (fun _ _ _ c x hc => add c _ hc (.characters x)) ht, hk.2.1 h.fresh, by rw [hk.1]; exact h.pc⟩

theorem inv_start (S : Schema) (seen : Bool) (hb : base []) :
    Inv cfg S.uri S.prefix' base (newElem cfg ((S.getType "<root>".toList).getD nullType))
      (start cfg S seen) := by
  refine ⟨⟨rfl, rfl, [], [], rfl, ?_, .nil _ hb, fun _ => ⟨rfl, rfl⟩, fun h => absurd h (by simp [start])⟩,
    fun e he => absurd he (by simp [start]), rfl⟩
  simp [start, hd]

theorem inv_all_doc (hr : root.preclosed = false) {fuel : Nat} : ∀ (ts : List Tok) (s t : St),
    Inv cfg U P AllInside root s → handleAll cfg fuel s ts = .ok t → Inv cfg U P AllInside root t
  | [], s, t, h, ht => by
    rw [handleAll] at ht; simp only [Out.ok.injEq] at ht; subst ht; exact h
  | tok :: ts, s, t, h, ht => by
    rw [handleAll] at ht
    cases hh : handle cfg fuel { s with cdata := false } tok with
    | ok s' =>
      rw [hh] at ht
      exact inv_all_doc hr ts s' t (inv_handle_doc hr (congr_cdata h) hh) ht
    | throws => rw [hh] at ht; exact absurd ht (by simp)
    | ub => rw [hh] at ht; exact absurd ht (by simp)
    | diverges => rw [hh] at ht; exact absurd ht (by simp)

theorem eof_doc {fuel : Nat} {s t : St} (h : Inv cfg U P AllInside root s)
    (ht : eof cfg fuel s = .ok t) : Document U P t.out := by
  obtain ⟨s', _, _, _, b, el, hb, hel, ho⟩ := body_eof h ht
  refine ⟨b, el, hb, ?_, ?_⟩
  · rcases hel with ⟨_, he⟩ | he
    · exact .inl he
    · exact .inr he
  · rw [ho]
    unfold hd
    by_cases hu : U = [] <;> simp [hu]

/-! ### Text stays inside the document element -/

theorem virgin_restartLoop (e : Option Elem) : ∀ (l : List Elem) (s : St), s.virgin = false →
    (restartLoop cfg e l s).virgin = false
  | [], s, h => h
  | x :: rest, s, h => by
    rw [restartLoop]
    by_cases hc : (canContain s.top x.ty && e.all (fun e => canContain x.ty e.ty)) = true
    · rw [if_pos hc]; exact virgin_restartLoop e rest _ rfl
    · rw [if_neg hc]; exact h

theorem virgin_pushChain : ∀ (l : List Elem) (s : St), s.virgin = false →
    (pushChain cfg l s).virgin = false
  | [], s, h => h
  | e :: rest, s, h => by
    rw [pushChain]
    apply virgin_pushChain rest
    apply virgin_restartLoop
    by_cases hn : e.ty.name ≠ "<pcdata>".toList
    · rw [if_pos hn]; rfl
    · rw [if_neg hn]; exact h

theorem virgin_restartablyPop (s : St) : (restartablyPop cfg s).virgin = s.virgin := by
  unfold restartablyPop
  cases hs : s.stack with
  | nil => rfl
  | cons e r =>
    by_cases hc : (cfg.restartElements && e.ty.has fRestart) = true
    · simp only [hc, if_true]; exact virgin_pop s
    · simp only [hc]; exact virgin_pop s

theorem virgin_popUpto : ∀ (i : Nat) (s : St), (popUpto cfg i s).virgin = s.virgin
  | 0, s => rfl
  | i + 1, s => by
    rw [popUpto]
    by_cases hl : s.stack.length ≤ 2
    · rw [if_pos hl]
    · rw [if_neg hl, virgin_popUpto i, virgin_restartablyPop]

theorem climb_head {s : St} : ∀ (fuel : Nat) (e : Elem) (chain : List Elem) (i : Nat) (l : List Elem),
    climb cfg s fuel e chain = .ok (i, l) →
    ∃ x r y, l = x :: r ∧ y ∈ s.stack ∧ canContain y.ty x.ty = true ∧
      (x.ty = e.ty ∨ ∃ k, (k, x.ty) ∈ s.schema.types)
  | 0, e, chain, i, l, h => by rw [climb] at h; exact absurd h (by simp)
  | fuel + 1, e, chain, i, l, h => by
    rw [climb] at h
    cases hf : s.stack.findIdx? (fun x => canContain x.ty e.ty) with
    | some j =>
      rw [hf] at h
      simp only [Out.ok.injEq, Prod.mk.injEq] at h
      obtain ⟨hj, hp, _⟩ := List.findIdx?_eq_some_iff_getElem.1 hf
      exact ⟨e, chain, s.stack[j], h.2.symm, List.getElem_mem hj, hp, .inl rfl⟩
    | none =>
      rw [hf] at h
      simp only [] at h
      cases hp : e.ty.parent with
      | none => rw [hp] at h; exact absurd h (by simp)
      | some p =>
        rw [hp] at h
        simp only [] at h
        cases ht : s.schema.types[p]? with
        | none => rw [ht] at h; exact absurd h (by simp)
        | some t =>
          rw [ht] at h
          simp only [] at h
          obtain ⟨x, r, y, h1, h2, h3, h4⟩ := climb_head fuel _ _ i l h
          refine ⟨x, r, y, h1, h2, h3, .inr ?_⟩
          rcases h4 with h4 | h4
          · rw [h4]; exact ⟨t.1, List.mem_of_getElem? ht⟩
          · exact h4

/-- In a state where nothing has been pushed the stack is the root alone. -/
theorem Body.virgin_stack {s : St} (h : Body cfg U P base root s) (hv : s.virgin = true) :
    s.stack = [root] := by
  obtain ⟨xs, c, h1, _, _, h4, _⟩ := h.body
  rw [h1, (h4 hv).1]; rfl

theorem rectify_pushes {fuel : Nat} {s t : St} {e : Elem} (h : Body cfg U P base root s)
    (hno : ∀ k ty, (k, ty) ∈ s.schema.types → ty.name = "<pcdata>".toList →
      root.ty.model &&& ty.memberOf = 0)
    (he : e.ty.name = "<pcdata>".toList → root.ty.model &&& e.ty.memberOf = 0)
    (ht : rectify cfg fuel s e = .ok t) : t.virgin = false := by
  unfold rectify at ht
  cases hc : climb cfg s fuel e [] with
  | throws => rw [hc] at ht; exact absurd ht (by simp)
  | ub => rw [hc] at ht; exact absurd ht (by simp)
  | diverges => rw [hc] at ht; exact absurd ht (by simp)
  | ok r =>
    obtain ⟨i, l⟩ := r
    rw [hc] at ht
    simp only [Out.ok.injEq] at ht
    subst ht
    show (pushChain cfg l (popUpto cfg i s)).virgin = false
    cases hv : s.virgin with
    | false => exact virgin_pushChain l _ (by rw [virgin_popUpto, hv])
    | true =>
      obtain ⟨x, r, y, rfl, hy, hcc, hx⟩ := climb_head fuel e [] i l hc
      rw [h.virgin_stack hv] at hy
      simp at hy
      subst hy
      have hn : x.ty.name ≠ "<pcdata>".toList := by
        intro hn
        have : y.ty.model &&& x.ty.memberOf = 0 := by
          rcases hx with hx | ⟨k, hx⟩
          · rw [hx] at hn ⊢; exact he hn
          · exact hno k _ hx hn
        unfold canContain at hcc
        rw [this] at hcc
        exact absurd hcc (by simp)
      rw [pushChain]
      apply virgin_pushChain
      rw [if_pos hn]
      exact virgin_restartLoop _ _ _ rfl

theorem getType_mem {S : Schema} {n : Str} {t : EType} (h : S.getType n = some t) :
    (lower n, t) ∈ S.types := by
  unfold Schema.getType at h
  rw [Option.map_eq_some_iff] at h
  obtain ⟨⟨k, t'⟩, hf, ht⟩ := h
  have := List.find?_some hf
  simp at this ht
  rw [← this, ← ht]
  exact List.mem_of_find?_eq_some hf

theorem getType_add {S : Schema} {n : Str} {m mo f : Nat} {p : Option Nat} {x : Str} {t : EType}
    (h : S.getType x = some t) : (S.addType n m mo f p).getType x = some t := by
  unfold Schema.getType at h ⊢
  unfold Schema.addType
  rw [Option.map_eq_some_iff] at h ⊢
  obtain ⟨q, hf, ht⟩ := h
  refine ⟨q, ?_, ht⟩
  simp only [List.find?_append, hf, Option.some_or]

theorem getType_added {S : Schema} {n : Str} {m mo f : Nat} {p : Option Nat}
    (h : S.getType n = none) : (S.addType n m mo f p).getType n =
      some { newType S.uri n m mo f with parent := p } := by
  unfold Schema.getType at h ⊢
  unfold Schema.addType
  rw [Option.map_eq_none_iff] at h
  simp [List.find?_append, h]

theorem grown_uri {S T : Schema} (h : Grown cfg S T) : T.uri = S.uri ∧ T.prefix' = S.prefix' ∧
    T.root = S.root ∧ (∀ x t, S.getType x = some t → T.getType x = some t) := by
  induction h with
  | refl => exact ⟨rfl, rfl, rfl, fun _ _ h => h⟩
  | add T n _ hn ih => exact ⟨ih.1, ih.2.1, ih.2.2.1, fun x t h => getType_add (ih.2.2.2 x t h)⟩

/-- The condition that survives when the schema grows. -/
theorem grown_notext {S T : Schema} {r pc : EType} (hR : S.getType "<pcdata>".toList = some pc)
    (hS : ∀ k t, (k, t) ∈ S.types → t.name = "<pcdata>".toList → r.model &&& t.memberOf = 0)
    (h : Grown cfg S T) :
    ∀ k t, (k, t) ∈ T.types → t.name = "<pcdata>".toList → r.model &&& t.memberOf = 0 := by
  induction h with
  | refl => exact hS
  | add T n hg hn ih =>
    intro k t hm ht
    unfold Schema.addType at hm
    simp only [List.mem_append, List.mem_singleton, Prod.mk.injEq] at hm
    rcases hm with hm | ⟨_, hm⟩
    · exact ih k t hm ht
    · exfalso
      rw [hm] at ht
      have hname : makeName cfg n = "<pcdata>".toList := ht
      have := (grown_uri hg).2.2.2 _ _ hR
      rw [← hname, hn] at this
      exact absurd this (by simp)

theorem Grown.trans {S T V : Schema} (h : Grown cfg S T) (g : Grown cfg T V) : Grown cfg S V := by
  induction g with
  | refl => exact h
  | add T' n _ hn ih => exact .add T' n ih hn

/-- The invariant for text staying inside. -/
structure Inv2 (cfg : Cfg) (S : Schema) (root : Elem) (pc : EType) (s : St) : Prop where
  inv : Inv cfg S.uri S.prefix' AllOutside root s
  pcty : s.pcdata.ty = pc
  grown : Grown cfg S s.schema

theorem inv2_handle {S : Schema} {pc : EType} (hr : root.preclosed = false)
    (hR : Roots S root.ty pc) (hN : NoTextOutside S root.ty) {fuel : Nat} {s t : St} {tok : Tok}
    (h : Inv2 cfg S root pc s) (ht : handle cfg fuel s tok = .ok t) : Inv2 cfg S root pc t := by
  have hk := keep_handle ht
  have hno := grown_notext hR.pcdata hN.pcdata h.grown
  have hpcno : root.ty.model &&& s.pcdata.ty.memberOf = 0 := by
    rw [h.pcty]; exact hN.pcdata _ _ (getType_mem hR.pcdata) hR.name
  refine ⟨⟨body_handle hr h.inv ?_ ?_ ?_ ht, hk.2.1 h.inv.fresh, by rw [hk.1]; exact h.inv.pc⟩,
    by rw [hk.1]; exact h.pcty, h.grown.trans hk.2.2⟩
  · intro c e hc he hn x hx
    rcases List.mem_append.1 hx with hx | hx
    · exact hc x hx
    · simp at hx; subst hx; exact ⟨he, hn⟩
  · intro hv c x _ hcd
    have : s.top = root.ty := by
      unfold St.top; rw [h.inv.body.virgin_stack hv]
    rw [this] at hcd
    have hz : root.ty.has fCdata = false := by
      unfold EType.has fCdata; rw [hN.cdata]; rfl
    rw [hz] at hcd
    exact absurd hcd (by simp)
  · intro s' hre hv
    have := rectify_pushes h.inv.body hno (fun _ => hpcno) hre
    rw [this] at hv
    exact absurd hv (by simp)

theorem congr_cdata2 {S : Schema} {pc : EType} {s : St} (h : Inv2 cfg S root pc s) :
    Inv2 cfg S root pc { s with cdata := false } := ⟨congr_cdata h.inv, h.pcty, h.grown⟩

theorem inv2_start {S : Schema} {r pc : EType} (seen : Bool) (hR : Roots S r pc) :
    Inv2 cfg S (newElem cfg r) pc (start cfg S seen) := by
  have h := inv_start (cfg := cfg) (base := AllOutside) S seen (by intro e he; simp at he)
  rw [hR.root] at h
  refine ⟨h, ?_, .refl⟩
  show (newElem cfg ((S.getType "<pcdata>".toList).getD nullType)).ty = pc
  rw [hR.pcdata]; rfl

theorem inv2_all {S : Schema} {pc : EType} (hr : root.preclosed = false)
    (hR : Roots S root.ty pc) (hN : NoTextOutside S root.ty) {fuel : Nat} :
    ∀ (ts : List Tok) (s t : St),
    Inv2 cfg S root pc s → handleAll cfg fuel s ts = .ok t → Inv2 cfg S root pc t
  | [], s, t, h, ht => by
    rw [handleAll] at ht; simp only [Out.ok.injEq] at ht; subst ht; exact h
  | tok :: ts, s, t, h, ht => by
    rw [handleAll] at ht
    cases hh : handle cfg fuel { s with cdata := false } tok with
    | ok s' =>
      rw [hh] at ht
      exact inv2_all hr hR hN ts s' t (inv2_handle hr hR hN (congr_cdata2 h) hh) ht
    | throws => rw [hh] at ht; exact absurd ht (by simp)
    | ub => rw [hh] at ht; exact absurd ht (by simp)
    | diverges => rw [hh] at ht; exact absurd ht (by simp)

theorem eof_wf {S : Schema} {pc : EType} (hR : Roots S root.ty pc) (hN : NoTextOutside S root.ty)
    {fuel : Nat} {s t : St} (h : Inv2 cfg S root pc s)
    (ht : eof cfg fuel s = .ok t) : WellFormed S.uri S.prefix' t.out := by
  obtain ⟨s', hB, hv1, hv2, b, el, hb, hel, ho⟩ := body_eof h.inv ht
  have hvv : s'.virgin = false := by
    cases hv : s.virgin with
    | false => rw [hv2 hv]; exact hv
    | true =>
      refine rectify_pushes h.inv.body (grown_notext hR.pcdata hN.pcdata h.grown) (fun _ => ?_) (hv1 hv)
      rw [h.pcty]; exact hN.pcdata _ _ (getType_mem hR.pcdata) hR.name
  refine ⟨b, el, hb, ?_, ?_⟩
  · rcases hel with ⟨hx, _⟩ | he
    · rw [hvv] at hx; exact absurd hx (by simp)
    · exact he
  · rw [ho]
    unfold hd
    by_cases hu : S.uri = [] <;> simp [hu]

/-! ### Splitting a declaration never fails -/

theorem schar_space (c : Char) : XmlChars.isSpace (schar c) = Verif.Spec.Text.space c := by
  rw [← Text.isSpace_eq]
  unfold Text.isSpace schar XmlChars.isSpace
  by_cases h : c.toNat < 128
  · rw [if_pos h]
  · rw [if_neg h]
    by_cases h2 : c.toNat < 256
    · rw [if_pos h2, Bool.eq_iff_iff]
      simp only [Bool.or_eq_true, beq_iff_eq]
      omega
    · rw [if_neg h2]

/-- Single spaces, none at the end. -/
def Tight (l : Str) : Prop :=
  ∀ p c r, l = p ++ c :: r → Verif.Spec.Text.space c = true →
    ∃ d r', r = d :: r' ∧ Verif.Spec.Text.space d = false

theorem tight_tail {c : Char} {l : Str} (h : Tight (c :: l)) : Tight l :=
  fun p x r he hx => h (c :: p) x r (by rw [he]; rfl) hx

theorem tight_nospace (w : Str) (h : ∀ c ∈ w, Verif.Spec.Text.space c = false) : Tight w := by
  intro p c r he hc
  rw [h c (by rw [he]; simp)] at hc
  exact absurd hc (by simp)

theorem tight_append : ∀ (w l : Str), (∀ c ∈ w, Verif.Spec.Text.space c = false) → Tight l →
    (∃ d r, l = d :: r ∧ Verif.Spec.Text.space d = false) → Tight (w ++ ' ' :: l)
  | [], l, _, hl, hd => by
    intro p c r he hc
    cases p with
    | nil =>
      simp at he
      obtain ⟨d, r', h1, h2⟩ := hd
      exact ⟨d, r', by rw [← he.2, h1], h2⟩
    | cons x p =>
      simp at he
      exact hl p c r he.2 hc
  | x :: w, l, hw, hl, hd => by
    intro p c r he hc
    cases p with
    | nil =>
      simp at he
      rw [← he.1, hw x (by simp)] at hc
      exact absurd hc (by simp)
    | cons y p =>
      simp at he
      exact tight_append w l (fun c hc => hw c (by simp [hc])) hl hd p c r he.2 hc

theorem tight_join : ∀ ws : List Str, (∀ w ∈ ws, w ≠ [] ∧ ∀ c ∈ w, Verif.Spec.Text.space c = false) →
    Tight (Verif.Spec.Text.joinSpace ws) ∧ (ws ≠ [] →
      ∃ d r, Verif.Spec.Text.joinSpace ws = d :: r ∧ Verif.Spec.Text.space d = false)
  | [], _ => ⟨by intro p c r he; simp [Verif.Spec.Text.joinSpace] at he, fun h => absurd rfl h⟩
  | [w], h => by
    have hw := h w (by simp)
    refine ⟨tight_nospace w hw.2, fun _ => ?_⟩
    cases hww : w with
    | nil => exact absurd hww hw.1
    | cons d r => exact ⟨d, r, rfl, hw.2 d (by rw [hww]; simp)⟩
  | w :: w' :: ws, h => by
    have hw := h w (by simp)
    have ih := tight_join (w' :: ws) (fun x hx => h x (List.mem_cons_of_mem _ hx))
    rw [Verif.Spec.Text.joinSpace]
    · refine ⟨tight_append w _ hw.2 ih.1 (ih.2 (by simp)), fun _ => ?_⟩
      cases hww : w with
      | nil => exact absurd hww hw.1
      | cons d r => exact ⟨d, r ++ ' ' :: _, rfl, hw.2 d (by rw [hww]; simp)⟩
    · simp

theorem splitLoop_some (v : Str) : ∀ (l : Str) (e : Nat) (s : Option Nat) (sq dq : Bool)
    (lastc : Option Char), Tight l →
    (s.isSome = true ∨ ∃ d r, l = d :: r ∧ Verif.Spec.Text.space d = false ∧ sq = false ∧ dq = false) →
    (splitLoop v l e s sq dq lastc).isSome = true
  | [], e, s, sq, dq, lastc, _, hs => by
    rw [splitLoop.eq_def]; simp only []
    cases s with
    | none => simp at hs
    | some s => rfl
  | c :: cs, e, s, sq, dq, lastc, ht, hs => by
    rw [splitLoop.eq_def]; simp only []
    by_cases h1 : (!dq && c == '\'' && lastc != some '\\') = true
    · rw [if_pos h1]; exact splitLoop_some v cs _ _ _ _ _ (tight_tail ht) (.inl rfl)
    · rw [if_neg h1]
      by_cases h2 : (!sq && c == '"' && lastc != some '\\') = true
      · rw [if_pos h2]; exact splitLoop_some v cs _ _ _ _ _ (tight_tail ht) (.inl rfl)
      · rw [if_neg h2]
        by_cases h3 : (!sq && !dq) = true
        · rw [if_pos h3]
          simp at h3
          by_cases h4 : XmlChars.isSpace (schar c) = true
          · rw [if_pos h4]
            rw [schar_space] at h4
            cases s with
            | none =>
              rcases hs with hs | ⟨d, r, hd, hds, _⟩
              · simp at hs
              · simp at hd; rw [hd.1, hds] at h4; exact absurd h4 (by simp)
            | some s0 =>
              simp only []
              obtain ⟨d, r', hd, hds⟩ := ht [] c cs rfl h4
              have := splitLoop_some v cs (e + 1) none sq dq (some c) (tight_tail ht)
                (.inr ⟨d, r', hd, hds, h3.1, h3.2⟩)
              cases hr : splitLoop v cs (e + 1) none sq dq (some c) with
              | none => rw [hr] at this; simp at this
              | some r => rfl
          · rw [if_neg h4]; exact splitLoop_some v cs _ _ _ _ _ (tight_tail ht) (.inl rfl)
        · rw [if_neg h3]
          rcases hs with hs | ⟨d, r, _, _, hq1, hq2⟩
          · exact splitLoop_some v cs _ _ _ _ _ (tight_tail ht) (.inl hs)
          · rw [hq1, hq2] at h3; exact absurd h3 (by simp)

theorem split_some (val : Str) : (split val).isSome = true := by
  unfold split
  simp only []
  by_cases h : Text.normalizeWhitespace val = []
  · rw [if_pos h]; rfl
  · rw [if_neg h]
    apply splitLoop_some
    · rw [Text.normalize_eq]; exact (tight_join _ (Text.words_good val)).1
    · exact .inl rfl

/-! ### No element is without a place -/

theorem makeLoop_nolt : ∀ (l : Str) (a b : Bool), '<' ∉ makeLoop cfg l a b
  | [], a, b => by simp [makeLoop]
  | c :: cs, a, b => by
    rw [makeLoop]
    by_cases h1 : (XmlChars.isLetter (schar c) || c == '_') = true
    · rw [if_pos h1]
      intro hm
      rcases List.mem_cons.1 hm with hm | hm
      · rw [← hm] at h1; exact absurd h1 (by decide +kernel)
      · exact makeLoop_nolt cs _ _ hm
    · rw [if_neg h1]
      by_cases h2 : (XmlChars.isDigit (schar c) || c == '-' || c == '.') = true
      · rw [if_pos h2]
        intro hm
        rcases List.mem_append.1 hm with hm | hm
        · cases b <;> simp at hm
        · rcases List.mem_cons.1 hm with hm | hm
          · rw [← hm] at h2; exact absurd h2 (by decide +kernel)
          · exact makeLoop_nolt cs _ _ hm
      · rw [if_neg h2]
        by_cases h3 : (c == ':' && !a) = true
        · rw [if_pos h3]
          intro hm
          rcases List.mem_append.1 hm with hm | hm
          · cases b <;> simp at hm
          · rcases List.mem_cons.1 hm with hm | hm
            · simp at h3
              rw [h3.1] at hm
              by_cases htc : cfg.translateColons = true
              · rw [if_pos htc] at hm; exact absurd hm (by decide +kernel)
              · rw [if_neg htc] at hm; exact absurd hm (by decide +kernel)
            · exact makeLoop_nolt cs _ _ hm
        · rw [if_neg h3]; exact makeLoop_nolt cs _ _

theorem makeName_nolt (b : Str) : '<' ∉ makeName cfg b := by
  unfold makeName
  simp only []
  by_cases h : makeLoop cfg b false true = [] ∨ (makeLoop cfg b false true).getLast? = some ':'
  · rw [if_pos h]
    intro hm
    rcases List.mem_append.1 hm with hm | hm
    · exact makeLoop_nolt _ _ _ hm
    · simp at hm
  · rw [if_neg h]; exact makeLoop_nolt _ _ _

theorem lower1_lt (c : Char) (h : lower1 c = '<') : c = '<' := by
  unfold lower1 at h
  by_cases hc : 65 ≤ c.toNat ∧ c.toNat ≤ 90
  · rw [if_pos hc] at h
    have hv : (c.toNat + 32).isValidChar := by unfold Nat.isValidChar; omega
    have h1 : (Char.ofNat (c.toNat + 32)).toNat = c.toNat + 32 := by
      unfold Char.ofNat
      rw [dif_pos hv]; rfl
    rw [h] at h1
    have h2 : '<'.toNat = 60 := rfl
    rw [h2] at h1
    omega
  · rw [if_neg hc] at h; exact h

theorem lower_makeName (b : Str) (r : Str) : lower (makeName cfg b) ≠ '<' :: r := by
  intro h
  unfold lower at h
  cases hm : makeName cfg b with
  | nil => rw [hm] at h; simp at h
  | cons c cs =>
    rw [hm] at h
    simp at h
    have := lower1_lt c h.1
    exact makeName_nolt (cfg := cfg) b (by rw [hm, this]; simp)

theorem placeable_mono {S T : Schema} {r : EType}
    (hT : ∀ (p : Nat) q, S.types[p]? = some q → T.types[p]? = some q) {n : Nat} {t : EType}
    (h : Placeable S r n t) : ∀ m, n ≤ m → Placeable T r m t := by
  induction h with
  | here n t h => exact fun m _ => .here m t h
  | up n p t k q h1 h2 _ ih =>
    intro m hm
    obtain ⟨m', rfl⟩ : ∃ m', m = m' + 1 := ⟨m - 1, by omega⟩
    exact .up m' p t k q h1 (hT p _ h2) (ih m' (by omega))

/-- The depth within which every type of the schema has a place. -/
def Bounded (S : Schema) (r : EType) (N : Nat) : Prop :=
  (∀ k t, (k, t) ∈ S.types → k ≠ "<root>".toList → Placeable S r (N + 1) t) ∧
  (∃ k t, S.types[S.root]? = some (k, t) ∧ k ≠ "<root>".toList ∧ Placeable S r N t)

theorem bound_exists {S : Schema} {r : EType} : ∀ (l : List (Str × EType)),
    (∀ k t, (k, t) ∈ l → k ≠ "<root>".toList → ∃ n, Placeable S r n t) →
    ∃ N, ∀ k t, (k, t) ∈ l → k ≠ "<root>".toList → Placeable S r N t
  | [], _ => ⟨0, by simp⟩
  | (k, t) :: l, h => by
    obtain ⟨N, hN⟩ := bound_exists l fun k t hm => h k t (by simp [hm])
    by_cases hk : k = "<root>".toList
    · refine ⟨N, fun k' t' hm hk' => ?_⟩
      rcases List.mem_cons.1 hm with hm | hm
      · simp at hm; rw [hm.1] at hk'; exact absurd hk hk'
      · exact hN k' t' hm hk'
    · obtain ⟨n, hn⟩ := h k t (by simp) hk
      refine ⟨max n N, fun k' t' hm hk' => ?_⟩
      rcases List.mem_cons.1 hm with hm | hm
      · simp at hm; rw [hm.2]; exact placeable_mono (fun _ _ h => h) hn _ (by omega)
      · exact placeable_mono (fun _ _ h => h) (hN k' t' hm hk') _ (by omega)

theorem sound_bounded {S : Schema} {r : EType} (h : Sound S r) : ∃ N, Bounded S r N := by
  obtain ⟨N, hN⟩ := bound_exists S.types h.places
  refine ⟨N, fun k t hm hk => placeable_mono (fun _ _ h => h) (hN k t hm hk) _ (by omega), ?_⟩
  obtain ⟨k, t, h1, h2⟩ := h.html
  exact ⟨k, t, h1, h2, hN k t (List.mem_of_getElem? h1) h2⟩

theorem grown_bounded {S T : Schema} {r : EType} {N : Nat} (hb : r.model &&& mAny ≠ 0)
    (hS : Bounded S r N) (h : Grown cfg S T) : Bounded T r N := by
  induction h with
  | refl => exact hS
  | add T n hg hn ih =>
    have hT : ∀ (p : Nat) q, T.types[p]? = some q →
        (T.addType (makeName cfg n) (if cfg.bogonsEmpty then mEmpty else mAny)
            (if cfg.rootBogons then mAny else mAny - mRoot) 0
            (if cfg.rootBogons then none else some T.root)).types[p]? = some q := by
      intro p q hp
      unfold Schema.addType
      have hlt : p < T.types.length := by
        rcases Nat.lt_or_ge p T.types.length with h | h
        · exact h
        · rw [List.getElem?_eq_none h] at hp; exact absurd hp (by simp)
      simp only [List.getElem?_append_left hlt]; exact hp
    obtain ⟨hA, k0, t0, h1, h2, h3⟩ := ih
    refine ⟨?_, k0, t0, hT _ _ h1, h2, placeable_mono hT h3 _ (Nat.le_refl _)⟩
    intro k t hm hk
    have hm' := hm
    unfold Schema.addType at hm'
    simp only [List.mem_append, List.mem_singleton, Prod.mk.injEq] at hm'
    rcases hm' with hm' | ⟨hk', ht'⟩
    · exact placeable_mono hT (hA k t hm' hk) _ (Nat.le_refl _)
    · subst ht'
      cases hrb : cfg.rootBogons with
      | true => exact .here _ _ (by simpa [newType, hrb] using hb)
      | false =>
        refine .up N T.root _ k0 t0 (by simp [newType, hrb]) ?_ (placeable_mono ?_ h3 _ (Nat.le_refl _))
        · have := hT _ _ h1
          rw [hrb] at this
          simpa using this
        · intro p q hp
          have := hT p q hp
          rw [hrb] at this
          simpa using this

theorem climb_ok {s : St} (hroot : root ∈ s.stack) : ∀ (n fuel : Nat) (e : Elem) (chain : List Elem),
    n < fuel → Placeable s.schema root.ty n e.ty → ∃ r, climb cfg s fuel e chain = .ok r
  | n, 0, e, chain, hf, _ => by omega
  | n, fuel + 1, e, chain, hf, hp => by
    rw [climb]
    cases hi : s.stack.findIdx? (fun x => canContain x.ty e.ty) with
    | some i => exact ⟨_, rfl⟩
    | none =>
      simp only []
      cases hp with
      | here _ _ h =>
        exfalso
        have := List.findIdx?_eq_none_iff.1 hi root hroot
        unfold canContain at this
        simp at this
        exact h this
      | up n p _ k q h1 h2 h3 =>
        rw [h1]
        simp only []
        rw [h2]
        exact climb_ok hroot n fuel _ _ (by omega) h3

/-- The invariant for always getting to the end. -/
structure Inv3 (cfg : Cfg) (S : Schema) (root : Elem) (pc : EType) (N : Nat) (s : St) : Prop where
  inv : Inv2 cfg S root pc s
  placed : ∀ e, s.newElement = some e → Placeable s.schema root.ty (N + 1) e.ty

theorem root_mem {s : St} (h : Body cfg U P base root s) : root ∈ s.stack := by
  obtain ⟨xs, c, h1, _⟩ := h.body
  rw [h1]; simp

theorem rectify_ok {s : St} {e : Elem} {N fuel : Nat} (hB : Body cfg U P base root s)
    (he : Placeable s.schema root.ty (N + 1) e.ty) (hf : N + 1 < fuel) :
    ∃ t, rectify cfg fuel s e = .ok t := by
  obtain ⟨r, hr⟩ := climb_ok (cfg := cfg) (root_mem hB) (N + 1) fuel e [] hf he
  unfold rectify
  rw [hr]
  exact ⟨_, rfl⟩

theorem bogons_any {S : Schema} {r : EType} (h : Sound S r) : r.model &&& mAny ≠ 0 := h.bogons

theorem pcdata_placed {S : Schema} {pc : EType} {N : Nat} {s : St} (hR : Roots S root.ty pc)
    (hb : root.ty.model &&& mAny ≠ 0) (hS : Bounded S root.ty N)
    (h : Inv2 cfg S root pc s) : Placeable s.schema root.ty (N + 1) s.pcdata.ty := by
  rw [h.pcty]
  have := (grown_uri h.grown).2.2.2 _ _ hR.pcdata
  exact (grown_bounded hb hS h.grown).1 _ _ (getType_mem this) (by decide +kernel)

theorem handle_ok {S : Schema} {pc : EType} {N fuel : Nat} (hR : Roots S root.ty pc)
    (hb : root.ty.model &&& mAny ≠ 0) (hS : Bounded S root.ty N) (hf : N + 1 < fuel)
    {s : St} (h : Inv3 cfg S root pc N s) (tok : Tok) : ∃ t, handle cfg fuel s tok = .ok t := by
  have hB := h.inv.inv.body
  cases tok with
  | decl b =>
    simp only [handle]
    unfold decl
    have := split_some b
    cases hs : split b with
    | none => rw [hs] at this; simp at this
    | some v =>
      simp only []
      by_cases hd : v.head? = some "DOCTYPE".toList
      · rw [if_pos hd]
        by_cases hp : s.doctypeIsPresent = true
        · rw [if_pos hp]; exact ⟨_, rfl⟩
        · rw [if_neg hp]
          by_cases hw : (declWords v).1 ≠ []
          · rw [if_pos hw]; exact ⟨_, rfl⟩
          · rw [if_neg hw]; exact ⟨_, rfl⟩
      · rw [if_neg hd]; exact ⟨_, rfl⟩
  | pcdata b =>
    simp only [handle]
    unfold pcdata
    by_cases hbe : b = []
    · rw [if_pos hbe]; exact ⟨_, rfl⟩
    · rw [if_neg hbe]
      by_cases hw : (b.all (fun c => XmlChars.isSpace (schar c)) && !canContain s.top s.pcdata.ty) = true
      · rw [if_pos hw]; exact ⟨_, rfl⟩
      · rw [if_neg hw]
        obtain ⟨t, ht⟩ := rectify_ok hB (pcdata_placed hR hb hS h.inv) hf
        rw [ht]; exact ⟨_, rfl⟩
  | stagc b =>
    simp only [handle]
    unfold stagc
    cases hn : s.newElement with
    | none => exact ⟨_, rfl⟩
    | some e =>
      obtain ⟨t, ht⟩ := rectify_ok hB (h.placed e hn) hf
      simp only []
      rw [ht]; exact ⟨_, rfl⟩
  | stage b =>
    simp only [handle]
    unfold stage
    cases hn : s.newElement with
    | none => exact ⟨_, rfl⟩
    | some e =>
      obtain ⟨t, ht⟩ := rectify_ok hB (h.placed e hn) hf
      simp only []
      rw [ht]; exact ⟨_, rfl⟩
  | adup b => exact ⟨_, rfl⟩
  | aname b => exact ⟨_, rfl⟩
  | aval b => exact ⟨_, rfl⟩
  | cmnt b => exact ⟨_, rfl⟩
  | entity b => exact ⟨_, rfl⟩
  | etag b => exact ⟨_, rfl⟩
  | gi b => exact ⟨_, rfl⟩
  | pi b => exact ⟨_, rfl⟩
  | pitarget b => exact ⟨_, rfl⟩

/-- The new element after a token: none, the old one with other attributes, or one of a type looked
up in the schema. -/
theorem newElement_handle {fuel : Nat} {s t : St} {tok : Tok} (ht : handle cfg fuel s tok = .ok t)
    {e : Elem} (he : t.newElement = some e) :
    (t.schema = s.schema ∧ ∃ e0, s.newElement = some e0 ∧ e.ty = e0.ty) ∨
    (∃ b, t.schema.getType (makeName cfg b) = some e.ty) := by
  cases tok with
  | adup b =>
    simp only [handle, Out.ok.injEq] at ht; subst ht
    unfold adup at he ⊢
    cases hn : s.newElement with
    | none => rw [hn] at he; simp only [] at he; rw [hn] at he; exact absurd he (by simp)
    | some e0 =>
      rw [hn] at he; simp only [] at he ⊢
      by_cases ha : s.attributeName = []
      · rw [if_pos ha] at he ⊢; rw [hn] at he; simp at he; exact .inl ⟨rfl, e0, rfl, by rw [he]⟩
      · rw [if_neg ha] at he ⊢
        simp only [Option.some.injEq] at he; exact .inl ⟨rfl, e0, rfl, by rw [← he]⟩
  | aname b =>
    simp only [handle, Out.ok.injEq] at ht; subst ht
    unfold aname at he ⊢
    cases hn : s.newElement with
    | none => rw [hn] at he; simp only [] at he; rw [hn] at he; exact absurd he (by simp)
    | some e0 =>
      rw [hn] at he; simp at he
      exact .inl ⟨rfl, e0, rfl, by rw [he]⟩
  | aval b =>
    simp only [handle, Out.ok.injEq] at ht; subst ht
    unfold aval at he ⊢
    cases hn : s.newElement with
    | none => rw [hn] at he; simp only [] at he; rw [hn] at he; exact absurd he (by simp)
    | some e0 =>
      rw [hn] at he; simp only [] at he ⊢
      by_cases ha : s.attributeName = []
      · rw [if_pos ha] at he ⊢; rw [hn] at he; simp at he; exact .inl ⟨rfl, e0, rfl, by rw [he]⟩
      · rw [if_neg ha] at he ⊢
        simp only [Option.some.injEq] at he; exact .inl ⟨rfl, e0, rfl, by rw [← he]⟩
  | cmnt b =>
    simp only [handle, Out.ok.injEq] at ht; subst ht
    exact .inl ⟨rfl, e, he, rfl⟩
  | decl b =>
    simp only [handle] at ht
    unfold decl at ht
    cases hs : split b with
    | none => rw [hs] at ht; exact absurd ht (by simp)
    | some v =>
      rw [hs] at ht
      simp only [] at ht
      by_cases hd : v.head? = some "DOCTYPE".toList
      · rw [if_pos hd] at ht
        by_cases hp : s.doctypeIsPresent = true
        · rw [if_pos hp] at ht; simp only [Out.ok.injEq] at ht; subst ht; exact .inl ⟨rfl, e, he, rfl⟩
        · rw [if_neg hp] at ht
          by_cases hw : (declWords v).1 ≠ []
          · rw [if_pos hw] at ht; simp only [Out.ok.injEq] at ht; subst ht; exact .inl ⟨rfl, e, he, rfl⟩
          · rw [if_neg hw] at ht; simp only [Out.ok.injEq] at ht; subst ht; exact .inl ⟨rfl, e, he, rfl⟩
      · rw [if_neg hd] at ht; simp only [Out.ok.injEq] at ht; subst ht; exact .inl ⟨rfl, e, he, rfl⟩
  | entity b =>
    simp only [handle, Out.ok.injEq] at ht; subst ht
    exact .inl ⟨rfl, e, he, rfl⟩
  | etag b =>
    simp only [handle, Out.ok.injEq] at ht; subst ht
    have hk := keep_etagBasic (cfg := cfg) s b
    unfold etag etagCdata at he ⊢
    by_cases hc : (cfg.cdataElements && s.top.has fCdata) = true
    · rw [if_pos hc] at he ⊢
      by_cases hl : lower b = lower s.top.name
      · rw [if_pos hl] at he; simp only [] at he; rw [hk.2.1] at he; exact absurd he (by simp)
      · rw [if_neg hl] at he ⊢; exact .inl ⟨rfl, e, he, rfl⟩
    · rw [if_neg hc] at he; simp only [] at he; rw [hk.2.1] at he; exact absurd he (by simp)
  | gi b =>
    simp only [handle, Out.ok.injEq] at ht; subst ht
    unfold gi at he ⊢
    cases hn : s.newElement with
    | some e0 =>
      rw [hn] at he; simp only [] at he ⊢; rw [hn] at he; simp at he
      exact .inl ⟨trivial, e0, rfl, by rw [he]⟩
    | none =>
      rw [hn] at he
      simp only [] at he ⊢
      by_cases hm : makeName cfg b = []
      · rw [if_pos hm] at he; rw [hn] at he; exact absurd he (by simp)
      · rw [if_neg hm] at he ⊢
        cases hg : s.schema.getType (makeName cfg b) with
        | some t =>
          rw [hg] at he; simp only [Option.some.injEq] at he; subst he
          exact .inr ⟨b, hg⟩
        | none =>
          rw [hg] at he; simp only [] at he ⊢
          by_cases hi : cfg.ignoreBogons = true
          · rw [if_pos hi] at he; rw [hn] at he; exact absurd he (by simp)
          · rw [if_neg hi] at he ⊢
            have ha := getType_added (m := if cfg.bogonsEmpty then mEmpty else mAny)
              (mo := if cfg.rootBogons then mAny else mAny - mRoot) (f := 0)
              (p := if cfg.rootBogons then none else some s.schema.root) hg
            rw [ha] at he ⊢
            simp only [Option.some.injEq] at he; subst he
            exact .inr ⟨b, ha⟩
  | pcdata b =>
    simp only [handle] at ht
    unfold pcdata at ht
    by_cases hbe : b = []
    · rw [if_pos hbe] at ht; simp only [Out.ok.injEq] at ht; subst ht; exact .inl ⟨rfl, e, he, rfl⟩
    · rw [if_neg hbe] at ht
      by_cases hw : (b.all (fun c => XmlChars.isSpace (schar c)) && !canContain s.top s.pcdata.ty) = true
      · rw [if_pos hw] at ht; simp only [Out.ok.injEq] at ht; subst ht
        by_cases hiw : cfg.ignorableWhitespace = true
        · rw [if_pos hiw] at he ⊢; exact .inl ⟨rfl, e, he, rfl⟩
        · rw [if_neg hiw] at he ⊢; exact .inl ⟨rfl, e, he, rfl⟩
      · rw [if_neg hw] at ht
        cases hre : rectify cfg fuel s s.pcdata with
        | ok s' =>
          rw [hre] at ht; simp only [Out.ok.injEq] at ht; subst ht
          have : s'.newElement = some e := he
          rw [(keep_rectify hre).2.1] at this; exact absurd this (by simp)
        | throws => rw [hre] at ht; exact absurd ht (by simp)
        | ub => rw [hre] at ht; exact absurd ht (by simp)
        | diverges => rw [hre] at ht; exact absurd ht (by simp)
  | pi b =>
    simp only [handle, Out.ok.injEq] at ht; subst ht
    unfold procInst at he ⊢
    cases hn : s.newElement with
    | some e0 =>
      rw [hn] at he; simp only [] at he ⊢; rw [hn] at he; simp at he
      exact .inl ⟨trivial, e0, rfl, by rw [he]⟩
    | none =>
      rw [hn] at he
      simp only [] at he ⊢
      by_cases hp : s.piTarget = [] ∨ lower s.piTarget = "xml".toList
      · rw [if_pos hp, hn] at he; exact absurd he (by simp)
      · rw [if_neg hp] at he
        have : s.newElement = some e := he
        rw [hn] at this; exact absurd this (by simp)
  | pitarget b =>
    simp only [handle, Out.ok.injEq] at ht; subst ht
    unfold pitarget at he ⊢
    cases hn : s.newElement with
    | some e0 =>
      rw [hn] at he; simp only [] at he ⊢; rw [hn] at he; simp at he
      exact .inl ⟨trivial, e0, rfl, by rw [he]⟩
    | none =>
      rw [hn] at he; simp only [] at he; exact absurd he (by simp [hn])
  | stagc b =>
    simp only [handle] at ht
    unfold stagc at ht
    cases hn : s.newElement with
    | none =>
      rw [hn] at ht; simp only [Out.ok.injEq] at ht; subst ht
      rw [hn] at he; exact absurd he (by simp)
    | some e0 =>
      rw [hn] at ht; simp only [] at ht
      cases hre : rectify cfg fuel s e0 with
      | ok s' =>
        rw [hre] at ht; simp only [Out.ok.injEq] at ht; subst ht
        have hk := keep_rectify hre
        by_cases hm : s'.top.model = mEmpty
        · rw [if_pos hm, (keep_etagBasic (cfg := cfg) s' b).2.1] at he; exact absurd he (by simp)
        · rw [if_neg hm, hk.2.1] at he; exact absurd he (by simp)
      | throws => rw [hre] at ht; exact absurd ht (by simp)
      | ub => rw [hre] at ht; exact absurd ht (by simp)
      | diverges => rw [hre] at ht; exact absurd ht (by simp)
  | stage b =>
    simp only [handle] at ht
    unfold stage at ht
    cases hn : s.newElement with
    | none =>
      rw [hn] at ht; simp only [Out.ok.injEq] at ht; subst ht
      rw [hn] at he; exact absurd he (by simp)
    | some e0 =>
      rw [hn] at ht; simp only [] at ht
      cases hre : rectify cfg fuel s e0 with
      | ok s' =>
        rw [hre] at ht; simp only [Out.ok.injEq] at ht; subst ht
        rw [(keep_etagBasic (cfg := cfg) s' b).2.1] at he; exact absurd he (by simp)
      | throws => rw [hre] at ht; exact absurd ht (by simp)
      | ub => rw [hre] at ht; exact absurd ht (by simp)
      | diverges => rw [hre] at ht; exact absurd ht (by simp)

theorem inv3_handle {S : Schema} {pc : EType} {N fuel : Nat} (hr : root.preclosed = false)
    (hR : Roots S root.ty pc) (hN : NoTextOutside S root.ty)
    (hb : root.ty.model &&& mAny ≠ 0) (hS : Bounded S root.ty N)
    {s t : St} {tok : Tok} (h : Inv3 cfg S root pc N s) (ht : handle cfg fuel s tok = .ok t) :
    Inv3 cfg S root pc N t := by
  have h2 := inv2_handle hr hR hN h.inv ht
  refine ⟨h2, fun e he => ?_⟩
  rcases newElement_handle ht he with ⟨hsc, e0, h0, hty⟩ | ⟨b, hg⟩
  · rw [hsc, hty]; exact h.placed e0 h0
  · refine (grown_bounded hb hS h2.grown).1 _ _ (getType_mem hg) ?_
    have : "<root>".toList = '<' :: "root>".toList := by decide +kernel
    rw [this]
    exact lower_makeName b _

theorem inv3_start {S : Schema} {r pc : EType} {N : Nat} (seen : Bool) (hR : Roots S r pc) :
    Inv3 cfg S (newElem cfg r) pc N (start cfg S seen) :=
  ⟨inv2_start seen hR, fun e he => absurd he (by simp [start])⟩

theorem congr_cdata3 {S : Schema} {pc : EType} {N : Nat} {s : St} (h : Inv3 cfg S root pc N s) :
    Inv3 cfg S root pc N { s with cdata := false } := ⟨congr_cdata2 h.inv, h.placed⟩

theorem handleAll_ok {S : Schema} {pc : EType} {N fuel : Nat} (hr : root.preclosed = false)
    (hR : Roots S root.ty pc) (hN : NoTextOutside S root.ty)
    (hb : root.ty.model &&& mAny ≠ 0) (hS : Bounded S root.ty N) (hf : N + 1 < fuel) :
    ∀ (ts : List Tok) (s : St), Inv3 cfg S root pc N s →
      ∃ t, handleAll cfg fuel s ts = .ok t ∧ Inv3 cfg S root pc N t
  | [], s, h => ⟨s, rfl, h⟩
  | tok :: ts, s, h => by
    obtain ⟨s', hs'⟩ := handle_ok hR hb hS hf (congr_cdata3 h) tok
    obtain ⟨t, h1, h2⟩ := handleAll_ok hr hR hN hb hS hf ts s'
      (inv3_handle hr hR hN hb hS (congr_cdata3 h) hs')
    refine ⟨t, ?_, h2⟩
    rw [handleAll, hs']
    exact h1

theorem eof_ok {S : Schema} {pc : EType} {N fuel : Nat} (hR : Roots S root.ty pc)
    (hb : root.ty.model &&& mAny ≠ 0) (hS : Bounded S root.ty N) (hf : N + 1 < fuel)
    {s : St} (h : Inv3 cfg S root pc N s) : ∃ t, eof cfg fuel s = .ok t := by
  unfold eof
  cases hv : s.virgin with
  | false => exact ⟨_, rfl⟩
  | true =>
    obtain ⟨t, ht⟩ := rectify_ok h.inv.inv.body (pcdata_placed hR hb hS h.inv) hf
    simp only [if_true]
    rw [ht]
    exact ⟨_, rfl⟩

end Verif.Taggle
