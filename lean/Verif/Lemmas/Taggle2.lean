import Verif.Lemmas.Taggle
set_option autoImplicit false
set_option linter.unusedSimpArgs false
set_option linter.unusedVariables false
/-! # Lemmas about the HTML parser: whole documents -/
namespace Verif.Taggle
open Spec

variable {cfg : Cfg} {U P : Str} {base : List Ev → Prop} {root : Elem}

theorem inside_content {e : Ev} (h : Inside e) : Content [e] := .other e [] h .nil

/-- Adding events that are not about elements. -/
theorem body_emits {s : St} (h : Body cfg U P base root s) (es : List Ev) (hi : ∀ e ∈ es, Inside e)
    (hb : s.virgin = true → ∀ c, base c → base (c ++ es)) :
    Body cfg U P base root (s.emits es) := by
  obtain ⟨xs, c, h1, h2, h3, h4, h5⟩ := h.body
  refine ⟨h.uri, h.pre, xs, c ++ es, h1, ?_, ?_, h4, h5⟩
  · show s.out ++ es = _; rw [h2, List.append_assoc]
  · cases hv : s.virgin with
    | true =>
      have hx := (h4 hv).1
      subst hx
      cases h3 with
      | nil _ hc => exact .nil _ (hb hv c hc)
    | false =>
      obtain ⟨ys, y, rfl, hy⟩ := h5 hv
      cases ys with
      | nil => exact pre_add h3 (content_inside hi)
      | cons z zs => exact pre_add h3 (content_inside hi)

/-- The conditions under which the parser's state makes sense. -/
structure Inv (cfg : Cfg) (U P : Str) (base : List Ev → Prop) (root : Elem) (s : St) : Prop where
  body : Body cfg U P base root s
  fresh : ∀ e, s.newElement = some e → e.preclosed = false
  pc : s.pcdata.preclosed = false

theorem body_handle (hr : root.preclosed = false) {fuel : Nat} {s t : St} {tok : Tok}
    (h : Inv cfg U P base root s)
    (hb : ∀ c e, base c → Inside e → NotText e → base (c ++ [e]))
    (hcd : s.virgin = true → ∀ c x, base c → (cfg.cdataElements && s.top.has fCdata) = true →
      base (c ++ [.characters x]))
    (hpc : ∀ s' : St, rectify cfg fuel s s.pcdata = .ok s' → s'.virgin = true →
      ∀ c x, base c → base (c ++ [.characters x]))
    (ht : handle cfg fuel s tok = .ok t) :
    Body cfg U P base root t := by
  have hB := h.body
  cases tok with
  | adup b =>
    simp only [handle, Out.ok.injEq] at ht; subst ht
    unfold adup
    cases hn : s.newElement with
    | none => exact hB
    | some e =>
      simp only []
      by_cases ha : s.attributeName = []
      · rw [if_pos ha]; exact hB
      · rw [if_neg ha]; exact hB.congr rfl rfl rfl rfl rfl rfl
  | aname b =>
    simp only [handle, Out.ok.injEq] at ht; subst ht
    unfold aname
    cases hn : s.newElement with
    | none => exact hB
    | some e => exact hB.congr rfl rfl rfl rfl rfl rfl
  | aval b =>
    simp only [handle, Out.ok.injEq] at ht; subst ht
    unfold aval
    cases hn : s.newElement with
    | none => exact hB
    | some e =>
      simp only []
      by_cases ha : s.attributeName = []
      · rw [if_pos ha]; exact hB
      · rw [if_neg ha]; exact hB.congr rfl rfl rfl rfl rfl rfl
  | cmnt b =>
    simp only [handle, Out.ok.injEq] at ht; subst ht
    exact body_emits hB [.comment b] (by simp; exact .comment b)
      (fun _ c hc => hb c _ hc (.comment b) trivial)
  | decl b =>
    simp only [handle] at ht
    unfold decl at ht
    cases hs : split b with
    | none => rw [hs] at ht; exact absurd ht (by simp)
    | some v =>
      rw [hs] at ht
      simp only [] at ht
      by_cases hd : v.head? = some "DOCTYPE".toList
      · rw [if_pos hd] at ht
        by_cases hp : s.doctypeIsPresent = true
        · rw [if_pos hp] at ht; simp only [Out.ok.injEq] at ht; subst ht; exact hB
        · rw [if_neg hp] at ht
          have hB' : Body cfg U P base root { s with doctypeIsPresent := true } :=
            hB.congr rfl rfl rfl rfl rfl rfl
          by_cases hw : (declWords v).1 ≠ []
          · rw [if_pos hw] at ht; simp only [Out.ok.injEq] at ht; subst ht
            apply body_emits hB'
            · simp; exact ⟨.startDTD _ _ _, .endDTD⟩
            · intro _ c hc
              have := hb _ _ (hb c _ hc (.startDTD (declWords v).1
                (cleanPublicid (trimquotes (declWords v).2.1)) (trimquotes (declWords v).2.2)) trivial)
                .endDTD trivial
              simpa [List.append_assoc] using this
          · rw [if_neg hw] at ht; simp only [Out.ok.injEq] at ht; subst ht; exact hB'
      · rw [if_neg hd] at ht; simp only [Out.ok.injEq] at ht; subst ht; exact hB
  | entity b =>
    simp only [handle, Out.ok.injEq] at ht; subst ht
    exact hB.congr rfl rfl rfl rfl rfl rfl
  | etag b =>
    simp only [handle, Out.ok.injEq] at ht; subst ht
    unfold etag etagCdata
    by_cases hc : (cfg.cdataElements && s.top.has fCdata) = true
    · rw [if_pos hc]
      by_cases hl : lower b = lower s.top.name
      · rw [if_pos hl]; exact body_etagBasic hr hB b
      · rw [if_neg hl]
        have := body_emits hB [.characters "</".toList, .characters b, .characters ">".toList]
          (by simp; exact ⟨.characters _, .characters _, .characters _⟩)
          (fun hv c hcc => by
            have := hcd hv _ ">".toList (hcd hv _ b (hcd hv c "</".toList hcc hc) hc) hc
            simpa [List.append_assoc] using this)
        exact this.congr rfl rfl rfl rfl rfl rfl
    · rw [if_neg hc]; exact body_etagBasic hr hB b
  | gi b =>
    simp only [handle, Out.ok.injEq] at ht; subst ht
    unfold gi
    cases hn : s.newElement with
    | some e => exact hB
    | none =>
      simp only []
      by_cases hm : makeName cfg b = []
      · rw [if_pos hm]; exact hB
      · rw [if_neg hm]
        cases hg : s.schema.getType (makeName cfg b) with
        | some t => exact hB.congr rfl rfl rfl rfl rfl rfl
        | none =>
          simp only []
          by_cases hi : cfg.ignoreBogons = true
          · rw [if_pos hi]; exact hB
          · rw [if_neg hi]
            split <;> exact hB.congr rfl rfl rfl rfl rfl rfl
  | pcdata b =>
    simp only [handle] at ht
    unfold pcdata at ht
    by_cases hbe : b = []
    · rw [if_pos hbe] at ht; simp only [Out.ok.injEq] at ht; subst ht; exact hB
    · rw [if_neg hbe] at ht
      by_cases hw : (b.all (fun c => XmlChars.isSpace (schar c)) && !canContain s.top s.pcdata.ty) = true
      · rw [if_pos hw] at ht; simp only [Out.ok.injEq] at ht; subst ht
        by_cases hiw : cfg.ignorableWhitespace = true
        · rw [if_pos hiw]
          exact body_emits hB [.ignorable b] (by simp; exact .ignorable b)
            (fun _ c hc => hb c _ hc (.ignorable b) trivial)
        · rw [if_neg hiw]; exact hB
      · rw [if_neg hw] at ht
        cases hre : rectify cfg fuel s s.pcdata with
        | ok s' =>
          rw [hre] at ht; simp only [Out.ok.injEq] at ht; subst ht
          exact body_emits (body_rectify hB h.pc hre).1 [.characters b]
            (by simp; exact .characters b) (fun hv c hc => hpc s' hre hv c b hc)
        | throws => rw [hre] at ht; exact absurd ht (by simp)
        | ub => rw [hre] at ht; exact absurd ht (by simp)
        | diverges => rw [hre] at ht; exact absurd ht (by simp)
  | pi b =>
    simp only [handle, Out.ok.injEq] at ht; subst ht
    unfold procInst
    cases hn : s.newElement with
    | some e => exact hB
    | none =>
      simp only []
      by_cases hp : s.piTarget = [] ∨ lower s.piTarget = "xml".toList
      · rw [if_pos hp]; exact hB
      · rw [if_neg hp]
        have := body_emits hB [.pi s.piTarget (if b.getLast? = some '?' then b.dropLast else b)]
          (by simp; exact .pi _ _) (fun _ c hc => hb c _ hc (.pi _ _) trivial)
        exact this.congr rfl rfl rfl rfl rfl rfl
  | pitarget b =>
    simp only [handle, Out.ok.injEq] at ht; subst ht
    unfold pitarget
    cases hn : s.newElement with
    | some e => exact hB
    | none => exact hB.congr rfl rfl rfl rfl rfl rfl
  | stagc b =>
    simp only [handle] at ht
    unfold stagc at ht
    cases hn : s.newElement with
    | none => rw [hn] at ht; simp only [Out.ok.injEq] at ht; subst ht; exact hB
    | some e =>
      rw [hn] at ht; simp only [] at ht
      cases hre : rectify cfg fuel s e with
      | ok s' =>
        rw [hre] at ht; simp only [Out.ok.injEq] at ht; subst ht
        have h1 := (body_rectify hB (h.fresh e hn) hre).1
        by_cases hm : s'.top.model = mEmpty
        · rw [if_pos hm]; exact body_etagBasic hr h1 b
        · rw [if_neg hm]; exact h1
      | throws => rw [hre] at ht; exact absurd ht (by simp)
      | ub => rw [hre] at ht; exact absurd ht (by simp)
      | diverges => rw [hre] at ht; exact absurd ht (by simp)
  | stage b =>
    simp only [handle] at ht
    unfold stage at ht
    cases hn : s.newElement with
    | none => rw [hn] at ht; simp only [Out.ok.injEq] at ht; subst ht; exact hB
    | some e =>
      rw [hn] at ht; simp only [] at ht
      cases hre : rectify cfg fuel s e with
      | ok s' =>
        rw [hre] at ht; simp only [Out.ok.injEq] at ht; subst ht
        exact body_etagBasic hr (body_rectify hB (h.fresh e hn) hre).1 b
      | throws => rw [hre] at ht; exact absurd ht (by simp)
      | ub => rw [hre] at ht; exact absurd ht (by simp)
      | diverges => rw [hre] at ht; exact absurd ht (by simp)

/-! ### `pcdata_` and `newElement_` -/

theorem pcd_push (s : St) (e : Elem) : (push cfg s e).pcdata = s.pcdata := rfl
theorem ne_push (s : St) (e : Elem) : (push cfg s e).newElement = s.newElement := rfl
theorem sch_push (s : St) (e : Elem) : (push cfg s e).schema = s.schema := rfl
theorem keep_pop (s : St) : (pop cfg s).pcdata = s.pcdata ∧ (pop cfg s).newElement = s.newElement ∧
    (pop cfg s).schema = s.schema := by
  unfold pop
  cases hs : s.stack <;> exact ⟨rfl, rfl, rfl⟩

/-- What the stack operations leave alone. -/
def Same (s t : St) : Prop :=
  t.pcdata = s.pcdata ∧ t.newElement = s.newElement ∧ t.schema = s.schema

theorem Same.refl (s : St) : Same s s := ⟨rfl, rfl, rfl⟩
theorem Same.trans {a b c : St} (h : Same a b) (g : Same b c) : Same a c :=
  ⟨g.1.trans h.1, g.2.1.trans h.2.1, g.2.2.trans h.2.2⟩

theorem same_pop (s : St) : Same s (pop cfg s) := keep_pop s
theorem same_push (s : St) (e : Elem) : Same s (push cfg s e) := ⟨rfl, rfl, rfl⟩

theorem same_restartablyPop (s : St) : Same s (restartablyPop cfg s) := by
  unfold restartablyPop
  cases hs : s.stack with
  | nil => exact .refl s
  | cons e r =>
    by_cases hc : (cfg.restartElements && e.ty.has fRestart) = true
    · simp only [hc, if_true]; exact (same_pop s).trans ⟨rfl, rfl, rfl⟩
    · simp only [hc]; exact same_pop s

theorem same_restartLoop (e : Option Elem) : ∀ (l : List Elem) (s : St), Same s (restartLoop cfg e l s)
  | [], s => ⟨rfl, rfl, rfl⟩
  | x :: rest, s => by
    rw [restartLoop]
    by_cases hc : (canContain s.top x.ty && e.all (fun e => canContain x.ty e.ty)) = true
    · rw [if_pos hc]; exact (same_push s x).trans (same_restartLoop e rest _)
    · rw [if_neg hc]; exact ⟨rfl, rfl, rfl⟩

theorem same_restart (e : Option Elem) (s : St) : Same s (restart cfg e s) := same_restartLoop e _ s

theorem same_popN : ∀ (i : Nat) (s : St), Same s (popN cfg i s)
  | 0, s => .refl s
  | i + 1, s => (same_restartablyPop s).trans (same_popN i _)

theorem same_popUpto : ∀ (i : Nat) (s : St), Same s (popUpto cfg i s)
  | 0, s => .refl s
  | i + 1, s => by
    rw [popUpto]
    by_cases hl : s.stack.length ≤ 2
    · rw [if_pos hl]; exact .refl s
    · rw [if_neg hl]; exact (same_restartablyPop s).trans (same_popUpto i _)

theorem same_popPreclosed : ∀ (l : List Elem) (s : St), Same s (popPreclosed cfg l s)
  | [], s => .refl s
  | e :: rest, s => by
    rw [popPreclosed]
    by_cases hc : e.preclosed = true
    · rw [if_pos hc]; exact (same_pop s).trans (same_popPreclosed rest _)
    · rw [if_neg hc]; exact .refl s

theorem same_pushChain : ∀ (l : List Elem) (s : St), Same s (pushChain cfg l s)
  | [], s => .refl s
  | e :: rest, s => by
    rw [pushChain]
    refine Same.trans ?_ (same_pushChain rest _)
    refine Same.trans ?_ (same_restart _ _)
    by_cases hn : e.ty.name ≠ "<pcdata>".toList
    · rw [if_pos hn]; exact same_push s e
    · rw [if_neg hn]; exact .refl s

theorem same_etagName (s : St) (name : Str) : Same s (etagName cfg s name) := by
  unfold etagName
  cases hf : s.stack.findIdx? (fun e => e.ty.name == name) with
  | none => exact .refl s
  | some i =>
    by_cases hl : s.stack.length ≤ i + 2
    · simp only [hl, if_true]; exact .refl s
    · simp only [hl]
      rw [if_neg (by simp)]
      refine Same.trans ?_ (same_restart _ _)
      refine Same.trans ?_ (same_popPreclosed _ _)
      by_cases ha : (s.stack.take i).any (fun e => e.ty.has fNoforce) = true
      · simp only [ha, if_true]; exact ⟨rfl, rfl, rfl⟩
      · simp only [ha]; exact (same_popN i s).trans (same_pop _)

theorem keep_etagBasic (s : St) (b : Str) : (etagBasic cfg s b).pcdata = s.pcdata ∧
    (etagBasic cfg s b).newElement = none ∧ (etagBasic cfg s b).schema = s.schema := by
  unfold etagBasic
  simp only []
  by_cases hb : b ≠ []
  · rw [if_pos hb]
    cases hg : s.schema.getType (makeName cfg b) with
    | none => exact ⟨rfl, rfl, rfl⟩
    | some t => exact same_etagName { s with newElement := none } t.name
  · rw [if_neg hb]
    exact same_etagName { s with newElement := none } _

theorem keep_rectify {fuel : Nat} {s t : St} {e : Elem} (ht : rectify cfg fuel s e = .ok t) :
    t.pcdata = s.pcdata ∧ t.newElement = none ∧ t.schema = s.schema := by
  unfold rectify at ht
  cases hc : climb cfg s fuel e [] with
  | ok r =>
    obtain ⟨i, l⟩ := r
    rw [hc] at ht
    simp only [Out.ok.injEq] at ht
    subst ht
    have := (same_popUpto (cfg := cfg) i s).trans (same_pushChain (cfg := cfg) l _)
    exact ⟨this.1, rfl, this.2.2⟩
  | throws => rw [hc] at ht; exact absurd ht (by simp)
  | ub => rw [hc] at ht; exact absurd ht (by simp)
  | diverges => rw [hc] at ht; exact absurd ht (by simp)

/-- The schema only grows, by `gi`. -/
inductive Grown (cfg : Cfg) (S : Schema) : Schema → Prop
  | refl : Grown cfg S S
  | add (T : Schema) (n : Str) : Grown cfg S T → T.getType (makeName cfg n) = none →
      Grown cfg S (T.addType (makeName cfg n) (if cfg.bogonsEmpty then mEmpty else mAny)
            (if cfg.rootBogons then mAny else mAny - mRoot) 0
            (if cfg.rootBogons then none else some T.root))

/-- What one token leaves alone. -/
theorem keep_handle {fuel : Nat} {s t : St} {tok : Tok} (ht : handle cfg fuel s tok = .ok t) :
    t.pcdata = s.pcdata ∧
    ((∀ e, s.newElement = some e → e.preclosed = false) →
      (∀ e, t.newElement = some e → e.preclosed = false)) ∧ Grown cfg s.schema t.schema := by
  cases tok with
  | adup b =>
    simp only [handle, Out.ok.injEq] at ht; subst ht
    unfold adup
    cases hn : s.newElement with
    | none => exact ⟨rfl, fun h => by rw [hn]; exact h, .refl⟩
    | some e =>
      simp only []
      by_cases ha : s.attributeName = []
      · rw [if_pos ha]; exact ⟨rfl, fun h => by rw [hn]; exact h, .refl⟩
      · rw [if_neg ha]
        refine ⟨rfl, fun h e' he' => ?_, .refl⟩
        simp only [Option.some.injEq] at he'; subst he'; exact h e rfl
  | aname b =>
    simp only [handle, Out.ok.injEq] at ht; subst ht
    unfold aname
    cases hn : s.newElement with
    | none => exact ⟨rfl, fun h => by rw [hn]; exact h, .refl⟩
    | some e =>
      refine ⟨rfl, fun h => ?_, .refl⟩
      simp only [hn]; exact h
  | aval b =>
    simp only [handle, Out.ok.injEq] at ht; subst ht
    unfold aval
    cases hn : s.newElement with
    | none => exact ⟨rfl, fun h => by rw [hn]; exact h, .refl⟩
    | some e =>
      simp only []
      by_cases ha : s.attributeName = []
      · rw [if_pos ha]; exact ⟨rfl, fun h => by rw [hn]; exact h, .refl⟩
      · rw [if_neg ha]
        refine ⟨rfl, fun h e' he' => ?_, .refl⟩
        simp only [Option.some.injEq] at he'; subst he'; exact h e rfl
  | cmnt b =>
    simp only [handle, Out.ok.injEq] at ht; subst ht; exact ⟨rfl, fun h => h, .refl⟩
  | decl b =>
    simp only [handle] at ht
    unfold decl at ht
    cases hs : split b with
    | none => rw [hs] at ht; exact absurd ht (by simp)
    | some v =>
      rw [hs] at ht
      simp only [] at ht
      by_cases hd : v.head? = some "DOCTYPE".toList
      · rw [if_pos hd] at ht
        by_cases hp : s.doctypeIsPresent = true
        · rw [if_pos hp] at ht; simp only [Out.ok.injEq] at ht; subst ht
          exact ⟨rfl, fun h => h, .refl⟩
        · rw [if_neg hp] at ht
          by_cases hw : (declWords v).1 ≠ []
          · rw [if_pos hw] at ht; simp only [Out.ok.injEq] at ht; subst ht
            exact ⟨rfl, fun h => h, .refl⟩
          · rw [if_neg hw] at ht; simp only [Out.ok.injEq] at ht; subst ht
            exact ⟨rfl, fun h => h, .refl⟩
      · rw [if_neg hd] at ht; simp only [Out.ok.injEq] at ht; subst ht
        exact ⟨rfl, fun h => h, .refl⟩
  | entity b =>
    simp only [handle, Out.ok.injEq] at ht; subst ht; exact ⟨rfl, fun h => h, .refl⟩
  | etag b =>
    simp only [handle, Out.ok.injEq] at ht; subst ht
    have hk := keep_etagBasic (cfg := cfg) s b
    have hk' : (etagBasic cfg s b).pcdata = s.pcdata ∧
        ((∀ e, s.newElement = some e → e.preclosed = false) →
          (∀ e, (etagBasic cfg s b).newElement = some e → e.preclosed = false)) ∧
        Grown cfg s.schema (etagBasic cfg s b).schema :=
      ⟨hk.1, fun _ e he => by rw [hk.2.1] at he; exact absurd he (by simp), by rw [hk.2.2]; exact .refl⟩
    unfold etag etagCdata
    by_cases hc : (cfg.cdataElements && s.top.has fCdata) = true
    · rw [if_pos hc]
      by_cases hl : lower b = lower s.top.name
      · rw [if_pos hl]; exact hk'
      · rw [if_neg hl]; exact ⟨rfl, fun h => h, .refl⟩
    · rw [if_neg hc]; exact hk'
  | gi b =>
    simp only [handle, Out.ok.injEq] at ht; subst ht
    unfold gi
    cases hn : s.newElement with
    | some e => exact ⟨rfl, fun h => by rw [hn]; exact h, .refl⟩
    | none =>
      simp only []
      by_cases hm : makeName cfg b = []
      · rw [if_pos hm]; exact ⟨rfl, fun h => by rw [hn]; exact h, .refl⟩
      · rw [if_neg hm]
        cases hg : s.schema.getType (makeName cfg b) with
        | some t =>
          refine ⟨rfl, fun h e he => ?_, .refl⟩
          simp only [Option.some.injEq] at he; subst he; rfl
        | none =>
          simp only []
          by_cases hi : cfg.ignoreBogons = true
          · rw [if_pos hi]; exact ⟨rfl, fun h => by rw [hn]; exact h, .refl⟩
          · rw [if_neg hi]
            split
            · refine ⟨rfl, fun h e he => ?_, .add _ _ .refl hg⟩
              simp only [Option.some.injEq] at he; subst he; rfl
            · refine ⟨rfl, fun h e he => ?_, .add _ _ .refl hg⟩
              simp only [Option.some.injEq] at he; subst he; rfl
  | pcdata b =>
    simp only [handle] at ht
    unfold pcdata at ht
    by_cases hbe : b = []
    · rw [if_pos hbe] at ht; simp only [Out.ok.injEq] at ht; subst ht; exact ⟨rfl, fun h => h, .refl⟩
    · rw [if_neg hbe] at ht
      by_cases hw : (b.all (fun c => XmlChars.isSpace (schar c)) && !canContain s.top s.pcdata.ty) = true
      · rw [if_pos hw] at ht; simp only [Out.ok.injEq] at ht; subst ht
        by_cases hiw : cfg.ignorableWhitespace = true
        · rw [if_pos hiw]; exact ⟨rfl, fun h => h, .refl⟩
        · rw [if_neg hiw]; exact ⟨rfl, fun h => h, .refl⟩
      · rw [if_neg hw] at ht
        cases hre : rectify cfg fuel s s.pcdata with
        | ok s' =>
          rw [hre] at ht; simp only [Out.ok.injEq] at ht; subst ht
          have hk := keep_rectify hre
          refine ⟨hk.1, fun _ e he => ?_, ?_⟩
          · have : s'.newElement = some e := he
            rw [hk.2.1] at this; exact absurd this (by simp)
          · show Grown cfg s.schema s'.schema; rw [hk.2.2]; exact .refl
        | throws => rw [hre] at ht; exact absurd ht (by simp)
        | ub => rw [hre] at ht; exact absurd ht (by simp)
        | diverges => rw [hre] at ht; exact absurd ht (by simp)
  | pi b =>
    simp only [handle, Out.ok.injEq] at ht; subst ht
    unfold procInst
    cases hn : s.newElement with
    | some e => exact ⟨rfl, fun h => by rw [hn]; exact h, .refl⟩
    | none =>
      simp only []
      by_cases hp : s.piTarget = [] ∨ lower s.piTarget = "xml".toList
      · rw [if_pos hp]; exact ⟨rfl, fun h => by rw [hn]; exact h, .refl⟩
      · rw [if_neg hp]
        refine ⟨rfl, fun h e he => ?_, .refl⟩
        have : s.newElement = some e := he
        rw [hn] at this; exact absurd this (by simp)
  | pitarget b =>
    simp only [handle, Out.ok.injEq] at ht; subst ht
    unfold pitarget
    cases hn : s.newElement with
    | some e => exact ⟨rfl, fun h => by rw [hn]; exact h, .refl⟩
    | none =>
      refine ⟨rfl, fun h e he => ?_, .refl⟩
      exact absurd he (by simp)
  | stagc b =>
    simp only [handle] at ht
    unfold stagc at ht
    cases hn : s.newElement with
    | none =>
      rw [hn] at ht; simp only [Out.ok.injEq] at ht; subst ht
      exact ⟨rfl, fun h => by rw [hn]; exact h, .refl⟩
    | some e =>
      rw [hn] at ht; simp only [] at ht
      cases hre : rectify cfg fuel s e with
      | ok s' =>
        rw [hre] at ht; simp only [Out.ok.injEq] at ht; subst ht
        have hk := keep_rectify hre
        by_cases hm : s'.top.model = mEmpty
        · rw [if_pos hm]
          have hk2 := keep_etagBasic (cfg := cfg) s' b
          refine ⟨hk2.1.trans hk.1, fun _ e he => ?_, ?_⟩
          · rw [hk2.2.1] at he; exact absurd he (by simp)
          · rw [hk2.2.2, hk.2.2]; exact .refl
        · rw [if_neg hm]
          refine ⟨hk.1, fun _ e he => ?_, ?_⟩
          · rw [hk.2.1] at he; exact absurd he (by simp)
          · rw [hk.2.2]; exact .refl
      | throws => rw [hre] at ht; exact absurd ht (by simp)
      | ub => rw [hre] at ht; exact absurd ht (by simp)
      | diverges => rw [hre] at ht; exact absurd ht (by simp)
  | stage b =>
    simp only [handle] at ht
    unfold stage at ht
    cases hn : s.newElement with
    | none =>
      rw [hn] at ht; simp only [Out.ok.injEq] at ht; subst ht
      exact ⟨rfl, fun h => by rw [hn]; exact h, .refl⟩
    | some e =>
      rw [hn] at ht; simp only [] at ht
      cases hre : rectify cfg fuel s e with
      | ok s' =>
        rw [hre] at ht; simp only [Out.ok.injEq] at ht; subst ht
        have hk := keep_rectify hre
        have hk2 := keep_etagBasic (cfg := cfg) s' b
        refine ⟨hk2.1.trans hk.1, fun _ e he => ?_, ?_⟩
        · rw [hk2.2.1] at he; exact absurd he (by simp)
        · rw [hk2.2.2, hk.2.2]; exact .refl
      | throws => rw [hre] at ht; exact absurd ht (by simp)
      | ub => rw [hre] at ht; exact absurd ht (by simp)
      | diverges => rw [hre] at ht; exact absurd ht (by simp)

/-! ### The end of the document -/

theorem popAll_body : ∀ (xs : List Elem) (s : St) (c : List Ev), s.schema.uri = U →
    s.schema.prefix' = P → s.stack = xs ++ [root] →
    s.out = hd U P ++ c → Pre base (xs.map (frame cfg U)) c →
    ∃ b el : List Ev, base b ∧ ((xs = [] ∧ el = []) ∨ Element el) ∧
      (popAll cfg s.stack s).out = hd U P ++ (b ++ el) ∧
      (popAll cfg s.stack s).schema = s.schema
  | [], s, c, hu, hp, h1, h2, h3 => by
    cases h3 with
    | nil _ hb =>
      refine ⟨c, [], hb, .inl ⟨rfl, rfl⟩, ?_, ?_⟩
      · rw [h1]; simp [popAll, h2]
      · rw [h1]; simp [popAll]
  | [x], s, c, hu, hp, h1, h2, h3 => by
    obtain ⟨b, el, hb, hel, heq⟩ := pre_last h3
    refine ⟨b, el, hb, .inr hel, ?_, ?_⟩
    · rw [h1]
      have : (pop cfg s).out = s.out ++ (frame cfg U x).closing := by
        unfold pop; rw [h1]
        show s.out ++ _ = _
        rw [closing_eq, hu]
      show (pop cfg s).out = _
      rw [this, h2, List.append_assoc, heq]
    · rw [h1]; exact (keep_pop s).2.2
  | x :: y :: zs, s, c, hu, hp, h1, h2, h3 => by
    have ho : (pop cfg s).out = s.out ++ (frame cfg U x).closing := by
      unfold pop; rw [h1]
      show s.out ++ _ = _
      rw [closing_eq, hu]
    have hs : (pop cfg s).stack = y :: zs ++ [root] := by rw [stack_pop, h1]; rfl
    have hsc := (keep_pop (cfg := cfg) s).2.2
    have hrec := popAll_body (y :: zs) (pop cfg s) (c ++ (frame cfg U x).closing)
      (by rw [hsc, hu]) (by rw [hsc, hp]) hs (by rw [ho, h2, List.append_assoc]) (pre_close h3)
    obtain ⟨b, el, hb, hel, h4, h5⟩ := hrec
    have hstep : popAll cfg s.stack s = popAll cfg (pop cfg s).stack (pop cfg s) := by
      rw [hs, h1]; rfl
    refine ⟨b, el, hb, .inr ?_, by rw [hstep]; exact h4, by rw [hstep, h5, hsc]⟩
    rcases hel with ⟨h, _⟩ | h
    · exact absurd h (by simp)
    · exact h

theorem body_eof {fuel : Nat} {s t : St} (h : Inv cfg U P base root s) (ht : eof cfg fuel s = .ok t) :
    ∃ s' : St, Body cfg U P base root s' ∧
      (s.virgin = true → rectify cfg fuel s s.pcdata = .ok s') ∧ (s.virgin = false → s' = s) ∧
      ∃ b el : List Ev, base b ∧ ((s'.virgin = true ∧ el = []) ∨ Element el) ∧
      t.out = hd U P ++ (b ++ el) ++ ((if U ≠ [] then [.endPrefix P] else []) ++ [.endDocument]) := by
  have fin : ∀ s' : St, Body cfg U P base root s' →
      ∃ b el : List Ev, base b ∧ ((s'.virgin = true ∧ el = []) ∨ Element el) ∧
      ((popAll cfg s'.stack s').emits
        ((if (popAll cfg s'.stack s').schema.uri ≠ [] then
          [.endPrefix (popAll cfg s'.stack s').schema.prefix'] else []) ++ [.endDocument])).out =
        hd U P ++ (b ++ el) ++ ((if U ≠ [] then [.endPrefix P] else []) ++ [.endDocument]) := by
    intro s' hB
    obtain ⟨xs, c, h1, h2, h3, h4, h5⟩ := hB.body
    obtain ⟨b, el, hb, hel, ho, hsc⟩ := popAll_body xs s' c hB.uri hB.pre h1 h2 h3
    refine ⟨b, el, hb, ?_, ?_⟩
    · rcases hel with ⟨hx, he⟩ | he
      · left
        refine ⟨?_, he⟩
        cases hv : s'.virgin with
        | true => rfl
        | false =>
          obtain ⟨ys, y, hxy, _⟩ := h5 hv
          rw [hx] at hxy; simp at hxy
      · exact .inr he
    · show (popAll cfg s'.stack s').out ++ _ = _
      rw [ho, hsc, hB.uri, hB.pre]
  unfold eof at ht
  cases hv : s.virgin with
  | true =>
    rw [hv] at ht
    simp only [if_true] at ht
    cases hre : rectify cfg fuel s s.pcdata with
    | ok s' =>
      rw [hre] at ht; simp only [Out.ok.injEq] at ht; subst ht
      have hB := (body_rectify h.body h.pc hre).1
      exact ⟨s', hB, fun _ => rfl, fun hf => absurd hf (by simp), fin s' hB⟩
    | throws => rw [hre] at ht; exact absurd ht (by simp)
    | ub => rw [hre] at ht; exact absurd ht (by simp)
    | diverges => rw [hre] at ht; exact absurd ht (by simp)
  | false =>
    rw [hv] at ht
    simp only [if_false, Bool.false_eq_true, Out.ok.injEq] at ht
    subst ht
    exact ⟨s, h.body, fun hf => absurd hf (by simp), fun _ => rfl, fin s h.body⟩

end Verif.Taggle
