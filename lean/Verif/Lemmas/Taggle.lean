import Verif.Spec.Taggle
set_option autoImplicit false
set_option linter.unusedSimpArgs false
set_option linter.unusedVariables false
/-! # Lemmas about the HTML parser: the events follow the stack -/
namespace Verif.Taggle
open Spec

theorem content_append {a b : List Ev} (ha : Content a) (hb : Content b) : Content (a ++ b) := by
  induction ha with
  | nil => exact hb
  | other e rest he _ ih => exact .other e _ he ih
  | element ms ps u l q atts inner rest hp hi _ _ ih =>
    have := Content.element ms ps u l q atts inner (rest ++ b) hp hi ih
    simpa [List.append_assoc] using this

theorem content_inside {a : List Ev} (h : ∀ e ∈ a, Inside e) : Content a := by
  induction a with
  | nil => exact .nil
  | cons e t ih =>
    exact .other e t (h e (by simp)) (ih fun x hx => h x (by simp [hx]))

/-- An open element: the events that open and close it. -/
structure Frame where
  ms : List (Str × Str)
  ps : List Str
  u : Str
  l : Str
  q : Str
  atts : List Att

def Frame.opening (f : Frame) : List Ev := declared f.ms ++ [.startElement f.u f.l f.q f.atts]
def Frame.closing (f : Frame) : List Ev := .endElement f.u f.l f.q :: undeclared f.ps
def Frame.Ok (f : Frame) : Prop := f.ps.Perm (f.ms.map (·.1))

/-- The prefix test with the schema's namespace alone. -/
def foreign' (U p uri : Str) : Bool := !(p == [] || uri == [] || uri == U)

def frame (cfg : Cfg) (U : Str) (e : Elem) : Frame :=
  { ms := (if foreign' U (prefixOf e.ty.name) (reported cfg e.ty).1 then
            [(prefixOf e.ty.name, (reported cfg e.ty).1)] else []) ++
          (e.atts.filter fun a => foreign' U (prefixOf a.qName) a.uri).map
            fun a => (prefixOf a.qName, a.uri)
    ps := (if foreign' U (prefixOf e.ty.name) (reported cfg e.ty).1 then
            [prefixOf e.ty.name] else []) ++
          (e.atts.reverse.filter fun a => foreign' U (prefixOf a.qName) a.uri).map
            fun a => prefixOf a.qName
    u := (reported cfg e.ty).1, l := (reported cfg e.ty).2, q := e.ty.name, atts := e.atts }

theorem frame_ok (cfg : Cfg) (U : Str) (e : Elem) : (frame cfg U e).Ok := by
  unfold Frame.Ok frame
  simp only [List.map_append, List.map_map]
  apply List.Perm.append
  · split <;> simp
  · rw [List.filter_reverse, List.map_reverse]
    exact List.reverse_perm _

theorem opening_eq (cfg : Cfg) (S : Schema) (e : Elem) :
    openMappings cfg S e ++
      [.startElement (reported cfg e.ty).1 (reported cfg e.ty).2 e.ty.name e.atts] =
    (frame cfg S.uri e).opening := by
  unfold openMappings Frame.opening frame declared foreign foreign'
  simp only [List.map_append, List.map_map]
  split <;> simp [Function.comp_def]

theorem closing_eq (cfg : Cfg) (S : Schema) (e : Elem) :
    .endElement (reported cfg e.ty).1 (reported cfg e.ty).2 e.ty.name :: closeMappings cfg S e =
    (frame cfg S.uri e).closing := by
  unfold closeMappings Frame.closing frame undeclared foreign foreign'
  simp only [List.map_append, List.map_map]
  split <;> simp [Function.comp_def]

/-- The events so far when the elements of the frames are open. -/
inductive Pre (base : List Ev → Prop) : List Frame → List Ev → Prop
  | nil (c : List Ev) : base c → Pre base [] c
  | cons (f : Frame) (fs : List Frame) (o c : List Ev) :
      f.Ok → Pre base fs o → Content c → Pre base (f :: fs) (o ++ (f.opening ++ c))

theorem pre_open {base : List Ev → Prop} {fs : List Frame} {o : List Ev} (f : Frame) (hf : f.Ok)
    (h : Pre base fs o) : Pre base (f :: fs) (o ++ f.opening) := by
  have := Pre.cons f fs o [] hf h .nil
  simpa using this

theorem pre_add {base : List Ev → Prop} {f : Frame} {fs : List Frame} {o c : List Ev}
    (h : Pre base (f :: fs) o) (hc : Content c) : Pre base (f :: fs) (o ++ c) := by
  cases h with
  | cons _ _ o' c' hf hp hc' =>
    have := Pre.cons f fs o' (c' ++ c) hf hp (content_append hc' hc)
    simpa [List.append_assoc] using this

theorem element_frame {f : Frame} {c : List Ev} (hf : f.Ok) (hc : Content c) :
    Element (f.opening ++ c ++ f.closing) :=
  ⟨f.ms, f.ps, f.u, f.l, f.q, f.atts, c, hf, hc, by simp [Frame.opening, Frame.closing]⟩

theorem content_element {a : List Ev} (h : Element a) : Content a := by
  obtain ⟨ms, ps, u, l, q, atts, inner, hp, hi, rfl⟩ := h
  have := Content.element ms ps u l q atts inner [] hp hi .nil
  simpa using this

theorem pre_close {base : List Ev → Prop} {f g : Frame} {fs : List Frame} {o : List Ev}
    (h : Pre base (f :: g :: fs) o) : Pre base (g :: fs) (o ++ f.closing) := by
  cases h with
  | cons _ _ o' c hf hp hc =>
    have := pre_add hp (content_element (element_frame hf hc))
    simpa [List.append_assoc] using this

theorem pre_last {base : List Ev → Prop} {f : Frame} {o : List Ev} (h : Pre base [f] o) :
    ∃ b el : List Ev, base b ∧ Element el ∧ o ++ f.closing = b ++ el := by
  cases h with
  | cons _ _ o' c hf hp hc =>
    cases hp with
    | nil _ hb => exact ⟨o', _, hb, element_frame hf hc, by simp [List.append_assoc]⟩

/-! ### The invariant -/

/-- The first events. -/
def hd (U P : Str) : List Ev := .startDocument :: (if U ≠ [] then [.startPrefix P U] else [])

structure Body (cfg : Cfg) (U P : Str) (base : List Ev → Prop) (root : Elem) (s : St) : Prop where
  uri : s.schema.uri = U
  pre : s.schema.prefix' = P
  body : ∃ (xs : List Elem) (c : List Ev), s.stack = xs ++ [root] ∧ s.out = hd U P ++ c ∧
    Pre base (xs.map (frame cfg U)) c ∧ (s.virgin = true → xs = [] ∧ s.saved = []) ∧
    (s.virgin = false → ∃ (ys : List Elem) (y : Elem), xs = ys ++ [y] ∧ y.preclosed = false)

variable {cfg : Cfg} {U P : Str} {base : List Ev → Prop} {root : Elem}

theorem Body.congr {s t : St} (h : Body cfg U P base root s) (hu : t.schema.uri = s.schema.uri)
    (hp : t.schema.prefix' = s.schema.prefix') (hs : t.stack = s.stack) (hsv : t.saved = s.saved)
    (hv : t.virgin = s.virgin) (ho : t.out = s.out) : Body cfg U P base root t := by
  obtain ⟨xs, c, h1, h2, h3, h4, h5⟩ := h.body
  exact ⟨hu.trans h.uri, hp.trans h.pre, xs, c, by rw [hs, h1], by rw [ho, h2], h3,
    by rw [hv, hsv]; exact h4, by rw [hv]; exact h5⟩

theorem Body.saved {s : St} (h : Body cfg U P base root s) (hv : s.virgin = true) :
    s.saved = [] := by
  obtain ⟨xs, c, _, _, _, h4, _⟩ := h.body
  exact (h4 hv).2

theorem body_push {s : St} (h : Body cfg U P base root s) (e : Elem)
    (he : s.virgin = true → e.preclosed = false) : Body cfg U P base root (push cfg s e) := by
  obtain ⟨xs, c, h1, h2, h3, h4, h5⟩ := h.body
  refine ⟨h.uri, h.pre, clean e :: xs, c ++ (frame cfg U (clean e)).opening, ?_, ?_, ?_, ?_, ?_⟩
  · show clean e :: s.stack = _; rw [h1]; rfl
  · show s.out ++ _ = _
    rw [opening_eq, h2, h.uri, List.append_assoc]
  · exact pre_open _ (frame_ok _ _ _) h3
  · intro hv; exact absurd hv (by simp [push])
  · intro _
    cases hvv : s.virgin with
    | true => exact ⟨[], clean e, by rw [(h4 hvv).1]; rfl, he hvv⟩
    | false =>
      obtain ⟨ys, y, rfl, hy⟩ := h5 hvv
      exact ⟨clean e :: ys, y, rfl, hy⟩

theorem virgin_push (s : St) (e : Elem) : (push cfg s e).virgin = false := rfl

theorem body_restartLoop (e : Option Elem) : ∀ (l : List Elem) (s : St),
    Body cfg U P base root s → (l ≠ [] → s.virgin = false) →
    Body cfg U P base root (restartLoop cfg e l s)
  | [], s, h, _ => by
    rw [restartLoop]
    obtain ⟨xs, c, h1, h2, h3, h4, h5⟩ := h.body
    exact ⟨h.uri, h.pre, xs, c, h1, h2, h3, fun hv => ⟨(h4 hv).1, rfl⟩, h5⟩
  | x :: rest, s, h, hv => by
    rw [restartLoop]
    have hv' := hv (by simp)
    by_cases hc : (canContain s.top x.ty && e.all (fun e => canContain x.ty e.ty)) = true
    · rw [if_pos hc]
      exact body_restartLoop e rest _ (body_push h x (by simp [hv'])) (fun _ => rfl)
    · rw [if_neg hc]
      obtain ⟨xs, c, h1, h2, h3, h4, h5⟩ := h.body
      refine ⟨h.uri, h.pre, xs, c, h1, h2, h3, fun hvv => ?_, h5⟩
      exact absurd (hv'.symm.trans hvv) (by simp)

theorem body_restart (e : Option Elem) {s : St} (h : Body cfg U P base root s) :
    Body cfg U P base root (restart cfg e s) := by
  apply body_restartLoop e s.saved s h
  intro hne
  cases hv : s.virgin with
  | false => rfl
  | true => exact absurd (h.saved hv) hne

theorem stack_pop (s : St) : (pop cfg s).stack = s.stack.tail := by
  unfold pop
  cases hs : s.stack with
  | nil => simp [hs]
  | cons e r => rfl

theorem virgin_pop (s : St) : (pop cfg s).virgin = s.virgin := by
  unfold pop
  cases hs : s.stack <;> rfl

theorem saved_pop (s : St) : (pop cfg s).saved = s.saved := by
  unfold pop
  cases hs : s.stack <;> rfl

theorem body_pop {s : St} (h : Body cfg U P base root s) (hl : 2 < s.stack.length) :
    Body cfg U P base root (pop cfg s) := by
  obtain ⟨xs, c, h1, h2, h3, h4, h5⟩ := h.body
  have hv : s.virgin = false := by
    cases hv : s.virgin with
    | false => rfl
    | true => rw [h1, (h4 hv).1] at hl; simp at hl
  obtain ⟨ys, y, rfl, hy⟩ := h5 hv
  cases ys with
  | nil => rw [h1] at hl; simp at hl
  | cons e ys =>
    have hst : s.stack = e :: (ys ++ [y] ++ [root]) := by rw [h1]; simp
    have hp : pop cfg s = { s.emits (.endElement (reported cfg e.ty).1 (reported cfg e.ty).2 e.ty.name ::
      closeMappings cfg s.schema e) with stack := ys ++ [y] ++ [root] } := by
      unfold pop; rw [hst]
    rw [hp]
    refine ⟨h.uri, h.pre, ys ++ [y], c ++ (frame cfg U e).closing, rfl, ?_, ?_, ?_, ?_⟩
    · show s.out ++ _ = _
      rw [closing_eq, h2, h.uri, List.append_assoc]
    · cases ys with
      | nil => exact pre_close h3
      | cons z zs => exact pre_close h3
    · intro hvv; exact absurd (hv.symm.trans hvv) (by simp)
    · intro _; exact ⟨ys, y, rfl, hy⟩

theorem stack_restartablyPop (s : St) : (restartablyPop cfg s).stack = s.stack.tail := by
  unfold restartablyPop
  cases hs : s.stack with
  | nil => simp [hs]
  | cons e r =>
    have := stack_pop (cfg := cfg) s
    rw [hs] at this
    by_cases hc : (cfg.restartElements && e.ty.has fRestart) = true
    · simp only [hc, if_true]; exact this
    · simp only [hc]; exact this

theorem body_restartablyPop {s : St} (h : Body cfg U P base root s) (hl : 2 < s.stack.length) :
    Body cfg U P base root (restartablyPop cfg s) := by
  have hp := body_pop h hl
  have hv : s.virgin = false := by
    obtain ⟨xs, c, h1, h2, h3, h4, h5⟩ := h.body
    cases hv : s.virgin with
    | false => rfl
    | true => rw [h1, (h4 hv).1] at hl; simp at hl
  unfold restartablyPop
  cases hs : s.stack with
  | nil => exact h
  | cons e r =>
    by_cases hc : (cfg.restartElements && e.ty.has fRestart) = true
    · simp only [hc, if_true]
      obtain ⟨xs, c, h1, h2, h3, h4, h5⟩ := hp.body
      refine ⟨hp.uri, hp.pre, xs, c, h1, h2, h3, fun hvv => ?_, h5⟩
      have : (pop cfg s).virgin = true := hvv
      rw [virgin_pop, hv] at this
      exact absurd this (by simp)
    · simp only [hc]; exact hp

theorem body_popN : ∀ (i : Nat) (s : St), Body cfg U P base root s → i + 2 < s.stack.length →
    Body cfg U P base root (popN cfg i s) ∧ (popN cfg i s).stack.length = s.stack.length - i
  | 0, s, h, hl => ⟨h, by simp [popN]⟩
  | i + 1, s, h, hl => by
    rw [popN]
    have h1 := body_restartablyPop h (by omega)
    have h2 := stack_restartablyPop (cfg := cfg) s
    have h3 := body_popN i _ h1 (by rw [h2, List.length_tail]; omega)
    exact ⟨h3.1, by rw [h3.2, h2, List.length_tail]; omega⟩

theorem body_popPreclosed (hr : root.preclosed = false) : ∀ (l : List Elem) (s : St),
    l = s.stack → Body cfg U P base root s → Body cfg U P base root (popPreclosed cfg l s)
  | [], s, _, h => by rw [popPreclosed]; exact h
  | e :: rest, s, hl, h => by
    rw [popPreclosed]
    by_cases hc : e.preclosed = true
    · rw [if_pos hc]
      apply body_popPreclosed hr rest
      · rw [stack_pop, ← hl]; rfl
      · apply body_pop h
        obtain ⟨xs, c, h1, h2, h3, h4, h5⟩ := h.body
        cases hv : s.virgin with
        | true =>
          rw [h1, (h4 hv).1] at hl
          simp at hl
          rw [hl.1, hr] at hc
          exact absurd hc (by simp)
        | false =>
          obtain ⟨ys, y, rfl, hy⟩ := h5 hv
          cases ys with
          | nil =>
            rw [h1] at hl
            simp at hl
            rw [hl.1, hy] at hc
            exact absurd hc (by simp)
          | cons z zs => rw [h1]; simp
    · rw [if_neg hc]; exact h

theorem modify_append_lt {α : Type} (f : α → α) : ∀ (ys zs : List α) {i : Nat}, i < ys.length →
    (ys ++ zs).modify i f = ys.modify i f ++ zs
  | [], _, _, h => by simp at h
  | y :: ys, zs, 0, _ => by simp
  | y :: ys, zs, i + 1, h => by
    simp only [List.cons_append, List.modify_succ_cons]
    rw [modify_append_lt f ys zs (by simpa using h)]

theorem body_preclose {s : St} (h : Body cfg U P base root s) (i : Nat) (hl : i + 2 < s.stack.length) :
    Body cfg U P base root
      { s with stack := s.stack.modify i fun e => { e with preclosed := true } } := by
  obtain ⟨xs, c, h1, h2, h3, h4, h5⟩ := h.body
  have hv : s.virgin = false := by
    cases hv : s.virgin with
    | false => rfl
    | true => rw [h1, (h4 hv).1] at hl; simp at hl
  obtain ⟨ys, y, rfl, hy⟩ := h5 hv
  have hi : i < ys.length := by rw [h1] at hl; simp at hl; omega
  have hm : s.stack.modify i (fun e => { e with preclosed := true }) =
      (ys.modify i fun e => { e with preclosed := true }) ++ [y] ++ [root] := by
    rw [h1, List.append_assoc, List.append_assoc]
    exact modify_append_lt _ _ _ hi
  refine ⟨h.uri, h.pre, (ys.modify i fun e => { e with preclosed := true }) ++ [y], c, hm, h2, ?_, ?_, ?_⟩
  · have : ((ys.modify i fun e => { e with preclosed := true }) ++ [y]).map (frame cfg U) =
        (ys ++ [y]).map (frame cfg U) := by
      rw [List.map_append, List.map_append]
      congr 1
      apply List.ext_getElem?
      intro j
      rw [List.getElem?_map, List.getElem?_map, List.getElem?_modify]
      by_cases hj : i = j
      · subst hj
        rw [List.getElem?_eq_getElem hi]
        simp
        rfl
      · simp [hj]
    rw [this]; exact h3
  · intro hvv; exact absurd (hv.symm.trans hvv) (by simp)
  · intro _; exact ⟨_, y, rfl, hy⟩

theorem body_etagName (hr : root.preclosed = false) {s : St} (h : Body cfg U P base root s)
    (name : Str) : Body cfg U P base root (etagName cfg s name) := by
  unfold etagName
  cases hf : s.stack.findIdx? (fun e => e.ty.name == name) with
  | none => exact h
  | some i =>
    by_cases hl : s.stack.length ≤ i + 2
    · simp only [hl, if_true]; exact h
    · simp only [hl]
      rw [if_neg (by simp)]
      by_cases ha : (s.stack.take i).any (fun e => e.ty.has fNoforce) = true
      · simp only [ha, if_true]
        exact body_restart none (body_popPreclosed hr _ _ rfl (body_preclose h i (by omega)))
      · simp only [ha]
        have h1 := body_popN i s h (by omega)
        exact body_restart none (body_popPreclosed hr _ _ rfl (body_pop h1.1 (by omega)))

theorem body_etagBasic (hr : root.preclosed = false) {s : St} (h : Body cfg U P base root s)
    (buff : Str) : Body cfg U P base root (etagBasic cfg s buff) := by
  have h' : Body cfg U P base root { s with newElement := none } :=
    h.congr rfl rfl rfl rfl rfl rfl
  unfold etagBasic
  by_cases hb : buff ≠ []
  · simp only []
    rw [if_pos hb]
    cases hg : s.schema.getType (makeName cfg buff) with
    | none => exact h'
    | some t => exact body_etagName hr h' _
  · simp only []
    rw [if_neg hb]
    exact body_etagName hr h' _

theorem body_popUpto : ∀ (i : Nat) (s : St), Body cfg U P base root s →
    Body cfg U P base root (popUpto cfg i s)
  | 0, s, h => by rw [popUpto]; exact h
  | i + 1, s, h => by
    rw [popUpto]
    by_cases hl : s.stack.length ≤ 2
    · rw [if_pos hl]; exact h
    · rw [if_neg hl]
      exact body_popUpto i _ (body_restartablyPop h (by omega))

theorem body_pushChain : ∀ (l : List Elem) (s : St), (∀ x ∈ l, x.preclosed = false) →
    Body cfg U P base root s → Body cfg U P base root (pushChain cfg l s)
  | [], s, _, h => by rw [pushChain]; exact h
  | e :: rest, s, hl, h => by
    rw [pushChain]
    apply body_pushChain rest _ fun x hx => hl x (by simp [hx])
    apply body_restart
    by_cases hn : e.ty.name ≠ "<pcdata>".toList
    · rw [if_pos hn]; exact body_push h e fun _ => hl e (by simp)
    · rw [if_neg hn]; exact h

theorem climb_fresh {s : St} : ∀ (fuel : Nat) (e : Elem) (chain : List Elem) (i : Nat) (l : List Elem),
    e.preclosed = false → (∀ x ∈ chain, x.preclosed = false) →
    climb cfg s fuel e chain = .ok (i, l) → ∀ x ∈ l, x.preclosed = false
  | 0, e, chain, i, l, _, _, h => by rw [climb] at h; exact absurd h (by simp)
  | fuel + 1, e, chain, i, l, he, hc, h => by
    rw [climb] at h
    cases hf : s.stack.findIdx? (fun x => canContain x.ty e.ty) with
    | some j =>
      rw [hf] at h
      simp only [Out.ok.injEq, Prod.mk.injEq] at h
      rw [← h.2]
      intro x hx
      rcases List.mem_cons.1 hx with rfl | hx
      · exact he
      · exact hc x hx
    | none =>
      rw [hf] at h
      simp only [] at h
      cases hp : e.ty.parent with
      | none => rw [hp] at h; exact absurd h (by simp)
      | some p =>
        rw [hp] at h
        simp only [] at h
        cases ht : s.schema.types[p]? with
        | none => rw [ht] at h; exact absurd h (by simp)
        | some t =>
          rw [ht] at h
          simp only [] at h
          refine climb_fresh fuel _ _ i l rfl ?_ h
          intro x hx
          rcases List.mem_cons.1 hx with rfl | hx
          · exact he
          · exact hc x hx

theorem body_rectify {fuel : Nat} {s t : St} {e : Elem} (h : Body cfg U P base root s)
    (he : e.preclosed = false) (ht : rectify cfg fuel s e = .ok t) :
    Body cfg U P base root t ∧ t.newElement = none := by
  unfold rectify at ht
  cases hc : climb cfg s fuel e [] with
  | ok r =>
    obtain ⟨i, l⟩ := r
    rw [hc] at ht
    simp only [Out.ok.injEq] at ht
    subst ht
    have hf := climb_fresh fuel e [] i l he (by simp) hc
    exact ⟨(body_pushChain l _ hf (body_popUpto i s h)).congr rfl rfl rfl rfl rfl rfl, rfl⟩
  | throws => rw [hc] at ht; exact absurd ht (by simp)
  | ub => rw [hc] at ht; exact absurd ht (by simp)
  | diverges => rw [hc] at ht; exact absurd ht (by simp)

end Verif.Taggle
