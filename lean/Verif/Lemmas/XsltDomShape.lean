import Verif.Lemmas.XsltDomSink2
import Verif.Spec.XPathAxes
set_option autoImplicit false
set_option linter.unusedSimpArgs false
set_option linter.unusedVariables false
/-!
# The shape of the tree a transformation leaves: one XPath can work on
-/
namespace Verif.XsltDomSink
open Verif.Xslt (QN OAttr Event Instrs Out execs)
open Verif.Spec.XsltOutput (Res readTags sections section1 listed results Consistents)
open Verif.XTree (Tree Data Kind sub Ref Step)
open Verif.Spec.XsltDomSink
open Verif.Xslt (Last feed feed1 tell told NamesOk PfxOk erase autoPrefix)
open Verif.Spec.XPathAxes (DomTree Expanded Normalized TextAt)

/-- An attribute with its text. -/
def AttrShape (a : Tree) : Prop := ∃ d s, a = .node d [] [textNode s] ∧ d.kind = .attribute

def textual (t : Tree) : Prop := t.kind = .text ∨ t.kind = .cdata

def Apart (ks : List Tree) : Prop :=
  ∀ i a b, ks[i]? = some a → ks[i + 1]? = some b → ¬ (textual a ∧ textual b)

inductive Shape : Tree → Prop where
  | element (d : Data) (as ks : List Tree) (hk : d.kind = .element) (ha : ∀ a ∈ as, AttrShape a)
      (hs : ∀ t ∈ ks, Shape t) (hp : Apart ks) : Shape (.node d as ks)
  | leaf (d : Data) (hk : d.kind = .text ∨ d.kind = .cdata ∨ d.kind = .comment ∨ d.kind = .pi) :
      Shape (.node d [] [])

def ShapeL (ks : List Tree) : Prop := (∀ t ∈ ks, Shape t) ∧ Apart ks

theorem apart_nil : Apart [] := by intro i a b h; simp at h

theorem apart_append {ks : List Tree} {t : Tree} :
    Apart (ks ++ [t]) ↔ Apart ks ∧ ∀ l, ks.getLast? = some l → ¬ (textual l ∧ textual t) := by
  constructor
  · intro h
    refine ⟨fun i a b ha hb => h i a b ?_ ?_, fun l hl => ?_⟩
    · rw [List.getElem?_append_left (List.getElem?_eq_some_iff.mp ha).1]; exact ha
    · rw [List.getElem?_append_left (List.getElem?_eq_some_iff.mp hb).1]; exact hb
    · rw [List.getLast?_eq_getElem?] at hl
      have h1 := (List.getElem?_eq_some_iff.mp hl).1
      refine h (ks.length - 1) l t ?_ ?_
      · rw [List.getElem?_append_left h1]; exact hl
      · rw [show ks.length - 1 + 1 = ks.length by omega]; simp
  · rintro ⟨h1, h2⟩ i a b ha hb
    have hi : i + 1 < (ks ++ [t]).length := (List.getElem?_eq_some_iff.mp hb).1
    simp only [List.length_append, List.length_singleton] at hi
    rw [List.getElem?_append_left (by omega)] at ha
    by_cases hl : i + 1 < ks.length
    · rw [List.getElem?_append_left hl] at hb
      exact h1 i a b ha hb
    · have he : i + 1 = ks.length := by omega
      rw [he] at hb
      simp at hb
      subst hb
      refine h2 a ?_
      rw [List.getLast?_eq_getElem?, show ks.length - 1 = i by omega]
      exact ha

theorem shapeL_append {ks : List Tree} {t : Tree} (h : ShapeL ks) (ht : Shape t)
    (hl : ∀ l, ks.getLast? = some l → ¬ (textual l ∧ textual t)) : ShapeL (ks ++ [t]) := by
  refine ⟨fun x hx => ?_, apart_append.mpr ⟨h.2, hl⟩⟩
  rw [List.mem_append, List.mem_singleton] at hx
  rcases hx with hx | rfl
  · exact h.1 x hx
  · exact ht

theorem shapeL_front {ks : List Tree} {t : Tree} (h : ShapeL (ks ++ [t])) : ShapeL ks :=
  ⟨fun x hx => h.1 x (List.mem_append_left _ hx), (apart_append.mp h.2).1⟩

/-- The shape of what is built so far. -/
def Shaped (fs : List Frame) (top : List Tree) : Prop :=
  ShapeL top ∧ ∀ f ∈ fs, f.data.kind = .element ∧ (∀ a ∈ f.attrs, AttrShape a) ∧ ShapeL f.kids

theorem shaped_kids {fs : List Frame} {top : List Tree} (h : Shaped fs top) : ShapeL (kidsAt fs top) := by
  cases fs with
  | nil => exact h.1
  | cons f fs => exact (h.2 f (by simp)).2.2

theorem shaped_with {fs : List Frame} {top ts : List Tree} (h : Shaped fs top) (ht : ShapeL ts) :
    Shaped (withKids fs top ts).1 (withKids fs top ts).2 := by
  cases fs with
  | nil => exact ⟨ht, by simp [withKids]⟩
  | cons f fs =>
    refine ⟨h.1, fun g hg => ?_⟩
    simp only [withKids, List.mem_cons] at hg
    rcases hg with rfl | hg
    · exact ⟨(h.2 f (by simp)).1, (h.2 f (by simp)).2.1, ht⟩
    · exact h.2 g (by simp [hg])

def ShapedS (k : Sink) : Prop := ∀ fs top, (current k).path = some fs → (current k).frag = some top → Shaped fs top

theorem shapedS_mk {fs : List Frame} {top : List Tree} (h : Shaped fs top) (i : Int) (oa : Bool) :
    ShapedS { frag := some top, path := some fs, indent := i, outAgain := oa } := by
  intro fs' top' h1 h2
  simp only [current, Option.some.injEq] at h1 h2
  subst h1 h2
  exact h

theorem shape_text (s : Str) : Shape (textNode s) := .leaf _ (Or.inl rfl)

theorem putNode_shape (a : Tree) (as : List Tree) (ha : AttrShape a) (h : ∀ x ∈ as, AttrShape x) :
    ∀ x ∈ putNode a as, AttrShape x := by
  induction as with
  | nil => intro x hx; simp only [putNode, List.mem_singleton] at hx; subst hx; exact ha
  | cons b bs ih =>
    intro x hx
    rw [putNode] at hx
    split at hx
    · rcases List.mem_cons.mp hx with rfl | hx
      · exact ha
      · exact h x (by simp [hx])
    · rcases List.mem_cons.mp hx with rfl | hx
      · exact h x (by simp)
      · exact ih (fun x hx => h x (by simp [hx])) x hx

theorem setAttributes_shape {C : Chars} (atts : List OAttr) (as bs : List Tree) (h : ∀ x ∈ as, AttrShape x)
    (hb : setAttributes C atts as = .done bs) : ∀ x ∈ bs, AttrShape x := by
  induction atts generalizing as with
  | nil => simp only [setAttributes, Outcome.done.injEq] at hb; subst hb; exact h
  | cons a more ih =>
    rw [setAttributes] at hb
    cases hs : setAttribute C a as with
    | done as' =>
      rw [hs] at hb
      refine ih as' ?_ hb
      unfold setAttribute at hs
      split at hs
      · cases hs
      · split at hs
        · cases hs
        · simp only [Outcome.done.injEq] at hs
          subst hs
          exact putNode_shape _ _ ⟨_, _, rfl, rfl⟩ h
    | throws => rw [hs] at hb; cases hb
    | undefined => rw [hs] at hb; cases hb

theorem append_shaped {k : Sink} {fs : List Frame} {top : List Tree} {oa : Bool} (t : Tree) (ht : Shape t)
    (hn : ¬ textual t) (hc : current k = { frag := some top, path := some fs, indent := -1, outAgain := oa })
    (hs : Shaped fs top) : ShapedS (append k t) := by
  rw [append, hc, kids_at, set_at]
  exact shapedS_mk (shaped_with hs (shapeL_append (shaped_kids hs) ht (fun l _ h => hn h.2))) _ _

theorem step_shaped {C : Chars} {cd : List (Str × Str)} {k k' : Sink} {fs : List Frame} {top : List Tree}
    {x : List (Str × Str) × Bool} {y y' : Last} {acc : List Res} (h : Good cd k fs top x y acc) (hs : ShapedS k)
    (e : Event) (hy : feed1 y e = some y') (hd : step C k e = .done k') : ShapedS k' := by
  obtain ⟨oa, hc⟩ := h.cur
  have hS : Shaped fs top := hs fs top (by rw [hc]) (by rw [hc])
  have hl := level_of_inner h.inner
  match e with
  | .characters s =>
    simp only [feed1] at hy
    split at hy <;> simp only [Option.some.injEq, reduceCtorEq] at hy
    rename_i h2
    simp only [step, Outcome.done.injEq] at hd
    subst hd
    rw [characters]
    simp only [hc, kids_at]
    cases y with
    | cdata => exact absurd rfl h2
    | text =>
      obtain ⟨ks, v, hk, -⟩ := hl
      simp only [hk, List.getLast?_append, List.getLast?_singleton, Option.some_or, textNode, if_true,
        List.dropLast_append, List.dropLast_singleton, List.append_nil]
      have hK := shaped_kids hS
      rw [hk] at hK
      have := (apart_append.mp hK.2).2
      rw [set_at]
      exact shapedS_mk (shaped_with hS (shapeL_append (shapeL_front hK) (shape_text _)
        (fun l hl hx => this l hl ⟨hx.1, Or.inl rfl⟩))) _ _
    | other =>
      have key : ShapeL (kidsAt fs top ++ [textNode s]) := by
        refine shapeL_append (shaped_kids hS) (shape_text _) ?_
        intro l hll hx
        rcases hl.2 with hk | ⟨k', t, hk, ht⟩
        · rw [hk] at hll; cases hll
        · rw [hk] at hll
          simp at hll
          subst hll
          unfold textual at hx
          rcases ht with e | e | e <;> rw [e] at hx <;> simp at hx
      split
      · rename_i d as ts hg
        split
        · rename_i hkd
          exfalso
          rcases hl.2 with hk | ⟨k', t, hk, ht⟩
          · rw [hk] at hg; cases hg
          · rw [hk] at hg
            simp at hg
            subst hg
            unfold Tree.kind Tree.data at ht
            simp only at ht
            rw [hkd] at ht
            simp at ht
        · rw [set_at]; exact shapedS_mk (shaped_with hS key) _ _
      · rw [set_at]; exact shapedS_mk (shaped_with hS key) _ _
  | .startCDATA =>
    simp only [step, Outcome.done.injEq] at hd
    subst hd
    exact hs
  | .endCDATA =>
    simp only [feed1] at hy
    split at hy <;> simp only [Option.some.injEq, reduceCtorEq] at hy
    rename_i h2
    subst h2
    obtain ⟨ks, v, hk, -⟩ := hl
    have hK := shaped_kids hS
    rw [hk] at hK
    have := (apart_append.mp hK.2).2
    simp only [step, endCDATA, hc, kids_at, hk, List.getLast?_append, List.getLast?_singleton, Option.some_or, textNode,
        if_true, List.dropLast_append, List.dropLast_singleton, List.append_nil, List.dropLast_concat,
        Outcome.done.injEq] at hd
    subst hd
    rw [set_at]
    exact shapedS_mk (shaped_with hS (shapeL_append (shapeL_front hK) (.leaf _ (Or.inr (Or.inl rfl)))
      (fun l hl hx => this l hl ⟨hx.1, Or.inl rfl⟩))) _ _
  | .comment s =>
    simp only [step, Outcome.done.injEq] at hd
    subst hd
    exact append_shaped _ (.leaf _ (Or.inr (Or.inr (Or.inl rfl)))) (by simp [textual, commentNode, Tree.kind, Tree.data]) hc hS
  | .pi t s =>
    simp only [step, processingInstruction] at hd
    split at hd
    · cases hd
    · split at hd
      · cases hd
      · simp only [Outcome.done.injEq] at hd
        subst hd
        exact append_shaped _ (.leaf _ (Or.inr (Or.inr (Or.inr rfl)))) (by simp [textual, Tree.kind, Tree.data]) hc hS
  | .startElement q u as =>
    rw [step, startElement, indent_off h.flat] at hd
    simp only [hc, Option.getD_some] at hd
    split at hd
    · cases hd
    · split at hd
      · rename_i bs hb
        simp only [Outcome.done.injEq] at hd
        subst hd
        refine shapedS_mk ⟨hS.1, fun f hf => ?_⟩ _ _
        rcases List.mem_cons.mp hf with rfl | hf
        · exact ⟨rfl, setAttributes_shape _ _ _ (by simp) hb, by simp, apart_nil⟩
        · exact hS.2 f hf
      · cases hd
      · cases hd
  | .endElement q u =>
    rw [step, endElement, outdent_off h.flat] at hd
    rcases h.wrote with hp | ⟨hp, hp2, _⟩
    · simp only [hp.1] at hd
      have hk : k = { frag := some top, path := some fs, indent := -1, outAgain := oa } := by
        rw [← hc, current, hp.1]
      cases fs with
      | nil =>
        simp only [Outcome.done.injEq] at hd
        subst hd
        intro fs' top' h1 h2
        simp only [current, Option.some.injEq] at h1 h2
        subst h1 h2
        exact ⟨⟨by simp, apart_nil⟩, by simp⟩
      | cons f fs =>
        simp only [Outcome.done.injEq] at hd
        subst hd
        have hf := hS.2 f (by simp)
        refine append_shaped _ (.element _ _ _ hf.1 hf.2.1 hf.2.2.1 hf.2.2.2) ?_ (fs := fs) (top := top) (oa := oa) ?_
          ⟨hS.1, fun g hg => hS.2 g (by simp [hg])⟩
        · simp [textual, Tree.kind, Tree.data, hf.1]
        · rw [hk]; rfl
    · cases hp' : k.path with
      | none => rw [hp'] at hd; cases hd
      | some fs' =>
        simp only [current, hp'] at hc
        rw [hc] at hp2
        cases hp2

theorem run_shaped {C : Chars} {ns : Str → Str} (hC : CharsOk C) (hns : ∀ p, p ≠ [] → ns p ≠ [] → Nm C p)
    {cd : List (Str × Str)} (evs : List Event) {k : Sink} {fs : List Frame} {top : List Tree}
    {x x' : List (Str × Str) × Bool} {y y' : Last} {acc : List Res} (h : Good cd k fs top x y acc) (hk : ShapedS k)
    (he : ∀ e ∈ evs, Fine C ns e) (hx : sections cd x evs = some x') (hy : feed y evs = some y')
    (o : List QN) (ho : o.length = fs.length) (rs : List Res) (ht : readTags o evs = some (rs, [])) (k' : Sink)
    (hr : run C k evs = .done k') : ShapedS k' := by
  induction evs generalizing k fs top x y acc o rs with
  | nil => simp only [run, Outcome.done.injEq] at hr; subst hr; exact hk
  | cons e es ih =>
    rw [sections] at hx
    rw [feed] at hy
    cases hx1 : section1 cd x e with
    | none => simp [hx1] at hx
    | some x1 =>
      cases hy1 : feed1 y e with
      | none => simp [hy1] at hy
      | some y1 =>
        simp only [hx1] at hx
        simp only [hy1] at hy
        obtain ⟨n, o', rs', hd, hn, ht'⟩ := deep_tags ho ht
        obtain ⟨k1, fs', top', hs, hg, hl⟩ := step_good hC hns h e (he e (by simp)) hx1 hy1 n hd
        rw [run, hs] at hr
        exact ih hg (step_shaped h hk e hy1 hs) (fun e he' => he e (List.mem_cons_of_mem _ he')) hx hy o' (by omega) rs' ht' hr

theorem init_shaped : ShapedS {} := by
  intro fs top h1 h2
  simp only [current, Option.some.injEq] at h1 h2
  subst h1 h2
  exact ⟨⟨by simp, apart_nil⟩, by simp⟩

theorem transform_shape {C : Chars} {ns : Str → Str} (hC : CharsOk C) (hns : ∀ p, p ≠ [] → ns p ≠ [] → Nm C p)
    (cd : List (Str × Str)) (is : Instrs) (h : Consistents ns is) (hr : ∀ r ∈ results is, ResOk C r) {t : Tree}
    (ht : transform C cd false is = .done (some t)) :
    ∃ top, t = .node { kind := .fragment, name := "#document-fragment".toList } [] top ∧ ShapeL top := by
  obtain ⟨evs, hout, h1, hfine, ⟨_, hc⟩, ⟨_, hf⟩, ⟨_, htg⟩⟩ := transform_events (C := C) cd is h hr
  obtain ⟨k, top, hrun, hg⟩ := run_good hC hns evs (init_good cd) hfine hc hf [] rfl _ htg
  have hS := run_shaped hC hns evs (init_good cd) init_shaped hfine hc hf [] rfl _ htg k hrun
  have htr : transform C cd false is = .done (node k) := by
    rw [transform, hout]
    show (match run C {} evs with | .done k => _ | .throws => _ | .undefined => _) = _
    rw [hrun]
  rw [htr] at ht
  simp only [Outcome.done.injEq, node] at ht
  rcases hg.wrote with ⟨hp, hw⟩ | ⟨_, hw, _⟩
  · rw [hw] at ht
    simp only [Option.map_some, Option.some.injEq] at ht
    refine ⟨top, ht.symm, ?_⟩
    exact (hS [] top (by rw [current, hp]; exact hp) (by rw [current, hp]; exact hw)).1
  · rw [hw] at ht; cases ht

/-- A fragment of this shape is a tree as the XPath theorems are about. -/
theorem shape_dom {d : Data} {top : List Tree} (hk : d.kind = .fragment) (h : ShapeL top) :
    DomTree (.node d [] top) ∧ Expanded (.node d [] top) ∧ Normalized (.node d [] top) := by
  have key : ∀ (r : Ref) (n : Tree), sub (.node d [] top) r = some n →
      (r = [] ∧ n = .node d [] top) ∨ (∃ i up, r = .child i :: up) ∧ Shape n ∨ (∃ i up, r = .attr i :: up) ∧ AttrShape n := by
    intro r
    induction r with
    | nil => intro n hn; simp only [sub, Option.some.injEq] at hn; exact Or.inl ⟨rfl, hn.symm⟩
    | cons s up ih =>
      intro n hn
      rw [sub] at hn
      cases hu : sub (.node d [] top) up with
      | none => rw [hu] at hn; cases hn
      | some m =>
        rw [hu] at hn
        cases s with
        | child i =>
          right; left
          refine ⟨⟨_, _, rfl⟩, ?_⟩
          simp only [Tree.step] at hn
          have hmem := List.mem_of_getElem? hn
          rcases ih m hu with ⟨_, rfl⟩ | ⟨_, hm⟩ | ⟨_, hm⟩
          · exact h.1 n hmem
          · cases hm with
            | element d as ks _ _ hs _ => exact hs n hmem
            | leaf d _ => cases hmem
          · obtain ⟨d', s', rfl, _⟩ := hm
            simp only [Tree.kids, List.mem_singleton] at hmem
            subst hmem
            exact shape_text _
        | attr i =>
          right; right
          refine ⟨⟨_, _, rfl⟩, ?_⟩
          simp only [Tree.step] at hn
          have hmem := List.mem_of_getElem? hn
          rcases ih m hu with ⟨_, rfl⟩ | ⟨_, hm⟩ | ⟨_, hm⟩
          · cases hmem
          · cases hm with
            | element d as ks _ ha _ _ => exact ha n hmem
            | leaf d _ => cases hmem
          · obtain ⟨d', s', rfl, _⟩ := hm
            cases hmem
  have kinds : ∀ n, Shape n → n.kind = .element ∨ n.kind = .text ∨ n.kind = .cdata ∨ n.kind = .comment ∨ n.kind = .pi := by
    intro n hn
    cases hn with
    | element d as ks hk _ _ _ => exact Or.inl hk
    | leaf d hk => exact Or.inr hk
  refine ⟨⟨?_, ?_, ?_, ?_, ?_⟩, ?_, ?_⟩
  · show d.kind ≠ _
    rw [hk]; decide
  · intro up i n hn
    rcases key _ n hn with ⟨e, _⟩ | ⟨⟨_, _, e⟩, _⟩ | ⟨_, hm⟩
    · cases e
    · cases e
    · obtain ⟨d', s', rfl, e⟩ := hm; exact e
  · intro up i n hn
    rcases key _ n hn with ⟨e, _⟩ | ⟨_, hm⟩ | ⟨⟨_, _, e⟩, _⟩
    · cases e
    · rcases kinds n hm with e | e | e | e | e <;> rw [e] <;> decide
    · cases e
  · intro r n hn ha
    rcases key _ n hn with ⟨_, rfl⟩ | ⟨_, hm⟩ | ⟨_, hm⟩
    · exact absurd rfl ha
    · cases hm with
      | element d as ks hk _ _ _ => exact hk
      | leaf d hk => exact absurd rfl ha
    · obtain ⟨d', s', rfl, e⟩ := hm; exact absurd rfl ha
  · intro r n hn ha
    rcases key _ n hn with ⟨_, rfl⟩ | ⟨_, hm⟩ | ⟨_, hm⟩
    · exact Or.inr (Or.inl hk)
    · cases hm with
      | element d as ks hk _ _ _ => exact Or.inr (Or.inr (Or.inl hk))
      | leaf d hk => exact absurd rfl ha
    · obtain ⟨d', s', rfl, e⟩ := hm; exact Or.inr (Or.inr (Or.inr (Or.inl e)))
  · intro r n hn
    rcases key _ n hn with ⟨_, rfl⟩ | ⟨_, hm⟩ | ⟨_, hm⟩
    · show d.kind ≠ _ ∧ d.kind ≠ _
      rw [hk]; decide
    · rcases kinds n hm with e | e | e | e | e <;> rw [e] <;> decide
    · obtain ⟨d', s', rfl, e⟩ := hm
      show d'.kind ≠ _ ∧ d'.kind ≠ _
      rw [e]; decide
  · rintro up i ⟨⟨a, ha, ta⟩, ⟨b, hb, tb⟩⟩
    rw [sub] at ha hb
    cases hu : sub (.node d [] top) up with
    | none => rw [hu] at ha; cases ha
    | some m =>
      rw [hu] at ha hb
      simp only [Tree.step] at ha hb
      rcases key _ m hu with ⟨_, rfl⟩ | ⟨_, hm⟩ | ⟨_, hm⟩
      · exact h.2 i a b ha hb ⟨ta, tb⟩
      · cases hm with
        | element d as ks _ _ _ hp => exact hp i a b ha hb ⟨ta, tb⟩
        | leaf d _ => simp [Tree.kids] at ha
      · obtain ⟨d', s', rfl, _⟩ := hm
        simp [Tree.kids] at hb

end Verif.XsltDomSink
