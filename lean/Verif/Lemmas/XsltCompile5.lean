import Verif.Lemmas.XsltCompile4
/- Each instruction, and so the content of every template. -/
set_option autoImplicit false
set_option linter.unusedSimpArgs false
set_option linter.unusedVariables false

namespace Verif.Lemmas.XsltCompile

open Verif.XsltCompile
open Verif.Spec.XsltCompile (Src events eventsAll xsltNs xmlNs Tag tag Att attr only white nothing
  Regular TextWhole Plain Careful AllPlain AllCareful nodes nodesAll select? name? avtOr sortOf nsOf literalAtts binding
  lang? priority? templateOf keyOf item content arguments branches sorted characters valueOr parametrised)

section
variable {ε μ ν π : Type} [DecidableEq ν]

theorem child_none {E : Ext ε μ ν π} {cur : Bool} {el : El} {t : Tag} (h : tag el = some t)
    (hl : allowedChildren.lookup t.str = none) : openChild E cur el = none := by
  obtain ⟨hu, hn⟩ := tag_some.mp h
  unfold openChild
  rw [if_pos (show el.uri = SC.xslt from hu), hn, hl]

theorem child_some {E : Ext ε μ ν π} {cur : Bool} {el : El} {t : Tag} {k : Kind} (h : tag el = some t)
    (hl : allowedChildren.lookup t.str = some k) : openChild E cur el = openKind E cur el k := by
  obtain ⟨hu, hn⟩ := tag_some.mp h
  unfold openChild
  rw [if_pos (show el.uri = SC.xslt from hu), hn, hl]

theorem names_are_tags : ∀ p ∈ allowedChildren, ∃ t ∈ Tag.all, t.str = p.1 := by decide +kernel

theorem lookup_mem {l : List (Str × Kind)} {n : Str} {k : Kind} (h : l.lookup n = some k) :
    (n, k) ∈ l := by
  induction l with
  | nil => cases h
  | cons p l ih =>
    obtain ⟨a, b⟩ := p
    rw [List.lookup_cons] at h
    split at h
    · rename_i he
      rw [eq_of_beq he]; cases h; exact List.mem_cons_self
    · exact List.mem_cons_of_mem _ (ih h)

theorem child_unknown {E : Ext ε μ ν π} {cur : Bool} {el : El} (hu : el.uri = xsltNs)
    (h : tag el = none) : openChild E cur el = none := by
  unfold openChild
  rw [if_pos (show el.uri = SC.xslt from hu)]
  cases hl : allowedChildren.lookup el.loc with
  | none => rfl
  | some k =>
    obtain ⟨t, _, ht⟩ := names_are_tags _ (lookup_mem hl)
    have : tag el = some t := tag_some.mpr ⟨hu, ht.symm⟩
    rw [h] at this; cases this

theorem settled_forEach (E : Ext ε μ ν π) (e : ε) (ss : List (SortBy ε)) :
    Settled E (.forEach e ss true) := by
  refine ⟨fun cur el => ?_, fun s items => ?_⟩
  · show (if _ then _ else _) = _
    by_cases h : el.uri = SC.xslt ∧ el.loc = SC.eSort
    · rw [if_pos h, child_none ((cond_sort el).mp h) (by decide +kernel)]; rfl
    · rw [if_neg h]
  · show (if blank s then _ else _) = _
    split <;> rfl

theorem settled_template (E : Ext ε μ ν π) (p : Option μ) (n m : Option ν) (q : Option π) :
    Settled E (.template p n m q true) := by
  refine ⟨fun cur el => ?_, fun s items => ?_⟩
  · show (if _ then _ else _) = _
    by_cases h : el.uri = SC.xslt ∧ el.loc = SC.eParam
    · rw [if_pos h, child_none ((cond_param el).mp h) (by decide +kernel)]; rfl
    · rw [if_neg h]
  · show (if blank s then _ else _) = _
    split <;> rfl

theorem run_start_box {E : Ext ε μ ν π} {m : Maker ε μ ν π} (hm : Settled E m) (el : El)
    (es : List Event) (s : St ε μ ν π) (items : List (Code ε ν)) (fs : List (Frame ε μ ν π)) :
    run E (.start el :: es) (at' s (.box m items :: fs)) =
      (openChild E s.current el).bind (fun f => run E es (at' s (f :: .box m items :: fs))) := by
  rw [run_cons]
  show ((startInBox E s.current el m).map _).bind _ = _
  rw [hm.start]
  cases openChild E s.current el <;> rfl

/-- An element: its handler `frame a`, made from what its attributes say. -/
theorem elem_item {E : Ext ε μ ν π} {α : Type} {el : El} {kids : List Src} {s : St ε μ ν π}
    {rest : List Event} {m : Maker ε μ ν π} {items : List (Code ε ν)} {fs : List (Frame ε μ ν π)}
    (hm : Settled E m) {P : Option α} {frame : α → Frame ε μ ν π} {g : α → Option (List (Code ε ν))}
    (hopen : openChild E s.current el = P.map frame) (hitem : item E (.elem el kids) = P.bind g)
    (hk : item E (.elem el kids) = none → AllCareful (.elem el kids))
    (hrun : ∀ a, P = some a → (g a = none → AllCareful (.elem el kids)) →
      run E (eventsAll kids ++ .finish :: rest) (at' s (frame a :: .box m items :: fs)) =
        (g a).bind (fun cs => run E rest (at' s (.box m (items ++ cs) :: fs)))) :
    run E (events (.elem el kids) ++ rest) (at' s (.box m items :: fs)) =
      (item E (.elem el kids)).bind (fun cs => run E rest (at' s (.box m (items ++ cs) :: fs))) := by
  rw [events_elem, run_start_box hm, hopen, hitem]
  cases hP : P with
  | none => rfl
  | some a =>
    refine hrun a hP (fun hg => hk ?_)
    rw [hitem, hP]; exact hg

theorem leaf_item {E : Ext ε μ ν π} {α : Type} {el : El} {kids : List Src} {s : St ε μ ν π}
    {rest : List Event} {m : Maker ε μ ν π} {items : List (Code ε ν)} {fs : List (Frame ε μ ν π)}
    (hm : Settled E m) {P : Option α} {code : α → Code ε ν}
    (hopen : openChild E s.current el = P.map (fun a => .leaf (code a)))
    (hitem : item E (.elem el kids) = P.bind (fun a => if nothing kids then some [code a] else none))
    (hk : item E (.elem el kids) = none → AllCareful (.elem el kids)) :
    run E (events (.elem el kids) ++ rest) (at' s (.box m items :: fs)) =
      (item E (.elem el kids)).bind (fun cs => run E rest (at' s (.box m (items ++ cs) :: fs))) := by
  refine elem_item hm hopen hitem hk (fun a _ _ => ?_)
  rw [leaf_run]
  by_cases hn : nothing kids = true
  · rw [if_pos hn, if_pos hn]; rfl
  · rw [if_neg hn, if_neg hn]; rfl

theorem body_item {E : Ext ε μ ν π} {α : Type} {el : El} {kids : List Src} {s : St ε μ ν π}
    {rest : List Event} {m : Maker ε μ ν π} {items : List (Code ε ν)} {fs : List (Frame ε μ ν π)}
    (hm : Settled E m) {P : Option α} {mk : α → Maker ε μ ν π} {code : α → List (Code ε ν) → Code ε ν}
    (hopen : openChild E s.current el = P.map (fun a => .box (mk a) []))
    (hitem : item E (.elem el kids) = P.bind (fun a => (content E kids).bind (fun b => some [code a b])))
    (hk : item E (.elem el kids) = none → AllCareful (.elem el kids))
    (h : ContentRun E kids) (hc : Calm E s.current) (hp : AllPlain (.elem el kids))
    (ht : tag el ≠ some .text) (hset : ∀ a, Settled E (mk a))
    (hend : ∀ a b, endBox (at' s (.box (mk a) b :: .box m items :: fs)) (.box m items :: fs) b (mk a) =
      some (at' s (.box m (items ++ [code a b]) :: fs))) :
    run E (events (.elem el kids) ++ rest) (at' s (.box m items :: fs)) =
      (item E (.elem el kids)).bind (fun cs => run E rest (at' s (.box m (items ++ cs) :: fs))) := by
  refine elem_item hm hopen hitem hk (fun a _ hg => ?_)
  rw [body_run h s rest (mk a) _ (hset a) hc (allPlain_kids hp ht)]
  · cases content E kids with
    | none => rfl
    | some b => simp only [Option.bind_some]; rw [hend]; rfl
  · intro hn
    exact allCareful_kids (hg (by rw [hn]; rfl))

theorem start_same {E : Ext ε μ ν π} {el : El} (h : tag el ≠ some .sort) (s : St ε μ ν π) (e : ε)
    (ss : List (SortBy ε)) (items : List (Code ε ν)) (fs : List (Frame ε μ ν π)) :
    step E (at' s (.box (.forEach e ss false) items :: fs)) (.start el) =
      step E (at' s (.box (.forEach e ss true) items :: fs)) (.start el) := by
  show (startInBox E s.current el (.forEach e ss false)).map _ =
    (startInBox E s.current el (.forEach e ss true)).map _
  have h' : ¬ (el.uri = SC.xslt ∧ el.loc = SC.eSort) := fun hh => h ((cond_sort el).mp hh)
  have e1 : startInBox E s.current el (.forEach e ss false) =
      (openChild E s.current el).map (fun f => (.forEach e ss true, f)) := if_neg h'
  have e2 : startInBox E s.current el (.forEach e ss true) =
      (openChild E s.current el).map (fun f => (.forEach e ss true, f)) := if_neg h'
  rw [e1, e2]
  cases openChild E s.current el <;> rfl

/-- Without sorts it is as if they were over. -/
theorem noSort_run {E : Ext ε μ ν π} (ks : List Src)
    (h : ∀ el kids, Src.elem el kids ∈ ks → tag el ≠ some .sort) (s : St ε μ ν π) (rest : List Event)
    (e : ε) (ss : List (SortBy ε)) (items : List (Code ε ν)) (fs : List (Frame ε μ ν π)) :
    run E (eventsAll ks ++ .finish :: rest) (at' s (.box (.forEach e ss false) items :: fs)) =
      run E (eventsAll ks ++ .finish :: rest) (at' s (.box (.forEach e ss true) items :: fs)) := by
  induction ks generalizing items with
  | nil => rfl
  | cons k ks ih =>
    have ih' := ih (fun el kids hh => h el kids (List.mem_cons_of_mem _ hh))
    cases k with
    | text ps =>
      rw [eventsAll, events, List.append_assoc]
      clear h ih
      induction ps generalizing items with
      | nil => exact ih' items
      | cons p ps ihp =>
        rw [List.map_cons, List.cons_append, run_cons, run_cons]
        show ((if blank p then _ else _ : Option (Frame ε μ ν π)).map _).bind _ =
          ((if blank p then _ else _ : Option (Frame ε μ ν π)).map _).bind _
        by_cases hb : blank p = true
        · rw [if_pos hb, if_pos hb]
          exact ihp items
        · rw [if_neg hb, if_neg hb]
          exact ihp _
    | elem el kids =>
      rw [eventsAll, List.append_assoc, events_elem, run_cons, run_cons,
        start_same (h el kids List.mem_cons_self)]

theorem content_sort {E : Ext ε μ ν π} {ks : List Src} {el : El} {kids : List Src}
    (hm : Src.elem el kids ∈ ks) (ht : tag el = some .sort) : content E ks = none := by
  induction ks with
  | nil => cases hm
  | cons k ks ih =>
    rw [content]
    cases hm with
    | head =>
      have : item E (.elem el kids) = none := by
        rw [item, if_pos (tag_uri ht), ht]
      rw [this]; rfl
    | tail _ hm =>
      rw [ih hm]
      cases item E k <;> rfl

/-- The children of `xsl:for-each` and its end. -/
theorem sorted_run {E : Ext ε μ ν π} (ks : List Src) (IH : ∀ k ∈ ks, ItemRun E k)
    (s : St ε μ ν π) (rest : List Event)
    (e : ε) (ss : List (SortBy ε)) (m : Maker ε μ ν π) (items : List (Code ε ν))
    (fs : List (Frame ε μ ν π)) (hc : Calm E s.current) (hp : ∀ k ∈ ks, PlainIn k)
    (hk : sorted E ks = none → (∀ k ∈ ks, AllCareful k) ∧
      (∀ pre el k post ps, ks = pre ++ Src.elem el k :: post →
        tag el = some .sort → Src.text ps ∈ pre → white ps.flatten)) :
    run E (eventsAll ks ++ .finish :: rest)
        (at' s (.box (.forEach e ss false) [] :: .box m items :: fs)) =
      (sorted E ks).bind (fun r =>
        run E rest (at' s (.box m (items ++ [.forEach e (ss ++ r.1) r.2]) :: fs))) := by
  have hdone : ∀ (ks : List Src) (ss : List (SortBy ε)), (∀ k ∈ ks, ItemRun E k) → (∀ k ∈ ks, PlainIn k) →
      (content E ks = none → ∀ k ∈ ks, AllCareful k) →
      run E (eventsAll ks ++ .finish :: rest)
          (at' s (.box (.forEach e ss true) [] :: .box m items :: fs)) =
        (content E ks).bind (fun b =>
          run E rest (at' s (.box m (items ++ [.forEach e ss b]) :: fs))) := by
    intro ks ss hi hp hk
    rw [body_run (content_of_items hi) s rest _ _ (settled_forEach E e ss) hc hp hk]
    rfl
  induction ks generalizing ss with
  | nil => rw [sorted]; simp only [Option.bind_some, List.append_nil]; rfl
  | cons k ks ih =>
    have ih' := fun ss => ih (fun x hx => IH x (List.mem_cons_of_mem _ hx)) ss
      (fun x hx => hp x (List.mem_cons_of_mem _ hx))
    cases k with
    | text ps =>
      have hw' := hp _ List.mem_cons_self
      by_cases hw : white ps.flatten
      · have es : sorted E (.text ps :: ks) = sorted E ks := by rw [sorted, if_pos hw]
        rw [es] at hk ⊢
        rw [eventsAll, events, List.append_assoc]
        have hskip : ∀ (ps : List Str), (∀ p ∈ ps, white p) → ∀ (es : List Event),
            run E (ps.map Event.chars ++ es) (at' s (.box (.forEach e ss false) [] :: .box m items :: fs)) =
            run E es (at' s (.box (.forEach e ss false) [] :: .box m items :: fs)) := by
          intro ps hps es
          induction ps with
          | nil => rfl
          | cons p ps ihp =>
            rw [List.map_cons, List.cons_append, run_cons]
            show ((if blank p then _ else _ : Option (Frame ε μ ν π)).map _).bind _ = _
            rw [if_pos ((blank_iff p).mpr (hps p List.mem_cons_self))]
            exact ihp (fun q hq => hps q (List.mem_cons_of_mem _ hq))
        rw [hskip ps ((white_flatten ps).mp hw)]
        refine ih' ss (fun hn => ?_)
        obtain ⟨h1, h2⟩ := hk hn
        refine ⟨fun x hx => h1 x (List.mem_cons_of_mem _ hx), fun pre el k post qs hks ht hq => ?_⟩
        exact h2 (.text ps :: pre) el k post qs (by rw [hks]; rfl) ht (List.mem_cons_of_mem _ hq)
      · have es : sorted E (.text ps :: ks) =
            (content E (.text ps :: ks)).bind (fun b => some ([], b)) := by
          rw [sorted, if_neg hw, content, item_text]
          unfold textItems
          rw [if_neg hw]
          cases content E ks <;> rfl
        rw [es] at hk ⊢
        have hk1 : content E (.text ps :: ks) = none → ∀ x ∈ Src.text ps :: ks, AllCareful x :=
          fun hn => (hk (by rw [hn]; rfl)).1
        have hno : ∀ el kids, Src.elem el kids ∈ Src.text ps :: ks → tag el ≠ some .sort := by
          intro el kids hm ht
          have hn : content E (.text ps :: ks) = none := content_sort hm ht
          have h2 := (hk (by rw [hn]; rfl)).2
          cases hm with
          | tail _ hm =>
            obtain ⟨pre, post, hks⟩ := List.append_of_mem hm
            exact hw (h2 (.text ps :: pre) el kids post ps (by rw [hks]; rfl) ht List.mem_cons_self)
        rw [noSort_run _ hno, hdone _ ss IH hp hk1]
        cases content E (.text ps :: ks) with
        | none => rfl
        | some b => simp
    | elem el kids =>
      by_cases h1 : tag el = some .sort
      · have es : sorted E (.elem el kids :: ks) = (sortOf E el kids).bind (fun so =>
            (sorted E ks).bind (fun r => some (so :: r.1, r.2))) := by
          rw [sorted, if_pos h1]; rfl
        rw [es] at hk ⊢
        rw [eventsAll, List.append_assoc, events_elem, run_cons]
        have estep : step E (at' s (.box (.forEach e ss false) [] :: .box m items :: fs)) (.start el) =
            (openSort E s.current el).map (fun f =>
              at' s (f :: .box (.forEach e ss false) [] :: .box m items :: fs)) := by
          show (startInBox E s.current el (.forEach e ss false)).map _ = _
          have : startInBox E s.current el (.forEach e ss false) =
            (openSort E s.current el).map (fun f => (.forEach e ss false, f)) := by
            show (if _ then _ else _) = _
            rw [if_pos ((cond_sort el).mpr h1)]; rfl
          rw [this]
          cases openSort E s.current el <;> rfl
        have e2 : ∀ (o : Option (Frame ε μ ν π)) (F : Frame ε μ ν π → St ε μ ν π) (G : St ε μ ν π → Option (St ε μ ν π)),
            (o.map F).bind G = o.bind (fun f => G (F f)) := by
          intro o F G; cases o <;> rfl
        rw [estep, e2, sort_run s _ _ hc (plainIn_elem (hp _ List.mem_cons_self)) h1]
        cases hso : sortOf E el kids with
        | none => rfl
        | some so =>
          rw [hso] at hk
          show run E _ (at' s (.box (.forEach e (ss ++ [so]) false) [] :: .box m items :: fs)) = _
          rw [ih' (ss ++ [so])]
          · simp only [Option.bind_some]
            cases sorted E ks with
            | none => rfl
            | some r => simp
          · intro hn
            obtain ⟨h2, h3⟩ := hk (by rw [hn]; rfl)
            refine ⟨fun x hx => h2 x (List.mem_cons_of_mem _ hx), fun pre el' k post qs hks ht hq => ?_⟩
            exact h3 (.elem el kids :: pre) el' k post qs (by rw [hks]; rfl) ht (List.mem_cons_of_mem _ hq)
      · have es : sorted E (.elem el kids :: ks) =
            (content E (.elem el kids :: ks)).bind (fun b => some ([], b)) := by
          rw [sorted, if_neg h1, content]
          cases item E (.elem el kids) with
          | none => rfl
          | some a => cases content E ks <;> rfl
        rw [es] at hk ⊢
        have hk1 : content E (.elem el kids :: ks) = none → ∀ x ∈ Src.elem el kids :: ks, AllCareful x :=
          fun hn => (hk (by rw [hn]; rfl)).1
        have hsame : run E (eventsAll (.elem el kids :: ks) ++ .finish :: rest)
              (at' s (.box (.forEach e ss false) [] :: .box m items :: fs)) =
            run E (eventsAll (.elem el kids :: ks) ++ .finish :: rest)
              (at' s (.box (.forEach e ss true) [] :: .box m items :: fs)) := by
          rw [eventsAll, List.append_assoc, events_elem, run_cons, run_cons, start_same h1]
        rw [hsame, hdone _ ss IH hp hk1]
        cases content E (.elem el kids :: ks) with
        | none => rfl
        | some b => simp

macro "flat" : tactic => `(tactic| simp only [bind, Option.map_eq_bind, Option.bind_assoc, Option.bind_some,
  Function.comp_def, pure])

theorem select?_empty {E : Ext ε μ ν π} {el : El} (h : attr el .select = some []) :
    select? E el = none := by unfold select?; rw [h]
theorem name?_empty {E : Ext ε μ ν π} {el : El} {n : Att} (h : attr el n = some []) :
    name? E el n = none := by unfold name?; rw [h]

theorem item_tag {E : Ext ε μ ν π} {el : El} {kids : List Src} (hu : el.uri = xsltNs) :
    item E (.elem el kids) = match tag el with
      | some .applyImports => (do
        only el []
        if nothing kids then some [.applyImports] else none)
      | some .applyTemplates => (do
        only el [.select, .mode]
        let e ← select? E el
        let m ← name? E el .mode
        let sp ← arguments E true kids
        some [.applyTemplates e m sp.1 sp.2])
      | some .attribute => (do
        only el [.name, .namespace]
        let n ← E.avt true el.scope (← Verif.Spec.XsltCompile.need el .name)
        let ns ← nsOf E el
        some [.attribute n ns (← content E kids)])
      | some .callTemplate => (do
        only el [.name]
        let n ← E.name el.scope (← Verif.Spec.XsltCompile.need el .name)
        let sp ← arguments E false kids
        some [.callTemplate n sp.2])
      | some .choose => (do
        only el []
        let wo ← branches E kids
        if wo.1 = [] then none else some [.choose wo.1 wo.2])
      | some .comment => (do
        only el []
        some [.comment (← content E kids)])
      | some .copy => (do
        only el [.useAttributeSets]
        some [.copy (← content E kids)])
      | some .copyOf => (do
        only el [.select]
        let e ← E.expr true true el.scope (← Verif.Spec.XsltCompile.need el .select)
        if nothing kids then some [.copyOf e] else none)
      | some .element => (do
        only el [.name, .namespace, .useAttributeSets]
        let n ← E.avt true el.scope (← Verif.Spec.XsltCompile.need el .name)
        let ns ← nsOf E el
        some [.element n ns (← content E kids)])
      | some .fallback => (do
        only el []
        let _ ← content E kids
        some [])
      | some .forEach => (do
        only el [.select]
        let e ← E.expr true true el.scope (← Verif.Spec.XsltCompile.need el .select)
        let sb ← sorted E kids
        some [.forEach e sb.1 sb.2])
      | some .ifThen => (do
        only el [.test]
        let e ← E.expr true true el.scope (← Verif.Spec.XsltCompile.need el .test)
        some [.ifThen e (← content E kids)])
      | some .message => (do
        only el [.terminate]
        let b ← Verif.Spec.XsltCompile.yesNo el .terminate
        some [.message b (← content E kids)])
      | some .procInst => (do
        only el [.name]
        let n ← E.avt true el.scope (← Verif.Spec.XsltCompile.need el .name)
        some [.procInst n (← content E kids)])
      | some .text => (do
        only el [.disableOutputEscaping]
        let b ← Verif.Spec.XsltCompile.yesNo el .disableOutputEscaping
        let s ← characters kids
        some [.text s b])
      | some .valueOf => (do
        only el [.select, .disableOutputEscaping]
        let e ← E.expr true true el.scope (← Verif.Spec.XsltCompile.need el .select)
        let b ← Verif.Spec.XsltCompile.yesNo el .disableOutputEscaping
        if nothing kids then some [.valueOf e b] else none)
      | some .variable => (binding E el).bind (fun ne => (valueOr E ne.2 kids).bind (fun b =>
          some [.variable ne.1 ne.2 b]))
      | _ => none := by
  rw [item, if_pos hu]
  cases tag el with
  | none => rfl
  | some t =>
    cases t <;> try rfl
    show (binding E el).bind _ = _
    congr 1
    funext ne
    unfold valueOr
    cases hn : ne.2 with
    | none => rfl
    | some e => cases nothing kids <;> rfl

section
variable {E : Ext ε μ ν π} {el : El} {kids : List Src} {s : St ε μ ν π}
    {rest : List Event} {m : Maker ε μ ν π} {items : List (Code ε ν)} {fs : List (Frame ε μ ν π)}
    (hm : Settled E m) (hc : Calm E s.current) (hp : AllPlain (.elem el kids))
    (hk : item E (.elem el kids) = none → AllCareful (.elem el kids))
    (IH : ∀ k ∈ kids, ItemRun E k)

/-- Every element of a template. -/
def Goal (E : Ext ε μ ν π) (el : El) (kids : List Src) (s : St ε μ ν π)
    (rest : List Event) (m : Maker ε μ ν π) (items : List (Code ε ν)) (fs : List (Frame ε μ ν π)) : Prop :=
  run E (events (.elem el kids) ++ rest) (at' s (.box m items :: fs)) =
    (item E (.elem el kids)).bind (fun cs => run E rest (at' s (.box m (items ++ cs) :: fs)))

include hm hc hp hk

theorem refused_item {t : Tag} (h : tag el = some t) (hl : allowedChildren.lookup t.str = none)
    (hi : item E (.elem el kids) = none) : Goal E el kids s rest m items fs := by
  unfold Goal
  rw [events_elem, run_start_box hm, child_none h hl, hi]; rfl

theorem applyImports_item (h : tag el = some .applyImports) : Goal E el kids s rest m items fs := by
  have hu := tag_uri h
  refine leaf_item hm (P := only el []) (code := fun _ => .applyImports) ?_ ?_ hk
  · rw [child_some h (k := .applyImports) (by decide +kernel)]
    show openApplyImports el = _
    rw [openApplyImports_eq ((allPlain_self hp).bare hu (by simp [h]))]
    flat
  · rw [item_tag hu, h]; flat

theorem valueOf_item (h : tag el = some .valueOf) : Goal E el kids s rest m items fs := by
  have hu := tag_uri h
  refine leaf_item hm (P := do
      only el [.select, .disableOutputEscaping]
      let e ← E.expr true true el.scope (← Verif.Spec.XsltCompile.need el .select)
      let b ← Verif.Spec.XsltCompile.yesNo el .disableOutputEscaping
      some (e, b)) (code := fun a => .valueOf a.1 a.2) ?_ ?_ hk
  · rw [child_some h (k := .valueOf) (by decide +kernel)]
    show openValueOf E s.current el = _
    rw [openValueOf_eq ((allPlain_self hp).regular hu) hc]
    flat
  · rw [item_tag hu, h]; flat

theorem copyOf_item (h : tag el = some .copyOf) : Goal E el kids s rest m items fs := by
  have hu := tag_uri h
  refine leaf_item hm (P := do
      only el [.select]
      E.expr true true el.scope (← Verif.Spec.XsltCompile.need el .select)) (code := fun a => .copyOf a) ?_ ?_ hk
  · rw [child_some h (k := .copyOf) (by decide +kernel)]
    show openCopyOf E s.current el = _
    rw [openCopyOf_eq ((allPlain_self hp).regular hu) hc]
    flat
  · rw [item_tag hu, h]; flat

theorem text_item (h : tag el = some .text) : Goal E el kids s rest m items fs := by
  have hu := tag_uri h
  refine elem_item hm (P := do
      only el [.disableOutputEscaping]
      Verif.Spec.XsltCompile.yesNo el .disableOutputEscaping) (frame := fun b => .text b [])
      (g := fun b => (characters kids).bind (fun t => some [.text t b])) ?_ ?_ hk ?_
  · rw [child_some h (k := .text) (by decide +kernel)]
    show openText el = _
    rw [openText_eq ((allPlain_self hp).regular hu)]
    flat
  · rw [item_tag hu, h]; flat
  · intro b _ _
    rw [characters_run]
    cases characters kids with
    | none => rfl
    | some t => rfl

include IH

theorem ifThen_item (h : tag el = some .ifThen) : Goal E el kids s rest m items fs := by
  have hu := tag_uri h
  refine body_item hm (P := do
      only el [.test]
      E.expr true true el.scope (← Verif.Spec.XsltCompile.need el .test))
      (mk := .ifThen) (code := .ifThen) ?_ ?_ hk (content_of_items IH) hc hp (by rw [h]; decide)
      (settled_plain E).1 (fun _ _ => rfl)
  · rw [child_some h (k := .ifThen) (by decide +kernel)]
    show openIf E s.current el = _
    rw [openIf_eq ((allPlain_self hp).regular hu) hc]
    flat
  · rw [item_tag hu, h]; flat

theorem message_item (h : tag el = some .message) : Goal E el kids s rest m items fs := by
  have hu := tag_uri h
  refine body_item hm (P := do
      only el [.terminate]
      Verif.Spec.XsltCompile.yesNo el .terminate)
      (mk := .message) (code := .message) ?_ ?_ hk (content_of_items IH) hc hp (by rw [h]; decide)
      (settled_plain E).2.1 (fun _ _ => rfl)
  · rw [child_some h (k := .message) (by decide +kernel)]
    show openMessage el = _
    rw [openMessage_eq ((allPlain_self hp).regular hu)]
    flat
  · rw [item_tag hu, h]; flat

theorem comment_item (h : tag el = some .comment) : Goal E el kids s rest m items fs := by
  have hu := tag_uri h
  refine body_item hm (P := only el [])
      (mk := fun _ => .comment) (code := fun _ b => .comment b) ?_ ?_ hk (content_of_items IH) hc hp
      (by rw [h]; decide) (fun _ => (settled_plain E).2.2.1) (fun _ _ => rfl)
  · rw [child_some h (k := .comment) (by decide +kernel)]
    show openComment el = _
    rw [openComment_eq ((allPlain_self hp).bare hu (by simp [h]))]
    flat
  · rw [item_tag hu, h]; flat

theorem procInst_item (h : tag el = some .procInst) : Goal E el kids s rest m items fs := by
  have hu := tag_uri h
  refine body_item hm (P := do
      only el [.name]
      E.avt true el.scope (← Verif.Spec.XsltCompile.need el .name))
      (mk := .procInst) (code := .procInst) ?_ ?_ hk (content_of_items IH) hc hp (by rw [h]; decide)
      (settled_plain E).2.2.2.1 (fun _ _ => rfl)
  · rw [child_some h (k := .procInst) (by decide +kernel)]
    show openProcInst E s.current el = _
    rw [openProcInst_eq ((allPlain_self hp).regular hu) hc]
    flat
  · rw [item_tag hu, h]; flat

theorem copy_item (h : tag el = some .copy) : Goal E el kids s rest m items fs := by
  have hu := tag_uri h
  refine body_item hm (P := only el [.useAttributeSets])
      (mk := fun _ => .copy) (code := fun _ b => .copy b) ?_ ?_ hk (content_of_items IH) hc hp
      (by rw [h]; decide) (fun _ => (settled_plain E).2.2.2.2.1) (fun _ _ => rfl)
  · rw [child_some h (k := .copy) (by decide +kernel)]
    show openCopy el = _
    rw [openCopy_eq ((allPlain_self hp).regular hu)]
    flat
  · rw [item_tag hu, h]; flat

theorem element_item (h : tag el = some .element) : Goal E el kids s rest m items fs := by
  have hu := tag_uri h
  refine body_item hm (P := do
      only el [.name, .namespace, .useAttributeSets]
      let n ← E.avt true el.scope (← Verif.Spec.XsltCompile.need el .name)
      let ns ← nsOf E el
      some (n, ns))
      (mk := fun a => .element a.1 a.2) (code := fun a b => .element a.1 a.2 b) ?_ ?_ hk (content_of_items IH)
      hc hp (by rw [h]; decide) (fun a => (settled_plain E).2.2.2.2.2.1 a.1 a.2) (fun _ _ => rfl)
  · rw [child_some h (k := .element) (by decide +kernel)]
    show openElement E s.current el = _
    rw [openElement_eq ((allPlain_self hp).regular hu) hc ((allPlain_self hp).ns hu) ((allPlain_self hp).sets hu)]
    flat
  · rw [item_tag hu, h]; flat

theorem attribute_item (h : tag el = some .attribute) : Goal E el kids s rest m items fs := by
  have hu := tag_uri h
  refine body_item hm (P := do
      only el [.name, .namespace]
      let n ← E.avt true el.scope (← Verif.Spec.XsltCompile.need el .name)
      let ns ← nsOf E el
      some (n, ns))
      (mk := fun a => .attribute a.1 a.2) (code := fun a b => .attribute a.1 a.2 b) ?_ ?_ hk (content_of_items IH)
      hc hp (by rw [h]; decide) (fun a => (settled_plain E).2.2.2.2.2.2.1 a.1 a.2) (fun _ _ => rfl)
  · rw [child_some h (k := .attribute) (by decide +kernel)]
    show openAttribute E s.current el = _
    rw [openAttribute_eq ((allPlain_self hp).regular hu) hc ((allPlain_self hp).ns hu)]
    flat
  · rw [item_tag hu, h]; flat

theorem literal_item (hu : el.uri ≠ xsltNs) : Goal E el kids s rest m items fs := by
  have ht : tag el ≠ some .text := fun h => hu (tag_uri h)
  refine body_item hm (P := literalAtts E el.scope el.atts)
      (mk := fun a => .literal el.qn el.uri a) (code := fun a b => .literal el.qn el.uri a b) ?_ ?_ hk (content_of_items IH)
      hc hp ht (fun a => (settled_plain E).2.2.2.2.2.2.2.1 _ _ a) (fun _ _ => rfl)
  · unfold openChild
    rw [if_neg (show ¬ el.uri = SC.xslt from hu),
      openLiteral_eq hc ((allPlain_self hp).literal hu)]
  · rw [item, if_neg hu]; flat

theorem variable_item (h : tag el = some .variable) : Goal E el kids s rest m items fs := by
  have hu := tag_uri h
  have hi := item_tag (E := E) (kids := kids) hu
  rw [h] at hi
  unfold Goal
  rw [hi] at hk ⊢
  rw [events_elem, run_start_box hm, child_some h (k := .variable) (by decide +kernel)]
  show (openVariable E s.current .variable el).bind _ = _
  rw [binding_run (content_of_items IH) (isBinding_variable E) s rest _ hc hp (Or.inl h)]
  · show _ = ((binding E el).bind _).bind _
    cases hb : binding E el with
    | none => rfl
    | some ne =>
      simp only [Option.bind_some]
      cases valueOr E ne.2 kids with
      | none => rfl
      | some b => rfl
  · intro hn
    refine hk ?_
    show (binding E el).bind _ = none
    cases hb : binding E el with
    | none => rfl
    | some ne =>
      rw [hb] at hn
      simp only [Option.bind_some] at hn ⊢
      rw [hn]; rfl

theorem applyTemplates_item (IH2 : ∀ e k, Src.elem e k ∈ kids → ContentRun E k)
    (h : tag el = some .applyTemplates) : Goal E el kids s rest m items fs := by
  have hu := tag_uri h
  have hi : item E (.elem el kids) = (do
      only el [.select, .mode]
      let e ← select? E el
      let m ← name? E el .mode
      some (e, m) : Option (Option ε × Option ν)).bind (fun a => (arguments E true kids).bind (fun sp =>
        some [.applyTemplates a.1 a.2 sp.1 sp.2])) := by
    rw [item_tag hu, h]; flat
  have hs : attr el .select ≠ some [] := by
    intro ha
    refine (allCareful_self (hk ?_)).empty hu .select (by simp) ha
    rw [hi, select?_empty ha]
    cases only el [.select, .mode] <;> rfl
  have hmo : attr el .mode ≠ some [] := by
    intro ha
    refine (allCareful_self (hk ?_)).empty hu .mode (by simp) ha
    rw [hi, name?_empty ha]
    cases only el [.select, .mode] with
    | none => rfl
    | some u => cases select? E el <;> rfl
  refine elem_item hm (frame := fun a => .applyTemplates a.1 a.2 [] []) ?_ hi hk ?_
  · rw [child_some h (k := .applyTemplates) (by decide +kernel)]
    show openApplyTemplates E s.current el = _
    rw [openApplyTemplates_eq ((allPlain_self hp).regular hu) hc hs hmo]
    flat
  · intro a _ hg
    rw [args_run kids IH2 s _ _ _ _ _ _ hc
      (allPlain_kids hp (by rw [h]; decide))]
    · cases arguments E true kids with
      | none => rfl
      | some r => rfl
    · intro hn
      exact allCareful_kids (hg (by rw [hn]; rfl))

theorem callTemplate_item (IH2 : ∀ e k, Src.elem e k ∈ kids → ContentRun E k)
    (h : tag el = some .callTemplate) : Goal E el kids s rest m items fs := by
  have hu := tag_uri h
  refine elem_item hm (P := do
      only el [.name]
      E.name el.scope (← Verif.Spec.XsltCompile.need el .name)) (frame := fun a => .callTemplate a [])
      (g := fun a => (arguments E false kids).bind (fun sp => some [.callTemplate a sp.2])) ?_ ?_ hk ?_
  · rw [child_some h (k := .callTemplate) (by decide +kernel)]
    show openCallTemplate E el = _
    rw [openCallTemplate_eq ((allPlain_self hp).regular hu)]
    flat
  · rw [item_tag hu, h]; flat
  · intro a _ hg
    rw [call_run kids IH2 s _ _ _ _ hc (allPlain_kids hp (by rw [h]; decide))]
    · cases arguments E false kids with
      | none => rfl
      | some r => rfl
    · intro hn
      have := hg (by rw [hn]; rfl)
      exact ⟨allCareful_kids this, (allCareful_self this).call h⟩

theorem choose_item (IH2 : ∀ e k, Src.elem e k ∈ kids → ContentRun E k)
    (h : tag el = some .choose) : Goal E el kids s rest m items fs := by
  have hu := tag_uri h
  refine elem_item hm (P := only el []) (frame := fun _ => .choose [] none false false)
      (g := fun _ => (branches E kids).bind (fun wo =>
        if wo.1 = [] then none else some [.choose wo.1 wo.2])) ?_ ?_ hk ?_
  · rw [child_some h (k := .choose) (by decide +kernel)]
    show openChoose el = _
    rw [openChoose_eq ((allPlain_self hp).bare hu (by simp [h]))]
    flat
  · rw [item_tag hu, h]; flat
  · intro a _ hg
    rw [branches_run kids IH2 s _ _ _ _ hc (allPlain_kids hp (by rw [h]; decide))]
    · cases branches E kids with
      | none => rfl
      | some r =>
        obtain ⟨ws, o⟩ := r
        cases ws with
        | nil => rfl
        | cons w ws => rfl
    · intro hn
      exact allCareful_kids (hg (by rw [hn]; rfl))

theorem forEach_item (h : tag el = some .forEach) : Goal E el kids s rest m items fs := by
  have hu := tag_uri h
  refine elem_item hm (P := do
      only el [.select]
      E.expr true true el.scope (← Verif.Spec.XsltCompile.need el .select))
      (frame := fun e => .box (.forEach e [] false) [])
      (g := fun e => (sorted E kids).bind (fun sb => some [.forEach e sb.1 sb.2])) ?_ ?_ hk ?_
  · rw [child_some h (k := .forEach) (by decide +kernel)]
    show openForEach E s.current el = _
    rw [openForEach_eq ((allPlain_self hp).regular hu) hc]
    flat
  · rw [item_tag hu, h]; flat
  · intro a _ hg
    rw [sorted_run kids IH s _ _ _ _ _ _ hc (allPlain_kids hp (by rw [h]; decide))]
    · cases sorted E kids with
      | none => rfl
      | some r => rfl
    · intro hn
      have := hg (by rw [hn]; rfl)
      exact ⟨allCareful_kids this, (allCareful_self this).sorts h⟩

theorem elem_goal (IH2 : ∀ e k, Src.elem e k ∈ kids → ContentRun E k) :
    Goal E el kids s rest m items fs := by
  by_cases hu : el.uri = xsltNs
  · cases ht : tag el with
    | none =>
      unfold Goal
      rw [events_elem, run_start_box hm, child_unknown hu ht, item_tag hu, ht]; rfl
    | some t =>
      have hi := item_tag (E := E) (kids := kids) hu
      rw [ht] at hi
      cases t with
      | applyImports => exact applyImports_item hm hc hp hk ht
      | applyTemplates => exact applyTemplates_item hm hc hp hk IH IH2 ht
      | «attribute» => exact attribute_item hm hc hp hk IH ht
      | callTemplate => exact callTemplate_item hm hc hp hk IH IH2 ht
      | choose => exact choose_item hm hc hp hk IH IH2 ht
      | comment => exact comment_item hm hc hp hk IH ht
      | copy => exact copy_item hm hc hp hk IH ht
      | copyOf => exact copyOf_item hm hc hp hk ht
      | element => exact element_item hm hc hp hk IH ht
      | fallback => exact absurd ht (allPlain_self hp).supported.1
      | forEach => exact forEach_item hm hc hp hk IH ht
      | ifThen => exact ifThen_item hm hc hp hk IH ht
      | message => exact message_item hm hc hp hk IH ht
      | number => exact absurd ht (allPlain_self hp).supported.2
      | procInst => exact procInst_item hm hc hp hk IH ht
      | text => exact text_item hm hc hp hk ht
      | valueOf => exact valueOf_item hm hc hp hk ht
      | «variable» => exact variable_item hm hc hp hk IH ht
      | _ => exact refused_item hm hc hp hk ht (by decide +kernel) hi
  · exact literal_item hm hc hp hk IH hu

end

theorem items_all (E : Ext ε μ ν π) : ∀ (n : Nat) (k : Src), sizeOf k < n → ItemRun E k := by
  intro n
  induction n with
  | zero => intro k hk; omega
  | succ n ih =>
    intro k hk
    cases k with
    | text ps =>
      intro s rest m items fs hm hc hp _
      rw [events, text_run hm ps hp, item_text]; rfl
    | elem el kids =>
      intro s rest m items fs hm hc hp hca
      have hsz : ∀ x ∈ kids, sizeOf x < n := by
        intro x hx
        have h1 := List.sizeOf_lt_of_mem hx
        have h2 : sizeOf (Src.elem el kids) = 1 + sizeOf el + sizeOf kids := by simp
        omega
      refine elem_goal hm hc hp hca (fun x hx => ih x (hsz x hx)) (fun e k he => ?_)
      refine content_of_items (fun x hx => ih x ?_)
      have h1 := hsz _ he
      have h2 : sizeOf (Src.elem e k) = 1 + sizeOf e + sizeOf k := by simp
      have h3 := List.sizeOf_lt_of_mem hx
      omega

/-- The instructions of every child of a template. -/
theorem item_run (E : Ext ε μ ν π) (k : Src) : ItemRun E k := items_all E (sizeOf k + 1) k (by omega)

/-- The instructions of every template. -/
theorem content_run (E : Ext ε μ ν π) (ks : List Src) : ContentRun E ks :=
  content_of_items (fun k _ => item_run E k)

end
end Verif.Lemmas.XsltCompile
