import Verif.Lemmas.XsltCompile5
/- Templates and whole stylesheets. -/
set_option autoImplicit false
set_option linter.unusedSimpArgs false
set_option linter.unusedVariables false

namespace Verif.Lemmas.XsltCompile

open Verif.XsltCompile
open Verif.Spec.XsltCompile (Src events eventsAll xsltNs xmlNs Tag tag Att attr only white nothing
  Regular TextWhole Plain Careful AllPlain AllCareful nodes nodesAll select? name? avtOr sortOf nsOf literalAtts binding
  lang? priority? templateOf keyOf item content arguments branches sorted characters valueOr parametrised
  topLevel NamesDistinct stylesheet PatternFirst NoCurrent Covered PlainDocument CarefulDocument CurrentInTime)

section
variable {ε μ ν π : Type} [DecidableEq ν]

theorem start_same' {E : Ext ε μ ν π} {el : El} (h : tag el ≠ some .param) (s : St ε μ ν π)
    (p : Option μ) (n m : Option ν) (q : Option π) (items : List (Code ε ν)) (fs : List (Frame ε μ ν π)) :
    step E (at' s (.box (.template p n m q false) items :: fs)) (.start el) =
      step E (at' s (.box (.template p n m q true) items :: fs)) (.start el) := by
  show (startInBox E s.current el (.template p n m q false)).map _ =
    (startInBox E s.current el (.template p n m q true)).map _
  have h' : ¬ (el.uri = SC.xslt ∧ el.loc = SC.eParam) := fun hh => h ((cond_param el).mp hh)
  have e1 : startInBox E s.current el (.template p n m q false) =
      (openChild E s.current el).map (fun f => (.template p n m q true, f)) := if_neg h'
  have e2 : startInBox E s.current el (.template p n m q true) =
      (openChild E s.current el).map (fun f => (.template p n m q true, f)) := if_neg h'
  rw [e1, e2]
  cases openChild E s.current el <;> rfl

/-- The children of a template and its end. -/
theorem template_run {E : Ext ε μ ν π} (ks : List Src) (s : St ε μ ν π) (rest : List Event)
    (p : Option μ) (n m : Option ν) (q : Option π) (acc : List (Code ε ν))
    (hc : Calm E s.current) (hp : ∀ k ∈ ks, PlainIn k)
    (hk : parametrised E ks = none → ∀ k ∈ ks, AllCareful k) :
    run E (eventsAll ks ++ .finish :: rest) (at' s [.box (.template p n m q false) acc]) =
      (parametrised E ks).bind (fun r =>
        (addTemplate ⟨p, n, m, q, acc ++ r⟩ (at' s [])).bind (run E rest)) := by
  have hdone : ∀ (ks : List Src) (acc : List (Code ε ν)), (∀ k ∈ ks, PlainIn k) →
      (content E ks = none → ∀ k ∈ ks, AllCareful k) →
      run E (eventsAll ks ++ .finish :: rest) (at' s [.box (.template p n m q true) acc]) =
        (content E ks).bind (fun b =>
          (addTemplate ⟨p, n, m, q, acc ++ b⟩ (at' s [])).bind (run E rest)) := by
    intro ks acc hp hk
    rw [content_run E ks s _ _ _ _ (settled_template E p n m q) hc hp hk]
    rfl
  induction ks generalizing acc with
  | nil => rw [parametrised]; simp only [Option.bind_some, List.append_nil]; rfl
  | cons k ks ih =>
    have ih' := fun acc => ih acc (fun x hx => hp x (List.mem_cons_of_mem _ hx))
    cases k with
    | text ps =>
      by_cases hw : white ps.flatten
      · have es : parametrised E (.text ps :: ks) = parametrised E ks := by rw [parametrised, if_pos hw]
        rw [es] at hk ⊢
        rw [eventsAll, events, List.append_assoc]
        have hskip : ∀ (ps : List Str), (∀ p ∈ ps, white p) → ∀ (es : List Event),
            run E (ps.map Event.chars ++ es) (at' s [.box (.template p n m q false) acc]) =
            run E es (at' s [.box (.template p n m q false) acc]) := by
          intro ps hps es
          induction ps with
          | nil => rfl
          | cons t ps ihp =>
            rw [List.map_cons, List.cons_append, run_cons]
            show ((if blank t then _ else _ : Option (Frame ε μ ν π)).map _).bind _ = _
            rw [if_pos ((blank_iff t).mpr (hps t List.mem_cons_self))]
            exact ihp (fun q hq => hps q (List.mem_cons_of_mem _ hq))
        rw [hskip ps ((white_flatten ps).mp hw)]
        exact ih' acc (fun hn x hx => hk hn x (List.mem_cons_of_mem _ hx))
      · have es : parametrised E (.text ps :: ks) = content E (.text ps :: ks) := by
          rw [parametrised, if_neg hw]
        rw [es] at hk ⊢
        have hsame : run E (eventsAll (.text ps :: ks) ++ .finish :: rest)
              (at' s [.box (.template p n m q false) acc]) =
            run E (eventsAll (.text ps :: ks) ++ .finish :: rest)
              (at' s [.box (.template p n m q true) acc]) := by
          rw [eventsAll, events]
          have hwp : TextWhole ps := hp _ List.mem_cons_self
          cases ps with
          | nil => exact absurd white_nil hw
          | cons t ps =>
            rcases hwp with h | h
            · exact absurd h hw
            · have hb : ¬ blank t = true := fun hb => h t List.mem_cons_self ((blank_iff t).mp hb)
              simp only [List.map_cons, List.cons_append]
              rw [run_cons, run_cons]
              show ((if blank t then _ else _ : Option (Frame ε μ ν π)).map _).bind _ =
                ((if blank t then _ else _ : Option (Frame ε μ ν π)).map _).bind _
              rw [if_neg hb, if_neg hb]; rfl
        rw [hsame, hdone _ acc hp hk]
    | elem el kids =>
      by_cases h1 : tag el = some .param
      · have es : parametrised E (.elem el kids :: ks) = (binding E el).bind (fun ne =>
            (valueOr E ne.2 kids).bind (fun b =>
            (parametrised E ks).bind (fun r => some (.param ne.1 ne.2 b :: r)))) := by
          rw [parametrised, if_pos h1]; rfl
        rw [es] at hk ⊢
        rw [eventsAll, List.append_assoc, events_elem, run_cons]
        have estep : step E (at' s [.box (.template p n m q false) acc]) (.start el) =
            (openVariable E s.current .param el).map (fun f =>
              at' s [f, .box (.template p n m q false) acc]) := by
          show (startInBox E s.current el (.template p n m q false)).map _ = _
          have : startInBox E s.current el (.template p n m q false) =
            (openVariable E s.current .param el).map (fun f => (.template p n m q false, f)) := by
            show (if _ then _ else _) = _
            rw [if_pos ((cond_param el).mpr h1)]; rfl
          rw [this]
          cases openVariable E s.current .param el <;> rfl
        have e2 : ∀ (o : Option (Frame ε μ ν π)) (F : Frame ε μ ν π → St ε μ ν π) (G : St ε μ ν π → Option (St ε μ ν π)),
            (o.map F).bind G = o.bind (fun f => G (F f)) := by
          intro o F G; cases o <;> rfl
        rw [estep, e2, binding_run (content_run E kids) (isBinding_param E) s _ _ hc
          (plainIn_elem (hp _ List.mem_cons_self)) (Or.inr (Or.inl h1))]
        · cases hb : binding E el with
          | none => rfl
          | some ne =>
            rw [hb] at hk
            simp only [Option.bind_some] at hk ⊢
            cases hv : valueOr E ne.2 kids with
            | none => rfl
            | some b =>
              rw [hv] at hk
              show run E _ (at' s [.box (.template p n m q false) (acc ++ [.param ne.1 ne.2 b])]) = _
              rw [ih']
              · simp only [Option.bind_some]
                cases parametrised E ks with
                | none => rfl
                | some r => simp
              · intro hn x hx
                exact hk (by rw [hn]; rfl) x (List.mem_cons_of_mem _ hx)
        · intro hn
          refine hk ?_ _ List.mem_cons_self
          cases hb : binding E el with
          | none => rfl
          | some ne =>
            rw [hb] at hn
            simp only [Option.bind_some] at hn ⊢
            rw [hn]; rfl
      · have es : parametrised E (.elem el kids :: ks) = content E (.elem el kids :: ks) := by
          rw [parametrised, if_neg h1]
        rw [es] at hk ⊢
        have hsame : run E (eventsAll (.elem el kids :: ks) ++ .finish :: rest)
              (at' s [.box (.template p n m q false) acc]) =
            run E (eventsAll (.elem el kids :: ks) ++ .finish :: rest)
              (at' s [.box (.template p n m q true) acc]) := by
          rw [eventsAll, List.append_assoc, events_elem, run_cons, run_cons, start_same' h1]
        rw [hsame, hdone _ acc hp hk]

/-! Foreign elements. -/

theorem foreign_all (E : Ext ε μ ν π) : ∀ (n : Nat) (k : Src), sizeOf k < n →
    ∀ (s : St ε μ ν π) (rest : List Event) (d : Nat),
      run E (events k ++ rest) (at' s [.foreign (d + 1)]) = run E rest (at' s [.foreign (d + 1)]) := by
  intro n
  induction n with
  | zero => intro k hk; omega
  | succ n ih =>
    intro k hk s rest d
    cases k with
    | text ps =>
      rw [events]
      clear hk
      induction ps with
      | nil => rfl
      | cons p ps ihp => exact ihp
    | elem el kids =>
      rw [events_elem]
      show run E (eventsAll kids ++ .finish :: rest) (at' s [.foreign (d + 1 + 1)]) = _
      have hsz : ∀ x ∈ kids, sizeOf x < n := by
        intro x hx
        have h1 := List.sizeOf_lt_of_mem hx
        have h2 : sizeOf (Src.elem el kids) = 1 + sizeOf el + sizeOf kids := by simp
        omega
      have hl : ∀ (ks : List Src), (∀ x ∈ ks, sizeOf x < n) → ∀ es : List Event,
          run E (eventsAll ks ++ es) (at' s [.foreign (d + 1 + 1)]) = run E es (at' s [.foreign (d + 1 + 1)]) := by
        intro ks hks es
        induction ks with
        | nil => rfl
        | cons x ks ihk =>
          rw [eventsAll, List.append_assoc, ih x (hks x List.mem_cons_self),
            ihk (fun y hy => hks y (List.mem_cons_of_mem _ hy))]
      rw [hl kids hsz]
      rfl

theorem foreign_run (E : Ext ε μ ν π) (kids : List Src) (s : St ε μ ν π) (rest : List Event) :
    run E (eventsAll kids ++ .finish :: rest) (at' s [.foreign 1]) = run E rest (at' s []) := by
  have hl : ∀ es : List Event,
      run E (eventsAll kids ++ es) (at' s [.foreign 1]) = run E es (at' s [.foreign 1]) := by
    intro es
    induction kids with
    | nil => rfl
    | cons x ks ihk =>
      rw [eventsAll, List.append_assoc, foreign_all E _ x (Nat.lt_succ_self _) s _ 0, ihk]
  rw [hl]
  rfl

/-! Top-level elements. -/

/-- After these children `current()` is allowed. -/
def marks : Src → Bool
  | .text _ => false
  | .elem el _ => decide (tag el = some .key) || (decide (tag el = some .template) && (attr el .match).isSome)

def curAfter (b : Bool) (ks : List Src) : Bool := b || ks.any marks

/-- A state with more in it. -/
def plus (s : St ε μ ν π) (r : Sheet ε μ ν π) (b : Bool) : St ε μ ν π :=
  { s with templates := s.templates ++ r.templates, globals := s.globals ++ r.globals,
           keys := s.keys ++ r.keys, current := b, frames := [], top := false }

def names (ts : List (Template ε μ ν π)) : List ν := ts.filterMap (·.name)

theorem addTemplate_eq (t : Template ε μ ν π) (s : St ε μ ν π) (h : (names s.templates).Nodup) :
    addTemplate t s = if (names (s.templates ++ [t])).Nodup
      then some { s with templates := s.templates ++ [t] } else none := by
  unfold addTemplate
  cases hn : t.name with
  | none =>
    have : names (s.templates ++ [t]) = names s.templates := by
      unfold names; rw [List.filterMap_append]; simp [hn]
    rw [this, if_pos h]
  | some n =>
    have e : names (s.templates ++ [t]) = names s.templates ++ [n] := by
      unfold names; rw [List.filterMap_append]; simp [hn]
    show (if _ then _ else _) = _
    have hany : (s.templates.any (fun u => u.name = some n)) = true ↔ n ∈ names s.templates := by
      unfold names
      simp only [List.any_eq_true, List.mem_filterMap, decide_eq_true_eq]
    by_cases hm : n ∈ names s.templates
    · rw [if_pos (hany.mpr hm), if_neg]
      rw [e, List.nodup_append]
      intro hh
      exact hh.2.2 n hm n (by simp) rfl
    · rw [if_neg (fun hh => hm (hany.mp hh)), if_pos]
      rw [e, List.nodup_append]
      refine ⟨h, by simp, ?_⟩
      intro a ha b hb hab
      simp only [List.mem_singleton] at hb
      rw [hab, hb] at ha
      exact hm ha

theorem head_match {E : Ext ε μ ν π} {el : El} {h : Option μ × Option ν × Option ν × Option π}
    (hh : templateHead E el = some h) : h.1.isSome = (attr el .match).isSome := by
  unfold templateHead at hh
  cases ho : only el [.match, .mode, .name, .priority] with
  | none => rw [ho] at hh; cases hh
  | some u =>
    rw [ho] at hh
    cases hn : name? E el .name with
    | none => rw [hn] at hh; cases hh
    | some n =>
      rw [hn] at hh
      cases hm : name? E el .mode with
      | none => rw [hm] at hh; cases hh
      | some m =>
        rw [hm] at hh
        simp only [bind, Option.bind_some] at hh
        by_cases hp : attr el .priority = some []
        · rw [if_pos hp] at hh; cases hh
        · rw [if_neg hp] at hh
          cases ha : attr el .match with
          | none =>
            rw [ha] at hh
            simp only at hh
            split at hh
            · cases hh
            · cases hh; rfl
          | some v =>
            cases v with
            | nil => rw [ha] at hh; cases hh
            | cons c cs =>
              rw [ha] at hh
              simp only at hh
              cases h1 : E.pattern true el.scope (c :: cs) with
              | none => rw [h1] at hh; cases hh
              | some p =>
                rw [h1] at hh
                simp only [Option.bind_some] at hh
                cases h2 : priority? E el with
                | none => rw [h2] at hh; cases hh
                | some q => rw [h2] at hh; cases hh; rfl

theorem head_empty {E : Ext ε μ ν π} {el : El} {n : Att} (hn : n = .name ∨ n = .mode ∨ n = .match)
    (h : attr el n = some []) : templateHead E el = none := by
  unfold templateHead
  cases only el [.match, .mode, .name, .priority] with
  | none => rfl
  | some u =>
    rcases hn with hn | hn | hn
    · subst hn; rw [name?_empty h]; rfl
    · subst hn; rw [name?_empty h]
      cases name? E el .name <;> rfl
    · subst hn
      cases name? E el .name with
      | none => rfl
      | some x =>
        cases name? E el .mode with
        | none => rfl
        | some y =>
          simp only [bind, Option.bind_some]
          rw [h]
          split <;> rfl

/-- A template, from its start to its end. -/
theorem template_elem {E : Ext ε μ ν π} {el : El} {kids : List Src} (s : St ε μ ν π) (rest : List Event)
    (ht : tag el = some .template) (hf : s.frames = []) (htop : s.top = false)
    (hc : Calm E (curAfter s.current [.elem el kids])) (hp : AllPlain (.elem el kids))
    (hk : templateOf E el kids = none → AllCareful (.elem el kids)) :
    run E (events (.elem el kids) ++ rest) s =
      (templateOf E el kids).bind (fun t =>
        (addTemplate t { s with current := curAfter s.current [.elem el kids] }).bind (run E rest)) := by
  have hu := tag_uri ht
  have hloc : el.loc = SC.eTemplate := (tag_some.mp ht).2
  have ne : ∀ n, n = Att.name ∨ n = .mode ∨ n = .match → attr el n ≠ some [] := by
    intro n hn ha
    refine (allCareful_self (hk ?_)).empty hu n (by rcases hn with h | h | h <;> simp [h]) ha
    rw [templateOf_eq, head_empty hn ha]; rfl
  rw [templateOf_eq] at hk ⊢
  rw [events_elem, run_cons]
  have estep : step E s (.start el) = (openTemplate E el).map (fun f =>
      { s with frames := [f]
               current := match f with
                 | .box (.template (some _) _ _ _ _) _ => true
                 | _ => s.current }) := by
    show start E el s = _
    unfold start
    rw [hf]
    show startRoot E el s = _
    unfold startRoot
    rw [if_neg (by rw [htop]; decide), if_pos (show el.uri = SC.xslt from hu)]
    unfold startTopLevel
    rw [if_pos hloc]; rfl
  rw [estep, openTemplate_eq ((allPlain_self hp).regular hu) (ne .name (by simp)) (ne .mode (by simp))
    (ne .match (by simp))]
  cases hh : templateHead E el with
  | none => rfl
  | some h =>
    rw [hh] at hk
    obtain ⟨p, n, m, q⟩ := h
    have hm : p.isSome = (attr el .match).isSome := head_match hh
    have hcur : curAfter s.current [.elem el kids] = (s.current || p.isSome) := by
      unfold curAfter
      simp only [List.any_cons, List.any_nil, Bool.or_false, marks, ht, hm]
      simp
    have hst : (fun f : Frame ε μ ν π => ({ s with frames := [f]
                                                   current := match f with
                                                     | .box (.template (some _) _ _ _ _) _ => true
                                                     | _ => s.current } : St ε μ ν π))
          (.box (.template p n m q false) []) =
        at' { s with current := curAfter s.current [.elem el kids] } [.box (.template p n m q false) []] := by
      rw [hcur]
      clear hm hh hk hcur
      cases p <;> simp [at']
    simp only [Option.map_some, Option.bind_some]
    refine (congrArg (run E (eventsAll kids ++ .finish :: rest)) hst).trans ?_
    rw [template_run kids _ rest p n m q [] hc (allPlain_kids hp (by rw [ht]; decide))]
    · cases parametrised E kids with
      | none => rfl
      | some b =>
        simp only [Option.bind_some, Option.map_some, List.nil_append]
        congr 2
        unfold at'
        rw [← hf]
    · intro hn
      exact allCareful_kids (hk (by rw [hn]; rfl))

/-- A key, from its start to its end. -/
theorem key_elem {E : Ext ε μ ν π} {el : El} {kids : List Src} (s : St ε μ ν π) (rest : List Event)
    (ht : tag el = some .key) (hf : s.frames = []) (htop : s.top = false)
    (hp : AllPlain (.elem el kids)) :
    run E (events (.elem el kids) ++ rest) s =
      (keyOf E el kids).bind (fun k =>
        run E rest { s with current := true, keys := s.keys ++ [k] }) := by
  have hu := tag_uri ht
  have hloc : el.loc = Tag.key.str := (tag_some.mp ht).2
  rw [events_elem, run_cons]
  have estep : step E s (.start el) = (openKey E el).map (fun f => { s with frames := [f], current := true }) := by
    show start E el s = _
    unfold start
    rw [hf]
    show startRoot E el s = _
    unfold startRoot
    rw [if_neg (by rw [htop]; decide), if_pos (show el.uri = SC.xslt from hu)]
    unfold startTopLevel
    rw [hloc, if_neg (by decide +kernel), if_neg (by decide +kernel), if_neg (by decide +kernel),
      if_pos (by decide +kernel)]
  have ekey : keyOf E el kids = (do
      only el [.name, .match, .use]
      let n ← E.name el.scope (← Verif.Spec.XsltCompile.need el .name)
      let p ← E.pattern false el.scope (← Verif.Spec.XsltCompile.need el .match)
      let u ← E.expr true false el.scope (← Verif.Spec.XsltCompile.need el .use)
      some (n, ⟨p, u⟩) : Option (ν × Key ε μ)).bind (fun k => if nothing kids then some k else none) := by
    unfold keyOf; flat
  have eopen : openKey E el = ((do
      only el [.name, .match, .use]
      let n ← E.name el.scope (← Verif.Spec.XsltCompile.need el .name)
      let p ← E.pattern false el.scope (← Verif.Spec.XsltCompile.need el .match)
      let u ← E.expr true false el.scope (← Verif.Spec.XsltCompile.need el .use)
      some (n, ⟨p, u⟩) : Option (ν × Key ε μ))).map (fun k => Frame.key k.1 k.2) := by
    rw [openKey_eq ((allPlain_self hp).regular hu)]; flat
  rw [estep, eopen, ekey]
  generalize (do
      only el [.name, .match, .use]
      let n ← E.name el.scope (← Verif.Spec.XsltCompile.need el .name)
      let p ← E.pattern false el.scope (← Verif.Spec.XsltCompile.need el .match)
      let u ← E.expr true false el.scope (← Verif.Spec.XsltCompile.need el .use)
      some (n, ⟨p, u⟩) : Option (ν × Key ε μ)) = P
  cases P with
  | none => rfl
  | some k =>
    show run E _ (at' { s with current := true } [.key k.1 k.2]) = _
    rw [closed_run (closed_key E k.1 k.2)]
    simp only [Option.bind_some]
    by_cases hn : nothing kids = true
    · rw [if_pos hn, if_pos hn]
      show run E rest _ = run E rest _
      congr 1
      show ({ s with current := true, frames := [], keys := s.keys ++ [(k.1, k.2)] } : St ε μ ν π) = _
      rw [← hf]
    · rw [if_neg hn, if_neg hn]; rfl

/-- A global variable or parameter. -/
theorem global_elem {E : Ext ε μ ν π} {el : El} {kids : List Src} (s : St ε μ ν π) (rest : List Event)
    (b : Bool) (ht : tag el = some (if b then .param else .variable)) (hf : s.frames = []) (htop : s.top = false)
    (hc : Calm E s.current) (hp : AllPlain (.elem el kids))
    (hk : (binding E el).bind (fun ne => valueOr E ne.2 kids) = none → AllCareful (.elem el kids)) :
    run E (events (.elem el kids) ++ rest) s =
      (binding E el).bind (fun ne => (valueOr E ne.2 kids).bind (fun v =>
        run E rest { s with globals := s.globals ++ [if b then .param ne.1 ne.2 v else .variable ne.1 ne.2 v] })) := by
  have hu := tag_uri ht
  have hloc : el.loc = (if b then Tag.param else Tag.variable).str := (tag_some.mp ht).2
  rw [events_elem, run_cons]
  have estep : step E s (.start el) = (openVariable E s.current (.global b) el).map (fun f => at' s [f]) := by
    show start E el s = _
    unfold start
    rw [hf]
    show startRoot E el s = _
    unfold startRoot
    rw [if_neg (by rw [htop]; decide), if_pos (show el.uri = SC.xslt from hu)]
    unfold startTopLevel
    rw [hloc]
    cases b
    · rw [if_neg (by decide +kernel), if_neg (by decide +kernel), if_pos (by decide +kernel)]; rfl
    · rw [if_neg (by decide +kernel), if_pos (by decide +kernel)]; rfl
  have e2 : ∀ (o : Option (Frame ε μ ν π)) (F : Frame ε μ ν π → St ε μ ν π) (G : St ε μ ν π → Option (St ε μ ν π)),
      (o.map F).bind G = o.bind (fun f => G (F f)) := by
    intro o F G; cases o <;> rfl
  rw [estep, e2, binding_run (content_run E kids) (isBinding_global E b) s rest [] hc hp
    (by cases b; exact Or.inl ht; exact Or.inr (Or.inl ht)) hk]
  cases binding E el with
  | none => rfl
  | some ne =>
    simp only [Option.bind_some]
    cases valueOr E ne.2 kids with
    | none => rfl
    | some v =>
      show run E rest _ = run E rest _
      congr 1
      show ({ s with frames := [], globals := _ } : St ε μ ν π) = _
      rw [← hf]; rfl

theorem calm_true (E : Ext ε μ ν π) : Calm E true := ⟨rfl, rfl⟩

theorem calm_after {E : Ext ε μ ν π} {b : Bool} (ks : List Src) (h : Calm E b) : Calm E (curAfter b ks) := by
  unfold curAfter
  cases ks.any marks
  · rw [Bool.or_false]; exact h
  · rw [Bool.or_true]; exact calm_true E

theorem curAfter_cons (b : Bool) (k : Src) (ks : List Src) :
    curAfter (curAfter b [k]) ks = curAfter b (k :: ks) := by
  unfold curAfter
  simp [Bool.or_assoc]

theorem nodup_prefix {α : Type} {a b : List α} (h : ¬ a.Nodup) : ¬ (a ++ b).Nodup := by
  intro hh; exact h (List.nodup_append.mp hh).1

theorem names_append (a b : List (Template ε μ ν π)) : names (a ++ b) = names a ++ names b := by
  unfold names; exact List.filterMap_append

theorem root_unknown {E : Ext ε μ ν π} {el : El} (s : St ε μ ν π) (hf : s.frames = []) (htop : s.top = false)
    (hu : el.uri = xsltNs)
    (h : tag el ≠ some .template ∧ tag el ≠ some .key ∧ tag el ≠ some .variable ∧ tag el ≠ some .param) :
    step E s (.start el) = none := by
  show start E el s = _
  unfold start
  rw [hf]
  show startRoot E el s = _
  unfold startRoot
  rw [if_neg (by rw [htop]; decide), if_pos (show el.uri = SC.xslt from hu)]
  unfold startTopLevel
  rw [if_neg (show ¬ el.loc = SC.eTemplate from fun hl => h.1 (tag_some.mpr ⟨hu, hl⟩)),
    if_neg (show ¬ el.loc = SC.eParam from fun hl => h.2.2.2 (tag_some.mpr ⟨hu, hl⟩)),
    if_neg (show ¬ el.loc = SC.eVariable from fun hl => h.2.2.1 (tag_some.mpr ⟨hu, hl⟩)),
    if_neg (show ¬ el.loc = SC.eKey from fun hl => h.2.1 (tag_some.mpr ⟨hu, hl⟩))]

/-- The children of `xsl:stylesheet`. -/
theorem topLevel_run {E : Ext ε μ ν π} (ks : List Src) (rest : List Event) :
    ∀ (s : St ε μ ν π), s.frames = [] → s.top = false → (names s.templates).Nodup →
    (Calm E s.current ∨ PatternFirst ks) →
    (∀ e k, Src.elem e k ∈ ks → e.uri = xsltNs → AllPlain (.elem e k)) →
    (topLevel E ks = none → ∀ e k, Src.elem e k ∈ ks → e.uri = xsltNs → AllCareful (.elem e k)) →
    run E (eventsAll ks ++ rest) s = (topLevel E ks).bind (fun r =>
      if (names (s.templates ++ r.templates)).Nodup then run E rest (plus s r (curAfter s.current ks))
      else none) := by
  induction ks with
  | nil =>
    intro s hf htop hnd _ _ _
    rw [topLevel, Option.bind_some]
    simp only [List.append_nil]
    rw [if_pos hnd]
    show run E rest s = run E rest _
    congr 1
    cases s with
    | mk f t c ts gs kys =>
      simp only at hf htop
      subst hf; subst htop
      simp [plus, curAfter]
  | cons k ks ih =>
    intro s hf htop hnd hcur hp hk
    have hp' := fun e x (hx : Src.elem e x ∈ ks) => hp e x (List.mem_cons_of_mem _ hx)
    cases k with
    | text ps =>
      have hb : ∀ t, step E s (.chars t) = if blank t then some s else none := by
        intro t
        show chars t s = _
        unfold chars
        rw [hf]
      have hca : curAfter s.current (.text ps :: ks) = curAfter s.current ks := by
        unfold curAfter; simp [marks]
      rw [eventsAll, events, List.append_assoc, blanks_run hb, topLevel, hca]
      by_cases hw : white ps.flatten
      · rw [if_pos hw, if_pos hw]
        refine ih s hf htop hnd hcur hp' ?_
        intro hn e x hx
        exact hk (by rw [topLevel, if_pos hw]; exact hn) e x (List.mem_cons_of_mem _ hx)
      · rw [if_neg hw, if_neg hw]; rfl
    | elem el kids =>
      rw [eventsAll, List.append_assoc]
      by_cases hu : el.uri = xsltNs
      · have hpk := hp el kids List.mem_cons_self hu
        by_cases h1 : tag el = some .template
        · have et : topLevel E (.elem el kids :: ks) = (templateOf E el kids).bind (fun t =>
              (topLevel E ks).bind (fun r => some { r with templates := t :: r.templates })) := by
            rw [topLevel, if_pos hu, h1]; rfl
          have hc1 : Calm E (curAfter s.current [.elem el kids]) := by
            rcases hcur with hc | hc
            · exact calm_after _ hc
            · rw [PatternFirst, if_pos hu] at hc
              rcases hc with hc | hc
              · rw [h1] at hc; cases hc
              · unfold curAfter
                have : marks (.elem el kids) = true := by
                  unfold marks
                  cases ha : attr el .match with
                  | none => exact absurd ha hc.2
                  | some v => simp [h1, ha]
                simp only [List.any_cons, this, Bool.true_or, Bool.or_true]
                exact calm_true E
          rw [et] at hk ⊢
          rw [template_elem s _ h1 hf htop hc1 hpk]
          · cases hto : templateOf E el kids with
            | none => rfl
            | some t =>
              rw [hto] at hk
              simp only [Option.bind_some] at hk ⊢
              rw [addTemplate_eq t { s with current := curAfter s.current [.elem el kids] } hnd]
              by_cases hd : (names (s.templates ++ [t])).Nodup
              · rw [if_pos hd, Option.bind_some,
                  ih { s with current := curAfter s.current [.elem el kids]
                              templates := s.templates ++ [t] } hf htop hd (Or.inl hc1) hp']
                · rw [curAfter_cons]
                  cases topLevel E ks with
                  | none => rfl
                  | some r =>
                    simp only [Option.bind_some, List.append_assoc, List.cons_append, List.nil_append]
                    unfold plus
                    simp only [List.append_assoc, List.cons_append, List.nil_append]
                · intro hn e x hx
                  exact hk (by rw [hn]; rfl) e x (List.mem_cons_of_mem _ hx)
              · rw [if_neg hd]
                cases topLevel E ks with
                | none => rfl
                | some r =>
                  simp only [Option.bind_some]
                  rw [if_neg]
                  · rfl
                  · have : s.templates ++ t :: r.templates = (s.templates ++ [t]) ++ r.templates := by simp
                    rw [this, names_append]
                    exact nodup_prefix hd
          · intro hn
            exact hk (by rw [hn]; rfl) el kids List.mem_cons_self hu
        · by_cases h2 : tag el = some .key
          · have et : topLevel E (.elem el kids :: ks) = (keyOf E el kids).bind (fun t =>
                (topLevel E ks).bind (fun r => some { r with keys := t :: r.keys })) := by
              rw [topLevel, if_pos hu, h2]; rfl
            have hm : curAfter s.current [.elem el kids] = true := by
              unfold curAfter; simp [marks, h2]
            rw [et] at hk ⊢
            rw [key_elem s _ h2 hf htop hpk]
            cases hto : keyOf E el kids with
            | none => rfl
            | some t =>
              rw [hto] at hk
              simp only [Option.bind_some] at hk ⊢
              rw [ih { s with current := true, keys := s.keys ++ [t] } hf htop hnd (Or.inl (calm_true E)) hp']
              · rw [← hm, curAfter_cons]
                cases topLevel E ks with
                | none => rfl
                | some r =>
                  simp only [Option.bind_some]
                  unfold plus
                  simp only [List.append_assoc, List.cons_append, List.nil_append]
              · intro hn e x hx
                exact hk (by rw [hn]; rfl) e x (List.mem_cons_of_mem _ hx)
          · have hglob : ∀ b : Bool, tag el = some (if b then .param else .variable) →
                topLevel E (.elem el kids :: ks) = (binding E el).bind (fun ne =>
                  (valueOr E ne.2 kids).bind (fun v => (topLevel E ks).bind (fun r =>
                  some { r with globals := (if b then .param ne.1 ne.2 v else .variable ne.1 ne.2 v) :: r.globals }))) →
                run E (events (.elem el kids) ++ (eventsAll ks ++ rest)) s =
                  (topLevel E (.elem el kids :: ks)).bind (fun r =>
                    if (names (s.templates ++ r.templates)).Nodup
                    then run E rest (plus s r (curAfter s.current (.elem el kids :: ks))) else none) := by
              intro b hb et
              have hc : Calm E s.current := by
                rcases hcur with hc | hc
                · exact hc
                · rw [PatternFirst, if_pos hu, hb] at hc
                  cases b <;> simp at hc
              have hm : curAfter s.current (.elem el kids :: ks) = curAfter s.current ks := by
                unfold curAfter
                cases b <;> simp [marks, hb]
              rw [et] at hk ⊢
              rw [global_elem s _ b hb hf htop hc hpk, hm]
              · cases hbi : binding E el with
                | none => rfl
                | some ne =>
                  rw [hbi] at hk
                  simp only [Option.bind_some] at hk ⊢
                  cases hv : valueOr E ne.2 kids with
                  | none => rfl
                  | some v =>
                    rw [hv] at hk
                    simp only [Option.bind_some] at hk ⊢
                    rw [ih { s with globals := s.globals ++ [if b then .param ne.1 ne.2 v else .variable ne.1 ne.2 v] }
                      hf htop hnd (Or.inl hc) hp']
                    · cases topLevel E ks with
                      | none => rfl
                      | some r =>
                        simp only [Option.bind_some]
                        unfold plus
                        simp only [List.append_assoc, List.cons_append, List.nil_append]
                    · intro hn e x hx
                      exact hk (by rw [hn]; rfl) e x (List.mem_cons_of_mem _ hx)
              · intro hn
                refine hk ?_ el kids List.mem_cons_self hu
                cases hbi : binding E el with
                | none => rfl
                | some ne =>
                  rw [hbi] at hn
                  simp only [Option.bind_some] at hn ⊢
                  rw [hn]; rfl
            by_cases h3 : tag el = some .variable
            · exact hglob false h3 (by rw [topLevel, if_pos hu, h3]; rfl)
            · by_cases h4 : tag el = some .param
              · exact hglob true h4 (by rw [topLevel, if_pos hu, h4]; rfl)
              · have et : topLevel E (.elem el kids :: ks) = none := by
                  rw [topLevel, if_pos hu]
                  split
                  · rename_i h; exact absurd h h1
                  · rename_i h; exact absurd h h2
                  · rename_i h; exact absurd h h3
                  · rename_i h; exact absurd h h4
                  · rfl
                rw [et, events_elem, run_cons, root_unknown s hf htop hu ⟨h1, h2, h3, h4⟩]; rfl
      · have hca : curAfter s.current (.elem el kids :: ks) = curAfter s.current ks := by
          have : ∀ t, tag el ≠ some t := fun t ht => hu (tag_uri ht)
          unfold curAfter; simp [marks, this]
        have estep : step E s (.start el) = if el.uri ≠ [] then some (at' s [.foreign 1]) else none := by
          show start E el s = _
          unfold start
          rw [hf]
          show startRoot E el s = _
          unfold startRoot
          rw [if_neg (by rw [htop]; decide), if_neg (show ¬ el.uri = SC.xslt from hu)]
          rfl
        rw [events_elem, run_cons, estep, topLevel, if_neg hu, hca]
        by_cases he : el.uri = []
        · rw [if_neg (by simp [he]), if_pos he]; rfl
        · rw [if_pos he, if_neg he, Option.bind_some, foreign_run]
          have : at' s [] = s := by unfold at'; rw [← hf]
          rw [this]
          refine ih s hf htop hnd ?_ hp' ?_
          · rcases hcur with h | h
            · exact Or.inl h
            · rw [PatternFirst, if_neg hu] at h; exact Or.inr h
          · intro hn e x hx
            exact hk (by rw [topLevel, if_neg hu, if_neg he]; exact hn) e x (List.mem_cons_of_mem _ hx)

/-! Documents. -/

theorem version_gather {el : El} (hr : Regular el) (hv : attr el .version = some "1.0".toList)
    (hx : attr el .extensionElementPrefixes = none ∨ attr el .extensionElementPrefixes = some [])
    (s : St ε μ ν π) (h : el.loc = SC.eStylesheet ∨ el.loc = SC.eTransform) :
    startStylesheet el s =
      (only el [.version, .extensionElementPrefixes, .excludeResultPrefixes, .id]).bind
        (fun _ => some { s with top := false }) := by
  unfold startStylesheet
  rw [if_pos h]
  have e : [need SC.aVersion, may SC.aExtensionElementPrefixes, may SC.aExcludeResultPrefixes, may SC.aId]
      = [rNeed .version, rMay .extensionElementPrefixes, rMay .excludeResultPrefixes, rMay .id].map ARule.rule := rfl
  rw [e]
  show (gather _ _).bind _ = _
  rw [gather_bind hr _ (by decide)]
  have hn : Verif.Spec.XsltCompile.need el .version = some "1.0".toList := need_some hv (by decide)
  have hch : checks el [rNeed .version, rMay .extensionElementPrefixes, rMay .excludeResultPrefixes, rMay .id]
      = some () := by
    simp only [checks, check_need, check_may, hn, Option.map_some, Option.bind_some]
  rw [hch]
  show (only el [.version, .extensionElementPrefixes, .excludeResultPrefixes, .id]).bind _ = _
  congr 1
  funext _
  show (if get _ Att.version.str ≠ SC.version then none else
    if get _ Att.extensionElementPrefixes.str ≠ [] then none else _) = _
  rw [get_gathered hr, get_gathered hr, hv]
  rw [if_neg (by show ¬ (_ ≠ _); intro h; exact h rfl), if_neg]
  intro h
  apply h
  rcases hx with hx | hx <;> rw [hx] <;> decide +kernel

theorem lre_find {el : El}
    (hv : ∀ a ∈ el.atts, a.uri = xsltNs → a.loc = Att.version.str → a.value = "1.0".toList) :
    lreVersion el.atts = SC.version ↔ ∃ a ∈ el.atts, a.uri = xsltNs ∧ a.loc = Att.version.str := by
  unfold lreVersion
  cases hf : el.atts.find? (fun a => a.uri = SC.xslt && a.loc = SC.aVersion) with
  | none =>
    rw [List.find?_eq_none] at hf
    constructor
    · intro h; exact absurd h (by decide +kernel)
    · rintro ⟨a, ha, h1, h2⟩
      exact absurd (show (decide (a.uri = SC.xslt) && decide (a.loc = SC.aVersion)) = true by
        rw [Bool.and_eq_true, decide_eq_true_eq, decide_eq_true_eq]; exact ⟨h1, h2⟩) (hf a ha)
  | some a =>
    have hm := List.mem_of_find?_eq_some hf
    have hp := List.find?_some hf
    simp only [Bool.and_eq_true, decide_eq_true_eq] at hp
    exact ⟨fun _ => ⟨a, hm, hp⟩, fun _ => hv a hm hp.1 hp.2⟩

/-- Every document. -/
theorem compile_eq {E : Ext ε μ ν π} (doc : Src) (hp : PlainDocument doc) (hcur : CurrentInTime E doc)
    (hk : stylesheet E doc = none → CarefulDocument doc) :
    compile E (events doc) = stylesheet E doc := by
  cases hp with
  | stylesheet el kids hu hr hv hx hch =>
    have hk' : topLevel E kids = none →
        (tag el = some .stylesheet ∨ tag el = some .transform) →
        ∀ e k, Src.elem e k ∈ kids → e.uri = xsltNs → AllCareful (.elem e k) := by
      intro hn ht
      have : CarefulDocument (.elem el kids) := by
        refine hk ?_
        rw [stylesheet, if_pos hu, if_pos ht, hn]
        cases only el [.version, .extensionElementPrefixes, .excludeResultPrefixes, .id] with
        | none => rfl
        | some u => cases Verif.Spec.XsltCompile.need el .version <;> rfl
      cases this with
      | stylesheet _ _ _ h => exact h
      | literal _ _ h _ => exact absurd hu h
    have hcond : (tag el = some .stylesheet ∨ tag el = some .transform) ↔
        (el.loc = SC.eStylesheet ∨ el.loc = SC.eTransform) := by
      rw [tag_some, tag_some]
      exact ⟨fun h => h.imp (·.2) (·.2), fun h => h.imp (⟨hu, ·⟩) (⟨hu, ·⟩)⟩
    have ev : events (.elem el kids) = .start el :: (eventsAll kids ++ [.finish]) := by rw [events]
    unfold compile
    rw [ev, run_cons, stylesheet, if_pos hu]
    have estep : step E (fresh : St ε μ ν π) (.start el) = startStylesheet el fresh := by
      show startRoot E el fresh = _
      unfold startRoot
      rw [if_pos (show (fresh : St ε μ ν π).top = true from rfl), if_pos (show el.uri = SC.xslt from hu)]
    rw [estep]
    by_cases ht : tag el = some .stylesheet ∨ tag el = some .transform
    · rw [if_pos ht, version_gather hr hv hx _ (hcond.mp ht),
        need_some hv (by decide)]
      cases only el [.version, .extensionElementPrefixes, .excludeResultPrefixes, .id] with
      | none => rfl
      | some u =>
        show (run E (eventsAll kids ++ [.finish]) { (fresh : St ε μ ν π) with top := false }).map _ =
          (topLevel E kids).bind _
        rw [topLevel_run kids [.finish] { (fresh : St ε μ ν π) with top := false } rfl rfl
          (show ([] : List ν).Nodup from List.nodup_nil) ?_ (fun e k h1 h2 => (hch e k h1 h2).1)
          (fun hn => hk' hn ht)]
        · cases topLevel E kids with
          | none => rfl
          | some r =>
            simp only [Option.bind_some]
            by_cases hd : (names r.templates).Nodup
            · rw [if_pos (show NamesDistinct r from hd), if_pos (by exact hd)]; rfl
            · rw [if_neg (show ¬ NamesDistinct r from hd), if_neg (by exact hd)]; rfl
        · rcases hcur hu with h | h
          · exact Or.inl ⟨h.1, h.2⟩
          · exact Or.inr h
    · rw [if_neg ht]
      unfold startStylesheet
      rw [if_neg (fun h => ht (hcond.mpr h))]; rfl
  | literal el kids hu hpl hv =>
    have hkc : stylesheet E (.elem el kids) = none → AllCareful (.elem el kids) := by
      intro hn
      cases hk hn with
      | stylesheet _ _ h _ => exact absurd h hu
      | literal _ _ _ h => exact h
    have ev : events (.elem el kids) = .start el :: (eventsAll kids ++ [.finish]) := by rw [events]
    have estep : step E (fresh : St ε μ ν π) (.start el) = startLRE E el fresh := by
      show startRoot E el fresh = _
      unfold startRoot
      rw [if_pos (show (fresh : St ε μ ν π).top = true from rfl), if_neg (show ¬ el.uri = SC.xslt from hu)]
    rw [stylesheet, if_neg hu] at hkc ⊢
    unfold compile
    rw [ev, run_cons, estep]
    unfold startLRE
    by_cases hver : ∃ a ∈ el.atts, a.uri = xsltNs ∧ a.loc = Att.version.str
    · rw [if_pos hver] at hkc ⊢
      rw [if_neg (fun h => h ((lre_find hv).mpr hver)),
        inlineAtts_eq (calm_true E) el.atts ((allPlain_self hpl).literal hu)]
      cases hpa : E.pattern true el.scope SC.slash with
      | none =>
        have : E.pattern true el.scope "/".toList = none := hpa
        rw [this]; rfl
      | some p =>
        have hpa' : E.pattern true el.scope "/".toList = some p := hpa
        rw [hpa'] at hkc ⊢
        cases hla : literalAtts E el.scope el.atts with
        | none => rfl
        | some as =>
          rw [hla] at hkc
          show (run E (eventsAll kids ++ [.finish])
            (at' { (fresh : St ε μ ν π) with top := false, current := true } [.box (.whole p el.qn el.uri as) []])).map _ = _
          rw [body_run (content_run E kids) _ [] _ [] ((settled_plain E).2.2.2.2.2.2.2.2.2.2 p el.qn el.uri as)
            (calm_true E) (allPlain_kids hpl (fun h => hu (tag_uri h)))]
          · simp only [bind, Option.bind_some]
            cases content E kids with
            | none => rfl
            | some b => rfl
          · intro hn
            refine allCareful_kids (hkc ?_)
            simp only [bind, Option.bind_some]
            rw [hn]; rfl
    · rw [if_neg hver, if_pos (fun h => hver ((lre_find hv).mp h))]; rfl

end
end Verif.Lemmas.XsltCompile
