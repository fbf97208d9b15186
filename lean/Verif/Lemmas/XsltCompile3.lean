import Verif.Lemmas.XsltCompile2
/- The handlers at work on the children of an element. -/
set_option autoImplicit false
set_option linter.unusedSimpArgs false
set_option linter.unusedVariables false

namespace Verif.Lemmas.XsltCompile

open Verif.XsltCompile
open Verif.Spec.XsltCompile (Src events eventsAll xsltNs xmlNs Tag tag Att attr only white nothing
  Regular TextWhole Plain Careful AllPlain AllCareful nodes nodesAll select? name? avtOr sortOf nsOf literalAtts binding
  lang? priority? templateOf keyOf item content arguments branches sorted characters valueOr parametrised)

section
variable {ε μ ν π : Type}

/-- A state with these handlers. -/
def at' (s : St ε μ ν π) (fs : List (Frame ε μ ν π)) : St ε μ ν π := { s with frames := fs }

theorem at_frames (s : St ε μ ν π) (fs : List (Frame ε μ ν π)) : (at' s fs).frames = fs := rfl
theorem at_current (s : St ε μ ν π) (fs : List (Frame ε μ ν π)) : (at' s fs).current = s.current := rfl
theorem at_at (s : St ε μ ν π) (fs gs : List (Frame ε μ ν π)) : at' (at' s fs) gs = at' s gs := rfl

variable [DecidableEq ν]

theorem run_cons (E : Ext ε μ ν π) (e : Event) (es : List Event) (s : St ε μ ν π) :
    run E (e :: es) s = (step E s e).bind (run E es) := rfl

theorem white_flatten (ps : List Str) : white ps.flatten ↔ ∀ p ∈ ps, white p := by
  unfold white
  simp only [List.mem_flatten]
  constructor
  · intro h p hp c hc; exact h c ⟨p, hp, hc⟩
  · rintro h c ⟨p, hp, hc⟩; exact h p hp c hc

theorem white_nil : white [] := by intro c hc; cases hc

/-- A container that takes all children alike. -/
structure Settled (E : Ext ε μ ν π) (m : Maker ε μ ν π) : Prop where
  start : ∀ cur el, startInBox E cur el m = (openChild E cur el).map (fun f => (m, f))
  chars : ∀ (s : Str) (items : List (Code ε ν)), charsInBox s items m =
    some (.box m (if blank s then items else items ++ [.text s false]))

/-- The instructions of a text node. -/
def textItems (ps : List Str) : List (Code ε ν) :=
  if white ps.flatten then [] else ps.map (fun p => .text p false)

theorem item_text (E : Ext ε μ ν π) (ps : List Str) : item E (.text ps) = some (textItems ps) := by
  rw [item]; unfold textItems; split <;> rfl

theorem textItems_cons {p : Str} {ps : List Str} (h : TextWhole (p :: ps)) :
    TextWhole ps ∧ (textItems (p :: ps) : List (Code ε ν)) =
      (if blank p then [] else [.text p false]) ++ textItems ps := by
  rcases h with h | h
  · have h' := (white_flatten _).mp h
    have hp := h' p List.mem_cons_self
    have hps : white ps.flatten := (white_flatten _).mpr (fun q hq => h' q (List.mem_cons_of_mem _ hq))
    refine ⟨Or.inl hps, ?_⟩
    unfold textItems
    rw [if_pos h, if_pos hps, if_pos ((blank_iff p).mpr hp)]; rfl
  · have hp := h p List.mem_cons_self
    have hps : ∀ q ∈ ps, ¬ white q := fun q hq => h q (List.mem_cons_of_mem _ hq)
    refine ⟨Or.inr hps, ?_⟩
    unfold textItems
    rw [if_neg (fun hw => hp ((white_flatten _).mp hw p List.mem_cons_self)),
      if_neg (fun hb => hp ((blank_iff p).mp hb))]
    cases ps with
    | nil => rw [if_pos (show white ([] : List Str).flatten from white_nil)]; rfl
    | cons q qs =>
      rw [if_neg (fun hw => hps q List.mem_cons_self ((white_flatten _).mp hw q List.mem_cons_self))]
      rfl

/-- A text node in a container. -/
theorem text_run {E : Ext ε μ ν π} {m : Maker ε μ ν π} (hm : Settled E m) (ps : List Str)
    (h : TextWhole ps) (rest : List Event) (s : St ε μ ν π) (items : List (Code ε ν))
    (fs : List (Frame ε μ ν π)) :
    run E (ps.map Event.chars ++ rest) (at' s (.box m items :: fs)) =
      run E rest (at' s (.box m (items ++ textItems ps) :: fs)) := by
  induction ps generalizing items with
  | nil => unfold textItems; rw [if_pos (by exact white_nil), List.append_nil]; rfl
  | cons p ps ih =>
    obtain ⟨h1, h2⟩ := textItems_cons (ε := ε) (ν := ν) h
    rw [h2, List.map_cons, List.cons_append, run_cons]
    have e : step E (at' s (.box m items :: fs)) (.chars p) =
        some (at' s (.box m (if blank p then items else items ++ [.text p false]) :: fs)) := by
      show (charsInBox p items m).map _ = _
      rw [hm.chars]; rfl
    rw [e, Option.bind_some, ih h1]
    congr 4
    split <;> simp

/-- A handler that takes neither elements nor characters. -/
structure Closed (E : Ext ε μ ν π) (f : Frame ε μ ν π) : Prop where
  start : ∀ (s : St ε μ ν π) fs el, start E el (at' s (f :: fs)) = none
  chars : ∀ (s : St ε μ ν π) fs t, chars t (at' s (f :: fs)) =
    if blank t then some (at' s (f :: fs)) else none

theorem blanks_run {E : Ext ε μ ν π} {s : St ε μ ν π}
    (hb : ∀ t, step E s (.chars t) = if blank t then some s else none)
    (ps : List Str) (rest : List Event) :
    run E (ps.map Event.chars ++ rest) s = if white ps.flatten then run E rest s else none := by
  induction ps with
  | nil => rw [if_pos (by exact white_nil)]; rfl
  | cons p ps ih =>
    rw [List.map_cons, List.cons_append, run_cons, hb]
    by_cases hp : white p
    · rw [if_pos ((blank_iff p).mpr hp), Option.bind_some, ih]
      have : white (p :: ps).flatten ↔ white ps.flatten := by
        rw [white_flatten, white_flatten]; simp [hp]
      by_cases hw : white ps.flatten
      · rw [if_pos hw, if_pos (this.mpr hw)]
      · rw [if_neg hw, if_neg (fun h => hw (this.mp h))]
    · rw [if_neg (fun h => hp ((blank_iff p).mp h))]
      rw [if_neg (fun h => hp ((white_flatten _).mp h p List.mem_cons_self))]; rfl

theorem nothing_text (ps : List Str) (ks : List Src) :
    nothing (.text ps :: ks) = true ↔ white ps.flatten ∧ nothing ks = true := by
  rw [nothing]; simp

theorem closed_run {E : Ext ε μ ν π} {f : Frame ε μ ν π} (hf : Closed E f) (kids : List Src)
    (rest : List Event) (s : St ε μ ν π) (fs : List (Frame ε μ ν π)) :
    run E (eventsAll kids ++ rest) (at' s (f :: fs)) =
      if nothing kids then run E rest (at' s (f :: fs)) else none := by
  induction kids with
  | nil => rfl
  | cons k ks ih =>
    cases k with
    | text ps =>
      rw [eventsAll, events, List.append_assoc, blanks_run (fun t => hf.chars s fs t), ih]
      by_cases hw : white ps.flatten
      · rw [if_pos hw]
        by_cases hn : nothing ks = true
        · rw [if_pos hn, if_pos ((nothing_text ps ks).mpr ⟨hw, hn⟩)]
        · rw [if_neg hn, if_neg (fun h => hn ((nothing_text ps ks).mp h).2)]
      · rw [if_neg hw, if_neg (fun h => hw ((nothing_text ps ks).mp h).1)]
    | elem el kids =>
      rw [eventsAll, events]
      show (start E el (at' s (f :: fs))).bind _ = _
      rw [hf.start, nothing]; rfl

theorem closed_leaf (E : Ext ε μ ν π) (c : Code ε ν) : Closed E (.leaf c) :=
  ⟨fun _ _ _ => rfl, fun _ _ _ => rfl⟩
theorem closed_sort (E : Ext ε μ ν π) (c : SortBy ε) : Closed E (.sort c) :=
  ⟨fun _ _ _ => rfl, fun _ _ _ => rfl⟩
theorem closed_key (E : Ext ε μ ν π) (n : ν) (c : Key ε μ) : Closed E (.key n c) :=
  ⟨fun _ _ _ => rfl, fun _ _ _ => rfl⟩
theorem closed_choose (E : Ext ε μ ν π) (ws : List (ε × List (Code ε ν)))
    (o : Option (List (Code ε ν))) (sw : Bool) : Closed E (.choose ws o sw true) := by
  refine ⟨fun s fs el => ?_, fun _ _ _ => rfl⟩
  unfold start
  simp only [at_frames, if_true]
  split
  · rfl
  · split <;> rfl

/-- A leaf and its end. -/
theorem leaf_run {E : Ext ε μ ν π} (c : Code ε ν) (kids : List Src) (rest : List Event)
    (s : St ε μ ν π) (m : Maker ε μ ν π) (items : List (Code ε ν)) (fs : List (Frame ε μ ν π)) :
    run E (eventsAll kids ++ .finish :: rest) (at' s (.leaf c :: .box m items :: fs)) =
      if nothing kids then run E rest (at' s (.box m (items ++ [c]) :: fs)) else none := by
  rw [closed_run (closed_leaf E c)]; rfl

/-- The children of `xsl:text`. -/
theorem characters_run {E : Ext ε μ ν π} (kids : List Src) (rest : List Event) (s : St ε μ ν π)
    (b : Bool) (t : Str) (fs : List (Frame ε μ ν π)) :
    run E (eventsAll kids ++ rest) (at' s (.text b t :: fs)) =
      (characters kids).bind (fun r => run E rest (at' s (.text b (t ++ r) :: fs))) := by
  induction kids generalizing t with
  | nil => rw [characters, Option.bind_some, List.append_nil]; rfl
  | cons k ks ih =>
    cases k with
    | text ps =>
      rw [eventsAll, events, List.append_assoc, characters]
      have e : ∀ (ps : List Str) (t : Str) (es : List Event),
          run E (ps.map Event.chars ++ es) (at' s (.text b t :: fs)) =
            run E es (at' s (.text b (t ++ ps.flatten) :: fs)) := by
        intro ps
        induction ps with
        | nil => intro t es; simp
        | cons p ps ihp =>
          intro t es
          rw [List.map_cons, List.cons_append, run_cons]
          show run E (ps.map Event.chars ++ es) (at' s (.text b (t ++ p) :: fs)) = _
          rw [ihp, List.flatten_cons, List.append_assoc]
      rw [e, ih]
      cases characters ks with
      | none => rfl
      | some r =>
        show run E rest _ = run E rest _
        rw [List.append_assoc]
    | elem el kids =>
      rw [eventsAll, events, characters]; rfl

/-- A variable with an expression. -/
def Mute (m : Maker ε μ ν π) : Prop := ∀ (t : Str) (items : List (Code ε ν)),
  charsInBox t items m = if blank t then some (.box m items) else none

theorem mute_run {E : Ext ε μ ν π} {m : Maker ε μ ν π} (hm : Mute m) (kids : List Src)
    (rest : List Event) (s : St ε μ ν π) (items : List (Code ε ν)) (fs : List (Frame ε μ ν π))
    (h : nothing kids = true ∨ ∀ e k, Src.elem e k ∉ kids) :
    run E (eventsAll kids ++ rest) (at' s (.box m items :: fs)) =
      if nothing kids then run E rest (at' s (.box m items :: fs)) else none := by
  induction kids with
  | nil => rfl
  | cons k ks ih =>
    cases k with
    | text ps =>
      have hb : ∀ t, step E (at' s (.box m items :: fs)) (.chars t) =
          if blank t then some (at' s (.box m items :: fs)) else none := by
        intro t
        show (charsInBox t items m).map _ = _
        rw [hm]; split <;> rfl
      have h' : nothing ks = true ∨ ∀ e k, Src.elem e k ∉ ks := by
        rcases h with h | h
        · exact Or.inl ((nothing_text ps ks).mp h).2
        · exact Or.inr (fun e k hh => h e k (List.mem_cons_of_mem _ hh))
      rw [eventsAll, events, List.append_assoc, blanks_run hb, ih h']
      by_cases hw : white ps.flatten
      · rw [if_pos hw]
        by_cases hn : nothing ks = true
        · rw [if_pos hn, if_pos ((nothing_text ps ks).mpr ⟨hw, hn⟩)]
        · rw [if_neg hn, if_neg (fun h => hn ((nothing_text ps ks).mp h).2)]
      · rw [if_neg hw, if_neg (fun h => hw ((nothing_text ps ks).mp h).1)]
    | elem el kids =>
      rcases h with h | h
      · rw [nothing] at h; cases h
      · exact absurd List.mem_cons_self (h el kids)

/-! The statements to be proved for all documents. -/

/-- The children are plain. -/
def PlainIn : Src → Prop
  | .text ps => TextWhole ps
  | .elem el kids => AllPlain (.elem el kids)

def ItemRun (E : Ext ε μ ν π) (k : Src) : Prop :=
  ∀ (s : St ε μ ν π) (rest : List Event) (m : Maker ε μ ν π) (items : List (Code ε ν))
    (fs : List (Frame ε μ ν π)), Settled E m → Calm E s.current → PlainIn k →
    (item E k = none → AllCareful k) →
    run E (events k ++ rest) (at' s (.box m items :: fs)) =
      (item E k).bind (fun cs => run E rest (at' s (.box m (items ++ cs) :: fs)))

def ContentRun (E : Ext ε μ ν π) (ks : List Src) : Prop :=
  ∀ (s : St ε μ ν π) (rest : List Event) (m : Maker ε μ ν π) (items : List (Code ε ν))
    (fs : List (Frame ε μ ν π)), Settled E m → Calm E s.current → (∀ k ∈ ks, PlainIn k) →
    (content E ks = none → ∀ k ∈ ks, AllCareful k) →
    run E (eventsAll ks ++ rest) (at' s (.box m items :: fs)) =
      (content E ks).bind (fun cs => run E rest (at' s (.box m (items ++ cs) :: fs)))

theorem content_of_items {E : Ext ε μ ν π} {ks : List Src} (h : ∀ k ∈ ks, ItemRun E k) :
    ContentRun E ks := by
  induction ks with
  | nil =>
    intro s rest m items fs hm hc hp hk
    rw [content, Option.bind_some, List.append_nil]; rfl
  | cons k ks ih =>
    intro s rest m items fs hm hc hp hk
    have ih' := ih (fun x hx => h x (List.mem_cons_of_mem _ hx))
    rw [eventsAll, List.append_assoc]
    have hk1 : item E k = none → AllCareful k := by
      intro hn
      refine hk ?_ k List.mem_cons_self
      rw [content, hn]; rfl
    rw [h k List.mem_cons_self s _ m items fs hm hc (hp k List.mem_cons_self) hk1, content]
    cases hi : item E k with
    | none => rfl
    | some a =>
      have hk2 : content E ks = none → ∀ x ∈ ks, AllCareful x := by
        intro hn x hx
        refine hk ?_ x (List.mem_cons_of_mem _ hx)
        rw [content, hi, hn]; rfl
      show run E _ _ = _
      rw [ih' s rest m (items ++ a) fs hm hc (fun x hx => hp x (List.mem_cons_of_mem _ hx)) hk2]
      cases content E ks with
      | none => rfl
      | some b =>
        show run E rest _ = run E rest _
        rw [List.append_assoc]

/-- A container with a content, up to its end. -/
theorem body_run {E : Ext ε μ ν π} {kids : List Src} (h : ContentRun E kids)
    (s : St ε μ ν π) (rest : List Event) (m : Maker ε μ ν π) (fs : List (Frame ε μ ν π))
    (hm : Settled E m) (hc : Calm E s.current) (hp : ∀ k ∈ kids, PlainIn k)
    (hk : content E kids = none → ∀ k ∈ kids, AllCareful k) :
    run E (eventsAll kids ++ .finish :: rest) (at' s (.box m [] :: fs)) =
      (content E kids).bind (fun b => (endBox (at' s (.box m b :: fs)) fs b m).bind (run E rest)) := by
  rw [h s (.finish :: rest) m [] fs hm hc hp hk]
  rfl

/-- The makers of variables. -/
def IsBinding (E : Ext ε μ ν π) (mk : ν → Option ε → Maker ε μ ν π) : Prop :=
  (∀ n, Settled E (mk n none)) ∧ (∀ n e, Mute (mk n (some e)))

theorem value_run {E : Ext ε μ ν π} {kids : List Src} (h : ContentRun E kids)
    {mk : ν → Option ε → Maker ε μ ν π} (hmk : IsBinding E mk)
    (s : St ε μ ν π) (rest : List Event) (n : ν) (e : Option ε) (fs : List (Frame ε μ ν π))
    (hc : Calm E s.current) (hp : ∀ k ∈ kids, PlainIn k)
    (hk : valueOr E e kids = none → (∀ k ∈ kids, AllCareful k) ∧ (e.isSome → ∀ el k, Src.elem el k ∉ kids)) :
    run E (eventsAll kids ++ .finish :: rest) (at' s (.box (mk n e) [] :: fs)) =
      (valueOr E e kids).bind (fun b =>
        (endBox (at' s (.box (mk n e) b :: fs)) fs b (mk n e)).bind (run E rest)) := by
  cases e with
  | none =>
    exact body_run h s rest (mk n none) fs (hmk.1 n) hc hp (fun hn => (hk hn).1)
  | some e =>
    rw [mute_run (hmk.2 n e)]
    · show _ = (if nothing kids then some [] else none : Option _).bind _
      by_cases hn : nothing kids = true
      · rw [if_pos hn, if_pos hn]; rfl
      · rw [if_neg hn, if_neg hn]; rfl
    · by_cases hn : nothing kids = true
      · exact Or.inl hn
      · refine Or.inr ((hk ?_).2 rfl)
        show (if nothing kids then some [] else none : Option _) = none
        rw [if_neg hn]

end
end Verif.Lemmas.XsltCompile
