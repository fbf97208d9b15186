import Verif.Lemmas.XsltSink
import Verif.Props.XsltOutput
set_option autoImplicit false
set_option linter.unusedSimpArgs false
set_option linter.unusedVariables false
/-!
# A stream of events written by the sink
-/
namespace Verif.XsltSink
open Verif.Xslt (Str QN OAttr Event Instr Instrs Out execs transform)
open Verif.Spec.Xml hiding Str
open Verif.XmlReader
open Verif.Spec.XsltOutput (Res Open elementUri readEvent readEvents readTags sections listed bare lookup expand allSome)
open Verif.Spec.DomStream (NCName OnceAtMost)
open Verif.Spec.XsltSink

/-- A prefix as it can be written. -/
def GP (p : Str) : Prop := p = [] ∨ NCName p

def GoodAtt (a : OAttr) : Prop := GP a.qName.1 ∧ (Verif.Spec.XsltOutput.declaration a ≠ none → NCName a.qName.2)

def GoodEvent : Event → Prop
  | .startElement q _ atts => GP q.1 ∧ ∀ a ∈ atts, GoodAtt a
  | .comment c => CommentText c
  | .pi _ d => ¬ piClose <:+: d
  | _ => True

/-- The expanded names of the open elements. -/
inductive Named : Open → List (Str × Str) → Prop where
  | nil : Named [] []
  | cons {e : QN × List (Str × Str)} {o : Open} {u : Str} {n : List (Str × Str)} (h : elementUri (e :: o) e.1 = some u)
      (hn : Named o n) : Named (e :: o) ((u, e.1.2) :: n)

theorem named_listed {cdata : List (Str × Str)} {o : Open} {n : List (Str × Str)} (h : Named o n) :
    listedTop cdata o = listed cdata n := by
  cases h with
  | nil => rfl
  | cons h hn => simp [listedTop, h, listed]

theorem step_trans {cdata : List (Str × Str)} {s s1 s2 : Sink} {o o1 o2 : Open} {b b1 b2 : Bool} {acc1 : Str}
    {T : List Tok} {r r2 : List Res} (h : StepOk cdata s s1 o o1 b b1 acc1 T r)
    (h2 : ∀ T', Rel s1 o1 b1 acc1 T' → ∃ acc2, StepOk cdata s1 s2 o1 o2 b1 b2 acc2 T' r2) :
    ∃ acc2, StepOk cdata s s2 o o2 b b2 acc2 T (r ++ r2) := by
  obtain ⟨t, w, h3, h4, h5, h6⟩ := h
  obtain ⟨acc2, t', w', g3, g4, g5, g6⟩ := h2 _ h3
  refine ⟨acc2, t ++ t', w ++ w', by simpa using g3, read_toks h4 g4, ?_, ?_⟩
  · have : singles (r ++ r2) = singles r ++ singles r2 := by simp [singles]
    rw [this]
    exact padded_append h5 g5
  · intro q
    obtain ⟨q1, q2, q3⟩ := h6 q
    obtain ⟨p1, p2, p3⟩ := g6 q1
    refine ⟨p1, by rw [q2, p2]; simp [singles], ?_⟩
    rw [sections_append q3]
    exact p3

theorem allSome_mem {o : Open} {l : List OAttr} {as : List (Str × Str × Str)} (h : allSome (expand o) l = some as) :
    ∀ a ∈ l, ∃ b ∈ as, b.2.1 = a.qName.2 := by
  induction l generalizing as with
  | nil => intro a ha; cases ha
  | cons x l ih =>
    rw [allSome] at h
    cases h1 : expand o x with
    | none => rw [h1] at h; cases h
    | some y =>
      cases h2 : allSome (expand o) l with
      | none => rw [h1, h2] at h; cases h
      | some ys =>
        rw [h1, h2] at h
        cases h
        intro a ha
        rcases List.mem_cons.1 ha with rfl | ha
        · refine ⟨y, by simp, ?_⟩
          rw [expand] at h1
          by_cases hp : a.qName.1 = []
          · rw [if_pos hp] at h1
            cases h1
            rfl
          · rw [if_neg hp] at h1
            obtain ⟨u, _, e⟩ := Option.map_eq_some_iff.1 h1
            rw [← e]
        · obtain ⟨b, hb, e⟩ := ih h2 a ha
          exact ⟨b, by simp [hb], e⟩

/-- What a start tag is read as. -/
theorem readStart {o o' : Open} {q : QN} {u : Str} {atts : List OAttr} {r : List Res}
    (h : readEvent o (.startElement q u atts) = some (r, o')) :
    ∃ v as d, r = [.start v q.2 as] ∧ o' = (q, d) :: o ∧ elementUri o' q = some v ∧
      ∀ a ∈ atts, Verif.Spec.XsltOutput.declaration a = none → ∃ b ∈ as, b.2.1 = a.qName.2 := by
  simp only [readEvent] at h
  generalize hd : (q, atts.filterMap Verif.Spec.XsltOutput.declaration) :: o = o2 at h
  cases h1 : elementUri o2 q with
  | none => rw [h1] at h; cases h
  | some v =>
    cases h2 : allSome (expand o2) (atts.filter fun a => (Verif.Spec.XsltOutput.declaration a).isNone) with
    | none => rw [h1, h2] at h; cases h
    | some as =>
      rw [h1, h2] at h
      simp only at h
      split at h
      · cases h
        refine ⟨v, as, _, rfl, hd.symm, h1, ?_⟩
        intro a ha hn
        exact allSome_mem h2 a (by simp [ha, hn])
      · cases h

theorem read_cons {o o'' : Open} {e : Event} {es : List Event} {rs : List Res} (h : readEvents o (e :: es) = some (rs, o'')) :
    ∃ r o' r2, readEvent o e = some (r, o') ∧ readEvents o' es = some (r2, o'') ∧ rs = r ++ r2 := by
  rw [readEvents] at h
  cases h1 : readEvent o e with
  | none => rw [h1] at h; cases h
  | some x =>
    obtain ⟨r, o'⟩ := x
    rw [h1] at h
    simp only at h
    cases h2 : readEvents o' es with
    | none => rw [h2] at h; cases h
    | some y =>
      obtain ⟨r2, o3⟩ := y
      rw [h2] at h
      cases h
      exact ⟨r, o', r2, rfl, h2, rfl⟩

theorem sections_cons {cdata : List (Str × Str)} {x z : List (Str × Str) × Bool} {e : Event} {es : List Event}
    (h : sections cdata x (e :: es) = some z) :
    ∃ y, Verif.Spec.XsltOutput.section1 cdata x e = some y ∧ sections cdata y es = some z := by
  rw [sections] at h
  cases h1 : Verif.Spec.XsltOutput.section1 cdata x e with
  | none => rw [h1] at h; cases h
  | some y => rw [h1] at h; exact ⟨y, rfl, h⟩

theorem steps {cdata : List (Str × Str)} {o' : Open} {n' : List (Str × Str)} {b' : Bool} {t' : List QN} (es : List Event) :
    ∀ (s : Sink) (o : Open) (b : Bool) (acc a : Str) (T : List Tok) (n : List (Str × Str)) (rs : List Res),
    Rel s o b acc T → readEvents o es = some (rs, o') → sections cdata (n, b) es = some (n', b') →
    readTags (o.map Prod.fst) es = some (rs.map bare, t') → Named o n → (∀ e ∈ o, GoodName e.1) →
    (∀ e ∈ es, GoodEvent e) → (∀ r ∈ rs, Written r) → Sectioned cdata n a rs → acc <:+ a →
    ∃ acc', StepOk cdata s (es.foldl event s) o o' b b' acc' T rs := by
  induction es with
  | nil =>
    intro s o b acc a T n rs h1 h2 h3 h4 h5 h6 h7 h8 h9 h10
    rw [readEvents] at h2
    rw [sections] at h3
    cases h2
    cases h3
    exact ⟨acc, [], [], by simpa using h1, rfl, .nil, fun q => ⟨q, rfl, rfl⟩⟩
  | cons e es ih =>
    intro s o b acc a T n rs h1 h2 h3 h4 h5 h6 h7 h8 h9 h10
    obtain ⟨r, o1, r2, g2, g2', rfl⟩ := read_cons h2
    obtain ⟨⟨n1, b1⟩, g3, g3'⟩ := sections_cons h3
    have k7 := h7 e (by simp)
    have k7' : ∀ e ∈ es, GoodEvent e := fun x hx => h7 x (by simp [hx])
    have k8 : ∀ x ∈ r, Written x := fun x hx => h8 x (by simp [hx])
    have k8' : ∀ x ∈ r2, Written x := fun x hx => h8 x (by simp [hx])
    rw [List.foldl_cons]
    cases e with
    | startElement q u atts =>
      obtain ⟨v, as, d, rfl, rfl, x1, x2⟩ := readStart g2
      cases b with
      | true => rw [Verif.Spec.XsltOutput.section1] at g3; simp at g3
      | false =>
      rw [Verif.Spec.XsltOutput.section1, if_neg (by simp)] at g3
      cases g3
      rw [readTags] at h4
      obtain ⟨⟨ts, t2⟩, y1, y2⟩ := Option.map_eq_some_iff.1 h4
      simp [bare] at y2
      obtain ⟨⟨rfl, rfl⟩, rfl⟩ := y2
      have hacc : acc = [] := by obtain ⟨_, _, _, _, h⟩ := h1; cases h <;> rfl
      subst hacc
      have kw := k8 (.start u q.2 as) (by simp)
      have hq : GoodName q := ⟨k7.1, kw.1⟩
      have ha : ∀ a ∈ atts, GoodName a.qName := by
        intro a ha
        refine ⟨(k7.2 a ha).1, ?_⟩
        cases hd : Verif.Spec.XsltOutput.declaration a with
        | some x => exact (k7.2 a ha).2 (by simp [hd])
        | none =>
          obtain ⟨b, hb, e⟩ := x2 a ha hd
          rw [← e]
          exact kw.2 b hb
      have hst := step_start (cdata := cdata) h1 hq ha g2 rfl ⟨d, rfl⟩
      refine step_trans hst fun T' hT' => ?_
      exact ih _ _ _ _ [] _ _ _ hT' g2' g3' y1 (.cons x1 h5)
        (by intro e he; rcases List.mem_cons.1 he with rfl | he; exact hq; exact h6 e he) k7' k8' h9 (List.suffix_refl _)
    | endElement q u =>
      cases o with
      | nil => cases g2
      | cons e o =>
      obtain ⟨q', d⟩ := e
      rw [readEvent] at g2
      simp only at g2
      by_cases hqq : q' = q
      · subst hqq
        rw [if_pos rfl] at g2
        cases g2
        cases b with
        | true => rw [Verif.Spec.XsltOutput.section1] at g3; simp at g3
        | false =>
        rw [Verif.Spec.XsltOutput.section1, if_neg (by simp)] at g3
        cases g3
        rw [List.map_cons, readTags, if_pos rfl] at h4
        obtain ⟨⟨ts, t2⟩, y1, y2⟩ := Option.map_eq_some_iff.1 h4
        simp [bare] at y2
        obtain ⟨rfl, rfl⟩ := y2
        have hacc : acc = [] := by obtain ⟨_, _, _, _, h⟩ := h1; cases h <;> rfl
        subst hacc
        cases h5 with
        | cons hu h5 =>
        refine step_trans (step_end (cdata := cdata) h1 (h6 (q', d) (by simp))) fun T' hT' => ?_
        exact ih _ _ _ _ [] _ _ _ hT' g2' g3' y1 h5 (fun e he => h6 e (by simp [he])) k7' k8' h9 (List.suffix_refl _)
      · rw [if_neg hqq] at g2
        cases g2
    | characters t =>
      cases g2
      rw [Verif.Spec.XsltOutput.section1] at g3
      simp only at g3
      by_cases hb : b = listed cdata n
      · rw [if_pos hb] at g3
        cases g3
        rw [readTags] at h4
        obtain ⟨⟨ts, t2⟩, y1, y2⟩ := Option.map_eq_some_iff.1 h4
        simp [bare] at y2
        obtain ⟨rfl, rfl⟩ := y2
        rw [List.singleton_append, Sectioned] at h9
        rw [← named_listed h5] at hb h9
        cases b with
        | false =>
          have hacc : acc = [] := by obtain ⟨_, _, _, _, h⟩ := h1; cases h <;> rfl
          subst hacc
          refine step_trans (step_text (cdata := cdata) h1 t hb.symm) fun T' hT' => ?_
          exact ih _ _ _ _ _ _ _ _ hT' g2' g3' y1 h5 h6 k7' k8' h9.2 List.nil_suffix
        | true =>
          obtain ⟨z1, z2⟩ := h9.1 hb.symm
          obtain ⟨acc1, w1, w2⟩ := step_inside (cdata := cdata) h1 (t := t) hb.symm z1
            (fun hc => z2 (straddles_mono hc h10 (List.prefix_refl _)))
          refine step_trans w2 fun T' hT' => ?_
          refine ih _ _ _ _ _ _ _ _ hT' g2' g3' y1 h5 h6 k7' k8' h9.2 (w1.trans ?_)
          obtain ⟨x, rfl⟩ := h10
          exact ⟨x, by simp⟩
      · rw [if_neg hb] at g3
        cases g3
    | startCDATA =>
      cases g2
      cases b with
      | true => cases g3
      | false =>
      cases g3
      have hacc : acc = [] := by obtain ⟨_, _, _, _, h⟩ := h1; cases h <;> rfl
      subst hacc
      refine step_trans (step_startCDATA (cdata := cdata) h1) fun T' hT' => ?_
      rw [readTags] at h4
      exact ih _ _ _ _ _ _ _ _ hT' g2' g3' h4 h5 h6 k7' k8' h9 List.nil_suffix
    | endCDATA =>
      cases g2
      cases b with
      | false => cases g3
      | true =>
      cases g3
      refine step_trans (step_endCDATA (cdata := cdata) h1) fun T' hT' => ?_
      rw [readTags] at h4
      exact ih _ _ _ _ _ _ _ _ hT' g2' g3' h4 h5 h6 k7' k8' h9 List.nil_suffix
    | comment t =>
      cases g2
      cases b with
      | true => cases g3
      | false =>
      cases g3
      have hacc : acc = [] := by obtain ⟨_, _, _, _, h⟩ := h1; cases h <;> rfl
      subst hacc
      rw [readTags] at h4
      obtain ⟨⟨ts, t2⟩, y1, y2⟩ := Option.map_eq_some_iff.1 h4
      simp [bare] at y2
      obtain ⟨rfl, rfl⟩ := y2
      refine step_trans (step_comment (cdata := cdata) h1 t k7) fun T' hT' => ?_
      exact ih _ _ _ _ _ _ _ _ hT' g2' g3' y1 h5 h6 k7' k8' h9 List.nil_suffix
    | pi t d =>
      cases g2
      cases b with
      | true => cases g3
      | false =>
      cases g3
      have hacc : acc = [] := by obtain ⟨_, _, _, _, h⟩ := h1; cases h <;> rfl
      subst hacc
      rw [readTags] at h4
      obtain ⟨⟨ts, t2⟩, y1, y2⟩ := Option.map_eq_some_iff.1 h4
      simp [bare] at y2
      obtain ⟨rfl, rfl⟩ := y2
      have kw := k8 (.pi t d) (by simp)
      refine step_trans (step_pi (cdata := cdata) h1 kw.1 k7 kw.2) fun T' hT' => ?_
      exact ih _ _ _ _ _ _ _ _ hT' g2' g3' y1 h5 h6 k7' k8' h9 List.nil_suffix

end Verif.XsltSink
