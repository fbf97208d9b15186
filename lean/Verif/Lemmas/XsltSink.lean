import Verif.Model.XsltSink
import Verif.Spec.XsltSink
import Verif.Lemmas.XmlReader
import Verif.Lemmas.XsltOutput2
set_option autoImplicit false
set_option linter.unusedSimpArgs false
set_option linter.unusedVariables false
/-!
# What the stream sink writes, as it is read
-/
namespace Verif.XsltSink
open Verif.Xslt (Str QN OAttr Event Instr Instrs)
open Verif.XPath (find)
open Verif.Text (textEscape attributeEscape)
open Verif.Spec.Xml hiding Str
open Verif.XmlReader
open Verif.Spec.XsltOutput (Res Open readEvent readEvents elementUri)
open Verif.Spec.DomStream (cutColon NCName OnceAtMost)
open Verif.Spec.XsltSink

/-! ## strings -/

theorem find_none {pat : Str} {s : Str} (h : find s pat = none) : ¬ pat <:+: s := by
  induction s with
  | nil =>
    rw [find] at h
    intro hc
    rw [List.infix_nil.mp hc] at h
    cases h
  | cons c s ih =>
    rw [find] at h
    by_cases hp : pat.isPrefixOf (c :: s)
    · rw [if_pos hp] at h; cases h
    · rw [if_neg hp] at h
      rw [List.infix_cons_iff]
      rintro (hc | hc)
      · exact hp (List.isPrefixOf_iff_prefix.mpr hc)
      · exact ih (by simpa using h) hc

theorem find_some {pat : Str} {s : Str} : ∀ {n : Nat}, find s pat = some n →
    (∃ a b, s = a ++ pat ++ b ∧ a.length = n) ∧ ∀ k < n, ¬ pat <+: s.drop k := by
  induction s with
  | nil =>
    intro n h
    rw [find] at h
    by_cases hp : pat = []
    · rw [if_pos hp] at h; cases h
      exact ⟨⟨[], [], by simp [hp], rfl⟩, by simp⟩
    · rw [if_neg hp] at h; cases h
  | cons c s ih =>
    intro n h
    rw [find] at h
    by_cases hp : pat.isPrefixOf (c :: s)
    · rw [if_pos hp] at h; cases h
      obtain ⟨b, hb⟩ := List.isPrefixOf_iff_prefix.mp hp
      exact ⟨⟨[], b, by simp [hb], rfl⟩, by simp⟩
    · rw [if_neg hp] at h
      cases hf : find s pat with
      | none => rw [hf] at h; cases h
      | some m =>
        rw [hf] at h
        cases h
        obtain ⟨⟨a, b, hab, hl⟩, hk⟩ := ih hf
        refine ⟨⟨c :: a, b, by simp [hab], by simp [hl]⟩, ?_⟩
        intro k hlt
        cases k with
        | zero => intro hc; exact hp (List.isPrefixOf_iff_prefix.mpr hc)
        | succ k => exact hk k (Nat.lt_of_succ_lt_succ hlt)

theorem infix_split {x y : Str} (h : cdataClose <:+: x ++ y) : cdataClose <:+: x ∨ cdataClose <:+: y ∨ Straddles x y := by
  obtain ⟨u, v, h⟩ := h
  rw [List.append_assoc] at h
  rcases List.append_eq_append_iff.1 h with ⟨p, e1, e2⟩ | ⟨p, e1, e2⟩
  · -- `u ++ p = x`, `cdataClose ++ v = p ++ y`
    rcases List.append_eq_append_iff.1 e2 with ⟨r, e3, e4⟩ | ⟨r, e3, e4⟩
    · exact .inl ⟨u, r, by rw [e1, e3]; simp⟩
    · by_cases hp : p = []
      · subst hp
        exact .inr (.inl ⟨[], v, by simpa using e2⟩)
      · by_cases hr : r = []
        · subst hr
          exact .inl ⟨u, [], by rw [e1, ← List.append_nil p, ← e3]; simp⟩
        · exact .inr (.inr ⟨p, r, hp, hr, e3.symm, ⟨u, e1.symm⟩, ⟨v, e4.symm⟩⟩)
  · exact .inr (.inl ⟨p, v, by rw [e2]; simp⟩)

theorem straddles_mono {x y x' y' : Str} (h : Straddles x y) (hx : x <:+ x') (hy : y <+: y') : Straddles x' y' := by
  obtain ⟨a, b, h1, h2, h3, h4, h5⟩ := h
  exact ⟨a, b, h1, h2, h3, h4.trans hx, h5.trans hy⟩

/-- The first piece of a text with `]]>` in it, with two of the brackets. -/
theorem first_piece {a b : Str} (h : ∀ k < a.length, ¬ cdataClose <+: (a ++ cdataClose ++ b).drop k) :
    ¬ cdataClose <:+: a ++ [']', ']'] := by
  rintro ⟨u, v, e⟩
  have hl : u.length < a.length := by
    have := congrArg List.length e
    simp [cdataClose] at this
    by_cases hv : v = []
    · subst hv
      have e' : (u ++ cdataClose ++ []).getLast? = (a ++ [']', ']']).getLast? := by rw [e]
      simp [cdataClose] at e'
    · have : 0 < v.length := List.length_pos_iff.2 hv
      omega
  refine h u.length hl ?_
  have : a ++ cdataClose ++ b = u ++ (cdataClose ++ (v ++ '>' :: b)) := by
    have : a ++ cdataClose ++ b = (a ++ [']', ']']) ++ '>' :: b := by simp [cdataClose]
    rw [this, ← e]; simp
  rw [this, List.drop_left]
  exact ⟨_, rfl⟩

/-- The last piece. -/
theorem last_piece {a b : Str} (h : OnceAtMost (a ++ cdataClose ++ b)) : ¬ cdataClose <:+: '>' :: b := by
  rintro ⟨u, v, e⟩
  cases u with
  | nil => simp [cdataClose] at e
  | cons c u =>
    have e : u ++ cdataClose ++ v = b := by simpa using (List.cons.inj e).2
    exact h a u v (by rw [← e]; simp)

/-! ## names -/

theorem cutColon_none {n : Str} (h : ∀ c ∈ n, c ≠ ':') : cutColon n = none := by
  induction n with
  | nil => rfl
  | cons c n ih =>
    rw [cutColon, if_neg (h c (by simp)), ih fun d hd => h d (by simp [hd])]
    rfl

theorem cutColon_some {p l : Str} (h : ∀ c ∈ p, c ≠ ':') : cutColon (p ++ ':' :: l) = some (p, l) := by
  induction p with
  | nil => rfl
  | cons c n ih =>
    rw [List.cons_append, cutColon, if_neg (h c (by simp)), ih fun d hd => h d (by simp [hd])]
    rfl

/-- A prefix, if any, and a name. -/
def GoodName (q : QN) : Prop := (q.1 = [] ∨ NCName q.1) ∧ NCName q.2

theorem splitName_qn {q : QN} (h : GoodName q) : splitName (qn q) = q := by
  obtain ⟨p, l⟩ := q
  obtain ⟨h1, h2⟩ := h
  rw [qn, splitName]
  by_cases hp : p = []
  · subst hp
    rw [if_pos rfl, cutColon_none fun c hc => (h2.2 c hc).2]
  · have hn : NCName p := h1.resolve_left hp
    rw [if_neg hp, cutColon_some fun c hc => (hn.2 c hc).2]

theorem qn_name {q : QN} (h : GoodName q) : Name (qn q) := by
  obtain ⟨p, l⟩ := q
  obtain ⟨h1, h2⟩ := h
  rw [qn]
  by_cases hp : p = []
  · rw [if_pos hp]
    exact ⟨h2.1, fun c hc => (h2.2 c hc).1⟩
  · have hn : NCName p := h1.resolve_left hp
    rw [if_neg hp]
    refine ⟨by simp, ?_⟩
    intro c hc
    simp only [List.mem_append, List.mem_cons] at hc
    rcases hc with hc | rfl | hc
    · exact (hn.2 c hc).1
    · decide
    · exact (h2.2 c hc).1

/-! ## reading -/

/-- An attribute without what reading does not use. -/
theorem read_start {q : QN} {u : Str} {atts : List OAttr} (hq : GoodName q) (ha : ∀ a ∈ atts, GoodName a.qName) (o : Open) :
    readEvent o (eventOf (.open' (qn q) (atts.map fun a => (qn a.qName, a.value)))) =
      readEvent o (.startElement q u atts) := by
  have key : ∀ l : List OAttr, (∀ a ∈ l, GoodName a.qName) →
      (l.map fun a => (qn a.qName, a.value)).map (fun a => (⟨[], (splitName a.1).2, splitName a.1, a.2⟩ : OAttr)) =
        l.map fun a => ⟨[], a.qName.2, a.qName, a.value⟩ := by
    intro l hl
    rw [List.map_map]
    refine List.map_congr_left fun a ha => ?_
    simp [splitName_qn (hl a ha)]
  rw [eventOf, splitName_qn hq, key atts ha]
  have d1 : (atts.map fun a => (⟨[], a.qName.2, a.qName, a.value⟩ : OAttr)).filterMap Verif.Spec.XsltOutput.declaration =
      atts.filterMap Verif.Spec.XsltOutput.declaration := by
    rw [List.filterMap_map]
    rfl
  have d2 : ∀ (o' : Open) (l : List OAttr), Verif.Spec.XsltOutput.allSome (Verif.Spec.XsltOutput.expand o')
      ((l.map fun a => (⟨[], a.qName.2, a.qName, a.value⟩ : OAttr)).filter fun a =>
        (Verif.Spec.XsltOutput.declaration a).isNone) =
      Verif.Spec.XsltOutput.allSome (Verif.Spec.XsltOutput.expand o')
        (l.filter fun a => (Verif.Spec.XsltOutput.declaration a).isNone) := by
    intro o' l
    induction l with
    | nil => rfl
    | cons a l ih =>
      have e : Verif.Spec.XsltOutput.declaration ⟨[], a.qName.2, a.qName, a.value⟩ = Verif.Spec.XsltOutput.declaration a := rfl
      rw [List.map_cons, List.filter_cons, List.filter_cons, e]
      by_cases hd : (Verif.Spec.XsltOutput.declaration a).isNone
      · rw [if_pos hd, if_pos hd, Verif.Spec.XsltOutput.allSome, Verif.Spec.XsltOutput.allSome, ih]
        rfl
      · rw [if_neg hd, if_neg hd, ih]
  simp only [readEvent, d1, d2]

theorem read_end {q : QN} {u : Str} (hq : GoodName q) (o : Open) :
    readEvent o (eventOf (.close (qn q))) = readEvent o (.endElement q u) := by
  rw [eventOf, splitName_qn hq]
  cases o <;> rfl

theorem read_chars (o : Open) (s : Str) :
    readEvents o ((chars s).map eventOf) = some (s.map fun c => .text [c], o) := by
  induction s with
  | nil => rfl
  | cons c s ih =>
    rw [chars] at ih
    rw [chars, List.map_cons, List.map_cons, readEvents]
    show (match readEvents o (List.map eventOf (List.map Tok.char s)) with
      | none => none
      | some (rs, o'') => some ([Res.text [c]] ++ rs, o'')) = _
    rw [ih]
    rfl

theorem read_one {o o' : Open} {t : Tok} {r : List Res} (h : readEvent o (eventOf t) = some (r, o')) :
    readEvents o ([t].map eventOf) = some (r, o') := by
  rw [List.map_singleton, readEvents, h]
  simp [readEvents]

theorem read_toks {o o1 o2 : Open} {a b : List Tok} {r1 r2 : List Res}
    (h1 : readEvents o (a.map eventOf) = some (r1, o1)) (h2 : readEvents o1 (b.map eventOf) = some (r2, o2)) :
    readEvents o ((a ++ b).map eventOf) = some (r1 ++ r2, o2) := by
  rw [List.map_append]
  exact Verif.Xslt.read_append _ _ _ _ _ _ _ h1 h2

theorem sections_append {cdata : List (Str × Str)} {x y : Open × Bool} {a b : List Tok}
    (h : sectionsIn cdata x a = some y) : sectionsIn cdata x (a ++ b) = sectionsIn cdata y b := by
  induction a generalizing x with
  | nil => rw [sectionsIn] at h; cases h; rfl
  | cons t a ih =>
    rw [sectionsIn] at h
    rw [List.cons_append, sectionsIn]
    cases hs : section1 cdata x t with
    | none => rw [hs] at h; cases h
    | some z => rw [hs] at h; exact ih h

theorem sections_chars {cdata : List (Str × Str)} {o : Open} {b : Bool} (h : b = listedTop cdata o) (s : Str) :
    sectionsIn cdata (o, b) (chars s) = some (o, b) := by
  induction s with
  | nil => rfl
  | cons c s ih =>
    rw [chars, List.map_cons, sectionsIn, section1, if_pos h]
    exact ih

/-! ## padding -/

theorem padded_refl (l : List Res) : Padded l l := by
  induction l with
  | nil => exact .nil
  | cons r l ih => exact .keep r ih

theorem padded_append {a a' b b' : List Res} (h : Padded a a') (h2 : Padded b b') : Padded (a ++ b) (a' ++ b') := by
  induction h with
  | nil => exact h2
  | keep r h ih => exact .keep r ih
  | space c hc h ih => exact .space c hc ih

theorem padded_white {s : Str} (h : ∀ c ∈ s, isWhite c = true) : Padded [] (s.map fun c => Res.text [c]) := by
  induction s with
  | nil => exact .nil
  | cons c s ih => exact .space c (h c (by simp)) (ih fun d hd => h d (by simp [hd]))

/-! ## the sink and the reader -/

/-- Where a reader of what is written so far is, and the tokens it has found or will find, whatever follows. -/
inductive Reading (s : Sink) (o : Open) : Bool → Str → List Tok → Prop where
  | inside (acc : Str) (T : List Tok) (he : s.empty = false) (h : run .content s.out = (.cdata acc, T))
      (ha : ¬ cdataClose <:+: acc) : Reading s o true acc (T ++ .cdataStart :: chars acc)
  | tag (q : QN) (d : List (Str × Str)) (o' : Open) (as : List (Str × Str)) (T : List Tok) (ho : o = (q, d) :: o')
      (he : s.empty = true) (h : run .content s.out = (inTag (qn q) as, T)) : Reading s o false [] (T ++ [.open' (qn q) as])
  | content (T : List Tok) (he : s.empty = false) (h : run .content s.out = (.content, T)) : Reading s o false [] T

structure Rel (s : Sink) (o : Open) (b : Bool) (acc : Str) (T : List Tok) : Prop where
  text : s.set.text = false
  dis : s.disabled = false
  ready : s.seenRoot = true ∨ s.set.omitDeclaration = true
  cd : s.inCdata = b
  reading : Reading s o b acc T

/-- Without indentation. -/
def Quiet (s : Sink) : Prop := s.indent = -1 ∧ s.outAgain = false

theorem prolog_ready {s : Sink} (n : Str) (h : s.seenRoot = true ∨ s.set.omitDeclaration = true) : prolog n s = s := by
  rw [prolog]
  rcases h with h | h
  · rw [if_pos h]
  · by_cases hs : s.seenRoot = true
    · rw [if_pos hs]
    · rw [if_neg hs, decl, if_pos (by simp [h])]

theorem close_false {s : Sink} (h : s.seenRoot = true ∨ s.set.omitDeclaration = true) (he : s.empty = false) :
    closeIfEmpty s = s := by
  rw [closeIfEmpty, if_neg (by simp [he]), prolog_ready _ h]

theorem close_true {s : Sink} (h : s.seenRoot = true ∨ s.set.omitDeclaration = true) (he : s.empty = true) :
    closeIfEmpty s = { put ['>'] s with empty := false } := by
  rw [closeIfEmpty, if_pos he, prolog_ready]
  exact h

theorem close_rel {s : Sink} {o : Open} {T : List Tok} (h : Rel s o false [] T) :
    Rel (closeIfEmpty s) o false [] T ∧ (closeIfEmpty s).empty = false ∧ (Quiet s → Quiet (closeIfEmpty s)) ∧
      run .content (closeIfEmpty s).out = (.content, T) := by
  obtain ⟨h1, h2, h3, h4, h5⟩ := h
  cases h5 with
  | tag q d o' as T ho he h =>
    have hc := close_true h3 he
    have hr : run .content (closeIfEmpty s).out = (.content, T ++ [.open' (qn q) as]) := by
      rw [hc]
      exact run_trans h (inTag_gt _ _)
    refine ⟨⟨by rw [hc]; exact h1, by rw [hc]; exact h2, by rw [hc]; exact h3, by rw [hc]; exact h4,
      .content _ (by rw [hc]) hr⟩, by rw [hc], fun q => by rw [hc]; exact q, hr⟩
  | content T he h =>
    rw [close_false h3 he]
    exact ⟨⟨h1, h2, h3, h4, .content _ he h⟩, he, id, h⟩

/-- What an event does. -/
def StepOk (cdata : List (Str × Str)) (s s' : Sink) (o o' : Open) (b b' : Bool) (acc' : Str) (T : List Tok) (r : List Res) :
    Prop :=
  ∃ toks r', Rel s' o' b' acc' (T ++ toks) ∧ readEvents o (toks.map eventOf) = some (r', o') ∧ Padded (singles r) r' ∧
    (Quiet s → Quiet s' ∧ r' = singles r ∧ sectionsIn cdata (o, b) toks = some (o', b'))

/-! ## text, comments and processing instructions -/

theorem step_text {cdata : List (Str × Str)} {s : Sink} {o : Open} {T : List Tok} (h : Rel s o false [] T) (t : Str)
    (hl : listedTop cdata o = false) : StepOk cdata s (characters t s) o o false false [] T [.text t] := by
  obtain ⟨h, he, hq, hr⟩ := close_rel h
  have e : characters t s = put (textEscape t) (closeIfEmpty s) := by
    simp [characters, h.dis, h.cd]
  refine ⟨chars t, t.map fun c => .text [c], ?_, read_chars o t, ?_, ?_⟩
  · rw [e]
    exact ⟨h.text, h.dis, h.ready, h.cd, .content _ he (run_trans hr (run_text t))⟩
  · have : singles [.text t] = t.map fun c => Res.text [c] := by simp [singles, single]
    rw [this]
    exact padded_refl _
  · intro q
    exact ⟨by rw [e]; exact hq q, by simp [singles, single], sections_chars hl.symm t⟩

theorem step_token {cdata : List (Str × Str)} {s : Sink} {o : Open} {T : List Tok} (h : Rel s o false [] T) {w : Str} {t : Tok}
    {r : Res} (hw : run .content w = (.content, [t])) (hr : readEvent o (eventOf t) = some ([r], o)) (hs : single r = [r])
    (ht : section1 cdata (o, false) t = some (o, false)) :
    StepOk cdata s (put w (closeIfEmpty s)) o o false false [] T [r] := by
  obtain ⟨h, he, hq, hr'⟩ := close_rel h
  have e : singles [r] = [r] := by simp [singles, hs]
  refine ⟨[t], [r], ⟨h.text, h.dis, h.ready, h.cd, .content _ he (run_trans hr' hw)⟩, read_one hr, ?_, ?_⟩
  · rw [e]
    exact padded_refl _
  · intro q
    refine ⟨hq q, e.symm, ?_⟩
    rw [sectionsIn, ht]
    rfl

theorem step_comment {cdata : List (Str × Str)} {s : Sink} {o : Open} {T : List Tok} (h : Rel s o false [] T) (t : Str)
    (ht : CommentText t) : StepOk cdata s (comment t s) o o false false [] T [.comment t] := by
  have := run_comment t ht
  refine step_token (t := .comment t) (r := .comment t) (w := "<!--".toList ++ t ++ "-->".toList) h ?_ rfl rfl rfl
  simpa using this

theorem step_pi {cdata : List (Str × Str)} {s : Sink} {o : Open} {T : List Tok} (h : Rel s o false [] T) {t d : Str}
    (ht : NCName t) (hd : ¬ piClose <:+: d) (hw : ∀ c, d.head? = some c → isWhite c = false) :
    StepOk cdata s (pi t d s) o o false false [] T [.pi t d] := by
  have hn : ∀ c ∈ t, nameChar c = true := fun c hc => (ht.2 c hc).1
  have h1 : ¬ piClose <:+: t ++ ' ' :: d := by
    refine piClose_infix t (' ' :: d) ?_ ?_
    · intro hc
      exact (nameChar_ne (hn _ hc)).2.2.2.2.2.2.2.2.2.2 rfl
    · rw [List.infix_cons_iff]
      rintro (hc | hc)
      · simp [piClose] at hc
      · exact hd hc
  have h2 := run_piRaw (t ++ ' ' :: d) h1
  rw [splitPi_data t d fun c hc => (nameChar_ne (hn c hc)).1] at h2
  have h3 : d.dropWhile isWhite = d := by
    cases d with
    | nil => rfl
    | cons c d => rw [List.dropWhile_cons, if_neg (by simp [hw c rfl])]
  rw [h3] at h2
  refine step_token (t := .pi t d) (r := .pi t d) (w := "<?".toList ++ t ++ ' ' :: d ++ "?>".toList) h ?_ rfl rfl rfl
  simpa using h2

/-! ## CDATA sections -/

theorem start_rel {s : Sink} {o : Open} {T : List Tok} (h : Rel s o false [] T) :
    Rel (startCDATA s) o true [] (T ++ [.cdataStart]) := by
  obtain ⟨h, he, hq, hr⟩ := close_rel h
  refine ⟨h.text, h.dis, h.ready, rfl, ?_⟩
  exact .inside [] T he (by simpa [startCDATA, put] using run_trans hr run_cdataStart) (by simp [cdataClose])

theorem end_rel {s : Sink} {o : Open} {acc : Str} {T : List Tok} (h : Rel s o true acc T) :
    Rel (endCDATA s) o false [] (T ++ [.cdataEnd]) := by
  obtain ⟨h1, h2, h3, h4, h5⟩ := h
  cases h5 with
  | inside _ T he h ha =>
    refine ⟨h1, h2, h3, rfl, ?_⟩
    refine .content _ he ?_
    have := run_trans h (run_cdataEnd acc ha)
    simpa [endCDATA, put] using this

theorem step_startCDATA {cdata : List (Str × Str)} {s : Sink} {o : Open} {T : List Tok} (h : Rel s o false [] T) :
    StepOk cdata s (startCDATA s) o o false true [] T [] :=
  ⟨[.cdataStart], [], start_rel h, rfl, .nil, fun q => ⟨(close_rel h).2.2.1 q, rfl, rfl⟩⟩

theorem step_endCDATA {cdata : List (Str × Str)} {s : Sink} {o : Open} {acc : Str} {T : List Tok} (h : Rel s o true acc T) :
    StepOk cdata s (endCDATA s) o o true false [] T [] :=
  ⟨[.cdataEnd], [], end_rel h, rfl, .nil, fun q => ⟨q, rfl, rfl⟩⟩

theorem put_inside {s : Sink} {o : Open} {acc : Str} {T : List Tok} (h : Rel s o true acc T) {t : Str}
    (hn : ¬ cdataClose <:+: acc ++ t) : Rel (put t s) o true (acc ++ t) (T ++ chars t) := by
  obtain ⟨g1, g2, g3, g4, g5⟩ := h
  cases g5 with
  | inside _ T he h ha =>
    refine ⟨g1, g2, g3, g4, ?_⟩
    have hr : run .content (put t s).out = (.cdata (acc ++ t), T) := by
      have := run_trans h (run_cdataText t acc hn)
      simpa [put] using this
    have := Reading.inside (s := put t s) (o := o) (acc ++ t) T he hr hn
    rw [chars_append] at this
    simpa using this

theorem not_inside {s : Sink} {o : Open} {acc : Str} {T : List Tok} (h : Rel s o true acc T) :
    ¬ cdataClose <:+: acc ∧ s.empty = false := by
  obtain ⟨g1, g2, g3, g4, g5⟩ := h
  cases g5 with
  | inside _ T he h ha => exact ⟨ha, he⟩

theorem step_inside {cdata : List (Str × Str)} {s : Sink} {o : Open} {acc : Str} {T : List Tok} (h : Rel s o true acc T)
    {t : Str} (hl : listedTop cdata o = true) (h1 : OnceAtMost t) (h2 : ¬ Straddles acc t) :
    ∃ acc', acc' <:+ acc ++ t ∧ StepOk cdata s (characters t s) o o true true acc' T [.text t] := by
  have hs : singles [.text t] = t.map fun c => Res.text [c] := by simp [singles, single]
  obtain ⟨ha, he⟩ := not_inside h
  have e : characters t s = cdataText t s := by
    rw [characters, close_false h.ready he]
    simp [h.cd]
  rw [cdataText] at e
  cases hf : find t "]]>".toList with
  | none =>
    rw [hf] at e
    have hn : ¬ cdataClose <:+: acc ++ t := by
      intro hc
      rcases infix_split hc with hc | hc | hc
      · exact ha hc
      · exact find_none hf hc
      · exact h2 hc
    refine ⟨acc ++ t, List.suffix_refl _, chars t, t.map fun c => .text [c], ?_, read_chars o t, ?_, ?_⟩
    · rw [e]
      exact put_inside h hn
    · rw [hs]; exact padded_refl _
    · intro q
      exact ⟨by rw [e]; exact q, hs.symm, sections_chars hl.symm t⟩
  | some k =>
    rw [hf] at e
    obtain ⟨⟨a, b, et, hk⟩, hfirst⟩ := find_some hf
    have et : t = a ++ cdataClose ++ b := et
    subst et
    have hp1 := first_piece (a := a) (b := b) (by rw [hk]; exact hfirst)
    have hp2 := last_piece h1
    have hn : ¬ cdataClose <:+: acc ++ (a ++ [']', ']']) := by
      intro hc
      rcases infix_split hc with hc | hc | hc
      · exact ha hc
      · exact hp1 hc
      · exact h2 (straddles_mono hc (List.suffix_refl _) ⟨'>' :: b, by simp [cdataClose]⟩)
    have d1 : (a ++ cdataClose ++ b).drop (k + 2) = '>' :: b := by
      have : a ++ cdataClose ++ b = (a ++ [']', ']']) ++ '>' :: b := by simp [cdataClose]
      rw [this, ← hk]
      exact List.drop_left' (by simp)
    have d2 : ((a ++ cdataClose ++ b).drop 0).take (k + 2) = a ++ [']', ']'] := by
      have : a ++ cdataClose ++ b = (a ++ [']', ']']) ++ '>' :: b := by simp [cdataClose]
      rw [List.drop_zero, this, ← hk]
      exact List.take_left' (by simp)
    have hf2 : find ('>' :: b) "]]>".toList = none := by
      cases hf2 : find ('>' :: b) "]]>".toList with
      | none => rfl
      | some m =>
        obtain ⟨⟨x, y, exy, _⟩, _⟩ := find_some hf2
        exact absurd ⟨x, y, exy.symm⟩ hp2
    have e2 : characters (a ++ cdataClose ++ b) s =
        put ('>' :: b) (startCDATA (endCDATA (put (a ++ [']', ']']) s))) := by
      rw [e]
      show cdataLoop _ (_ + 1) _ _ _ = _
      rw [cdataLoop]
      simp only [d1, d2, hf2]
    have r1 := put_inside h hn
    have r2 := end_rel r1
    have q3 : Quiet s → Quiet (startCDATA (endCDATA (put (a ++ [']', ']']) s))) := fun q => (close_rel r2).2.2.1 q
    have r4 := put_inside (start_rel r2) (t := '>' :: b) (by simpa using hp2)
    rw [← e2] at r4
    have es : ((a ++ cdataClose ++ b).map fun c => Res.text [c]) =
        ((a ++ [']', ']']).map fun c => Res.text [c]) ++ ([] ++ (('>' :: b).map fun c => Res.text [c])) := by
      simp [cdataClose]
    have hx : readEvents o ([Tok.cdataEnd, .cdataStart].map eventOf) = some ([], o) := rfl
    have hy : sectionsIn cdata (o, true) [.cdataEnd, .cdataStart] = some (o, true) := rfl
    refine ⟨'>' :: b, ⟨acc ++ (a ++ [']', ']']), by simp [cdataClose]⟩,
      chars (a ++ [']', ']']) ++ ([.cdataEnd, .cdataStart] ++ chars ('>' :: b)),
      (a ++ cdataClose ++ b).map fun c => Res.text [c], by simpa using r4, ?_, ?_, ?_⟩
    · rw [es]
      exact read_toks (read_chars o _) (read_toks hx (read_chars o _))
    · rw [hs]; exact padded_refl _
    · intro q
      refine ⟨by rw [e2]; exact q3 q, hs.symm, ?_⟩
      rw [sections_append (sections_chars hl.symm _), sections_append hy]
      exact sections_chars hl.symm _

/-! ## elements -/

theorem indent_spec (s : Sink) : ∃ w : Str, (∀ c ∈ w, isWhite c = true) ∧ (indent s).out = s.out ++ w ∧
    (indent s).set = s.set ∧ (indent s).disabled = s.disabled ∧ (indent s).inCdata = s.inCdata ∧
    (indent s).empty = s.empty ∧ (indent s).seenRoot = s.seenRoot ∧ (Quiet s → indent s = s ∧ w = []) := by
  rw [indent]
  by_cases h : s.indent = -1
  · rw [if_pos h]
    exact ⟨[], by simp, by simp, rfl, rfl, rfl, rfl, rfl, fun _ => ⟨rfl, rfl⟩⟩
  · rw [if_neg h]
    by_cases h0 : s.indent = 0
    · refine ⟨List.replicate s.indent.toNat ' ', ?_, ?_⟩
      · intro c hc
        rw [List.eq_of_mem_replicate hc]
        decide
      · simp [h0, put, Quiet]
    · refine ⟨'\n' :: List.replicate s.indent.toNat ' ', ?_, ?_⟩
      · intro c hc
        rcases List.mem_cons.1 hc with rfl | hc
        · decide
        · rw [List.eq_of_mem_replicate hc]
          decide
      · simp [h0, put, Quiet, h]

theorem preoutdent_spec (s : Sink) : ∃ w : Str, (∀ c ∈ w, isWhite c = true) ∧ preoutdent s = put w s ∧
    (s.empty = true → w = []) ∧ (Quiet s → w = []) := by
  rw [preoutdent]
  by_cases h : (s.outAgain && !s.empty) = true
  · rw [if_pos h]
    exact ⟨['\n'], by simp [isWhite], rfl, fun he => by simp [he] at h, fun q => by simp [q.2] at h⟩
  · rw [if_neg h]
    exact ⟨[], by simp, by simp [put], fun _ => rfl, fun _ => rfl⟩

theorem outdent_spec (s : Sink) : ∃ w : Str, (∀ c ∈ w, isWhite c = true) ∧ (outdent s).out = s.out ++ w ∧
    (outdent s).set = s.set ∧ (outdent s).disabled = s.disabled ∧ (outdent s).inCdata = s.inCdata ∧
    (outdent s).empty = s.empty ∧ (outdent s).seenRoot = s.seenRoot ∧ (Quiet s → outdent s = s ∧ w = []) := by
  rw [outdent]
  by_cases h : s.indent = -1
  · rw [if_pos h]
    exact ⟨[], by simp, by simp, rfl, rfl, rfl, rfl, rfl, fun _ => ⟨rfl, rfl⟩⟩
  · rw [if_neg h]
    by_cases h0 : (s.outAgain && s.empty) = true
    · refine ⟨['\n'], by simp [isWhite], ?_⟩
      simp [h0, put, Quiet, h]
    · refine ⟨[], by simp, ?_⟩
      simp [h0, Quiet, h]

theorem run_atts (n : Str) (atts : List OAttr) (h : ∀ a ∈ atts, GoodName a.qName) : ∀ as : List (Str × Str),
    run (inTag n as) (atts.flatMap attText) = (inTag n (as ++ atts.map fun a => (qn a.qName, a.value)), []) := by
  induction atts with
  | nil => intro as; simp [run]
  | cons a atts ih =>
    intro as
    have h1 := run_attribute n as (qn a.qName) a.value (qn_name (h a (by simp)))
    have := run_trans h1 (ih (fun b hb => h b (by simp [hb])) _)
    rw [List.flatMap_cons]
    simpa [attText] using this

theorem step_start {cdata : List (Str × Str)} {s : Sink} {o o' : Open} {T : List Tok} (h : Rel s o false [] T) {q : QN}
    {u : Str} {atts : List OAttr} {r : Res} (hq : GoodName q) (ha : ∀ a ∈ atts, GoodName a.qName)
    (hr : readEvent o (.startElement q u atts) = some ([r], o')) (hs : single r = [r])
    (ho : ∃ d, o' = (q, d) :: o) :
    StepOk cdata s (startElement q atts s) o o' false false [] T [r] := by
  obtain ⟨h1, h2, h3, h4, h5⟩ := h
  have e1 : singles [r] = [r] := by simp [singles, hs]
  have key : ∀ s1 : Sink, (s1.set = s.set ∧ s1.disabled = s.disabled ∧ s1.inCdata = s.inCdata ∧ s1.seenRoot = s.seenRoot ∧
      (Quiet s → Quiet s1)) → run .content s1.out = (.content, T) →
      startElement q atts s = { put (atts.flatMap attText) (put ('<' :: qn q) (indent s1)) with empty := true } →
      StepOk cdata s (startElement q atts s) o o' false false [] T [r] := by
    intro s1 ⟨c1, c2, c3, c4, c5⟩ hrun he
    obtain ⟨w, w1, w2, w3, w4, w5, w6, w7, w8⟩ := indent_spec s1
    have hout : run .content (indent s1).out = (.content, T ++ chars w) := by
      rw [w2]
      exact run_trans hrun (run_white w w1)
    have h6 := run_trans (run_trans hout (run_open (qn q) (qn_name hq))) (run_atts (qn q) atts ha [])
    obtain ⟨d, rfl⟩ := ho
    have hread : readEvent o (eventOf (.open' (qn q) (atts.map fun a => (qn a.qName, a.value)))) = some ([r], (q, d) :: o) := by
      rw [read_start (u := u) hq ha]
      exact hr
    refine ⟨chars w ++ [.open' (qn q) (atts.map fun a => (qn a.qName, a.value))], (w.map fun c => .text [c]) ++ [r], ?_,
      read_toks (read_chars o w) (read_one hread), ?_, ?_⟩
    · rw [he, ← List.append_assoc]
      refine ⟨by show (indent s1).set.text = _; rw [w3, c1]; exact h1, by show (indent s1).disabled = _; rw [w4, c2]; exact h2,
        by show (indent s1).seenRoot = _ ∨ (indent s1).set.omitDeclaration = _; rw [w7, w3, c4, c1]; exact h3,
        by show (indent s1).inCdata = _; rw [w5, c3]; exact h4, ?_⟩
      refine .tag q d o _ (T ++ chars w) rfl rfl ?_
      simpa [put] using h6
    · rw [e1]
      exact padded_append (padded_white w1) (padded_refl [r])
    · intro hquiet
      obtain ⟨w9, rfl⟩ := w8 (c5 hquiet)
      refine ⟨?_, by simp [e1], ?_⟩
      · rw [he, w9]
        exact c5 hquiet
      · show sectionsIn cdata (o, false) [.open' (qn q) _] = _
        rw [sectionsIn, section1]
        · simp [hread, sectionsIn]
        all_goals simp
  have hp : prolog (qn q) s = s := prolog_ready _ h3
  cases h5 with
  | tag q' d o' as T ho' he h =>
    refine key (put ['>'] s) ⟨rfl, rfl, rfl, rfl, id⟩ (run_trans h (inTag_gt _ _)) ?_
    simp only [startElement, hp, he, if_true]
  | content T he h =>
    refine key s ⟨rfl, rfl, rfl, rfl, id⟩ h ?_
    simp only [startElement, hp, he]
    rfl

theorem step_end {cdata : List (Str × Str)} {s : Sink} {o : Open} {T : List Tok} {q : QN} {d : List (Str × Str)}
    (h : Rel s ((q, d) :: o) false [] T) (hq : GoodName q) :
    StepOk cdata s (endElement q s) ((q, d) :: o) o false false [] T [.finish] := by
  obtain ⟨h1, h2, h3, h4, h5⟩ := h
  have hp : prolog [] s = s := prolog_ready _ h3
  obtain ⟨v, v1, v2, v3, v4⟩ := preoutdent_spec s
  have hread : readEvent ((q, d) :: o) (eventOf (.close (qn q))) = some ([.finish], o) := by
    rw [read_end (u := []) hq, readEvent]
    simp
  have key : ∀ s1 : Sink, (s1.set = s.set ∧ s1.disabled = s.disabled ∧ s1.inCdata = s.inCdata ∧ s1.seenRoot = s.seenRoot ∧
      (Quiet s → Quiet s1)) → run .content s1.out = (.content, T ++ chars v ++ [.close (qn q)]) →
      endElement q s = { outdent s1 with empty := false } →
      StepOk cdata s (endElement q s) ((q, d) :: o) o false false [] T [.finish] := by
    intro s1 ⟨c1, c2, c3, c4, c5⟩ hrun he
    obtain ⟨w, w1, w2, w3, w4, w5, w6, w7, w8⟩ := outdent_spec s1
    have hout : run .content (outdent s1).out = (.content, T ++ chars v ++ [.close (qn q)] ++ chars w) := by
      rw [w2]
      exact run_trans hrun (run_white w w1)
    refine ⟨chars v ++ ([.close (qn q)] ++ chars w), (v.map fun c => .text [c]) ++ ([.finish] ++ w.map fun c => .text [c]), ?_,
      read_toks (read_chars _ v) (read_toks (read_one hread) (read_chars o w)), ?_, ?_⟩
    · rw [he]
      refine ⟨by show (outdent s1).set.text = _; rw [w3, c1]; exact h1, by show (outdent s1).disabled = _; rw [w4, c2]; exact h2,
        by show (outdent s1).seenRoot = _ ∨ (outdent s1).set.omitDeclaration = _; rw [w7, w3, c4, c1]; exact h3,
        by show (outdent s1).inCdata = _; rw [w5, c3]; exact h4, .content _ rfl ?_⟩
      simpa using hout
    · have : singles [.finish] = [] ++ ([.finish] ++ []) := rfl
      rw [this]
      exact padded_append (padded_white v1) (padded_append (padded_refl _) (padded_white w1))
    · intro hquiet
      obtain ⟨w9, rfl⟩ := w8 (c5 hquiet)
      have hv := v4 hquiet
      subst hv
      refine ⟨?_, rfl, ?_⟩
      · rw [he, w9]
        exact c5 hquiet
      · show sectionsIn cdata ((q, d) :: o, false) [.close (qn q)] = _
        rw [sectionsIn, section1]
        · simp [hread, sectionsIn]
        all_goals simp
  cases h5 with
  | tag q' d' o' as T ho' he h =>
    cases ho'
    have hv := v3 he
    subst hv
    refine key (put ['/', '>'] s) ⟨rfl, rfl, rfl, rfl, id⟩ ?_ ?_
    · have := run_trans h (inTag_slash (qn q) as)
      simpa [put, chars] using this
    · have e : preoutdent s = s := by rw [v2]; simp [put]
      simp only [endElement, hp, e, he, if_true]
  | content T he h =>
    refine key (put ('<' :: '/' :: qn q ++ ['>']) (put v s)) ⟨rfl, rfl, rfl, rfl, id⟩ ?_ ?_
    · have := run_trans (run_trans h (run_white v v1)) (run_close (qn q) (qn_name hq))
      simpa [put] using this
    · have he' : (put v s).empty = false := he
      simp only [endElement, hp, v2, he']
      rfl

end Verif.XsltSink
