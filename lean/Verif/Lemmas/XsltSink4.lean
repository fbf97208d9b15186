import Verif.Lemmas.XsltSink3
set_option autoImplicit false
set_option linter.unusedSimpArgs false
set_option linter.unusedVariables false
/-!
# What comes before the root element
-/
namespace Verif.XsltSink
open Verif.Xslt (Str QN OAttr Event Instr Instrs Out execs transform)
open Verif.Spec.Xml hiding Str
open Verif.XmlReader
open Verif.Spec.XsltOutput (Res Open readEvent readEvents sections listed)
open Verif.Spec.XsltSink
open Verif.XPath (find)

/-- The same sink with other settings, past the prolog, and with text before. -/
def shift (D : Str) (st : Settings) (s : Sink) : Sink := { s with set := st, seenRoot := true, out := D ++ s.out }

def Ready (s : Sink) : Prop := s.set.omitDeclaration = true

theorem ready_or {s : Sink} (h : Ready s) : s.seenRoot = true ∨ s.set.omitDeclaration = true := .inr h

theorem shift_put (D : Str) (st : Settings) (t : Str) (s : Sink) : put t (shift D st s) = shift D st (put t s) := by
  simp [put, shift]

theorem shift_prolog (D : Str) (st : Settings) (n : Str) {s : Sink} (h : Ready s) :
    prolog n (shift D st s) = shift D st (prolog n s) := by
  rw [prolog_ready n (ready_or h), prolog_ready]
  exact .inl rfl

theorem shift_close (D : Str) (st : Settings) {s : Sink} (h : Ready s) :
    closeIfEmpty (shift D st s) = shift D st (closeIfEmpty s) ∧ Ready (closeIfEmpty s) := by
  by_cases he : s.empty = true
  · rw [close_true (ready_or h) he, close_true (s := shift D st s) (.inl rfl) he]
    exact ⟨by simp [put, shift], h⟩
  · have he : s.empty = false := by simpa using he
    rw [close_false (ready_or h) he, close_false (s := shift D st s) (.inl rfl) he]
    exact ⟨rfl, h⟩

theorem shift_indent (D : Str) (st : Settings) (s : Sink) : indent (shift D st s) = shift D st (indent s) := by
  simp only [indent]
  by_cases h : s.indent = -1
  · rw [if_pos h, if_pos (show (shift D st s).indent = -1 from h)]
  · rw [if_neg h, if_neg (show (shift D st s).indent ≠ -1 from h)]
    by_cases h0 : s.indent = 0
    · simp [shift, h0, put]
    · simp [shift, h0, put]

theorem indent_set (s : Sink) : (indent s).set = s.set := (indent_spec s).elim fun w h => h.2.2.1

theorem shift_preoutdent (D : Str) (st : Settings) (s : Sink) : preoutdent (shift D st s) = shift D st (preoutdent s) := by
  simp only [preoutdent]
  by_cases h : (s.outAgain && !s.empty) = true
  · rw [if_pos h, if_pos (show ((shift D st s).outAgain && !(shift D st s).empty) = true from h), shift_put]
  · rw [if_neg h, if_neg (show ¬ ((shift D st s).outAgain && !(shift D st s).empty) = true from h)]

theorem shift_outdent (D : Str) (st : Settings) (s : Sink) : outdent (shift D st s) = shift D st (outdent s) := by
  simp only [outdent]
  by_cases h : s.indent = -1
  · rw [if_pos h, if_pos (show (shift D st s).indent = -1 from h)]
  · rw [if_neg h, if_neg (show (shift D st s).indent ≠ -1 from h)]
    by_cases h0 : (s.outAgain && s.empty) = true
    · simp [shift, h0, put]
    · simp [shift, h0, put]

theorem shift_startCDATA (D : Str) (st : Settings) {s : Sink} (h : Ready s) :
    startCDATA (shift D st s) = shift D st (startCDATA s) ∧ Ready (startCDATA s) := by
  simp only [startCDATA]
  rw [(shift_close D st h).1]
  exact ⟨by simp [put, shift], (shift_close D st h).2⟩

theorem shift_endCDATA (D : Str) (st : Settings) (s : Sink) : endCDATA (shift D st s) = shift D st (endCDATA s) := by
  simp [endCDATA, put, shift]

theorem shift_loop (D : Str) (st : Settings) (ch : Str) (n : Nat) : ∀ (i j : Nat) (s : Sink), Ready s →
    cdataLoop ch n i j (shift D st s) = shift D st (cdataLoop ch n i j s) ∧ Ready (cdataLoop ch n i j s) := by
  induction n with
  | zero => intro i j s h; exact ⟨rfl, h⟩
  | succ n ih =>
    intro i j s h
    have e : startCDATA (endCDATA (put ((ch.drop i).take (j + 2)) (shift D st s))) =
        shift D st (startCDATA (endCDATA (put ((ch.drop i).take (j + 2)) s))) := by
      rw [shift_put, shift_endCDATA, (shift_startCDATA D st _).1]
      exact h
    have r : Ready (startCDATA (endCDATA (put ((ch.drop i).take (j + 2)) s))) :=
      (shift_startCDATA D st (s := endCDATA (put ((ch.drop i).take (j + 2)) s)) h).2
    rw [cdataLoop, cdataLoop, e]
    cases find (ch.drop (j + 2)) "]]>".toList with
    | none => exact ⟨shift_put .., r⟩
    | some k => exact ih _ _ _ r

theorem shift_characters (D : Str) (st : Settings) (ch : Str) {s : Sink} (h : Ready s) :
    characters ch (shift D st s) = shift D st (characters ch s) ∧ Ready (characters ch s) := by
  obtain ⟨h1, h2⟩ := shift_close D st h
  simp only [characters]
  rw [h1]
  generalize closeIfEmpty s = s at h2
  by_cases c1 : (!s.disabled && !s.inCdata) = true
  · rw [if_pos c1, if_pos (show (!(shift D st s).disabled && !(shift D st s).inCdata) = true from c1)]
    exact ⟨shift_put .., h2⟩
  · rw [if_neg c1, if_neg (show ¬ (!(shift D st s).disabled && !(shift D st s).inCdata) = true from c1)]
    by_cases c2 : s.inCdata = true
    · rw [if_pos c2, if_pos (show (shift D st s).inCdata = true from c2), cdataText, cdataText]
      cases find ch "]]>".toList with
      | none => exact ⟨shift_put .., h2⟩
      | some k => exact shift_loop D st ch _ _ _ _ h2
    · rw [if_neg c2, if_neg (show ¬ (shift D st s).inCdata = true from c2)]
      exact ⟨shift_put .., h2⟩

theorem shift_event (D : Str) (st : Settings) (e : Event) {s : Sink} (h : Ready s) :
    event (shift D st s) e = shift D st (event s e) ∧ Ready (event s e) := by
  cases e with
  | characters ch => exact shift_characters D st ch h
  | startCDATA => exact shift_startCDATA D st h
  | endCDATA => exact ⟨shift_endCDATA D st s, h⟩
  | comment ch =>
    simp only [event, comment]
    rw [(shift_close D st h).1]
    exact ⟨shift_put .., (shift_close D st h).2⟩
  | pi t d =>
    simp only [event, pi]
    rw [(shift_close D st h).1]
    exact ⟨shift_put .., (shift_close D st h).2⟩
  | startElement q u atts =>
    simp only [event, startElement]
    rw [prolog_ready _ (ready_or h), prolog_ready _ (.inl rfl : (shift D st s).seenRoot = true ∨ _)]
    by_cases he : s.empty = true
    · rw [if_pos he, if_pos (show (shift D st s).empty = true from he), shift_put, shift_indent, shift_put, shift_put]
      refine ⟨rfl, ?_⟩
      show (indent (put ['>'] s)).set.omitDeclaration = true
      rw [indent_set]
      exact h
    · rw [if_neg he, if_neg (show ¬ (shift D st s).empty = true from he), shift_indent, shift_put, shift_put]
      refine ⟨rfl, ?_⟩
      show (indent s).set.omitDeclaration = true
      rw [indent_set]
      exact h
  | endElement q u =>
    simp only [event, endElement]
    rw [prolog_ready _ (ready_or h), prolog_ready _ (.inl rfl : (shift D st s).seenRoot = true ∨ _), shift_preoutdent]
    have hset : (preoutdent s).set = s.set := by
      obtain ⟨w, _, e, _⟩ := preoutdent_spec s
      rw [e]
      rfl
    have hset2 : ∀ t, (outdent (put t (preoutdent s))).set.omitDeclaration = true := by
      intro t
      obtain ⟨w, _, _, e, _⟩ := outdent_spec (put t (preoutdent s))
      rw [e]
      show (preoutdent s).set.omitDeclaration = true
      rw [hset]
      exact h
    by_cases he : (preoutdent s).empty = true
    · rw [if_pos he, if_pos (show (shift D st (preoutdent s)).empty = true from he), shift_put, shift_outdent]
      exact ⟨rfl, hset2 _⟩
    · rw [if_neg he, if_neg (show ¬ (shift D st (preoutdent s)).empty = true from he), shift_put, shift_outdent]
      exact ⟨rfl, hset2 _⟩

theorem shift_events (D : Str) (st : Settings) (es : List Event) : ∀ s : Sink, Ready s →
    es.foldl event (shift D st s) = shift D st (es.foldl event s) := by
  induction es with
  | nil => intro s _; rfl
  | cons e es ih =>
    intro s h
    obtain ⟨h1, h2⟩ := shift_event D st e h
    rw [List.foldl_cons, List.foldl_cons, h1, ih _ h2]

/-! ## the first event -/

/-- Without the declaration. -/
def bareSettings (st : Settings) : Settings := { st with omitDeclaration := true }

theorem decl_start (name : Str) (st : Settings) (ht : st.text = false) (ho : st.omitDeclaration = false) :
    decl name (start st) = shift (declText st ++ doctypeText name st) st (start (bareSettings st)) := by
  rw [decl, if_neg (by simp [start, ht, ho])]
  simp only [put, shift, start, bareSettings, List.nil_append, List.append_nil]
  rfl

/-- The name a doctype is written for. -/
def eventName : Event → Str
  | .startElement q _ _ => qn q
  | _ => []

theorem first_event (st : Settings) (ht : st.text = false) (ho : st.omitDeclaration = false) (e : Event)
    (he : e ≠ .endCDATA) : event (start st) e = event (decl (eventName e) (start st)) e := by
  have hs : ∀ n, (decl n (start st)).seenRoot = true := by
    intro n
    rw [decl_start n st ht ho]
    rfl
  have hem : ∀ n, (decl n (start st)).empty = false := by
    intro n
    rw [decl_start n st ht ho]
    rfl
  have hp : ∀ n m, prolog n (decl m (start st)) = decl m (start st) := fun n m => prolog_ready n (.inl (hs m))
  have hp0 : ∀ n, prolog n (start st) = decl n (start st) := fun n => by rw [prolog, if_neg (by simp [start])]
  have hc : closeIfEmpty (start st) = closeIfEmpty (decl [] (start st)) := by
    rw [close_false (.inl (hs [])) (hem []), closeIfEmpty, if_neg (by simp [start]), hp0]
  cases e with
  | endCDATA => exact absurd rfl he
  | startElement q u atts => simp only [event, eventName, startElement, hp, hp0]
  | endElement q u => simp only [event, eventName, endElement, hp, hp0]
  | characters ch => simp only [event, eventName, characters, hc]; rfl
  | startCDATA => simp only [event, eventName, startCDATA, hc]
  | comment ch => simp only [event, eventName, comment, hc]
  | pi t d => simp only [event, eventName, pi, hc]

theorem write_cons (st : Settings) (ht : st.text = false) (ho : st.omitDeclaration = false) (e : Event) (es : List Event)
    (he : e ≠ .endCDATA) :
    write st (e :: es) = declText st ++ doctypeText (eventName e) st ++ write (bareSettings st) (e :: es) := by
  rw [write, List.foldl_cons, first_event st ht ho e he, decl_start _ st ht ho, ← List.foldl_cons,
    shift_events _ _ _ _ (show Ready (start (bareSettings st)) from rfl)]
  rfl

/-! ## the declaration read -/

theorem piClose_join {a b : Str} {c : Char} (hc : c ≠ '>') (ha : ¬ piClose <:+: a) (hb : ¬ piClose <:+: b) (hq : c ≠ '?') :
    ¬ piClose <:+: a ++ c :: b := by
  induction a with
  | nil =>
    rw [List.nil_append, List.infix_cons_iff]
    rintro (h | h)
    · obtain ⟨t, ht⟩ := h
      simp [piClose] at ht
      exact hq ht.1.symm
    · exact hb h
  | cons x a ih =>
    rw [List.infix_cons_iff, not_or] at ha
    rw [List.cons_append, List.infix_cons_iff]
    rintro (h | h)
    · cases a with
      | nil =>
        obtain ⟨t, ht⟩ := h
        simp [piClose] at ht
        exact hc ht.2.1.symm
      | cons y a =>
        refine ha.1 ?_
        obtain ⟨t, ht⟩ := h
        simp [piClose] at ht
        obtain ⟨rfl, rfl, -⟩ := ht
        exact ⟨a, rfl⟩
    · exact ih ha.2 h

def lit1 : Str := "<?xml version=\"".toList
def lit2 : Str := "version=\"".toList
def lit3 : Str := " standalone=\"".toList
def lit4 : Str := "1.0".toList
def lit5 : Str := "?>\n".toList

theorem run_declText (v w : Str) (n1 : ¬ piClose <:+: v) (n2 : ¬ piClose <:+: w) :
    run .content (lit1 ++ v ++ ['"'] ++ w ++ lit5) = (.content, [.pi "xml".toList (lit2 ++ v ++ ['"'] ++ w), .char '\n']) := by
  have n3 : ¬ piClose <:+: ("xml".toList ++ ' ' :: lit2) ++ (v ++ '"' :: w) :=
    piClose_infix _ _ (by decide +kernel) (piClose_join (by decide) n1 n2 (by decide))
  have h := run_piRaw _ n3
  have e3 : ("xml".toList ++ ' ' :: lit2) ++ (v ++ '"' :: w) = "xml".toList ++ ' ' :: (lit2 ++ v ++ ['"'] ++ w) := by
    simp only [List.append_assoc, List.cons_append, List.nil_append]
  rw [e3, splitPi_data _ _ (by decide +kernel)] at h
  have h2 : run .content ['\n'] = (.content, [.char '\n']) := by decide +kernel
  have h3 := run_trans h h2
  have e4 : (lit2 ++ v ++ ['"'] ++ w).dropWhile isWhite = lit2 ++ v ++ ['"'] ++ w := by
    have l2 : lit2 = 'v' :: lit2.tail := by decide +kernel
    rw [l2]
    rfl
  rw [e4] at h3
  have e5 : lit1 ++ v ++ ['"'] ++ w ++ lit5 =
      '<' :: '?' :: ("xml".toList ++ ' ' :: (lit2 ++ v ++ ['"'] ++ w)) ++ ['?', '>'] ++ ['\n'] := by
    have l1 : lit1 = '<' :: '?' :: 'x' :: 'm' :: 'l' :: ' ' :: lit2 := by decide +kernel
    have l5 : lit5 = ['?', '>', '\n'] := by decide +kernel
    have lx : "xml".toList = ['x', 'm', 'l'] := by decide +kernel
    rw [l1, l5, lx]
    simp only [List.append_assoc, List.cons_append, List.nil_append]
  rw [e5]
  exact h3

theorem run_decl (st : Settings) (hv : ¬ piClose <:+: st.version) (hs : ¬ piClose <:+: st.standalone) :
    ∃ d, declaration st.version st.standalone = [.pi "xml".toList d, .text ['\n']] ∧
      run .content (declText st) = (.content, [.pi "xml".toList d, .char '\n']) := by
  have e1 : (if st.version.isEmpty then lit4 else st.version) = if st.version = [] then lit4 else st.version := by
    by_cases h : st.version = []
    · rw [if_pos h, if_pos (by simp [h])]
    · rw [if_neg h, if_neg (by simpa using h)]
  have e2 : (if st.standalone.isEmpty then [] else lit3 ++ st.standalone ++ ['"']) =
      if st.standalone = [] then [] else lit3 ++ st.standalone ++ ['"'] := by
    by_cases h : st.standalone = []
    · rw [if_pos h, if_pos (by simp [h])]
    · rw [if_neg h, if_neg (by simpa using h)]
  have n1 : ¬ piClose <:+: (if st.version = [] then lit4 else st.version) := by
    by_cases h : st.version = []
    · rw [if_pos h]; decide +kernel
    · rw [if_neg h]; exact hv
  have n2 : ¬ piClose <:+: (if st.standalone = [] then [] else lit3 ++ st.standalone ++ ['"']) := by
    by_cases h : st.standalone = []
    · rw [if_pos h]; decide +kernel
    · rw [if_neg h, List.append_assoc]
      refine piClose_infix _ _ (by decide +kernel) ?_
      exact piClose_join (by decide) hs (by decide +kernel) (by decide)
  refine ⟨_, rfl, ?_⟩
  have h := run_declText _ _ n1 n2
  rw [← e1, ← e2] at h
  have e6 : declText st = lit1 ++ (if st.version.isEmpty then lit4 else st.version) ++ ['"'] ++
      (if st.standalone.isEmpty then [] else lit3 ++ st.standalone ++ ['"']) ++ lit5 := rfl
  rw [e6, h, e1, e2]
  rfl

end Verif.XsltSink
