import Verif.Lemmas.ExternalEntity
set_option autoImplicit false
set_option linter.unusedSimpArgs false
/-!
# C99: external entities are reported by their names
-/
namespace Verif.Props.ExternalEntity
open Verif.ExternalEntity
open Verif.Spec.ExternalEntity

/-- C99, for all sequences of documents, nested to any depth, in which external entities are told apart by their
system identifiers and there are no external parameter entities; for every choice of handlers, resolver, and
whether entities are read.  Without these it is false: `C99_violated_same`, `C99_violated_documents`,
`C99_violated_public`, `C99_violated_empty`, `C99_violated_parameter`. -/
theorem C99_partial (c : Cfg) (evs : Evs) (hw : WellFormed c.resolving [] evs) (hd : Distinct (declared evs)) :
    Right c evs (reports c evs) := by
  unfold reports
  by_cases hl : c.lexical = true
  · refine (run_right (.inl hl) hd evs (ents := []) ⟨?_, ?_, ?_, ?_⟩ hw fun _ h => h).1
    · intro k v h; cases h
    · intro d h; cases h
    · intro d h; cases h
    · intro d h; cases h
  · cases hr : c.resolving with
    | true => exact run_quiet (by simpa using hl) hr evs []
    | false =>
      refine (run_right (.inr hr) hd evs (ents := []) ⟨?_, ?_, ?_, ?_⟩ hw fun _ h => h).1
      · intro k v h; cases h
      · intro d h; cases h
      · intro d h; cases h
      · intro d h; cases h

theorem source_unique {c : Cfg} {pub sys : Str} {s s' : Src} (h : entitySource c pub sys s)
    (h' : entitySource c pub sys s') : s = s' := by
  unfold entitySource at h h'
  cases hr : c.resolver with
  | none => rw [hr] at h h'; exact h.trans h'.symm
  | some f =>
    rw [hr] at h h'
    obtain ⟨p, q, t⟩ := s
    obtain ⟨p', q', t'⟩ := s'
    dsimp only at h h'
    split at h
    next hc =>
      rw [if_pos hc] at h'
      rw [h.1, h.2.1, h.2.2, h'.1, h'.2.1, h'.2.2]
    next hc =>
      rw [if_neg hc] at h'
      rw [h.1, h.2.1, h.2.2, h'.1, h'.2.1, h'.2.2]

/-- One sequence of reports is right, and no other. -/
theorem right_unique {c : Cfg} : ∀ {evs : Evs} {r r' : List Rep}, Right c evs r → Right c evs r' → r = r' := by
  intro evs
  induction evs with
  | done => intro r r' h h'; cases h; cases h'; rfl
  | doctype pub sys rest ih =>
    intro r r' h h'
    cases h with | doctype _ _ _ _ h => cases h' with | doctype _ _ _ _ h' => exact ih h h'
  | declare e rest ih =>
    intro r r' h h'
    cases h with | declare _ _ _ h => cases h' with | declare _ _ _ h' => exact ih h h'
  | characters s rest ih =>
    intro r r' h h'
    cases h with | characters _ _ _ h => cases h' with | characters _ _ _ h' => rw [ih h h']
  | nextDocument rest ih =>
    intro r r' h h'
    cases h with | nextDocument _ _ h => cases h' with | nextDocument _ _ h' => exact ih h h'
  | ref e content rest ihc ihr =>
    intro r r' h h'
    cases h with
    | skipped _ _ _ _ hr h =>
      cases h' with
      | skipped _ _ _ _ _ h' => rw [ihr h h']
      | read _ _ _ _ _ _ hr' => rw [hr] at hr'; cases hr'
    | read _ _ _ _ _ _ hr hs h1 h2 =>
      cases h' with
      | skipped _ _ _ _ hr' h' => rw [hr] at hr'; cases hr'
      | read _ _ _ _ _ _ _ hs' h1' h2' => rw [ihc h1 h1', ihr h2 h2', source_unique hs hs']

def all : Cfg := ⟨true, true, true, none⟩
def skipping : Cfg := ⟨false, true, true, none⟩
def general (n : Str) (pub : Option Str) (sys : Str) : Ent := ⟨.general, n, pub, sys⟩
def subset (pub : Option Str) (sys : Str) : Ent := ⟨.subset, "[dtd]".toList, pub, sys⟩

/-- A document with an external subset that declares an entity, which refers to another; and a second document. -/
def sample : Evs :=
  .doctype (some ['p']) (some ['d']) <|
  .declare (general ['a'] none ['x']) <|
  .ref (subset (some ['p']) ['d']) (.declare (general ['b'] (some ['q']) ['y']) .done) <|
  .ref (general ['a'] none ['x'])
    (.characters ['1'] (.ref (general ['b'] (some ['q']) ['y']) (.characters ['2'] .done) .done)) <|
  .nextDocument <|
  .doctype none none <|
  .declare (general ['b'] none ['y']) <|
  .ref (general ['b'] none ['y']) .done .done

example : WellFormed true [] sample ∧ Distinct (declared sample) ∧
    reports all sample =
      [.startEntity dtd, .parse ⟨['p'], ['d'], none⟩, .endEntity dtd,
       .startEntity ['a'], .parse ⟨[], ['x'], none⟩, .characters ['1'],
         .startEntity ['b'], .parse ⟨['q'], ['y'], none⟩, .characters ['2'], .endEntity ['b'],
       .endEntity ['a'],
       .startEntity ['b'], .parse ⟨[], ['y'], none⟩, .endEntity ['b']] := by
  refine ⟨?_, ?_, by decide⟩
  · simp [sample, WellFormed, scope, general, subset]
  · simp [sample, declared, general, Distinct, saxName]

/-- A document whose entity is not read. -/
example : WellFormed false [] (.doctype none none <| .declare (general ['a'] none ['x']) <|
      .ref (general ['a'] none ['x']) .done .done) ∧
    reports skipping (.doctype none none <| .declare (general ['a'] none ['x']) <|
      .ref (general ['a'] none ['x']) .done .done) = [.skippedEntity ['a']] := by
  refine ⟨?_, by decide⟩
  simp [WellFormed, general]

/-- Of two entities with the same system identifier the second is reported by the name of the first. -/
theorem C99_violated_same (a b : Char) (s : Str) (hab : a ≠ b) (hs : s ≠ []) :
    let evs := Evs.doctype none none <| .declare (general [a] none s) <| .declare (general [b] none s) <|
      .ref (general [b] none s) .done .done
    WellFormed false [] evs ∧ reports skipping evs = [.skippedEntity [a]] ∧ ¬ Right skipping evs (reports skipping evs) := by
  intro evs
  have hs' : ¬ [] = s := fun e => hs e.symm
  have h1 : reports skipping evs = [.skippedEntity [a]] := by
    simp [evs, reports, run, startDoctypeDecl, entityDeclaration, insertKey, find, index, skipping, general, construct,
      toContent, hs, hs']
  refine ⟨by simp [evs, WellFormed, general], h1, ?_⟩
  rw [h1]
  generalize hx : [Rep.skippedEntity [a]] = x
  intro h
  simp only [evs] at h
  cases h with | doctype _ _ _ _ h => cases h with | declare _ _ _ h => cases h with | declare _ _ _ h => cases h with
    | skipped _ _ _ r _ h => simp [say, skipping, saxName, general] at hx; exact hab hx.1
    | read _ _ _ _ _ _ hr => cases hr

/-- Names are kept from one document to the next: an entity of the second is reported by the name that an entity
of the first had. -/
theorem C99_violated_documents (a b : Char) (s : Str) (hab : a ≠ b) (hs : s ≠ []) :
    let evs := Evs.doctype none none <| .declare (general [a] none s) <| .nextDocument <|
      .doctype none none <| .declare (general [b] none s) <| .ref (general [b] none s) .done .done
    WellFormed false [] evs ∧ reports skipping evs = [.skippedEntity [a]] ∧ ¬ Right skipping evs (reports skipping evs) := by
  intro evs
  have hs' : ¬ [] = s := fun e => hs e.symm
  have h1 : reports skipping evs = [.skippedEntity [a]] := by
    simp [evs, reports, run, startDoctypeDecl, entityDeclaration, insertKey, find, index, skipping, general, construct,
      toContent, hs, hs']
  refine ⟨by simp [evs, WellFormed, general], h1, ?_⟩
  rw [h1]
  generalize hx : [Rep.skippedEntity [a]] = x
  intro h
  simp only [evs] at h
  cases h with | doctype _ _ _ _ h => cases h with | declare _ _ _ h => cases h with | nextDocument _ _ h =>
    cases h with | doctype _ _ _ _ h => cases h with | declare _ _ _ h => cases h with
    | skipped _ _ _ r _ h => simp [say, skipping, saxName, general] at hx; exact hab hx.1
    | read _ _ _ _ _ _ hr => cases hr

/-- Public and system identifiers are not told apart: an entity is reported by the name of one whose public
identifier is its system identifier. -/
theorem C99_violated_public (a b : Char) (s t : Str) (hab : a ≠ b) (hs : s ≠ []) (hst : t ≠ s) :
    let evs := Evs.doctype none none <| .declare (general [a] (some s) t) <| .declare (general [b] none s) <|
      .ref (general [b] none s) .done .done
    WellFormed false [] evs ∧ reports skipping evs = [.skippedEntity [a]] ∧ ¬ Right skipping evs (reports skipping evs) := by
  intro evs
  have hs' : ¬ [] = s := fun e => hs e.symm
  have hst' : ¬ s = t := fun e => hst e.symm
  have h1 : reports skipping evs = [.skippedEntity [a]] := by
    have b1 : (s == t) = false := by simpa using hst'
    have b2 : (t == s) = false := by simpa using hst
    have b3 : (([] : Str) == s) = false := by simpa using hs'
    cases t with
    | nil =>
      simp [evs, reports, run, startDoctypeDecl, entityDeclaration, insertKey, find, index, skipping, general, construct,
        toContent, List.find?_cons, hs, hs', b1, b2, b3]
    | cons x t =>
      have b4 : (([] : Str) == x :: t) = false := rfl
      simp [evs, reports, run, startDoctypeDecl, entityDeclaration, insertKey, find, index, skipping, general, construct,
        toContent, List.find?_cons, hs, hs', b1, b2, b3, b4]
  refine ⟨by simp [evs, WellFormed, general], h1, ?_⟩
  rw [h1]
  generalize hx : [Rep.skippedEntity [a]] = x
  intro h
  simp only [evs] at h
  cases h with | doctype _ _ _ _ h => cases h with | declare _ _ _ h => cases h with | declare _ _ _ h => cases h with
    | skipped _ _ _ r _ h => simp [say, skipping, saxName, general] at hx; exact hab hx.1
    | read _ _ _ _ _ _ hr => cases hr

/-- Parameter entities are reported as general entities are, without the `%`. -/
theorem C99_violated_parameter (a : Char) (l s : Str) (hs : s ≠ []) :
    let evs := Evs.doctype none none <| .declare ⟨.parameter, a :: l, none, s⟩ <| .ref ⟨.parameter, a :: l, none, s⟩ .done .done
    WellFormed true [] evs ∧
    reports all evs = [.startEntity (a :: l), .parse ⟨[], s, none⟩, .endEntity (a :: l)] ∧
    ¬ Right all evs (reports all evs) := by
  intro evs
  have hs' : ¬ [] = s := fun e => hs e.symm
  have h1 : reports all evs = [.startEntity (a :: l), .parse ⟨[], s, none⟩, .endEntity (a :: l)] := by
    simp [evs, reports, run, startDoctypeDecl, entityDeclaration, insertKey, find, index, all, construct,
      toLexical, source, hs, hs']
  refine ⟨by simp [evs, WellFormed], h1, ?_⟩
  rw [h1]
  generalize hx : [Rep.startEntity (a :: l), .parse ⟨[], s, none⟩, .endEntity (a :: l)] = x
  intro h
  simp only [evs] at h
  cases h with | doctype _ _ _ _ h => cases h with | declare _ _ _ h => cases h with
    | skipped _ _ _ r hr h => cases hr
    | read _ _ _ _ _ _ hr => simp [say, all, saxName] at hx

/-- An entity with an empty system identifier is reported as the external subset of a document that has none. -/
theorem C99_violated_empty (n : Str) (hn : n ≠ []) (hd : n ≠ "[dtd]".toList) :
    let evs := Evs.doctype none none <| .declare (general n none []) <| .ref (general n none []) .done .done
    WellFormed false [] evs ∧ reports skipping evs = [.skippedEntity dtd] ∧
    ¬ Right skipping evs (reports skipping evs) := by
  intro evs
  have h1 : reports skipping evs = [.skippedEntity dtd] := by
    simp [evs, reports, run, startDoctypeDecl, entityDeclaration, insertKey, find, index, skipping, general, construct,
      toContent, dtd]
  refine ⟨by simp [evs, WellFormed, general, hn], h1, ?_⟩
  rw [h1]
  generalize hx : [Rep.skippedEntity dtd] = x
  intro h
  simp only [evs] at h
  cases h with | doctype _ _ _ _ h => cases h with | declare _ _ _ h => cases h with
    | skipped _ _ _ r _ h =>
      simp only [say, skipping, saxName, general, if_true, List.cons_append, List.nil_append, List.cons.injEq,
        Rep.skippedEntity.injEq] at hx
      exact hd (by rw [← hx.1, dtd_eq])
    | read _ _ _ _ _ _ hr => cases hr

end Verif.Props.ExternalEntity
