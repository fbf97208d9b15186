import Verif.Lemmas.SaxReader3
set_option autoImplicit false
/-!
# C85: filters; C86: features
-/
namespace Verif.Props.SaxReader
open Verif.SaxReader
open Verif.Spec.SaxReader
open Verif.Sax (Str)

/-! ## C85 -/

/-- C85 in full: parsing with a filter ends as the filters of the chain make of what the parser reports. -/
def GivesPipe (pr : Program) (w : World) (p f : Nat) (fs : List Nat) (body : List Call) : Prop :=
  ∀ depth n, fs.length + 1 ≤ n → fs.length + 1 ≤ depth →
    Ends (parse pr depth n w (.filter f) body) p f
      (watch pr (w.filters f).slots w.log w.answers (pipe (stages w (f :: fs).reverse) (reported body)))

/-- C85, partial: for every chain of filters that ends in a parser, whatever their classes do, whatever handlers were
set before, and for every program that while it is called sets handlers of the outermost filter only.
Missing: programs that set handlers of the other readers, filters as handlers of the outermost filter, and chains
that do not end in a parser (`C85_violated_parent`). -/
theorem C85_partial (pr : Program) (w : World) (p f : Nat) (fs : List Nat) (body : List Call)
    (hc : Chain w p (.filter f) (f :: fs)) (hp : Polite pr f) (hd : ∀ c, Direct ((w.filters f).slots c)) :
    GivesPipe pr w p f fs body :=
  fun depth n h1 h2 => parse_ends pr depth n p f fs w body hc hp hd h1 h2

/-- C85: a call is made of the handler set for the interface that SAX has it in: by a parser, and by a filter for
each of the calls it makes of one. -/
theorem C85_interfaces (pr : Program) (w : World) (p f depth : Nat) (c : Call) (hs : Channel → Nat)
    (hp : (w.parsers p).slots = fun i => some (.user (hs i))) :
    report pr depth p w c = w.user pr (hs (interface c)) c ∧
    deliver pr (depth + 1) w (.filter f) c =
      each (fun w o => deliver pr depth w ((w.filters f).slots (interface o)) o) (w.push f c) ((w.filters f).calls c) := by
  have h : ∀ c : Call, c.channel = interface c := by intro c; cases c <;> rfl
  refine ⟨?_, ?_⟩
  · rw [report, hp, h]
    dsimp only
    rw [deliver.eq_def]
  · rw [deliver.eq_def]
    simp only [h]

example (pr : Program) (w : World) (hp : (w.parsers 0).slots = fun i => some (.user i.toCtorIdx)) (t : Str) :
    report pr 1 0 w (.comment t) = w.user pr Channel.lexical.toCtorIdx (.comment t) :=
  (C85_interfaces pr w 0 0 1 (.comment t) _ hp).1

/-- C85: filters that change nothing hand on what the parser reports. -/
theorem C85_plain (pr : Program) (w : World) (p f : Nat) (fs : List Nat) (body : List Call)
    (hc : Chain w p (.filter f) (f :: fs)) (hp : Polite pr f) (hd : ∀ c, Direct ((w.filters f).slots c))
    (hm : ∀ g ∈ f :: fs, (w.filters g).makes = plain) (depth n : Nat) (h1 : fs.length + 1 ≤ n)
    (h2 : fs.length + 1 ≤ depth) :
    Ends (parse pr depth n w (.filter f) body) p f
      (watch pr (w.filters f).slots w.log w.answers (reported body)) := by
  have := C85_partial pr w p f fs body hc hp hd depth n h1 h2
  rwa [pipe_plain] at this
  intro s hs
  simp only [stages, List.mem_map] at hs
  obtain ⟨g, hg, rfl⟩ := hs
  exact hm g (List.mem_reverse.mp hg)

/-- What the program has seen, and whether there was no exception. -/
def result : Out → Option (Bool × List (Nat × Call) × List (Str × Str))
  | .ok w => some (true, w.log, w.answers)
  | .thrown w => some (false, w.log, w.answers)
  | _ => none

/-- C85, partial: with all six handlers set it makes no difference to the program whether it sets them on the parser
or on a chain of filters that change nothing.  See `C85_violated_silent` for fewer. -/
theorem C85_transparent_partial (pr : Program) (w w' : World) (p p' f : Nat) (fs : List Nat) (body : List Call)
    (hs : Channel → Nat) (hq : ∀ l h c, pr.reacts l h c = [])
    (hc : Chain w p (.filter f) (f :: fs)) (hd : (w.filters f).slots = fun c => .user (hs c))
    (hm : ∀ g ∈ f :: fs, (w.filters g).makes = plain)
    (hd' : (w'.parsers p').slots = fun c => some (.user (hs c))) (hl : w'.log = w.log) (ha : w'.answers = w.answers)
    (depth n depth' n' : Nat) (h1 : fs.length + 1 ≤ n) (h2 : fs.length + 1 ≤ depth) :
    result (parse pr depth n w (.filter f) body) = result (parse pr depth' n' w' (.parser p') body) ∧
      result (parse pr depth n w (.filter f) body) ≠ none := by
  have a := C85_plain pr w p f fs body hc (fun l h c s hs => by rw [hq] at hs; cases hs)
    (by rw [hd]; intro c; trivial) hm depth n h1 h2
  have b := direct_ends pr depth' n' p' hs hq w' body hd'
  rw [hd] at a
  rw [hl, ha] at b
  simp only [Ends] at a
  split at a
  · rename_i hf
    rw [if_pos hf] at b
    obtain ⟨u, a1, a2, a3, _⟩ := a
    obtain ⟨v, b1, b2, b3⟩ := b
    rw [a1, b1]
    simp [result, a2, a3, b2, b3]
  · rename_i hf
    rw [if_neg hf] at b
    obtain ⟨u, a1, a2, a3⟩ := a
    obtain ⟨v, b1, b2, b3⟩ := b
    rw [a1, b1]
    simp [result, a2, a3, b2, b3]

/-- C85: what the calls kept by the filter for text are: no others of those about the document. -/
theorem C85_text_only (cs seen : List Call) :
    through textOnly seen cs = cs.filter fun c => match c with
      | .resolveEntity .. | .setDocumentLocator | .startDocument | .endDocument | .startPrefixMapping ..
      | .endPrefixMapping .. | .characters .. | .ignorableWhitespace .. | .warning .. | .error .. | .fatalError .. => true
      | _ => false := by
  induction cs generalizing seen with
  | nil => rfl
  | cons c cs ih =>
    simp only [through, ih]
    cases c <;> simp [Call.channel, textOnly]

/-- Readers: filter 0 on parser 0, filter 1 on filter 0, all else fresh. -/
def two (m0 m1 : List Call → Call → List Call) : World :=
  ((World.mk (fun f => .init f none (if f = 0 then m0 else if f = 1 then m1 else plain)) (fun _ => .init) [] []).setParent 0
    (.parser 0)).setParent 1 (.filter 0)

/-- The program's handler 7 is set for content and errors on filter 1; on `startDocument` it sets handler 8 for
content, and it throws at the second text. -/
def watching (m0 m1 : List Call → Call → List Call) : World :=
  (two m0 m1).sets [⟨.filter 1, .content, .user 7⟩, ⟨.filter 1, .error, .user 7⟩]

def switching : Program where
  reacts _ h c := if h = 7 ∧ c = .startDocument then [⟨.filter 1, .content, .user 8⟩] else []
  throws log _ c := match c with
    | .characters _ => log.length ≥ 4
    | _ => false
  answer _ _ s := (s, s)

theorem watching_chain (m0 m1 : List Call → Call → List Call) : Chain (watching m0 m1) 0 (.filter 1) [1, 0] :=
  ⟨rfl, .filter 0, rfl, rfl, .parser 0, rfl, rfl⟩

theorem switching_polite : Polite switching 1 := by
  intro log h c s hs
  simp only [switching] at hs
  split at hs
  · simp only [List.mem_cons, List.not_mem_nil, or_false] at hs
    rw [hs]
    exact ⟨rfl, trivial⟩
  · cases hs

theorem watching_direct (m0 m1 : List Call → Call → List Call) : ∀ c, Direct (((watching m0 m1).filters 1).slots c) := by
  intro c
  cases c <;> trivial

/-- The hypotheses of `C85_partial` are met, by two filters of which one drops what is not text; and what it says. -/
example : GivesPipe switching (watching textOnly plain) 0 1 [0]
    [.startElement [] ['a'] ['a'] [], .characters ['x'], .comment ['c'], .characters ['y'], .endElement [] ['a'] ['a']] ∧
    (watch switching ((watching textOnly plain).filters 1).slots [] [] (pipe (stages (watching textOnly plain) [0, 1])
      (reported [.startElement [] ['a'] ['a'] [], .characters ['x'], .comment ['c'], .characters ['y'],
        .characters ['z']]))).log =
      [(7, .setDocumentLocator), (7, .startDocument), (8, .characters ['x']), (8, .characters ['y']),
        (8, .characters ['z'])] := by
  refine ⟨C85_partial _ _ _ _ _ _ (watching_chain _ _) switching_polite (watching_direct _ _), ?_⟩
  decide

/-- What the program here sees, run: it throws at the third text. -/
example : result (parse switching 2 2 (watching textOnly plain) (.filter 1)
    [.startElement [] ['a'] ['a'] [], .characters ['x'], .comment ['c'], .characters ['y'], .characters ['z']]) =
    some (false, [(7, .setDocumentLocator), (7, .startDocument), (8, .characters ['x']), (8, .characters ['y']),
        (8, .characters ['z'])], []) := rfl

/-- A program that does nothing when called, and the same handler for everything. -/
def quiet : Program := ⟨fun _ _ _ => [], fun _ _ _ => false, fun _ p s => (p, s)⟩

/-- The hypotheses of `C85_transparent_partial` are met. -/
example : result (parse quiet 2 2 ((two plain plain).sets (channels.map fun c => ⟨.filter 1, c, .user 3⟩)) (.filter 1)
      [.resolveEntity ['p'] ['s'], .fatalError ['e']]) =
    result (parse quiet 0 0 ((two plain plain).sets (channels.map fun c => ⟨.parser 5, c, .user 3⟩)) (.parser 5)
      [.resolveEntity ['p'] ['s'], .fatalError ['e']]) := by
  refine (C85_transparent_partial quiet ((two plain plain).sets (channels.map fun c => ⟨.filter 1, c, .user 3⟩))
    ((two plain plain).sets (channels.map fun c => ⟨.parser 5, c, .user 3⟩)) 0 5 1
    [0] _ (fun _ => 3) (fun _ _ _ => rfl) ⟨rfl, .filter 0, rfl, rfl, .parser 0, rfl, rfl⟩ ?_ ?_ ?_ rfl rfl 2 2 0 0 (by decide) (by decide)).1
  · funext c; cases c <;> rfl
  · intro g hg
    simp only [List.mem_cons, List.not_mem_nil, or_false] at hg
    rcases hg with rfl | rfl <;> rfl
  · funext c; cases c <;> rfl

/-- C85 is violated by a filter without a parent: parsing follows a null pointer. -/
theorem C85_violated_parent (pr : Program) (w : World) (f depth n : Nat) (body : List Call)
    (h : (w.filters f).parent = none) : parse pr depth (n + 1) w (.filter f) body = .null := by
  simp only [parse, h]

example : ((two plain plain).filters 2).parent = none := rfl

/-- C85 is violated if the program has set no handler for errors: a document that is not well formed is read without a
word by a parser, which goes on to report its end, and with an exception through a filter that changes nothing. -/
theorem C85_violated_silent :
    result (parse quiet 0 0 ((two plain plain).set ⟨.parser 5, .content, .user 3⟩) (.parser 5) [.fatalError ['e']]) =
      some (true, [(3, .setDocumentLocator), (3, .startDocument), (3, .endDocument)], []) ∧
    result (parse quiet 2 2 ((two plain plain).set ⟨.filter 1, .content, .user 3⟩) (.filter 1) [.fatalError ['e']]) =
      some (false, [(3, .setDocumentLocator), (3, .startDocument)], []) := ⟨rfl, rfl⟩

/-- A program that while it is called sets handlers of an inner filter is not covered: here the outer filter, a text
filter, is left out from then on. -/
example :
    let pr : Program := { quiet with reacts := fun _ _ c => if c = .startDocument then [⟨.filter 0, .content, .user 8⟩] else [] }
    result (parse pr 2 2 (watching plain textOnly) (.filter 1) [.startElement [] ['a'] ['a'] []]) =
      some (true, [(7, .setDocumentLocator), (7, .startDocument), (8, .startElement [] ['a'] ['a'] []),
        (8, .endDocument)], []) := by rfl

/-! ## C86 -/

/-- The features that can be set. -/
def Settable (n : Feature) : Prop := n ≠ .validation ∧ n ≠ .other

/-- C86 in full: a feature set, on a reader or on any filter before it, has the value set, on all of them, and the
others keep theirs. -/
def Sets (w : World) (p : Nat) (r : Reader) (d : Nat) (n : Feature) (v : Bool) : Prop :=
  ∃ w', setFeature d w r n v = .ok w' ∧
    (∀ fs r' d', Chain w' p r' fs → fs.length ≤ d' → getFeature d' w' r' n = .ok v) ∧
    ∀ m, m ≠ n → (w'.parsers p).getFeature m = (w.parsers p).getFeature m

/-- The features that a set may change besides its own. -/
def Bound (n m : Feature) : Prop :=
  (n = .namespaces ∧ m = .namespacePrefixes) ∨ (n = .namespacePrefixes ∧ m = .namespaces) ∨
  (n = .externalGeneral ∧ m = .externalParameter) ∨ (n = .externalParameter ∧ m = .externalGeneral)

instance (n m : Feature) : Decidable (Bound n m) := by unfold Bound; infer_instance

/-- C86, partial: while not parsing, the feature has the value on all readers of the chain, the features not bound to it
keep theirs, and no other reader changes.
Missing: the bound ones (`C86_violated_bound`, `C86_violated_external`). -/
theorem C86_partial (w : World) (p : Nat) (r : Reader) (fs : List Nat) (d : Nat) (n : Feature) (v : Bool)
    (hc : Chain w p r fs) (hl : fs.length ≤ d) (hp : (w.parsers p).parsing = false) (hn : Settable n) :
    ∃ w', setFeature d w r n v = .ok w' ∧
      (∀ fs r' d', Chain w' p r' fs → fs.length ≤ d' → getFeature d' w' r' n = .ok v) ∧
      (∀ m, m ≠ n → ¬ Bound n m → (w'.parsers p).getFeature m = (w.parsers p).getFeature m) ∧
      (∀ q, q ≠ p → w'.parsers q = w.parsers q) ∧ w'.filters = w.filters ∧
      (w'.parsers p).slots = (w.parsers p).slots ∧ (w'.parsers p).parsing = false := by
  obtain ⟨h1, h2⟩ := hn
  rw [set_chain p n v fs d w r hc hl]
  simp only [setFeature]
  have go : ∀ P : Parser, P.slots = (w.parsers p).slots → P.parsing = false → P.getFeature n = .ok v →
      (∀ m, m ≠ n → ¬ Bound n m → P.getFeature m = (w.parsers p).getFeature m) →
      ∃ w', Told.ok (w.setParser p P) = .ok w' ∧
      (∀ fs r' d', Chain w' p r' fs → fs.length ≤ d' → getFeature d' w' r' n = .ok v) ∧
      (∀ m, m ≠ n → ¬ Bound n m → (w'.parsers p).getFeature m = (w.parsers p).getFeature m) ∧
      (∀ q, q ≠ p → w'.parsers q = w.parsers q) ∧ w'.filters = w.filters ∧
      (w'.parsers p).slots = (w.parsers p).slots ∧ (w'.parsers p).parsing = false := by
    intro P e1 e2 e3 e4
    refine ⟨_, rfl, fun a r' d' hc' hl' => ?_, fun m hm hb => ?_, fun q hq => ?_, rfl, ?_, ?_⟩
    · rw [get_chain p _ a d' _ r' hc' hl']; simpa [World.setParser] using e3
    · simpa [World.setParser] using e4 m hm hb
    · simp [World.setParser, hq]
    · simpa [World.setParser] using e1
    · simpa [World.setParser] using e2
  cases n
  case validation => exact absurd rfl h1
  case other => exact absurd rfl h2
  all_goals
    simp only [Parser.setFeature, hp, Bool.false_eq_true, if_false]
    refine go _ rfl rfl rfl ?_
    intro m hm hb
    cases m <;> first | rfl | exact absurd rfl hm | exact absurd (by simp [Bound]) hb

/-- Setting features one after the other; exceptions are caught and leave everything as it was. -/
def settings (P : Parser) : List (Feature × Bool) → Parser
  | [] => P
  | (n, v) :: ss =>
    match P.setFeature n v with
    | .ok P' => settings P' ss
    | _ => settings P ss

/-- C86: after any settings, external entities are read as the last setting of either feature about them says, and
namespaces are processed as the last setting of that feature, or of prefixes to true, says. -/
theorem C86_history (ss : List (Feature × Bool)) (P : Parser) (h : P.parsing = false) :
    (settings P ss).external = lastSet (fun s => if s.1 = .externalGeneral ∨ s.1 = .externalParameter then some s.2
      else none) P.external ss ∧
    (settings P ss).namespaces = lastSet (fun s => if s.1 = .namespaces ∨ s = (.namespacePrefixes, true) then some s.2
      else none) P.namespaces ss := by
  have key : ∀ (f : Feature × Bool → Option Bool) (v : Bool) (s : Feature × Bool) (ss : List (Feature × Bool)),
      lastSet f v (s :: ss) = lastSet f ((f s).getD v) ss := by
    intro f v s ss
    simp only [lastSet, List.filterMap_cons]
    cases f s with
    | none => rfl
    | some b =>
      rw [List.getLast?_cons]
      cases h : (List.filterMap f ss).getLast? <;> simp
  induction ss generalizing P with
  | nil => exact ⟨rfl, rfl⟩
  | cons s ss ih =>
    obtain ⟨n, v⟩ := s
    rw [key, key]
    simp only [settings]
    cases n <;> simp only [Parser.setFeature, h, Bool.false_eq_true, if_false]
    · rw [(ih _ rfl).1, (ih _ rfl).2]; simp
    · rw [(ih _ rfl).1, (ih _ rfl).2]; cases v <;> cases hns : P.namespaces <;> simp
    · rw [(ih _ rfl).1, (ih _ rfl).2]; simp
    · rw [(ih _ rfl).1, (ih _ rfl).2]; simp
    · rw [(ih _ h).1, (ih _ h).2]; simp
    · rw [(ih _ h).1, (ih _ h).2]; simp

/-- A name that is no feature, or validation: an exception, and nothing else. -/
theorem C86_others (w : World) (p : Nat) (r : Reader) (fs : List Nat) (d : Nat) (v : Bool)
    (hc : Chain w p r fs) (hl : fs.length ≤ d) :
    setFeature d w r .other v = .notRecognized ∧ setFeature d w r .validation v = .notSupported ∧
      getFeature d w r .other = .notRecognized ∧ getFeature d w r .validation = .ok false := by
  rw [set_chain p _ v fs d w r hc hl, set_chain p _ v fs d w r hc hl, get_chain p _ fs d w r hc hl,
    get_chain p _ fs d w r hc hl]
  exact ⟨rfl, rfl, rfl, rfl⟩

/-- The hypotheses of `C86_partial` are met. -/
example : ∃ w', setFeature 2 (two plain plain) (.filter 1) .namespaces false = .ok w' ∧
    (w'.parsers 0).getFeature .namespaces = .ok false ∧ (w'.parsers 0).getFeature .externalGeneral = .ok false := by
  obtain ⟨w', h1, h2, h3, _⟩ := C86_partial (two plain plain) 0 (.filter 1) [1, 0] 2 .namespaces false
    ⟨rfl, .filter 0, rfl, rfl, .parser 0, rfl, rfl⟩ (by decide) rfl ⟨by decide, by decide⟩
  exact ⟨w', h1, h2 [] (.parser 0) 0 rfl (by decide), h3 .externalGeneral (by decide) (by decide)⟩

/-- C86 is violated: setting prefixes to true while namespaces are off turns namespaces on. -/
theorem C86_violated_bound :
    (settings .init [(.namespaces, false), (.namespacePrefixes, true)]).getFeature .namespaces = .ok true ∧
    (settings .init [(.namespaces, false)]).getFeature .namespaces = .ok false := ⟨rfl, rfl⟩

/-- C86 is violated: setting one of the two features about external entities sets the other. -/
theorem C86_violated_external :
    (settings .init [(.externalGeneral, true)]).getFeature .externalParameter = .ok true ∧
    Parser.init.getFeature .externalParameter = .ok false := ⟨rfl, rfl⟩

/-- SAX has no readers with both features about namespaces off, and a setting of the one turns on the other; but both
come to be off. -/
theorem C86_violated_off :
    (settings .init [(.namespaces, false), (.namespacePrefixes, false)]).getFeature .namespaces = .ok false ∧
    (settings .init [(.namespaces, false), (.namespacePrefixes, false)]).getFeature .namespacePrefixes = .ok false ∧
    (settings .init [(.namespacePrefixes, false), (.namespaces, false)]).getFeature .namespacePrefixes = .ok true :=
  ⟨rfl, rfl, rfl⟩

/-- C86 is violated: once a handler has thrown, the reader takes itself to be parsing for good, and no feature can
be set any more. -/
theorem C86_violated_thrown :
    ∃ w, parse { quiet with throws := fun _ _ c => c == .startDocument } 0 0
        ((two plain plain).set ⟨.parser 5, .content, .user 3⟩) (.parser 5) [] = .thrown w ∧
      ∀ n v, Settable n → setFeature 0 w (.parser 5) n v = .notSupported := by
  refine ⟨_, rfl, ?_⟩
  rintro n v ⟨h1, h2⟩
  cases n
  · rfl
  · rfl
  · rfl
  · rfl
  · exact absurd rfl h1
  · exact absurd rfl h2

end Verif.Props.SaxReader
