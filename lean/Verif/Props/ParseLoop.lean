import Verif.Lemmas.ParseLoop
set_option autoImplicit false
set_option linter.unusedSimpArgs false
/-!
# C100: the parser gets the document, all of it, and parsing returns
-/
namespace Verif.Props.ParseLoop
open Verif.ParseLoop
open Verif.Spec.ParseLoop

variable {σ : Type}

/-- C100, for readers that use expat: whatever the parser makes of what it is given, and however many documents of
whatever length are read with one reader, if the streams can be read and the error handler does not throw.  Without
these it is false: `C100_violated_fail`, `C100_violated_breaks`, `C100_violated_eof`, `C100_violated_throw`. -/
theorem C100_partial (init : σ) (feed : Feed σ) (h : Handler) (hh : h ≠ .throws) (ss : List (Option Stream))
    (hs : ∀ s, some s ∈ ss → Good s) :
    ∃ k l, parseAll init feed h k ⟨false, init⟩ ss = some (⟨false, init⟩, l) ∧
      ReadsEach init feed (h == .returns) ss l := by
  obtain ⟨k, hk⟩ := bound ss
  obtain ⟨l, h1, h2⟩ := parseAll_reads init feed h hh k ss fun s hm => ⟨hs s hm, hk s hm⟩
  exact ⟨k + 1, l, h1, h2⟩

/-- The same for libxml2, which reports errors itself: it is given all of each document. -/
theorem C100_libxml2_partial (init : σ) (feed : Feed σ) (b : Bool) (s : Stream) (hs : Good s) :
    ∃ k evs, parseXml2 init feed k ⟨b, init⟩ (some s) = some (⟨false, init⟩, .setDocumentLocator :: evs) ∧
      Whole s.rest evs := by
  obtain ⟨p', evs, h1, h2⟩ := loopXml2_whole feed (s.rest.length + 1) init s hs (by omega)
  exact ⟨s.rest.length + 1 + 1, evs, by unfold parseXml2; dsimp only; rw [h1]; rfl, h2⟩

/-- The pieces of a whole document are its content. -/
theorem whole_content {c : List Byte} {evs : List Ev} (h : Whole c evs) :
    (evs.flatMap fun e => match e with | .give bs _ => bs | _ => []) = c ∧
    (evs.filter fun e => match e with | .give _ true => true | _ => false).length = 1 := by
  induction h with
  | last bs => simp
  | more bs rest evs _ _ ih => simp [ih.1, ih.2]

/-- A parser to which the byte 0 is an error, and everything after an error. -/
def toy : Feed Bool := fun p bs _ => if p || bs.contains 0 then (true, false) else (false, true)

def stream (l : List Byte) : Stream := ⟨l, false, false, false, false⟩

example : (∀ s, some s ∈ [some (stream [1, 0]), none, some (stream (List.replicate 10240 1))] → Good s) ∧
    (parseAll false toy .returns 3 ⟨false, false⟩ [some (stream [1, 0]), none, some (stream [1])]).map Prod.snd =
      some [[.setDocumentLocator, .startDocument, .give [1, 0] true, .fatalError, .endDocument],
            [.setDocumentLocator, .startDocument, .fatalError, .endDocument],
            [.setDocumentLocator, .startDocument, .give [1] true, .endDocument]] := by
  refine ⟨?_, by decide +kernel⟩
  intro s hs
  simp only [List.mem_cons, Option.some.injEq, List.not_mem_nil, or_false] at hs
  rcases hs with h | h | h
  · subst h; exact ⟨rfl, rfl, rfl, rfl⟩
  · cases h
  · subst h; exact ⟨rfl, rfl, rfl, rfl⟩

/-- A document of just the size of the buffer: the parser is told that it ends. -/
example (x : Byte) : ∃ evs, (loop (fun (_ : Unit) _ _ => ((), true)) 3 () (stream (List.replicate 10240 x))) =
    some ((), evs, true) ∧ evs = [.give (List.replicate 10240 x) false, .give [] true] := by
  have h1 : (stream (List.replicate 10240 x)).read (10 * 1024) = (stream [], List.replicate 10240 x) := by
    have hlen : (List.replicate 10240 x).length ≤ 10 * 1024 := by rw [List.length_replicate]; decide
    rw [read_long ⟨rfl, rfl, rfl, rfl⟩ (by
      show ¬ (List.replicate 10240 x).length < 10 * 1024
      rw [List.length_replicate]; decide)]
    show (stream ((List.replicate 10240 x).drop (10 * 1024)), (List.replicate 10240 x).take (10 * 1024)) = _
    rw [List.drop_of_length_le hlen, List.take_of_length_le hlen]
  have h2 : (stream []).read (10 * 1024) = (⟨[], false, true, true, false⟩, []) := by
    rw [read_short ⟨rfl, rfl, rfl, rfl⟩ (by simp [stream])]; rfl
  refine ⟨_, ?_, rfl⟩
  rw [loop, if_neg (by exact Bool.false_ne_true), h1]
  dsimp only
  rw [if_pos rfl, loop, if_neg (by exact Bool.false_ne_true), h2]
  rfl

/-- Reading a stream that has failed, as one of a file that is not there has, does not return: with expat, to which
a piece without any bytes is nothing, nor with libxml2. -/
theorem C100_violated_fail (init : σ) (feed : Feed σ) (r : Reader σ) (h0 : feed r.p [] false = (r.p, true)) (h : Handler)
    (s : Stream) (he : s.eof = false) (hf : (s.fail || s.bad) = true) :
    ∀ k, parse init feed h k r (some s) = none ∧ parseXml2 init feed k r (some s) = none := by
  intro k
  refine ⟨?_, ?_⟩
  · unfold parse
    dsimp only
    rw [loop_stuck feed r.p h0 k s he hf]
  · unfold parseXml2
    dsimp only
    rw [loopXml2_stuck feed k r.p s he hf]
    rfl

example (k : Nat) : parse false toy .returns k ⟨false, false⟩ (some ⟨[], false, false, true, false⟩) = none :=
  (C100_violated_fail false toy ⟨false, false⟩ rfl .returns _ rfl rfl k).1

/-- Nor does it return for one that breaks, as one of a directory does, if no piece of the content is an error: `P` is
what the parser is as long as there is none. -/
theorem C100_violated_breaks (init : σ) (feed : Feed σ) (l : List Byte) (P : σ → Prop) (h : Handler) (r : Reader σ)
    (hp : P r.p) (h0 : ∀ p bs, P p → bs <:+: l → (feed p bs false).2 = true ∧ P (feed p bs false).1) :
    ∀ k, parse init feed h k r (some ⟨l, true, false, false, false⟩) = none := by
  intro k
  unfold parse
  dsimp only
  rw [loop_breaks feed l P h0 k r.p _ hp List.suffix_rfl rfl rfl]

example (k : Nat) : parse false toy .returns k ⟨false, false⟩ (some ⟨[1, 2], true, false, false, false⟩) = none := by
  refine C100_violated_breaks false toy [1, 2] (fun p => p = false) .returns ⟨false, false⟩ rfl ?_ k
  rintro p bs rfl hb
  have : bs.contains 0 = false := by
    cases hc : bs.contains 0 with
    | false => rfl
    | true =>
      have h0 : 0 ∈ bs := by simpa using hc
      have := hb.subset h0
      simp at this
  unfold toy
  rw [this]
  exact ⟨rfl, rfl⟩

/-- A stream that was read to its end before is taken for a document: the parser is given nothing, not even the end,
and no error is reported. -/
theorem C100_violated_eof (init : σ) (feed : Feed σ) (h : Handler) (k : Nat) (l : List Byte) (b f g : Bool) :
    parse init feed h (k + 1) ⟨false, init⟩ (some ⟨l, b, true, f, g⟩) =
      some (⟨false, init⟩, [.setDocumentLocator, .startDocument, .endDocument], true) ∧
    ¬ Reads init feed (h == .returns) (some ⟨l, b, true, f, g⟩) [.setDocumentLocator, .startDocument, .endDocument] := by
  refine ⟨by simp [parse, loop], ?_⟩
  generalize hx : [Ev.setDocumentLocator, .startDocument, .endDocument] = x
  have key : ∀ {p : σ} {c : List Byte} {evs : List Ev} {ok : Bool}, Gives feed p c evs ok → ∃ bs fin t, evs = .give bs fin :: t := by
    intro p c evs ok hg
    cases hg with
    | last => exact ⟨_, _, _, rfl⟩
    | error => exact ⟨_, _, _, rfl⟩
    | more => exact ⟨_, _, _, rfl⟩
  intro hr
  cases hr with
  | ok _ evs hg => obtain ⟨bs, fin, t, rfl⟩ := key hg; simp at hx
  | error _ evs hg => obtain ⟨bs, fin, t, rfl⟩ := key hg; simp at hx

/-- After an error handler has thrown, the reader says that it is parsing, and the next document, which a new reader
reads, is given to the parser where it was. -/
theorem C100_violated_throw :
    (parse false toy .throws 3 ⟨false, false⟩ (some (stream [0]))).map (fun x => (x.1.parsing, x.1.p, x.2)) =
      some (true, true, [.setDocumentLocator, .startDocument, .give [0] true, .fatalError], false) ∧
    (parseAll false toy .throws 3 ⟨false, false⟩ [some (stream [0]), some (stream [1])]).map Prod.snd =
      some [[.setDocumentLocator, .startDocument, .give [0] true, .fatalError],
            [.setDocumentLocator, .startDocument, .give [1] true, .fatalError]] ∧
    (parse false toy .throws 3 ⟨false, false⟩ (some (stream [1]))).map (fun x => x.2) =
      some ([.setDocumentLocator, .startDocument, .give [1] true, .endDocument], true) := by
  refine ⟨by decide +kernel, by decide +kernel, by decide +kernel⟩

/-- With libxml2 a source that cannot be resolved is not reported at all. -/
theorem C100_violated_unresolved (init : σ) (feed : Feed σ) (k : Nat) (r : Reader σ) :
    parseXml2 init feed k r none = some (r, [.setDocumentLocator]) := rfl

end Verif.Props.ParseLoop
