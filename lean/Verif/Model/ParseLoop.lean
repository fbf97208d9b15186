set_option autoImplicit false
/-!
# Reading a document: include/SAX/wrappers/saxexpat.hpp `parse`, `do_parse`; saxlibxml2.hpp `parse`

The parsers themselves, expat and libxml2, are any function `feed`: from the state of the parser, some bytes, and
whether these are the last, to the next state and whether there was no error.  What it reports of the content is
not seen here, but that it is given.  A loop that may not end has a number of turns it is allowed; `none` is that
these do not suffice.  Not modelled: `XML_GetBuffer` finding no memory; handlers of content that throw, which end
`parse` as an error handler does that throws.
-/
namespace Verif.ParseLoop

abbrev Byte := Nat

/-- A `std::istream`: what its buffer still gives, and its flags. -/
structure Stream where
  rest : List Byte
  /-- Where the bytes end the buffer throws, as that of a file does when the system cannot read it. -/
  breaks : Bool
  eof : Bool
  fail : Bool
  bad : Bool
  deriving DecidableEq, Repr

/-- `read(buffer, n)`, and the `gcount()` bytes read.  By the C++ standard: a stream that is not good gives nothing,
one that ends gets `eofbit` and `failbit`, one that throws gets `badbit`. -/
def Stream.read (n : Nat) (s : Stream) : Stream × List Byte :=
  if s.eof || s.fail || s.bad then ({ s with fail := true }, [])
  else if s.rest.length < n then
    if s.breaks then ({ s with rest := [], bad := true }, [])
    else ({ s with rest := [], eof := true, fail := true }, s.rest)
  else ({ s with rest := s.rest.drop n }, s.rest.take n)

variable {σ : Type}

abbrev Feed (σ : Type) := σ → List Byte → Bool → σ × Bool

/-- What happens, in its order. -/
inductive Ev where
  | setDocumentLocator
  | startDocument
  | endDocument
  /-- `XML_ParseBuffer` or `xmlParseChunk`, with these bytes, and whether they are the last. -/
  | give (bs : List Byte) (final : Bool)
  | fatalError
  deriving DecidableEq, Repr

/-- The loop of `do_parse`, saxexpat.hpp lines 489-508: the parser then, what it was given, and the result. -/
def loop (feed : Feed σ) : Nat → σ → Stream → Option (σ × List Ev × Bool)
  | 0, _, _ => none
  | k + 1, p, s =>
    if s.eof then some (p, [], true)
    else
      let (s, bs) := s.read (10 * 1024)
      let (p, ok) := feed p bs s.eof
      if ok then (loop feed k p s).map fun (p, evs, r) => (p, .give bs s.eof :: evs, r)
      else some (p, [.give bs s.eof], false)

/-- An error handler: none, or one, which may throw. -/
inductive Handler where
  | none
  | returns
  | throws
  deriving DecidableEq, Repr

/-- A reader: `parsing_`, and the parser. -/
structure Reader (σ : Type) where
  parsing : Bool
  p : σ

/-- `parse`, saxexpat.hpp lines 451-477, with a ContentHandler, and `do_parse`, lines 480-509, with `reportError`,
lines 546-560; the stream is what the source resolves to, or `none`.  The last result is that `parse` returned,
not by an exception. -/
def parse (init : σ) (feed : Feed σ) (h : Handler) (k : Nat) (r : Reader σ) (source : Option Stream) :
    Option (Reader σ × List Ev × Bool) :=
  let start := [Ev.setDocumentLocator, .startDocument]
  let result := match source with
    | none => some (r.p, [], false)
    | some s => loop feed k r.p s
  match result with
  | none => none
  | some (_, evs, true) => some (⟨false, init⟩, start ++ evs ++ [.endDocument], true)
  | some (p, evs, false) => match h with
    | .none => some (⟨false, init⟩, start ++ evs ++ [.endDocument], true)
    | .returns => some (⟨false, init⟩, start ++ evs ++ [.fatalError, .endDocument], true)
    | .throws => some (⟨true, p⟩, start ++ evs ++ [.fatalError], false)

/-- Several documents, one after the other. -/
def parseAll (init : σ) (feed : Feed σ) (h : Handler) (k : Nat) :
    Reader σ → List (Option Stream) → Option (Reader σ × List (List Ev))
  | r, [] => some (r, [])
  | r, s :: ss =>
    match parse init feed h k r s with
    | none => none
    | some (r, evs, _) => (parseAll init feed h k r ss).map fun (r, l) => (r, evs :: l)

/-- The loop of `parse`, saxlibxml2.hpp lines 421-426: libxml2 reports errors itself. -/
def loopXml2 (feed : Feed σ) : Nat → σ → Stream → Option (σ × List Ev)
  | 0, _, _ => none
  | k + 1, p, s =>
    if s.eof then some (p, [])
    else
      let (s, bs) := s.read 4096
      (loopXml2 feed k (feed p bs s.eof).1 s).map fun (p, evs) => (p, .give bs s.eof :: evs)

/-- `parse`, saxlibxml2.hpp lines 409-431. -/
def parseXml2 (init : σ) (feed : Feed σ) (k : Nat) (r : Reader σ) (source : Option Stream) :
    Option (Reader σ × List Ev) :=
  match source with
  | none => some (r, [.setDocumentLocator])
  | some s => (loopXml2 feed k r.p s).map fun (_, evs) => (⟨false, init⟩, .setDocumentLocator :: evs)

end Verif.ParseLoop
