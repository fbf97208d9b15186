import Verif.Model.Unicode
set_option autoImplicit false
/-!
# Streams that convert: include/io/convert_adaptor.hpp

`α` is the character of the stream underneath (`externalCharT`), `β` that of the adaptor (`charT`); a facet is a function
as in Model/Unicode: `none` is undefined behaviour.  `wide` is `sizeof(charT)`.  The facets modelled return neither
`noconv` nor `error` and have no conversion state, so these branches and `inState_`, `outState_`, which are not
initialised, are left out.  A vector's `capacity` is its size after `resize`.  For input `α` is a byte: line 239 counts
in bytes.  `&outBuffer_[0]` of an empty vector, line 140, is taken to be null.
-/
namespace Verif.ConvertAdaptor
open Verif.Codecvt

/-- What a call comes to: a value, undefined behaviour, or more steps. -/
inductive Res (γ : Type) where
  | done (a : γ)
  | undefined
  | more
deriving DecidableEq, Repr

def bufferSize : Nat := 1024
def pbSize : Nat := 4

/-- The input side of `convert_bufadaptor`, lines 57-67: what is left in the stream underneath, `inEof_`, `inBuffer_`, and
`eback`, `gptr` and `egptr` as positions in it. -/
structure In (α β : Type) where
  ext : List α
  eof : Bool := false
  buf : List β := []
  eback : Nat := 0
  g : Nat := 0
  eg : Nat := 0

/-- `growInBuffer`, lines 129-135. -/
def growIn {β : Type} [Inhabited β] (buf : List β) : List β :=
  buf ++ List.replicate ((if buf.length = 0 then bufferSize else 2 * buf.length) + pbSize - buf.length) default

/-- Write characters into the buffer. -/
def put {β : Type} (buf : List β) (i : Nat) (xs : List β) : List β := buf.take i ++ xs ++ buf.drop (i + xs.length)

/-- Lines 188-191: the last characters read go in front of the new ones.  Both pointers are moved by a number of
bytes, so by `wide` times too many characters.  Undefined: to read in front of the buffer, to write behind it, and
`memcpy` between places that overlap. -/
def copyBack {β : Type} (wide : Nat) (buf : List β) (eback g : Nat) : Option (List β) :=
  let pb := min (g - eback) pbSize
  let dst := (pbSize - pb) * wide
  if pb = 0 then some buf
  else if g < pb * wide then none
  else if buf.length < dst + pb then none
  else if g - pb * wide < dst + pb ∧ dst < g - pb * wide + pb then none
  else some (put buf dst ((buf.drop (g - pb * wide)).take pb))

/-- The loop of `readIn`, lines 214-251.  `res` is the number of characters in `from`, of which `inp` are left; `conv` is
`converted`.  The result: the stream underneath, the buffer, `converted` and `res`.  Line 239 is `memcpy` again. -/
def fill {α β : Type} [Inhabited β] (call : Nat → List α → Option (CallRes Unit α β)) :
    Nat → List α → Nat → List α → List β → Nat → Res (List α × List β × Nat × Nat)
  | 0, _, _, _, _, _ => .more
  | n + 1, ext, res, inp, buf, conv =>
    match call (buf.length - pbSize - (pbSize + conv)) inp with
    | none => .undefined
    | some r =>
      let buf' := put buf (pbSize + conv) r.out
      let conv' := conv + r.out.length
      match r.status with
      | .ok => .done (ext, buf', conv', res)
      | .incomplete =>
        if pbSize + conv' = buf.length - pbSize then fill call n ext res r.rest (growIn buf') conv'
        else if 0 < r.rest.length ∧ res - r.rest.length < r.rest.length then .undefined
        else
          let got := ext.take (bufferSize - r.rest.length)
          if got = [] then .done (ext, buf', conv', 0)
          else fill call n (ext.drop (bufferSize - r.rest.length)) (got.length + r.rest.length) (r.rest ++ got) buf' conv'

/-- `readIn`, lines 182-264; the number it returns is given too. -/
def readIn {α β : Type} [Inhabited β] (call : Nat → List α → Option (CallRes Unit α β)) (wide fuel : Nat) (s : In α β) :
    Res (In α β × Nat) :=
  let buf := if s.buf.length = 0 then growIn s.buf else s.buf
  match copyBack wide buf s.eback s.g with
  | none => .undefined
  | some buf =>
    let pb := min (s.g - s.eback) pbSize
    let block := if s.eof then [] else s.ext.take bufferSize
    let ext := if s.eof then s.ext else s.ext.drop bufferSize
    let eof := if s.eof then true else decide (ext = [])
    if block = [] then .done (⟨ext, eof, buf, pbSize - pb, pbSize, pbSize⟩, 0)
    else
      match fill call fuel ext block.length block buf 0 with
      | .done (ext, buf, conv, res) => .done (⟨ext, eof, buf, pbSize - pb, pbSize, pbSize + conv⟩, res)
      | .undefined => .undefined
      | .more => .more

/-- `sbumpc` of the standard library, with `underflow`, lines 96-106: the next character, or none at the end. -/
def sbumpc {α β : Type} [Inhabited β] (call : Nat → List α → Option (CallRes Unit α β)) (wide fuel : Nat) (s : In α β) :
    Res (In α β × Option β) :=
  if s.g < s.eg then .done ({ s with g := s.g + 1 }, some (s.buf.getD s.g default))
  else
    match readIn call wide fuel s with
    | .done (s, 0) => .done (s, none)
    | .done (s, _ + 1) => .done ({ s with g := s.g + 1 }, some (s.buf.getD s.g default))
    | .undefined => .undefined
    | .more => .more

/-- `sungetc` of the standard library, with `pbackfail`, lines 108-118: back to the character before, if there is one. -/
def sungetc {α β : Type} [Inhabited β] (s : In α β) : In α β × Option β :=
  if s.eback < s.g then ({ s with g := s.g - 1 }, some (s.buf.getD (s.g - 1) default)) else (s, none)

/-- Read to the end. -/
def readAll {α β : Type} [Inhabited β] (call : Nat → List α → Option (CallRes Unit α β)) (wide : Nat) :
    Nat → In α β → Res (List β)
  | 0, _ => .more
  | n + 1, s =>
    match sbumpc call wide n s with
    | .done (_, none) => .done []
    | .done (s, some c) =>
      match readAll call wide n s with
      | .done cs => .done (c :: cs)
      | .undefined => .undefined
      | .more => .more
    | .undefined => .undefined
    | .more => .more

/-- What is done with an input stream, one character at a time. -/
inductive Act where
  | get
  | unget
deriving DecidableEq, Repr

/-- Do these things with an input stream, one after the other; what each gives. -/
def acts {α β : Type} [Inhabited β] (call : Nat → List α → Option (CallRes Unit α β)) (wide fuel : Nat) :
    List Act → In α β → Res (List (Option β))
  | [], _ => .done []
  | .get :: as, s =>
    match sbumpc call wide fuel s with
    | .done (s, c) =>
      match acts call wide fuel as s with
      | .done cs => .done (c :: cs)
      | .undefined => .undefined
      | .more => .more
    | .undefined => .undefined
    | .more => .more
  | .unget :: as, s =>
    match acts call wide fuel as (sungetc s).1 with
    | .done cs => .done ((sungetc s).2 :: cs)
    | .undefined => .undefined
    | .more => .more

/-- What is done with an output stream. -/
inductive Op (β : Type) where
  | write (cs : List β)
  | flush

/-- The output side: what is in `outBuffer_` up to `pptr` (`overflow` and `growOutBuffer`, lines 78-88 and
120-127, make room for everything), and what has been written to the stream underneath. -/
structure Out (α β : Type) where
  pending : List β := []
  ext : List α := []

/-- The loop of `flushOut`, lines 157-170, with `room` characters each time. -/
def convertOut {α β : Type} (call : Nat → List β → Option (CallRes Unit β α)) (room : Nat) :
    Nat → List β → Res (List α)
  | 0, _ => .more
  | n + 1, inp =>
    match call room inp with
    | none => .undefined
    | some r =>
      match r.status with
      | .ok => .done r.out
      | .incomplete =>
        match convertOut call room n r.rest with
        | .done cs => .done (r.out ++ cs)
        | .undefined => .undefined
        | .more => .more

/-- `flushOut`, lines 137-180; `maxLength` is `max_length()` of the facet. -/
def flushOut {α β : Type} (call : Nat → List β → Option (CallRes Unit β α)) (maxLength fuel : Nat) (s : Out α β) :
    Res (Out α β) :=
  if s.pending.length = 0 then .done s
  else
    match convertOut call (s.pending.length + maxLength) fuel s.pending with
    | .done cs => .done { pending := [], ext := s.ext ++ cs }
    | .undefined => .undefined
    | .more => .more

/-- Writing and flushing, and the `flush` of `~oconvert_adaptor`, lines 329-332, at the end. -/
def writeAll {α β : Type} (call : Nat → List β → Option (CallRes Unit β α)) (maxLength fuel : Nat) :
    List (Op β) → Out α β → Res (List α)
  | [], s =>
    match flushOut call maxLength fuel s with
    | .done s => .done s.ext
    | .undefined => .undefined
    | .more => .more
  | .write cs :: ops, s => writeAll call maxLength fuel ops { s with pending := s.pending ++ cs }
  | .flush :: ops, s =>
    match flushOut call maxLength fuel s with
    | .done s => writeAll call maxLength fuel ops s
    | .undefined => .undefined
    | .more => .more

end Verif.ConvertAdaptor
