set_option autoImplicit false
/-!
# Socket streams

Modelled: `basic_socketbuf<char>` of /repo/include/io/socket_stream.hpp, with the functions of `std::basic_streambuf`
that call it. Pointers into a buffer are offsets, null pointers are 0. The operating system is a list of what `recv`
gives each time, a list of what `send` does each time, and what has been sent on each connection; `close` of a socket
succeeds. Left out: Windows, looking up the host, and `&v[0]` of an empty vector, which is taken for a null pointer.
-/
namespace Verif.Socket

/-- What a call of `send` does: fails, sends everything, or sends only so much. -/
inductive Sending where
  | fails
  | all
  | part (k : Nat)
  deriving DecidableEq, Repr

/-- The operating system: what `recv` gives each time, `none` for an error and no bytes at the end; what `send` does each
time, everything is sent after that; what has been sent, the last connection first. -/
structure Net where
  recvs : List (Option (List UInt8)) := []
  sends : List Sending := []
  sent : List (List UInt8) := [[]]
  deriving DecidableEq, Repr

/-- `recv` with so much room, at least one byte: what does not fit stays for the next time. -/
def Net.recv (n : Net) (room : Nat) : Option (List UInt8) × Net :=
  match n.recvs with
  | [] => (some [], n)
  | none :: r => (none, { n with recvs := r })
  | some c :: r =>
    if c.length ≤ room then (some c, { n with recvs := r })
    else (some (c.take room), { n with recvs := some (c.drop room) :: r })

/-- Bytes on the last connection. -/
def Net.push (n : Net) (bs : List UInt8) : Net :=
  match n.sent with
  | [] => { n with sent := [bs] }
  | s :: ss => { n with sent := (s ++ bs) :: ss }

/-- `send`: whether it succeeds. -/
def Net.send (n : Net) (bs : List UInt8) : Bool × Net :=
  match n.sends with
  | [] => (true, n.push bs)
  | .fails :: r => (false, { n with sends := r })
  | .all :: r => (true, { n with sends := r }.push bs)
  | .part k :: r => (true, { n with sends := r }.push (bs.take k))

/-- `bufferSize_`, socket_stream.hpp lines 108-109. -/
def bufferSize : Nat := 1024
/-- `pbSize_`, lines 110-112. -/
def pbSize : Nat := 4

/-- `sock_` (whether it is open), `outBuffer_`, `pptr()` and `epptr()`, `inBuffer_`, `eback()`, `gptr()` and `egptr()`:
lines 86-91 and 122-134. -/
structure Sock where
  isOpen : Bool := false
  out : List UInt8 := []
  p : Nat := 0
  ep : Nat := 0
  inb : List UInt8 := []
  eback : Nat := 0
  g : Nat := 0
  eg : Nat := 0
  deriving DecidableEq, Repr

/-- Bytes copied into a buffer. -/
def poke (buf : List UInt8) (i : Nat) (bs : List UInt8) : List UInt8 := buf.take i ++ bs ++ buf.drop (i + bs.length)

/-- `open`, lines 152-193, of a host that is there: whether it succeeds. -/
def openSock (s : Sock) (n : Net) : Bool × Sock × Net :=
  if s.isOpen then (false, s, n) else (true, { s with isOpen := true }, { n with sent := [] :: n.sent })

/-- `close`, lines 195-208. -/
def close (s : Sock) : Bool × Sock :=
  if s.isOpen then (true, { s with isOpen := false, eback := 0, g := 0, eg := 0 }) else (false, s)

/-- `growOutBuffer`, lines 257-266; the capacity of the vector is its size. -/
def growOut (s : Sock) : Sock :=
  let new := if s.out.length = 0 then bufferSize else s.out.length * 2
  { s with out := s.out ++ List.replicate (new - s.out.length) 0, p := s.out.length, ep := new }

/-- `sputc` where there is room. -/
def store (s : Sock) (c : UInt8) : Sock := { s with out := poke s.out s.p [c], p := s.p + 1 }

/-- `sputc` of the standard library, with `overflow`, lines 210-222: whether it succeeds. -/
def sputc (s : Sock) (c : UInt8) : Bool × Sock :=
  if s.p < s.ep then (true, store s c)
  else if s.isOpen then (true, store (growOut s) c) else (false, s)

/-- `writeSocket`, lines 268-283; `send` on no socket fails. -/
def writeSocket (s : Sock) (n : Net) : Bool × Sock × Net :=
  if s.p = 0 then (true, s, n)
  else if s.isOpen then
    match n.send (s.out.take s.p) with
    | (true, n) => (true, { s with p := 0, ep := s.out.length }, n)
    | (false, n) => (false, s, n)
  else (false, s, n)

/-- What a call comes to. -/
inductive Res (α : Type) where
  | done (a : α)
  | undefined
  deriving DecidableEq, Repr

/-- `readSocket`, lines 293-332, with `growInBuffer`, lines 285-291: how much is read. `memcpy` between places that overlap is undefined. -/
def readSocket (s : Sock) (n : Net) : Res (Nat × Sock × Net) :=
  let inb := if s.inb.length = 0 then List.replicate (bufferSize + pbSize) 0 else s.inb
  let pb := min (s.g - s.eback) pbSize
  if pb ≠ 0 ∧ pbSize - pb < s.g ∧ s.g - pb < pbSize then .undefined
  else
    let inb := poke inb (pbSize - pb) ((inb.drop (s.g - pb)).take pb)
    match n.recv (inb.length - pbSize) with
    | (none, n) => .done (0, (close { s with inb := inb }).2, n)
    | (some [], n) => .done (0, (close { s with inb := inb }).2, n)
    | (some (c :: cs), n) =>
      let inb := poke inb pbSize (c :: cs)
      .done (cs.length + 1, { s with inb := inb, eback := pbSize - pb, g := pbSize, eg := pbSize + (cs.length + 1) }, n)

/-- `sbumpc` of the standard library, with `underflow`, lines 230-243: the next byte, or none. -/
def sbumpc (s : Sock) (n : Net) : Res (Option UInt8 × Sock × Net) :=
  if s.g < s.eg then .done (some (s.inb.getD s.g 0), { s with g := s.g + 1 }, n)
  else if s.isOpen then
    match readSocket s n with
    | .done (0, s, n) => .done (none, s, n)
    | .done (_ + 1, s, n) => .done (some (s.inb.getD s.g 0), { s with g := s.g + 1 }, n)
    | .undefined => .undefined
  else .done (none, s, n)

/-- `sungetc` of the standard library, with `pbackfail`, lines 245-255: back to the byte before, if there is one. -/
def sungetc (s : Sock) : Option UInt8 × Sock :=
  if s.eback < s.g then (some (s.inb.getD (s.g - 1) 0), { s with g := s.g - 1 }) else (none, s)

/-- `~basic_socketbuf`, lines 136-144. -/
def destroy (s : Sock) (n : Net) : Net := if s.isOpen then (writeSocket s n).2.2 else n

/-- What is done with a socket stream. -/
inductive Op where
  | put (c : UInt8)
  | flush
  | get
  | unget
  | close
  | connect
  deriving DecidableEq, Repr

/-- What it gives. -/
inductive Given where
  | ok (b : Bool)
  | byte (c : Option UInt8)
  deriving DecidableEq, Repr

/-- One thing done: `sputc`; `sync`, lines 224-228; `sbumpc`; `sungetc`; `close` and `open`. -/
def step (s : Sock) (n : Net) : Op → Res (Given × Sock × Net)
  | .put c => .done (.ok (sputc s c).1, (sputc s c).2, n)
  | .flush => .done (.ok (writeSocket s n).1, (writeSocket s n).2.1, (writeSocket s n).2.2)
  | .get =>
    match sbumpc s n with
    | .done (c, s, n) => .done (.byte c, s, n)
    | .undefined => .undefined
  | .unget => .done (.byte (sungetc s).1, (sungetc s).2, n)
  | .close => .done (.ok (close s).1, (close s).2, n)
  | .connect => .done (.ok (openSock s n).1, (openSock s n).2.1, (openSock s n).2.2)

/-- Things done one after the other; what each gives. -/
def run : List Op → Sock → Net → Res (List Given × Sock × Net)
  | [], s, n => .done ([], s, n)
  | o :: os, s, n =>
    match step s n o with
    | .undefined => .undefined
    | .done (r, s, n) =>
      match run os s n with
      | .undefined => .undefined
      | .done (rs, s, n) => .done (r :: rs, s, n)

end Verif.Socket
