import Verif.Model.Uri
set_option autoImplicit false
/-!
# Opening input sources

Modelled: /repo/include/SAX/helpers/InputSourceResolver.hpp and
/repo/src/SAX/helpers/InputSourceResolver.cpp, without the sockets: a connection is what the server sends.
The parsing of the system identifier is that of Model/Uri.
-/
namespace Verif.InputSource
open Verif.Uri (Out)

abbrev Str := List Char

section
variable {σ : Type}

/-- A `URIResolver`: the stream it makes of an address, if it makes one. -/
abbrev Resolver (σ : Type) := Str → Out (Option σ)

/-- `resolverMap`, InputSourceResolver.hpp lines 51-57; at most one entry of a key is ever found. -/
abbrev Registry (σ : Type) := List (Str × Resolver σ)

/-- `registerResolver`, InputSourceResolver.cpp lines 61-65. -/
def register (m : Str) (r : Resolver σ) (reg : Registry σ) : Registry σ := (m, r) :: reg.filter fun e => decide (e.1 ≠ m)

/-- `unRegisterResolver`, lines 67-73. -/
def unregister (m : Str) (reg : Registry σ) : Registry σ := reg.filter fun e => decide (e.1 ≠ m)

/-- `findResolver`, lines 75-79. -/
def findResolver (m : Str) (reg : Registry σ) : Option (Resolver σ) := reg.lookup m

/-- What a history of calls does to the map. -/
inductive Op (σ : Type) where
  | register (m : Str) (r : Resolver σ)
  | unregister (m : Str)

def Registry.step (reg : Registry σ) : Op σ → Registry σ
  | .register m r => InputSource.register m r reg
  | .unregister m => InputSource.unregister m reg

/-- `byteStream_` and `deleteStream_`. -/
structure Opened (σ : Type) where
  stream : Option σ
  delete : Bool

/-- The end of `open`, lines 42-50: a file. -/
def openFile (files : Str → Option σ) (path : Str) : Opened σ :=
  match files path with
  | some f => ⟨some f, true⟩
  | none => ⟨none, false⟩

/-- `open`, lines 18-51. `files` is what `std::ifstream` opens. -/
def «open» (reg : Registry σ) (files : Str → Option σ) (systemId : Str) (byteStream : Option σ) : Out (Opened σ) :=
  match byteStream with
  | some b => .ok ⟨some b, false⟩
  | none =>
    (Uri.parse systemId).bind fun url =>
      if url.scheme ≠ [] then
        match findResolver url.scheme reg with
        | some r =>
          (r systemId).bind fun s =>
            match s with
            | some s => .ok ⟨some s, true⟩
            | none => .ok (openFile files url.path)
        | none => .ok (openFile files url.path)
      else .ok (openFile files url.path)

/-- The destructor, lines 53-57: the stream it deletes. -/
def Opened.destroyed (o : Opened σ) : Option σ := if o.delete then o.stream else none

/-- `fileName` as Windows has it, lines 93-99; `none` if `fileName[2]` is beyond the end of the string, which is
undefined. -/
def windowsName (f : Str) : Option Str :=
  let f := f.map fun c => if c = '/' then '\\' else c
  if f.head? = some '\\' then
    if f.length < 2 then none
    else if f[2]? = some ':' then some f.tail else some f
  else some f

/-- `fileResolver`, lines 83-108. -/
def fileResolver (files : Str → Option σ) : Resolver σ := fun uri =>
  (Uri.parse uri).bind fun url =>
    match files url.path with
    | some f => .ok (some f)
    | none =>
      match windowsName url.path with
      | none => .ub
      | some n => .ok (files n)
end

/-! ## http -/

/-- The request `httpResolver` writes, lines 129-132; `std::endl` is a newline. -/
def request (u : Uri.Uri) : Str :=
  "GET ".toList ++ u.path ++ " HTTP/1.0\n".toList ++
  "Host: ".toList ++ u.host ++ "\n".toList ++
  "Connection: close\n".toList ++
  "\n".toList

/-- `getline(buffer, 1024)` of a stream that is good and still has this to say: the buffer, and what the stream
has to say then if it is good; it is not at the end of its content, or if there are more than 1023 characters in
the line. -/
def getline (s : Str) : Str × Option Str :=
  let line := s.takeWhile (· ≠ '\n')
  if line.length ≤ 1023 then
    match s.dropWhile (· ≠ '\n') with
    | [] => (line, none)
    | _ :: rest => (line, some rest)
  else (line.take 1023, none)

theorem getline_shorter {s rest : Str} (h : (getline s).2 = some rest) : rest.length < s.length := by
  unfold getline at h
  dsimp only at h
  split at h
  · split at h
    · cases h
    · rename_i e
      cases h
      have := (List.dropWhile_suffix (l := s) (· ≠ '\n')).length_le
      rw [e] at this
      exact this
  · cases h

/-- The loop, lines 134-139: what is left to read after it. `none` is a loop that does not end: `getline` of a
stream that is not good stores a null character in the buffer and leaves the stream as it is. -/
def skipHeaders (s : Str) : Option Str :=
  if (getline s).1.head? = some '\r' then some ((getline s).2.getD [])
  else
    match h : (getline s).2 with
    | some rest => skipHeaders rest
    | none => none
termination_by s.length
decreasing_by exact getline_shorter h

/-- What there is to read from the stream `httpResolver` makes, lines 112-142, of what the server sends; the
connection is made. -/
def httpContent (sent : Str) : Option Str := skipHeaders sent

end Verif.InputSource
