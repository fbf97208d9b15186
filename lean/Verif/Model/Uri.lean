set_option autoImplicit false
/-!
# src/io/uri.cpp

Strings are lists of characters.  `Out` separates the outcomes: a value, a C++ exception
(`std::out_of_range` of `std::string::erase`), undefined behaviour (dereferencing the end of a
string), or a loop that has used up its fuel.
-/
namespace Verif.Uri

/-- The outcome of a call. -/
inductive Out (α : Type) where
  | ok (a : α)
  | throws
  | ub
  | diverges
  deriving DecidableEq, Repr

def Out.bind {α β : Type} (x : Out α) (f : α → Out β) : Out β :=
  match x with
  | .ok a => f a
  | .throws => .throws
  | .ub => .ub
  | .diverges => .diverges

/-- `class URI`, include/io/uri.hpp lines 76-83 (data members). -/
structure Uri where
  scheme : List Char
  host : List Char
  port : List Char
  path : List Char
  isAbsolute : Bool
  deriving DecidableEq, Repr

/-- `std::string::find(pat)`: the first position at which `pat` occurs. -/
def find (pat : List Char) : List Char → Option Nat
  | [] => if pat.isPrefixOf [] then some 0 else none
  | c :: cs => if pat.isPrefixOf (c :: cs) then some 0 else (find pat cs).map (· + 1)

/-- `std::string::find(pat, pos)`; a position beyond the end finds nothing. `none` as `pos` is
`npos`. -/
def findFrom (pat s : List Char) (pos : Option Nat) : Option Nat :=
  match pos with
  | none => none
  | some n => if n ≤ s.length then (find pat (s.drop n)).map (· + n) else none

/-- `std::string::rfind(c)`. -/
def rfind (c : Char) : List Char → Option Nat
  | [] => none
  | x :: xs =>
    match rfind c xs with
    | some i => some (i + 1)
    | none => if x = c then some 0 else none

/-- `std::string::rfind(c, pos)`: the last occurrence at or before `pos`. -/
def rfindUpto (c : Char) (s : List Char) (pos : Nat) : Option Nat := rfind c (s.take (pos + 1))

/-- `std::string::erase(pos, count)`. -/
def erase (s : List Char) (pos count : Nat) : List Char := s.take pos ++ s.drop (pos + count)

/-- `wellKnownPort`, lines 18-29. -/
def wellKnownPort (scheme : List Char) : List Char :=
  if scheme = [] then ['0']
  else if scheme = "http".toList then "80".toList
  else if scheme = "https".toList then "443".toList
  else ['0']

/-- `URI::port`, lines 52-57. -/
def Uri.portOrDefault (u : Uri) : List Char :=
  if u.port = [] then wellKnownPort u.scheme else u.port

/-- `URI::as_string`, lines 59-74. -/
def Uri.asString (u : Uri) : List Char :=
  (if u.scheme = [] then [] else u.scheme ++ [':']) ++
  (if u.isAbsolute then ['/', '/'] else []) ++
  (if u.host = [] then [] else u.host ++ (if u.port = [] then [] else ':' :: u.port)) ++
  u.path

/-- `fixSlashes`, lines 76-80.  The loop replaces every backslash. -/
def fixSlashes (s : List Char) : List Char := s.map (fun c => if c = '\\' then '/' else c)

/-- `parseAuthority`, lines 127-147: host, port, and the rest of the input. -/
def parseAuthority (u : List Char) : List Char × List Char × List Char :=
  let auth := u.takeWhile (· ≠ '/')
  let rest := u.dropWhile (· ≠ '/')
  if rest = [] then (u, [], [])
  else
    let host := auth.takeWhile (· ≠ ':')
    let afterHost := auth.dropWhile (· ≠ ':')
    (host, afterHost.drop 1, rest)

/-- `parse_uri`, lines 112-124: what follows the colon.  `*u` and `*(u+1)` on the end of the string
are undefined. -/
def parseRest (scheme : List Char) : List Char → Out Uri
  | [] => .ub
  | ['/'] => .ub
  | '/' :: '/' :: u =>
    let a := parseAuthority u
    .ok ⟨scheme, a.1, a.2.1, a.2.2, false⟩
  | u => .ok ⟨scheme, [], [], u, false⟩

/-- `parse_uri`, lines 91-125. -/
def parseUri (uri : List Char) : Out Uri :=
  match find [':'] uri with
  | none => .ok ⟨[], [], [], fixSlashes uri, false⟩
  | some d =>
    if d = 1 then .ok ⟨"file".toList, [], [], fixSlashes uri, false⟩
    else parseRest (uri.take d) (uri.drop (d + 1))

/-- The absoluteness test of `URI::parse`, lines 86-88.  `path_[1]` at `size()` is NUL. -/
def absolute (u : Uri) : Bool :=
  (!u.scheme.isEmpty && !u.host.isEmpty) ||
  ((decide (u.scheme = "file".toList) && !u.path.isEmpty) &&
    (decide (u.path[0]? = some '/') || decide (u.path[1]? = some ':')))

/-- `URI::URI(uri)` and `URI::parse`, lines 32-36 and 82-89. -/
def parse (uri : List Char) : Out Uri :=
  (parseUri uri).bind fun u => .ok { u with isAbsolute := absolute u }

/-- `compatible_schemes`, lines 149-157. -/
def compatibleSchemes (scheme relative : List Char) : Bool :=
  if scheme = [] ∧ relative = "file".toList then true
  else if relative = [] then true
  else decide (scheme = relative)

/-- The `"/../"` loop of `combinePath`, lines 184-190.  `erase` at `npos` throws. -/
def dotDotLoop : Nat → List Char → Option Nat → Out (List Char)
  | 0, _, _ => .diverges
  | fuel + 1, path, pos =>
    match findFrom ['/', '.', '.', '/'] path pos with
    | none => .ok path
    | some dots =>
      match (if dots > 0 then rfindUpto '/' path (dots - 1) else some 0) with
      | none => .throws
      | some p => dotDotLoop fuel (erase path p (dots + 3 - p)) (some p)

/-- The `"/./"` loop of `combinePath`, lines 192-197. -/
def dotLoop : Nat → List Char → Option Nat → Out (List Char)
  | 0, _, _ => .diverges
  | fuel + 1, path, pos =>
    match findFrom ['/', '.', '/'] path pos with
    | none => .ok path
    | some dot => dotLoop fuel (erase path dot 2) (some dot)

/-- `combinePath` lines 177-178: the path cut after its last slash; `rfind(..)+1` is 0 if there is
none. -/
def directory (base : List Char) : List Char :=
  if base.getLast? = some '/' then base
  else match rfind '/' base with
    | none => []
    | some i => base.take (i + 1)

/-- `combinePath`, lines 175-198.  `*(path_.rbegin())` on an empty string is undefined;
`path_.length() - 1` of an empty path is `npos`. -/
def combinePath (base rel : List Char) : Out (List Char) :=
  if base = [] then .ub
  else
    let dir := directory base
    let pos := if dir = [] then none else some (dir.length - 1)
    let path := dir ++ rel
    (dotDotLoop (path.length + 1) path pos).bind fun p => dotLoop (p.length + 1) p (some 0)

/-- `absolutise`, lines 159-173. -/
def absolutise (base rel : Uri) : Out Uri :=
  if rel.isAbsolute || !compatibleSchemes base.scheme rel.scheme then .ok rel
  else if rel.path[0]? = some '/' then .ok { base with path := rel.path }
  else (combinePath base.path rel.path).bind fun p => .ok { base with path := p }

/-- `URI::URI(base, relativeUrl)`, lines 38-50. -/
def resolve (base : Uri) (rel : List Char) : Out Uri :=
  if rel = [] then .ok base else (parse rel).bind fun r => absolutise base r

end Verif.Uri
