import Verif.Model.InputSource
set_option autoImplicit false
/-!
# Which stream an input source is, and what a server sends
-/
namespace Verif.Spec.InputSource
open Verif.InputSource (Op Resolver)

abbrev Str := List Char

/-- The resolver a history of calls leaves for a scheme: the last one registered for it, if it was not taken
away since. -/
def lastFor {σ : Type} (m : Str) : List (Op σ) → Option (Resolver σ)
  | [] => none
  | .register m' r :: ops => match lastFor m ops with
    | some r' => some r'
    | none => if mentions m ops then none else if m' = m then some r else none
  | .unregister _ :: ops => lastFor m ops
where
  mentions (m : Str) : List (Op σ) → Bool
    | [] => false
    | .register m' _ :: ops => m' = m || mentions m ops
    | .unregister m' :: ops => m' = m || mentions m ops

/-- An address with a scheme of at least two characters, a host and a path. -/
structure Address where
  scheme : Str
  host : Str
  path : Str

def Address.text (a : Address) : Str := a.scheme ++ "://".toList ++ a.host ++ a.path

structure Address.Plain (a : Address) : Prop where
  scheme : ':' ∉ a.scheme ∧ 2 ≤ a.scheme.length
  host : ':' ∉ a.host ∧ '/' ∉ a.host
  path : ∃ p, a.path = '/' :: p

/-- A line of a response that is not empty and that the resolver can take: it has no newline in it, does not begin
with a carriage return, and has with the one at its end no more than 1023 characters. -/
structure Header (h : Str) : Prop where
  line : '\n' ∉ h
  nonempty : h ≠ []
  start : h.head? ≠ some '\r'
  short : h.length ≤ 1022

/-- A response: lines, an empty line, and the content. -/
def response (headers : List Str) (content : Str) : Str :=
  (headers.flatMap fun h => h ++ "\r\n".toList) ++ "\r\n".toList ++ content

/-- Text cut at its newlines. -/
def lines : Str → List Str
  | [] => [[]]
  | c :: s =>
    if c = '\n' then [] :: lines s
    else match lines s with
      | [] => [[c]]
      | l :: ls => (c :: l) :: ls

end Verif.Spec.InputSource
