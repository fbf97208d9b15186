set_option autoImplicit false
/-!
# Namespace scopes, attribute lists, base URIs
-/
namespace Verif.Spec.Sax

abbrev Str := List Char

/-- A stack of scopes, innermost first; each says which prefixes it declares. -/
abbrev Scopes := List (Str → Option Str)

/-- The innermost declaration of a prefix. -/
def lookup (p : Str) : Scopes → Option Str
  | [] => none
  | f :: s => match f p with
    | some u => some u
    | none => lookup p s

/-- The scope every document starts with. -/
def initial : Scopes :=
  [fun p => if p = "xml".toList then some "http://www.w3.org/XML/1998/namespace".toList else none]

/-- Declaring a prefix in the innermost scope. -/
def declare (p u : Str) : Scopes → Scopes
  | [] => []
  | f :: s => (fun q => if q = p then some u else f q) :: s

/-- Declaring a prefix unless the innermost scope already has it. -/
def declareOnce (p u : Str) : Scopes → Scopes
  | [] => []
  | f :: s => (fun q => if q = p ∧ f q = none then some u else f q) :: s

/-- The prefixes that cannot be declared. -/
def reserved (p : Str) : Prop := p = "xml".toList ∨ p = "xmlns".toList

instance (p : Str) : Decidable (reserved p) := by unfold reserved; infer_instance

/-- The base URIs of the document and the open elements, innermost first.  An event is `some xb`, the
start of an element with that `xml:base` (empty if it has none), or `none`, the end of one: an element
without `xml:base` inherits, one with it resolves its value against the enclosing base, and the end of
an element uncovers the enclosing base.  `none` if a value cannot be resolved or an end has no start. -/
def baseStack (resolve : Str → Str → Option Str) : List (Option Str) → List Str → Option (List Str)
  | [], st => some st
  | some xb :: t, b :: st =>
    if xb = [] then baseStack resolve t (b :: b :: st)
    else match resolve b xb with
      | none => none
      | some b' => baseStack resolve t (b' :: b :: st)
  | none :: t, _ :: b :: st => baseStack resolve t (b :: st)
  | _, _ => none

end Verif.Spec.Sax
