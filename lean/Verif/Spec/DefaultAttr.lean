import Verif.Model.DefaultAttr
set_option autoImplicit false
/-!
# What declared defaults mean

An element has for each name at most one attribute: a value, and whether it was given one or has the value
declared.  A name with a declared value always has an attribute.
-/
namespace Verif.Spec.DefaultAttr
open Verif.DefaultAttr (Decl Op)
open Verif.DomNames (Str checkName)
open Verif.Dom (Err)

/-- The names of attributes with a declared value, of the elements of a name, with these values. -/
def declared (e : Str) : List Decl → List (Str × Str)
  | [] => []
  | .element _ :: ds => declared e ds
  | .attr e' n v :: ds => if e' = e ∧ v ≠ [] then (n, v) :: declared e ds else declared e ds

/-- The value declared for a name. -/
def value (ds : List (Str × Str)) (n : Str) : Option Str := (ds.find? fun x => x.1 == n).map Prod.snd

/-- The attribute a name has if the element was not given one. -/
def fallback (ds : List (Str × Str)) (n : Str) : Option (Str × Bool) := (value ds n).map fun v => (v, false)

/-- The attributes of an element by their names: the value, and whether it was given. -/
abbrev Atts := Str → Option (Str × Bool)

def put (s : Atts) (n : Str) (x : Option (Str × Bool)) : Atts := fun m => if m = n then x else s m

/-- What a call does, `new` being the attributes of a new element. -/
def step (nameCh : Char → Bool) (ds : List (Str × Str)) (new s : Atts) : Op → Atts × Option Err
  | .setAttribute n v | .setAttributeNS _ n v =>
    if checkName nameCh n then (put s n (some (v, true)), none) else (s, some .invalidChar)
  | .removeAttribute n | .removeAttributeNS _ n =>
    if s n = none then (s, some .notFound) else (put s n (fallback ds n), none)
  | .setValue n v => (if s n = none then s else put s n (some (v, true)), none)
  | .clone => (fun n => match s n with
    | some (v, true) => some (v, true)
    | _ => new n, none)

def run (nameCh : Char → Bool) (ds : List (Str × Str)) (new s : Atts) : List Op → Atts × List (Option Err)
  | [] => (s, [])
  | op :: ops =>
    let (s, r) := step nameCh ds new s op
    let (s, rs) := run nameCh ds new s ops
    (s, r :: rs)

/-- Calls by name: attributes set by namespace have none, nor a prefix, and none is removed by namespace. -/
def ByName : Op → Prop
  | .setAttributeNS u q _ => u = [] ∧ ':' ∉ q ∧ q ≠ "xmlns".toList
  | .removeAttributeNS _ _ => False
  | _ => True

/-- An element has these attributes, and each name once. -/
def Shows (l : List Verif.DefaultAttr.A) (s : Atts) : Prop :=
  (l.map fun a => a.nm.name).Nodup ∧
  ∀ n, Verif.DefaultAttr.hasAttribute l n = (s n).isSome ∧
    Verif.DefaultAttr.getAttribute l n = ((s n).map Prod.fst).getD [] ∧
    Verif.DefaultAttr.getSpecified l n = (s n).map Prod.snd

end Verif.Spec.DefaultAttr
