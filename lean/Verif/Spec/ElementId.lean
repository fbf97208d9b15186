import Verif.Model.ElementId
set_option autoImplicit false
/-!
# What getElementById answers

Elements have attributes, by name, and a place.  The answer is an element in the document which has an attribute
of the value, that is declared to be of type ID for elements of its name; and null if there is none.
-/
namespace Verif.Spec.ElementId
open Verif.ElementId (Elem Decl Op Par Out)
open Verif.DomNames (Str)

structure T where
  attrs : Elem → Str → Option Str
  place : Elem → Par

def init : T := ⟨fun _ _ => none, fun _ => .out⟩

def step (t : T) : Op → T
  | .setAttribute e n v => { t with attrs := fun x m => if x = e ∧ m = n then some v else t.attrs x m }
  | .removeAttribute e n => { t with attrs := fun x m => if x = e ∧ m = n then none else t.attrs x m }
  | .setValue e n v =>
    { t with attrs := fun x m => if x = e ∧ m = n ∧ t.attrs e n ≠ none then some v else t.attrs x m }
  | .appendToDocument e => { t with place := fun x => if x = e then .doc else t.place x }
  | .appendChild p e => { t with place := fun x => if x = e then .elem p else t.place x }
  | .removeChild e | .purgeChild e => { t with place := fun x => if x = e then .out else t.place x }

def run (t : T) (ops : List Op) : T := ops.foldl step t

/-- The element is in the document. -/
inductive InDocument (t : T) : Elem → Prop where
  | root (e : Elem) : t.place e = .doc → InDocument t e
  | child (e p : Elem) : t.place e = .elem p → InDocument t p → InDocument t e

/-- Attributes of this name are of type ID, for elements of the name. -/
def IsId (decls : List Decl) (e n : Str) : Prop := (⟨e, n, true⟩ : Decl) ∈ decls

/-- The element has the ID. -/
def HasId (decls : List Decl) (name : Elem → Str) (t : T) (e : Elem) (v : Str) : Prop :=
  ∃ n, IsId decls (name e) n ∧ t.attrs e n = some v

/-- What is to be answered. -/
def Answers (decls : List Decl) (name : Elem → Str) (t : T) (v : Str) : Out → Prop
  | .elem e => InDocument t e ∧ HasId decls name t e v
  | .null => ∀ e, InDocument t e → ¬ HasId decls name t e v
  | .undefined => False

/-- Some element has ID attributes of this name. -/
def IdName (decls : List Decl) (n : Str) : Prop := ∃ e, IsId decls e n

/-- No element is deleted. -/
def NoPurge : Op → Prop
  | .purgeChild _ => False
  | _ => True

/-- Nothing is deleted, and attributes with the names of IDs, once set, are not removed nor set again; their
values change by `setValue`. -/
def Keeps (decls : List Decl) (t : T) : Op → Prop
  | .setAttribute e n _ => IdName decls n → t.attrs e n = none
  | .removeAttribute _ n => ¬ IdName decls n
  | .purgeChild _ => False
  | _ => True

def AllKeep (decls : List Decl) : T → List Op → Prop
  | _, [] => True
  | t, op :: ops => Keeps decls t op ∧ AllKeep decls (step t op) ops

/-- Elements with attributes of these names are in the document, and it is for them that these are declared. -/
def Placed (decls : List Decl) (name : Elem → Str) (t : T) : Prop :=
  ∀ e n, t.attrs e n ≠ none → IdName decls n → InDocument t e ∧ IsId decls (name e) n

end Verif.Spec.ElementId
