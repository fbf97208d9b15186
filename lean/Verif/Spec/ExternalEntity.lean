import Verif.Model.ExternalEntity
set_option autoImplicit false
/-!
# What is to be reported of external entities

An entity that is read is reported where it starts and ends, and one that is not read as skipped, by its name: of a
parameter entity with a `%` before it, of the external subset `[dtd]`.
-/
namespace Verif.Spec.ExternalEntity
open Verif.ExternalEntity (Str Kind Ent Evs Src Cfg Rep)

/-- The name SAX has for it. -/
def saxName (e : Ent) : Str :=
  match e.kind with
  | .general => e.name
  | .parameter => '%' :: e.name
  | .subset => "[dtd]".toList

/-- What is read for an entity: what the resolver gives, which has the identifiers of the entity if it has none
itself, or else the entity by its identifiers. -/
def entitySource (c : Cfg) (pub sys : Str) (s : Src) : Prop :=
  match c.resolver with
  | none => s = ⟨pub, sys, none⟩
  | some f => s.stream = (f pub sys).stream ∧
      if (f pub sys).pub = [] ∧ (f pub sys).sys = [] then s.pub = pub ∧ s.sys = sys
      else s.pub = (f pub sys).pub ∧ s.sys = (f pub sys).sys

/-- A report, for a handler that may be there. -/
def say (there : Bool) (r : Rep) : List Rep := if there then [r] else []

/-- These reports are right. -/
inductive Right (c : Cfg) : Evs → List Rep → Prop where
  | done : Right c .done []
  | doctype (pub sys rest r) : Right c rest r → Right c (.doctype pub sys rest) r
  | declare (e rest r) : Right c rest r → Right c (.declare e rest) r
  | nextDocument (rest r) : Right c rest r → Right c (.nextDocument rest) r
  | characters (s rest r) : Right c rest r → Right c (.characters s rest) (say c.content (.characters s) ++ r)
  | skipped (e content rest r) : c.resolving = false → Right c rest r →
      Right c (.ref e content rest) (say c.content (.skippedEntity (saxName e)) ++ r)
  | read (e content rest s r1 r2) : c.resolving = true → entitySource c (e.pub.getD []) e.sys s →
      Right c content r1 → Right c rest r2 →
      Right c (.ref e content rest)
        (say c.lexical (.startEntity (saxName e)) ++ [.parse s] ++ r1 ++ say c.lexical (.endEntity (saxName e)) ++ r2)

/-- All that is declared. -/
def declared : Evs → List Ent
  | .done => []
  | .doctype pub (some sys) rest => ⟨.subset, "[dtd]".toList, pub, sys⟩ :: declared rest
  | .doctype _ none rest => declared rest
  | .declare e rest => e :: declared rest
  | .characters _ rest | .nextDocument rest => declared rest
  | .ref _ content rest => declared content ++ declared rest

/-- What is declared when the sequence ends, `ents` being so when it begins. -/
def scope (reads : Bool) (ents : List Ent) : Evs → List Ent
  | .done => ents
  | .doctype pub (some sys) rest => scope reads (⟨.subset, "[dtd]".toList, pub, sys⟩ :: ents) rest
  | .doctype _ none rest => scope reads ents rest
  | .declare e rest => scope reads (e :: ents) rest
  | .characters _ rest => scope reads ents rest
  | .ref _ content rest => scope reads (if reads then scope reads ents content else ents) rest
  | .nextDocument rest => scope reads [] rest

/-- What expat reports: references are to what is declared in the document, the external subset and parameter
entities are referred to only if they are to be read, and names are not empty. -/
def WellFormed (reads : Bool) (ents : List Ent) : Evs → Prop
  | .done => True
  | .doctype pub (some sys) rest => WellFormed reads (⟨.subset, "[dtd]".toList, pub, sys⟩ :: ents) rest
  | .doctype pub none rest => pub = none ∧ WellFormed reads ents rest
  | .declare e rest => e.name ≠ [] ∧ e.kind ≠ .subset ∧ WellFormed reads (e :: ents) rest
  | .characters _ rest => WellFormed reads ents rest
  | .ref e content rest => e ∈ ents ∧ (reads = false → e.kind = .general) ∧ WellFormed reads ents content ∧
      WellFormed reads (if reads then scope reads ents content else ents) rest
  | .nextDocument rest => WellFormed reads [] rest

/-- Entities, of all the documents, are told apart by their system identifiers, none is a parameter entity, and no
public identifier is the system identifier of another. -/
def Distinct (es : List Ent) : Prop :=
  (∀ e ∈ es, e.kind ≠ .parameter ∧ e.sys ≠ []) ∧
  ∀ e ∈ es, ∀ e' ∈ es, (e.sys = e'.sys ∨ e.pub = some e'.sys) → saxName e = saxName e'

end Verif.Spec.ExternalEntity
