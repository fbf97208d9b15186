import Verif.Model.XsltVariables
set_option autoImplicit false
/-!
# Global variables that refer to each other: include/XSLT/impl/xslt_variable_stack.hpp lines 142-193,
# include/XSLT/impl/xslt_execution_context.hpp lines 137-184
-/
namespace Verif.Xslt

/-- A reference to a variable made while a global variable is evaluated. It is guarded if `stack_.back()`
is the global scope or a copy of it (a select expression, or content outside of templates); it is not if it
is made in a template, where the lookup in the global scope comes after `resolutionStack_.pop_back()` (lines
163-171), or in a local variable of the content, whose closure has a `resolutionStack_` of its own. -/
structure GRef where
  guarded : Bool
  name : VName

/-- A global variable: the references it makes, in order, and its value as a function of theirs. -/
structure Global where
  name : VName
  refs : List GRef
  make : List (List Char) → List Char

/-- What can come of an evaluation: a value, an exception, or a recursion deeper than the bound. -/
inductive Outcome (α : Type) where
  | ok (a : α)
  | throws
  | deep

/-- The values kept by the closures (`value_`), xslt_execution_context.hpp lines 152-157. -/
abbrev VCache := List (VName × List Char)

/-- The global of a name. -/
def findGlobal (gs : List Global) (n : VName) : Option Global := gs.find? fun g => decide (g.name = n)

/-- The references of a global, `resolveVariable` lines 155-175, one after the other. Each closure has its
own `resolutionStack_`; `active` holds those of all, as pairs of a closure and an entry. -/
def evalRefs (ev : List (VName × VName) → VCache → VName → Outcome (List Char × VCache)) (self : VName)
    (active : List (VName × VName)) : List GRef → VCache → Outcome (List (List Char) × VCache)
  | [], c => .ok ([], c)
  | r :: rs, c =>
    if r.guarded && decide ((self, r.name) ∈ active) then .throws
    else
      match ev (if r.guarded then (self, r.name) :: active else active) c r.name with
      | .throws => .throws
      | .deep => .deep
      | .ok (v, c) =>
        match evalRefs ev self active rs c with
        | .throws => .throws
        | .deep => .deep
        | .ok (vs, c) => .ok (v :: vs, c)

/-- `VariableClosure::value`, lines 152-157. -/
def evalGlobal (gs : List Global) : Nat → List (VName × VName) → VCache → VName → Outcome (List Char × VCache)
  | 0, _, _, _ => .deep
  | n + 1, active, c, name =>
    match get name c with
    | some v => .ok (v, c)
    | none =>
      match findGlobal gs name with
      | none => .throws
      | some g =>
        match evalRefs (evalGlobal gs n) name active g.refs c with
        | .throws => .throws
        | .deep => .deep
        | .ok (vs, c) => .ok (g.make vs, (name, g.make vs) :: c)

/-- `freezeTopLevel`, xslt_variable_stack.hpp lines 142-149: all globals are evaluated. -/
def freeze (gs : List Global) (n : Nat) : List VName → VCache → Outcome VCache
  | [], c => .ok c
  | x :: xs, c =>
    match evalGlobal gs n [] c x with
    | .throws => .throws
    | .deep => .deep
    | .ok (_, c) => freeze gs n xs c

end Verif.Xslt
