set_option autoImplicit false
/-!
# Import precedence: include/XSLT/impl/xslt_precedence.hpp,
# include/XSLT/impl/handler/xslt_include_handler.hpp
-/
namespace Verif.Xslt

/-- `Precedence`, xslt_precedence.hpp lines 6-84: the numbers and the count of children handed out. -/
structure Precedence where
  prec : List Int
  children : Int
deriving DecidableEq, Repr

/-- `Precedence::InitialPrecedence`, lines 9-13. -/
def initialPrecedence : Precedence := ⟨[0], 0⟩

/-- `Precedence::FrozenPrecedence`, lines 15-19: no numbers. -/
def frozenPrecedence : Precedence := ⟨[], 0⟩

/-- The loop of `operator<`, lines 97-103, over the places both have; `none` if it ends without a
decision. -/
def ltLoop : List Int → List Int → Option Bool
  | l :: ls, r :: rs => if l < r then some true else if l > r then some false else ltLoop ls rs
  | _, _ => none

/-- `operator<`, lines 91-108. -/
def precLt (l r : List Int) : Bool :=
  if l = r then false
  else
    match ltLoop l r with
    | some b => b
    | none => if l.length < r.length then false else true

/-- `operator>`, lines 110-113. -/
def precGt (l r : List Int) : Bool := !(decide (l = r)) && !(precLt l r)

/-- The loop of `is_descendant`, lines 69-71. -/
def samePlaces : List Int → List Int → Bool
  | [], _ => true
  | _ :: _, [] => true
  | a :: as, b :: bs => if b ≠ a then false else samePlaces as bs

/-- `self.is_descendant(other)`, lines 64-74: `other` is below `self`. -/
def isDescendant (self other : List Int) : Bool :=
  if other.length ≤ self.length then false else samePlaces self other

/-- `next_generation`, lines 76-81: the changed object and the result. -/
def nextGeneration (p : Precedence) : Precedence × Precedence :=
  (⟨p.prec, p.children + 1⟩, ⟨p.prec ++ [p.children + 1], 0⟩)

mutual
/-- A stylesheet with the stylesheets its `xsl:import` elements name, in order. `xsl:include` puts the
imports of the included file after those already read, at the same precedence (`include_stylesheet` with
`context_->precedence()`, xslt_include_handler.hpp line 94), so an included file is part of its includer. -/
inductive Sheet where
  | mk (id : Nat) (imports : Sheets)
/-- A list of stylesheets. -/
inductive Sheets where
  | nil
  | cons (s : Sheet) (rest : Sheets)
end

mutual
/-- `IncludeHandler`: a stylesheet is read first, each import it names is put on a stack with
`next_precedence()` (lines 60-64), and `unwind_imports` (lines 118-126) then reads the last import
first. The result lists the stylesheets in the order they are read with the precedence their
declarations get. Simplification: the explicit stack is replaced by recursion. -/
def readSheet (p : Precedence) : Sheet → List (Nat × List Int)
  | .mk id imports => (id, p.prec) :: readImports p imports
/-- The imports of one stylesheet, last first. -/
def readImports (p : Precedence) : Sheets → List (Nat × List Int)
  | .nil => []
  | .cons s rest => readImports (nextGeneration p).1 rest ++ readSheet (nextGeneration p).2 s
end

end Verif.Xslt
