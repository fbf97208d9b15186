import Verif.Model.XsltTemplates
set_option autoImplicit false
/-!
# Choosing a template rule, XSLT 1.0 sections 2.6.2, 5.5, 5.6
-/
namespace Verif.Spec.XsltTemplates
open Verif.Xslt (Act Source)
variable {ν : Type}

/-- A template as written: its patterns, each with its default priority, and the other attributes.
`prec` is the place of its stylesheet in the import tree. -/
structure Decl (ν : Type) where
  patterns : List ((ν → Bool) × Rat)
  priority : Option Rat
  name : List Char
  mode : List Char
  prec : List Int
  body : List (Act ν)

/-- One alternative of a template. -/
structure Rule (ν : Type) where
  hit : ν → Bool
  priority : Rat
  decl : Decl ν

/-- The rules of a stylesheet in the order they appear: a template with several alternatives is treated
as several templates (section 5.5), and the priority attribute counts if there is one. -/
def rules (ds : List (Decl ν)) : List (Rule ν) :=
  ds.flatMap fun d => d.patterns.map fun p => ⟨p.1, d.priority.getD p.2, d⟩

/-- `p` has lower import precedence than `q`: it is imported from `q`, directly or not, or it branches
off at an earlier import. -/
def Lower (p q : List Int) : Prop :=
  (∃ c, c ≠ [] ∧ p = q ++ c) ∨ ∃ c x y l r, p = c ++ x :: l ∧ q = c ++ y :: r ∧ x < y

/-- A rule can be used for a node: its mode is asked for, its pattern matches, and it comes from a
stylesheet imported into the one at `from_` (the empty list for any). -/
def Usable (from_ : List Int) (mode : List Char) (node : ν) (r : Rule ν) : Prop :=
  r.decl.mode = mode ∧ r.hit node = true ∧ ∃ c, c ≠ [] ∧ r.decl.prec = from_ ++ c

/-- `r` is the rule to use: at some place among the rules, no usable rule has higher import precedence,
none of the same precedence higher priority, and none after it the same priority. -/
def Chosen (rs : List (Rule ν)) (from_ : List Int) (mode : List Char) (node : ν) (r : Rule ν) : Prop :=
  ∃ l1 l2, rs = l1 ++ r :: l2 ∧ Usable from_ mode node r ∧
    (∀ x ∈ l1, Usable from_ mode node x →
      Lower x.decl.prec r.decl.prec ∨ (x.decl.prec = r.decl.prec ∧ x.priority ≤ r.priority)) ∧
    (∀ x ∈ l2, Usable from_ mode node x →
      Lower x.decl.prec r.decl.prec ∨ (x.decl.prec = r.decl.prec ∧ x.priority < r.priority))

/-! ## Running, with the current template rule -/

/-- All of a list of results, in order. -/
def together : List (Option (List (List Char))) → Option (List (List Char))
  | [] => some []
  | none :: _ => none
  | some o :: rest => (together rest).map fun r => o ++ r

/-- Run the rule chosen for a node. `choose` names the rule: its body and its import precedence.
`xsl:apply-imports` in the body uses the mode and the precedence of the *current template rule*, the
one being instantiated (section 5.6). The first argument bounds the depth. -/
def run (choose : List Int → List Char → ν → Option (List (Act ν) × List Int)) (src : Source ν) :
    Nat → List Int → List Char → ν → Option (List (List Char))
  | 0, _, _, _ => none
  | n + 1, from_, mode, node =>
    match choose from_ mode node with
    | some (body, prec) =>
      together (body.map fun
        | .out s => some [s]
        | .applyTemplates sel m => together ((sel node).map (run choose src n [] m))
        | .applyImports => run choose src n prec mode node)
    | none =>
      match src.kids node with
      | some kids => together (kids.map (run choose src n [] mode))
      | none => some [src.text node]

/-- `choose` picks the rule to use. -/
def Chooses (rs : List (Rule ν)) (choose : List Int → List Char → ν → Option (List (Act ν) × List Int)) : Prop :=
  ∀ from_ mode node,
    match choose from_ mode node with
    | none => ∀ r ∈ rs, ¬ Usable from_ mode node r
    | some (body, prec) => ∃ r, Chosen rs from_ mode node r ∧ body = r.decl.body ∧ prec = r.decl.prec

/-- No `xsl:apply-imports`. -/
def noImports : List (Act ν) → Prop
  | [] => True
  | .applyImports :: _ => False
  | _ :: rest => noImports rest

/-- An `xsl:apply-imports` at most once, and before any `xsl:apply-templates`. -/
def importsFirst : List (Act ν) → Prop
  | [] => True
  | .out _ :: rest => importsFirst rest
  | _ :: rest => noImports rest

end Verif.Spec.XsltTemplates
