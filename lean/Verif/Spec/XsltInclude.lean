import Verif.Model.XsltInclude
set_option autoImplicit false
/-!
# What a stylesheet of several files is (XSLT 1.0, sections 2.6.1 and 2.6.2; XML Base)

A file with `xsl:include` stands for the file with each `xsl:include` replaced by what is in the file it names;
files with `xsl:import` form a tree.  A file must not include or import itself, directly or not: on the way
down to a file no file is met twice.  Files that are named must be there and well-formed.
-/
namespace Verif.Spec.XsltInclude
open Verif.XsltInclude (Item File)

abbrev Str := List Char

/-- A piece of a file whose includes are replaced: a declaration with its base, or the name of a file that is
imported, with the files on the way to it. -/
inductive Piece where
  | decl (n : Nat) (base : Str)
  | impt (u : Str) (path : List Str)

/-- The base with an `xml:base`. -/
def under (R : Str → Str → Str) (base : Str) : Option Str → Str
  | none => base
  | some b => if b = [] then base else R base b

/-- What is in a file with this base, with the files on the way to it, is these pieces. -/
inductive Inlines (R : Str → Str → Str) (files : Str → Option File) : List Str → Str → List Item → List Piece → Prop
  | nil (path base) : Inlines R files path base [] []
  | decl (path base n rest ps) : Inlines R files path base rest ps →
      Inlines R files path base (.decl n :: rest) (.decl n base :: ps)
  | impt (path base h b rest ps) : Inlines R files path base rest ps →
      Inlines R files path base (.impt h b :: rest) (.impt (R (under R base b) h) path :: ps)
  | incl (path base h b rest qs ps f) : R (under R base b) h ∉ path → files (R (under R base b) h) = some f →
      f.broken = false →
      Inlines R files (path ++ [R (under R base b) h]) (under R (R (under R base b) h) f.base) f.items qs →
      Inlines R files path base rest ps →
      Inlines R files path base (.incl h b :: rest) (qs ++ ps)

mutual
/-- The import tree: each stylesheet with its declarations, and those it imports, in order. -/
inductive ITree where
  | mk (decls : List (Nat × Str)) (imports : ITrees)
/-- A list of import trees. -/
inductive ITrees where
  | nil
  | cons (t : ITree) (rest : ITrees)
end

/-- The declarations among some pieces. -/
def declsOf : List Piece → List (Nat × Str)
  | [] => []
  | .decl n b :: ps => (n, b) :: declsOf ps
  | .impt _ _ :: ps => declsOf ps

/-- The imports among some pieces. -/
def importsOf : List Piece → List (Str × List Str)
  | [] => []
  | .decl _ _ :: ps => importsOf ps
  | .impt u path :: ps => (u, path) :: importsOf ps

/-- The import trees of the files that are imported. -/
inductive Imports (R : Str → Str → Str) (files : Str → Option File) : List (Str × List Str) → ITrees → Prop
  | nil : Imports R files [] .nil
  | cons (u path rest f ps ts us) : u ∉ path → files u = some f → f.broken = false →
      Inlines R files (path ++ [u]) (under R u f.base) f.items ps → Imports R files (importsOf ps) ts →
      Imports R files rest us →
      Imports R files ((u, path) :: rest) (.cons (.mk (declsOf ps) ts) us)

/-- The import tree of a stylesheet whose first file, with this base, has this in it. -/
def Sheet (R : Str → Str → Str) (files : Str → Option File) (base : Str) (items : List Item) (t : ITree) : Prop :=
  ∃ ps ts, Inlines R files [] base items ps ∧ Imports R files (importsOf ps) ts ∧ t = .mk (declsOf ps) ts

mutual
/-- The stylesheets of an import tree from the one with the lowest precedence to that with the highest: what
is imported before what imports it, and earlier imports first. -/
def postorder : ITree → List (List (Nat × Str))
  | .mk ds ts => postorders ts ++ [ds]
def postorders : ITrees → List (List (Nat × Str))
  | .nil => []
  | .cons t ts => postorder t ++ postorders ts
end

/-- What is compiled, one declaration after the other, with precedences: each stylesheet of the tree has one
precedence, which is higher the later it is in `postorder`, its declarations come in one piece and in their
order, and stylesheets of higher precedence come first. -/
def Compiled (t : ITree) (out : List (Nat × List Int × Str)) : Prop :=
  ∃ g : List (List (Nat × Str) × List Int), (out = g.flatMap fun x => x.1.map fun d => (d.1, x.2, d.2)) ∧
    g.reverse.map Prod.fst = postorder t ∧ g.reverse.Pairwise fun a b => Verif.Xslt.precLt a.2 b.2 = true

/-- Every `xsl:import` is before everything else. -/
def ImportsFirst : List Item → Prop
  | .impt _ _ :: rest => ImportsFirst rest
  | items => ∀ h b, Item.impt h b ∉ items

/-- No `xml:base` on `xsl:include` and `xsl:import`. -/
def Bare (items : List Item) : Prop :=
  (∀ h b, Item.incl h b ∈ items → b = none) ∧ ∀ h b, Item.impt h b ∈ items → b = none

/-- Only these files exist. -/
def Only (files : Str → Option File) (l : List Str) : Prop := ∀ u, files u ≠ none → u ∈ l

end Verif.Spec.XsltInclude
