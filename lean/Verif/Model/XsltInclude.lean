import Verif.Model.XsltPrecedence
set_option autoImplicit false
/-!
# Stylesheets of several files: include/XSLT/impl/handler/xslt_include_handler.hpp, with
# include/SAX/filter/XMLBaseTracker.hpp and include/SAX/helpers/XMLBaseSupport.hpp

A file is what a parser makes of it: the `xml:base` of its outermost element, what is in it and whether there is
an error in the end.  Simplifications:
a declaration (a template, a variable, ...) is a number, and `xml:base` in it, which is pushed and popped between
its start and its end, is left out; `xsl:include` and `xsl:import` are where XSLT allows them, are empty and
have an `href`; how a declaration is compiled is property C79.  The parser of the first file has a locator.
-/
namespace Verif.XsltInclude
open Verif.Xslt (Precedence initialPrecedence nextGeneration)

abbrev Str := List Char

/-- What may be in a stylesheet. -/
inductive Item where
  | decl (n : Nat)
  | incl (href : Str) (base : Option Str)
  | impt (href : Str) (base : Option Str)
deriving DecidableEq, Repr

/-- A stylesheet file; if it is `broken` the parser reports an error at its end. -/
structure File where
  base : Option Str := none
  items : List Item
  broken : Bool := false
deriving DecidableEq, Repr

/-- What a call comes to: it returns, it throws, it uses memory that has been freed, or it needs
more steps. -/
inductive Res (α : Type) where
  | done (a : α)
  | error
  | undefined
  | more
deriving DecidableEq, Repr

/-- `bases_` and `depth_` of XMLBaseSupport, lines 111-112, innermost first; `base_set_` of the tracker, and the
system id its locator gives; `precedence_` of the CompilationContext; `current_includes_` and `import_stack_` of the
IncludeHandler, lines 233-234, last one last; and the declarations compiled so far, each with its precedence and
the base it is compiled with. -/
structure St where
  system : Str
  bases : List (Int × Str) := []
  depth : Int := 0
  baseSet : Bool := false
  prec : Precedence := initialPrecedence
  includes : List Str := []
  imports : List (Str × Precedence × List Str) := []
  out : List (Nat × List Int × Str) := []

/-- `XMLBaseSupport::currentBase`, lines 80-85. -/
def top (st : St) : Str :=
  match st.bases with
  | [] => []
  | (_, b) :: _ => b

/-- The first lines of `currentBase` and `makeAbsolute` of the tracker, XMLBaseTracker.hpp lines 66-85. -/
def locate (st : St) : St :=
  if st.baseSet then st else { st with baseSet := true, bases := (-1, st.system) :: st.bases }

/-- `XMLBaseTracker::startElement`, lines 52-57, with `XMLBaseSupport::startElement`, lines 62-71.  `R` resolves a reference
against a base (property C13). -/
def openElement (R : Str → Str → Str) (b : Option Str) (st : St) : St :=
  match b with
  | none => { st with depth := st.depth + 1 }
  | some b =>
    if b = [] then { st with depth := st.depth + 1 }
    else { st with depth := st.depth + 1, bases := (st.depth + 1, R (top st) b) :: st.bases }

/-- `XMLBaseSupport::endElement`, lines 73-78. -/
def closeElement (st : St) : St :=
  match st.bases with
  | [] => { st with depth := st.depth - 1 }
  | (d, b) :: bs =>
    if d = st.depth then { st with depth := st.depth - 1, bases := bs }
    else { st with depth := st.depth - 1, bases := (d, b) :: bs }

/-- `setBase`, xslt_stylesheet_parser.hpp lines 72-77, after `currentBase` has been asked. -/
def setBase (u : Str) (st : St) : St := { st with baseSet := true, bases := (-1, u) :: st.bases }

/-- The start of a file: `include_stylesheet`, lines 150-156, with `set_precedence`, and the start of the outermost
element. -/
def enter (R : Str → Str → Str) (u : Str) (p : Precedence) (f : File) (st : St) : St :=
  openElement R f.base { setBase u (locate st) with includes := st.includes ++ [u], prec := p }

/-- The end of a file: the end of its outermost element and lines 167-172. -/
def leave (prev : Str) (st : St) : St :=
  let st := closeElement st
  { setBase prev (locate st) with includes := st.includes.dropLast }

/-- Is there an `xsl:include`? -/
def hasIncl (items : List Item) : Bool :=
  items.any fun | .incl _ _ => true | _ => false

/-- Lines 169-170: an error was reported, and the reference is still good or not. -/
def fails {α : Type} (moved : Bool) : Res α := if moved then .undefined else .error

/-- What is in a file, one after the other.  The elements of the first file come to the handlers through the
tracker; of the other files, `IncludeHandler::startElement` and `endElement` (lines 49-105) keep `xsl:include` and
`xsl:import` back from it.  An included file is read at the end of `xsl:include`; an import is put on the
stack, line 62.  `include_stylesheet` has a reference to the name of the file, into `href_`, to which each
`xsl:include` in that file is pushed; lines 169-170 use it once more if there was an error.  Simplification: a push
always moves the stack. -/
def runItems (R : Str → Str → Str) (files : Str → Option File) (first : Bool) : Nat → St → List Item → Res St
  | 0, _, _ => .more
  | _ + 1, st, [] => .done st
  | fuel + 1, st, .decl n :: rest =>
    runItems R files first fuel { st with out := st.out ++ [(n, st.prec.prec, top (locate st))] } rest
  | fuel + 1, st, .impt h b :: rest =>
    let st := locate (if first then openElement R b st else st)
    let st := { st with
      prec := (nextGeneration st.prec).1
      imports := st.imports ++ [(R (top st) h, (nextGeneration st.prec).2, st.includes)] }
    runItems R files first fuel (if first then closeElement st else st) rest
  | fuel + 1, st, .incl h b :: rest =>
    let st := locate (if first then openElement R b st else st)
    let u := R (top st) h
    if u ∈ st.includes then .error
    else
      match files u with
      | none => .error
      | some f =>
        match runItems R files false fuel (enter R u st.prec f st) f.items with
        | .done st' =>
          if f.broken then fails (hasIncl f.items) else
          let st' := leave (top st) st'
          runItems R files first fuel (if first then closeElement st' else st') rest
        | .error => .error
        | .undefined => .undefined
        | .more => .more

/-- `unwind_imports`, lines 114-121, with `import_stylesheet`, lines 144-148: the import that was pushed last is
read, and then taken from its place, behind which there may be others by now.  The name is a reference into the
stack. -/
def unwind (R : Str → Str → Str) (files : Str → Option File) : Nat → St → Res St
  | 0, _ => .more
  | fuel + 1, st =>
    match st.imports.getLast? with
    | none => .done st
    | some (u, p, path) =>
      let st := { st with includes := path }
      if u ∈ st.includes then .error
      else
        match files u with
        | none => .error
        | some f =>
          match runItems R files false fuel (enter R u p f st) f.items with
          | .done st' =>
            if f.broken then fails (decide (st.imports.length < st'.imports.length)) else
            let st' := leave (top (locate st)) st'
            unwind R files fuel { st' with imports := st'.imports.eraseIdx (st.imports.length - 1) }
          | .error => .error
          | .undefined => .undefined
          | .more => .more

/-- The whole: the first file, whose system id is `system`, and at its end the imports (`endDocument`,
xslt_stylesheet_compiler.hpp lines 83-87).  The declarations with their precedence and base, in the order they
are compiled.  The first file is well-formed. -/
def compile (R : Str → Str → Str) (files : Str → Option File) (fuel : Nat) (system : Str) (f : File) :
    Res (List (Nat × List Int × Str)) :=
  match runItems R files true fuel (openElement R f.base { system := system }) f.items with
  | .done st =>
    match unwind R files fuel (closeElement st) with
    | .done st' => .done st'.out
    | .error => .error
    | .undefined => .undefined
    | .more => .more
  | .error => .error
  | .undefined => .undefined
  | .more => .more

end Verif.XsltInclude
