import Verif.Model.XsltPrecedence
set_option autoImplicit false
/-!
# Template rules: include/XSLT/impl/xslt_compiled_stylesheet.hpp, include/XSLT/impl/xslt_template.hpp,
# include/XSLT/impl/xslt_apply_templates.hpp, include/XSLT/impl/xslt_apply_imports.hpp

`ν` is the type of source nodes. Simplifications: a pattern is the set of the nodes it matches, priorities
are rational numbers; the variables and the position of the execution context are left out.
-/
namespace Verif.Xslt
variable {ν : Type}

/-- The instructions of a template body that matter here. -/
inductive Act (ν : Type) where
  /-- anything that writes -/
  | out (s : List Char)
  /-- `xsl:apply-templates`: the nodes selected and sorted, and the mode -/
  | applyTemplates (select : ν → List ν) (mode : List Char)
  /-- `xsl:apply-imports` -/
  | applyImports

/-- `MatchExpr`: one alternative of a match pattern with its priority. -/
structure Pattern (ν : Type) where
  hit : ν → Bool
  priority : Rat

/-- `Template`, xslt_template.hpp lines 13-73. -/
structure Templ (ν : Type) where
  patterns : List (Pattern ν)
  name : List Char
  mode : List Char
  prec : List Int
  body : List (Act ν)

/-- The constructor, xslt_template.hpp lines 32-49: a priority attribute overrides that of all patterns. -/
def mkTempl (patterns : List (Pattern ν)) (name mode : List Char) (priority : Option Rat) (prec : List Int)
    (body : List (Act ν)) : Templ ν :=
  ⟨match priority with
    | none => patterns
    | some p => patterns.map fun m => { m with priority := p },
   name, mode, prec, body⟩

/-- `MatchTemplate`, xslt_compiled_stylesheet.hpp lines 312-337. -/
structure MatchTemplate (ν : Type) where
  pattern : Pattern ν
  action : Templ ν

/-- `MatchTemplate::operator<`, lines 329-333. -/
def MatchTemplate.lt (a b : MatchTemplate ν) : Bool := decide (a.pattern.priority > b.pattern.priority)

/-- `m[k] = f(m[k])` in a `std::map`, with a default constructed value if there is none. The order of
keys is not modelled. -/
def upd {κ υ : Type} [DecidableEq κ] (k : κ) (d : υ) (f : υ → υ) : List (κ × υ) → List (κ × υ)
  | [] => [(k, f d)]
  | e :: m => if e.1 = k then (k, f e.2) :: m else e :: upd k d f m

/-- `m.find(k)`. -/
def get {κ υ : Type} [DecidableEq κ] (k : κ) : List (κ × υ) → Option υ
  | [] => none
  | e :: m => if e.1 = k then some e.2 else get k m

/-- `templates_`, line 345. -/
abbrev Templates (ν : Type) := List (List Int × List (List Char × List (MatchTemplate ν)))

/-- `CompiledStylesheet`: the rules and the named templates. -/
structure Compiled (ν : Type) where
  templates : Templates ν := []
  named : List (List Char × Templ ν) := []

/-- One turn of the loop of `add_template`, line 131. -/
def addMatch (t : Templ ν) (ts : Templates ν) (m : Pattern ν) : Templates ν :=
  upd t.prec [] (upd t.mode [] (· ++ [⟨m, t⟩])) ts

/-- `add_template`, lines 123-151; `none` if it throws. -/
def addTemplate (c : Compiled ν) (t : Templ ν) : Option (Compiled ν) :=
  let c := { c with templates := t.patterns.foldl (addMatch t) c.templates }
  if t.name.isEmpty then some c
  else
    match get t.name c.named with
    | none => some { c with named := upd t.name t (fun _ => t) c.named }
    | some e =>
      if precGt e.prec t.prec then some c
      else if e.prec = t.prec then none
      else some { c with named := upd t.name t (fun _ => t) c.named }

/-- All templates of a stylesheet in the order they are read. -/
def addTemplates : Compiled ν → List (Templ ν) → Option (Compiled ν)
  | c, [] => some c
  | c, t :: ts =>
    match addTemplate c t with
    | none => none
    | some c => addTemplates c ts

/-- Put an element in front of the first one it may precede. -/
def insertSorted {α : Type} (le : α → α → Bool) (a : α) : List α → List α
  | [] => [a]
  | b :: l => if le a b then a :: b :: l else b :: insertSorted le a l

/-- `std::stable_sort`, as an insertion sort: the result does not depend on the algorithm. -/
def sortBy {α : Type} (le : α → α → Bool) : List α → List α
  | [] => []
  | a :: l => insertSorted le a (sortBy le l)

/-- `prepare`, lines 171-180. -/
def prepare (c : Compiled ν) : Compiled ν :=
  { c with templates := c.templates.map fun p =>
      (p.1, p.2.map fun m => (m.1, sortBy (fun a b => !(MatchTemplate.lt b a)) m.2.reverse)) }

/-- The list of precedences to try, `doApplyTemplates` lines 242-246. `std::sort` is a stable sort here: the keys differ. -/
def lowerPrecedences (generation : List Int) (ts : Templates ν) : List (List Int) :=
  (sortBy (fun a b => !(precLt b a)) ((ts.map Prod.fst).filter (isDescendant generation)).reverse).reverse

/-- The search of `doApplyTemplates`, lines 250-265: the rule, if any, and `current_generation_` after it. -/
def search (ts : Templates ν) (mode : List Char) (node : ν) : List (List Int) → List Int →
    Option (MatchTemplate ν) × List Int
  | [], cur => (none, cur)
  | p :: ps, _ =>
    match get p ts with
    | none => search ts mode node ps p
    | some modes =>
      match get mode modes with
      | none => search ts mode node ps p
      | some ms =>
        match ms.find? (fun t => t.pattern.hit node) with
        | some t => (some t, p)
        | none => search ts mode node ps p

/-- The rule `doApplyTemplates` runs for a node; `none` for the built-in rule. -/
def select (c : Compiled ν) (generation : List Int) (mode : List Char) (node : ν) :
    Option (MatchTemplate ν) :=
  (search c.templates mode node (lowerPrecedences generation c.templates) []).1

/-- `callTemplate`, lines 213-227: the template of that name; `none` if it throws. -/
def called (c : Compiled ν) (name : List Char) : Option (Templ ν) := get name c.named

/-! ## Running -/

/-- `current_mode_` and `current_generation_`, lines 362-363. -/
structure Current where
  mode : List Char
  generation : List Int

/-- The source tree as the built-in rules see it, `defaultAction` lines 269-299: the children of
documents, fragments and elements, the text of the other nodes (empty for comments and the like). -/
structure Source (ν : Type) where
  kids : ν → Option (List ν)
  text : ν → List Char

/-- The body of a template: `execute_children`. `app` is `doApplyTemplates`. -/
def runBody (app : Current → ν → List Char → List Int → Option (List (List Char) × Current)) (node : ν) :
    List (Act ν) → Current → Option (List (List Char) × Current)
  | [], cur => some ([], cur)
  | .out s :: rest, cur => (runBody app node rest cur).map fun r => (s :: r.1, r.2)
  | .applyTemplates sel mode :: rest, cur =>
    let rec each : List ν → Current → Option (List (List Char) × Current)
      | [], cur => some ([], cur)
      | n :: ns, cur =>
        match app cur n mode frozenPrecedence.prec with
        | none => none
        | some (o, cur) => (each ns cur).map fun r => (o ++ r.1, r.2)
    match each (sel node) cur with
    | none => none
    | some (o, cur) => (runBody app node rest cur).map fun r => (o ++ r.1, r.2)
  | .applyImports :: rest, cur =>
    match app cur node cur.mode cur.generation with
    | none => none
    | some (o, cur) => (runBody app node rest cur).map fun r => (o ++ r.1, r.2)

/-- `doApplyTemplates`, lines 235-267. The first argument bounds the depth of the recursion (`none`:
bound reached). -/
def doApply (c : Compiled ν) (src : Source ν) :
    Nat → Current → ν → List Char → List Int → Option (List (List Char) × Current)
  | 0, _, _, _, _ => none
  | n + 1, cur, node, mode, generation =>
    let r := search c.templates mode node (lowerPrecedences generation c.templates) cur.generation
    let cur := ⟨mode, r.2⟩
    match r.1 with
    | some t => runBody (doApply c src n) node t.action.body cur
    | none =>
      match src.kids node with
      | some kids => runBody (doApply c src n) node [.applyTemplates (fun _ => kids) mode] cur
      | none => some ([src.text node], cur)

end Verif.Xslt
