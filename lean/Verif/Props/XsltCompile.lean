import Verif.Lemmas.XsltCompile7
set_option autoImplicit false
set_option linter.unusedSimpArgs false
/-!
# C79: compiling a stylesheet
-/
namespace Verif.Props.XsltCompile
open Verif.XsltCompile
open Verif.Spec.XsltCompile (Src events xsltNs xmlNs Tag tag Att attr stylesheet PlainDocument CarefulDocument
  CurrentInTime)

/-- C79: the events of a stylesheet document are compiled to the templates, variables and keys the
document has by XSLT, each with its instructions, in order; what XSLT does not allow is refused.

Partial: for documents that do not use what the compiler lacks (`PlainDocument`: see the `C79_violated_…`
theorems) nor make the mistakes it does not notice (`CarefulDocument`), and with `current()` used after the
first pattern (`CurrentInTime`). -/
theorem C79_partial {ε μ ν π : Type} [DecidableEq ν] (E : Ext ε μ ν π) (doc : Src) (hp : PlainDocument doc)
    (hcur : CurrentInTime E doc) (hk : CarefulDocument doc) :
    compile E (events doc) = stylesheet E doc :=
  Verif.Lemmas.XsltCompile.compile_eq doc hp hcur (fun _ => hk)

/-- C79: a stylesheet that is right is compiled to what it says, with nothing assumed of mistakes. -/
theorem C79_accepted_partial {ε μ ν π : Type} [DecidableEq ν] (E : Ext ε μ ν π) (doc : Src) (sh : Sheet ε μ ν π)
    (hp : PlainDocument doc) (hcur : CurrentInTime E doc) (h : stylesheet E doc = some sh) :
    compile E (events doc) = some sh := by
  rw [Verif.Lemmas.XsltCompile.compile_eq doc hp hcur (fun hn => by rw [h] at hn; cases hn), h]

/-! ## Documents -/

/-- The text of an expression, a pattern or a name stands for what it is compiled to; `current()` is refused where it is
not allowed, and so is the empty string. -/
def E : Ext Str Str Str Str where
  expr cur vars _ s :=
    if s = [] then none
    else if s = "current()".toList ∧ !cur then none
    else if s = "$v".toList ∧ !vars then none
    else some s
  avt cur _ s := if s = "{current()}".toList ∧ !cur then none else some s
  pattern _ _ s := if s = [] then none else some s
  name _ s := if s = [] ∨ ' ' ∈ s then none else some s
  priority s := some s

def at1 (n v : String) : Attr := ⟨[], n.toList, n.toList, v.toList⟩
def xsl (n : String) (as : List (String × String)) (kids : List Src) : Src :=
  .elem ⟨xsltNs, n.toList, ("xsl:" ++ n).toList, as.map (fun a => at1 a.1 a.2), [("xsl".toList, xsltNs)]⟩ kids
def lit (n : String) (as : List (String × String)) (kids : List Src) : Src :=
  .elem ⟨[], n.toList, n.toList, as.map (fun a => at1 a.1 a.2), [("xsl".toList, xsltNs)]⟩ kids
def txt (s : String) : Src := .text [s.toList]
def sheetOf (kids : List Src) : Src := xsl "stylesheet" [("version", "1.0")] kids
def rule (kids : List Src) : Src := xsl "template" [("match", "a")] kids

mutual
/-- An instruction, in short. -/
def gist : Code Str Str → List Str
  | .text s b => ["text".toList, s, if b then "raw".toList else []]
  | .valueOf e b => ["value-of".toList, e, if b then "raw".toList else []]
  | .copyOf e => ["copy-of".toList, e]
  | .applyImports => ["apply-imports".toList]
  | .applyTemplates e m ss ps => ["apply".toList, e.getD [], m.getD []] ++ ss.flatMap sortGist ++ gistPs ps
  | .callTemplate n ps => ["call".toList, n] ++ gistPs ps
  | .choose ws o => ["choose".toList] ++ gistWs ws ++ gistO o
  | .ifThen e b => ["if".toList, e] ++ gists b
  | .forEach e ss b => ["for-each".toList, e] ++ ss.flatMap sortGist ++ gists b
  | .message t b => ["message".toList, if t then "stop".toList else []] ++ gists b
  | .comment b => ["comment".toList] ++ gists b
  | .procInst e b => ["pi".toList, e] ++ gists b
  | .copy b => ["copy".toList] ++ gists b
  | .variable n e b => ["variable".toList, n, e.getD []] ++ gists b
  | .param n e b => ["param".toList, n, e.getD []] ++ gists b
  | .element e ns b => ["element".toList, e] ++ nsGist ns ++ gists b
  | .attribute e ns b => ["attribute".toList, e] ++ nsGist ns ++ gists b
  | .literal q u as b => ["literal".toList, q, u] ++ as.flatMap (fun a => [a.1, a.2.2]) ++ gists b
def gists : List (Code Str Str) → List Str
  | [] => ["end".toList]
  | c :: cs => gist c ++ gists cs
def gistPs : List (Str × Option Str × List (Code Str Str)) → List Str
  | [] => ["end".toList]
  | (n, e, b) :: ps => [n, e.getD []] ++ gists b ++ gistPs ps
def gistWs : List (Str × List (Code Str Str)) → List Str
  | [] => []
  | (e, b) :: ps => ["when".toList, e] ++ gists b ++ gistWs ps
def gistO : Option (List (Code Str Str)) → List Str
  | none => []
  | some b => ["otherwise".toList] ++ gists b
def sortGist (s : SortBy Str) : List Str := ["sort".toList, s.select, s.lang.getD [], s.dataType, s.order, s.caseOrder]
def nsGist : Ns Str → List Str
  | .scope _ => ["in scope".toList]
  | .avt e => ["namespace".toList, e]
end

/-- A stylesheet, in short. -/
def short (s : Sheet Str Str Str Str) : List Str :=
  s.templates.flatMap (fun t => [t.pat.getD [], t.name.getD [], t.mode.getD [], t.priority.getD []] ++ gists t.body) ++
  s.globals.flatMap gist ++ s.keys.flatMap (fun k => [k.1, k.2.pat, k.2.use])

/-- A stylesheet of many kinds of instruction. -/
def demo : Src := sheetOf
  [txt "\n  ",
   xsl "template" [("match", "item"), ("mode", "m"), ("priority", "2")]
     [xsl "param" [("name", "p"), ("select", "1")] [], txt "\n",
      xsl "param" [("name", "q")] [txt "dflt"],
      lit "b" [("class", "{x}")] [txt "hello ", xsl "value-of" [("select", "@id")] []],
      xsl "choose" [] [txt "\n", xsl "when" [("test", "$p")] [txt "yes"],
                       xsl "when" [("test", "$q")] [xsl "text" [] [txt "  "]],
                       xsl "otherwise" [] [xsl "comment" [] [txt "none"]]],
      xsl "for-each" [("select", "x")] [xsl "sort" [("select", "@n"), ("order", "descending")] [],
                                         xsl "copy-of" [("select", "current()")] []]],
   xsl "key" [("name", "k"), ("match", "item"), ("use", "@id")] [],
   xsl "variable" [("name", "v"), ("select", "current()")] [],
   .elem ⟨"urn:x".toList, "doc".toList, "x:doc".toList, [], []⟩ [txt "a note", xsl "nonsense" [] []],
   xsl "template" [("name", "t")]
     [xsl "call-template" [("name", "t")] [xsl "with-param" [("name", "p")] [lit "c" [] []]],
      xsl "apply-templates" [("select", "y"), ("mode", "m")] [xsl "sort" [] [], xsl "with-param" [("name", "p"), ("select", "2")] []],
      xsl "if" [("test", "a")] [xsl "message" [("terminate", "yes")] [txt "stop"]],
      xsl "element" [("name", "e"), ("namespace", "urn:e")] [xsl "attribute" [("name", "a")] [txt "1"]],
      xsl "processing-instruction" [("name", "p")] [xsl "copy" [] [xsl "apply-imports" [] []]]]]

def long : List String :=
  ["item", "", "m", "2", "param", "p", "1", "end", "param", "q", "", "text", "dflt", "", "end", "literal", "b", "", "class", "{x}",
   "text", "hello ", "", "value-of", "@id", "", "end", "choose", "when", "$p", "text", "yes", "", "end", "when", "$q",
   "text", "  ", "", "end", "otherwise", "comment", "text", "none", "", "end", "end", "for-each", "x",
   "sort", "@n", "", "text", "descending", "upper-first", "copy-of", "current()", "end", "end",
   "", "t", "", "", "call", "t", "p", "", "literal", "c", "", "end", "end", "end",
   "apply", "y", "m", "sort", ".", "", "text", "ascending", "upper-first", "p", "2", "end", "end",
   "if", "a", "message", "stop", "text", "stop", "", "end", "end",
   "element", "e", "namespace", "urn:e", "attribute", "a", "in scope", "text", "1", "", "end", "end",
   "pi", "p", "copy", "apply-imports", "end", "end", "end",
   "variable", "v", "current()", "end", "k", "item", "@id"]

/-- `demo` is as `C79_partial` needs it, and both sides are these templates, variables and keys. -/
theorem demo_fits : PlainDocument demo ∧ CarefulDocument demo ∧ CurrentInTime E demo :=
  ⟨Verif.Lemmas.XsltCompile.plainDocument_of (by decide +kernel),
   Verif.Lemmas.XsltCompile.carefulDocument_of (by decide +kernel) (by decide +kernel),
   fun _ => Or.inr (Verif.Lemmas.XsltCompile.patternFirst_of (by decide +kernel))⟩

theorem demo_says : (stylesheet E demo).map short = some (long.map String.toList) := by decide +kernel

example : compile E (events demo) = stylesheet E demo ∧
    (compile E (events demo)).map short = some (long.map String.toList) := by
  have h := C79_partial E demo demo_fits.1 demo_fits.2.2 demo_fits.2.1
  exact ⟨h, by rw [h]; exact demo_says⟩

example : ∃ sh, compile E (events demo) = some sh := by
  cases h : stylesheet E demo with
  | none => have := demo_says; rw [h] at this; cases this
  | some sh => exact ⟨sh, C79_accepted_partial E demo sh demo_fits.1 demo_fits.2.2 h⟩

/-- A stylesheet that is wrong, and is refused: two templates of one name. -/
def twice : Src := sheetOf [xsl "template" [("name", "t"), ("match", "a")] [], xsl "template" [("name", "t")] []]

example : compile E (events twice) = none := by
  have hs : stylesheet E twice = none := Option.isNone_iff_eq_none.mp (by decide +kernel)
  rw [C79_partial E twice (Verif.Lemmas.XsltCompile.plainDocument_of (by decide +kernel)) (fun _ => Or.inr (Verif.Lemmas.XsltCompile.patternFirst_of (by decide +kernel)))
    (Verif.Lemmas.XsltCompile.carefulDocument_of (by decide +kernel) (by decide +kernel)), hs]

/-! ## What the compiler does not do as XSLT has it -/

def accepted (d : Src) : Bool := (compile E (events d)).isSome
def right (d : Src) : Bool := (stylesheet E d).isSome
def withAtt (a : Attr) : Src → Src
  | .elem el kids => .elem { el with atts := el.atts ++ [a] } kids
  | k => k
def foreignAtt (n v : String) : Attr := ⟨"urn:x".toList, n.toList, ("x:" ++ n).toList, v.toList⟩

/-- C79 violated: an attribute of another namespace with the local name of one of XSLT takes its place: `x:select` after
`select`. -/
theorem C79_violated_foreign_attribute :
    let d := sheetOf [rule [withAtt (foreignAtt "select" "b") (xsl "value-of" [("select", "a")] [])]]
    (compile E (events d)).map short = some (["a", "", "", "", "value-of", "b", "", "end"].map String.toList) ∧
    (stylesheet E d).map short = some (["a", "", "", "", "value-of", "a", "", "end"].map String.toList) := by
  decide +kernel

/-- C79 violated: `current()` is refused until the first pattern has been compiled. -/
theorem C79_violated_current :
    let d := sheetOf [xsl "variable" [("name", "v"), ("select", "current()")] [], rule []]
    right d = true ∧ accepted d = false ∧
    accepted (sheetOf [rule [], xsl "variable" [("name", "v"), ("select", "current()")] []]) = true := by
  decide +kernel

/-- C79 violated: white space is dropped piece by piece: of the text `x& &y`, written with two references, the space is
lost. -/
theorem C79_violated_pieces :
    let d := sheetOf [rule [.text (["x", "&", " ", "&", "y"].map String.toList)]]
    (compile E (events d)).map short =
      some (["a", "", "", "", "text", "x", "", "text", "&", "", "text", "&", "", "text", "y", "", "end"].map String.toList) ∧
    (stylesheet E d).map short =
      some (["a", "", "", "", "text", "x", "", "text", "&", "", "text", " ", "", "text", "&", "", "text", "y", "",
        "end"].map String.toList) := by
  decide +kernel

/-- C79 violated: `xml:space="preserve"` keeps no white space. -/
theorem C79_violated_space :
    (compile E (events (sheetOf [rule [withAtt ⟨xmlNs, "space".toList, "xml:space".toList, "preserve".toList⟩
      (xsl "if" [("test", "b")] [txt "  "])]]))).map short =
      some (["a", "", "", "", "if", "b", "end", "end"].map String.toList) := by
  decide +kernel

/-- C79 violated: a variable with both an expression and elements is accepted. -/
theorem C79_violated_variable :
    let d := sheetOf [rule [xsl "variable" [("name", "v"), ("select", "1")] [lit "b" [] []]]]
    right d = false ∧ accepted d = true := by
  decide +kernel

/-- C79 violated: an empty expression and an empty mode are accepted, as if the attributes were not there. -/
theorem C79_violated_empty :
    let d := sheetOf [rule [xsl "apply-templates" [("select", ""), ("mode", "")] []]]
    right d = false ∧ accepted d = true := by
  decide +kernel

/-- C79 violated: text in `xsl:call-template` is accepted and dropped. -/
theorem C79_violated_call :
    let d := sheetOf [rule [xsl "call-template" [("name", "t")] [txt "lost"]]]
    right d = false ∧ accepted d = true := by
  decide +kernel

/-- C79 violated: text before an `xsl:sort` is accepted. -/
theorem C79_violated_sort :
    let d := sheetOf [rule [xsl "for-each" [("select", "b")] [txt "early", xsl "sort" [] []]]]
    right d = false ∧ accepted d = true := by
  decide +kernel

/-- C79 violated: an attribute of another namespace is refused on `xsl:choose`, `xsl:otherwise`, `xsl:comment` and
`xsl:apply-imports`. -/
theorem C79_violated_bare :
    let d := sheetOf [rule [withAtt (foreignAtt "note" "b") (xsl "comment" [] [txt "c"])]]
    let d' := sheetOf [rule [withAtt (foreignAtt "note" "b") (xsl "copy" [] [txt "c"])]]
    right d = true ∧ accepted d = false ∧ right d' = true ∧ accepted d' = true := by
  decide +kernel

/-- C79 violated: `xsl:fallback` is refused. -/
theorem C79_violated_fallback :
    let d := sheetOf [rule [xsl "fallback" [] [txt "c"]]]
    right d = true ∧ accepted d = false := by
  decide +kernel

/-- C79 violated: the `lang` of a sort is dropped. -/
theorem C79_violated_lang :
    let d := sheetOf [rule [xsl "apply-templates" [] [xsl "sort" [("lang", "sv")] []]]]
    (compile E (events d)).map short =
      some (["a", "", "", "", "apply", "", "", "sort", ".", "", "text", "ascending", "upper-first", "end", "end"].map String.toList) ∧
    (stylesheet E d).map short =
      some (["a", "", "", "", "apply", "", "", "sort", ".", "sv", "text", "ascending", "upper-first", "end", "end"].map String.toList) := by
  decide +kernel

/-- C79 violated: `namespace=""`, no namespace, is taken for no attribute: the namespaces in scope are used. -/
theorem C79_violated_namespace :
    let d := sheetOf [rule [xsl "element" [("name", "e"), ("namespace", "")] []]]
    (compile E (events d)).map short =
      some (["a", "", "", "", "element", "e", "in scope", "end", "end"].map String.toList) ∧
    (stylesheet E d).map short =
      some (["a", "", "", "", "element", "e", "namespace", "", "end", "end"].map String.toList) := by
  decide +kernel

/-- C79 violated: a stylesheet of another version than 1.0 is refused; XSLT 2.5 has it processed in forwards-compatible mode. -/
theorem C79_violated_version :
    let d := xsl "stylesheet" [("version", "1.1")] [rule [txt "x"]]
    right d = true ∧ accepted d = false := by
  decide +kernel

end Verif.Props.XsltCompile
