import Verif.Model.Expat
import Verif.Model.XsltCompile
import Verif.Model.XsltOutput
set_option autoImplicit false
/-!
# `xsl:namespace-alias` and the names of literal result elements

Modelled: /repo/include/XSLT/impl/handler/xslt_namespace_alias_handler.hpp,
/repo/include/XSLT/impl/handler/xslt_inline_element_handler.hpp lines 24-73,
/repo/include/XSLT/impl/xslt_compilation_context.hpp lines 153-175, and what becomes of the names when the
element is made: `QName::create`, /repo/include/XSLT/impl/xslt_qname.hpp lines 51-70, called by
/repo/include/XSLT/impl/xslt_output.hpp lines 54-58 and 114-118.

The stylesheet is the sequence of its `xsl:namespace-alias` declarations and literal result elements, in the
order in which the compiler comes to them; what else is in it does not touch the aliases. Values of
attributes are strings here: attribute value templates are C71.
-/
namespace Verif.XsltAlias

abbrev Str := List Char
abbrev Scope := XsltCompile.Scope
abbrev Attr := XsltCompile.Attr

/-- What the compiler comes to: an alias with the values of its attributes and the namespaces in scope, or
the start of a literal result element. -/
inductive Item where
  | alias (scope : Scope) (stylesheetPrefix resultPrefix : Str)
  | literal (uri loc qn : Str) (atts : List Attr)

/-- `namespaceRemap_`, the newest entry first, and `autoNs_` (xslt_compilation_context.hpp 271-273). -/
structure Ctx where
  remap : List (Str × Str × Str) := []
  auto : Nat := 1
deriving DecidableEq, Repr

/-- `InlineElement`: qualified names and namespaces (xslt_inline_element.hpp). -/
structure Inline where
  qn : Str
  uri : Str
  atts : List (Str × Str × Str)
deriving DecidableEq, Repr

/-- `#default` is the empty prefix, xslt_namespace_alias_handler.hpp lines 40-43. -/
def orDefault (p : Str) : Str := if p = "#default".toList then [] else p

/-- `NamespaceAliasHandler::startElement`, lines 26-55, and `addNamespaceAlias`; both attributes are needed,
and `none` is an exception. -/
def declare (sc : Scope) (sp rp : Str) (c : Ctx) : Option Ctx :=
  if sp = [] ∨ rp = [] then none
  else if (sc.lookup (orDefault sp)).isNone ∧ orDefault sp ≠ [] then none
  else if (sc.lookup (orDefault rp)).isNone ∧ orDefault rp ≠ [] then none
  else some { c with
    remap := ((sc.lookup (orDefault sp)).getD [], orDefault rp, (sc.lookup (orDefault rp)).getD []) :: c.remap }

/-- `makeName`, xslt_inline_element_handler.hpp lines 66-72. -/
def makeName (p l : Str) : Str := p ++ ':' :: l

/-- The attributes, lines 30-53; `autoNamespacePrefix` is xslt_compilation_context.hpp lines 170-175. -/
def inlineAtts (c : Ctx) : List Attr → Ctx × List (Str × Str × Str)
  | [] => (c, [])
  | a :: as =>
    if XsltCompile.SC.xmlns.isPrefixOf a.qn then inlineAtts c as
    else if a.uri = XsltCompile.SC.xslt then inlineAtts c as
    else
      match c.remap.lookup a.uri with
      | none =>
        let r := inlineAtts c as
        (r.1, (a.qn, a.uri, a.value) :: r.2)
      | some (p, u) =>
        if p = [] ∧ u ≠ [] then
          let r := inlineAtts { c with auto := c.auto + 1 } as
          (r.1, (makeName (Xslt.autoPrefix c.auto) a.loc, u, a.value) :: r.2)
        else
          let r := inlineAtts c as
          (r.1, (makeName p a.loc, u, a.value) :: r.2)

/-- `InlineElementHandler::createContainer`, lines 24-63. -/
def inlineElement (c : Ctx) (uri loc qn : Str) (atts : List Attr) : Ctx × Inline :=
  let r := inlineAtts c atts
  match r.1.remap.lookup uri with
  | none => (r.1, ⟨qn, uri, r.2⟩)
  | some (p, u) => (r.1, ⟨makeName p loc, u, r.2⟩)

/-- The stylesheet compiled: its literal result elements. -/
def compile (c : Ctx) : List Item → Option (List Inline)
  | [] => some []
  | .alias sc sp rp :: is => (declare sc sp rp c).bind fun c => compile c is
  | .literal u l q as :: is =>
    let r := inlineElement c u l q as
    (compile r.1 is).map fun es => r.2 :: es

/-- `QName::create`: prefix and local name; `none` is an exception. -/
def create (q : Str) : Option (Str × Str) :=
  if Expat.isQName q then
    match Expat.cut q with
    | none => some ([], q)
    | some p => some p
  else none

/-- The element and the attributes made when it is executed: for each the prefix that is asked for, the local
name and the namespace. -/
structure Made where
  «prefix» : Str
  loc : Str
  uri : Str
deriving DecidableEq, Repr

/-- `InlineAttribute::execute`, one after the other. -/
def makeAtts : List (Str × Str × Str) → Option (List (Made × Str))
  | [] => some []
  | a :: as => (create a.1).bind fun n => (makeAtts as).map fun r => (⟨n.1, n.2, a.2.1⟩, a.2.2) :: r

/-- `InlineElement::execute`, xslt_inline_element.hpp lines 67-79. -/
def make (e : Inline) : Option (Made × List (Made × Str)) :=
  (create e.qn).bind fun n => (makeAtts e.atts).map fun as => (⟨n.1, n.2, e.uri⟩, as)

end Verif.XsltAlias
