/-
Compiling a stylesheet: the SAX handlers that turn the events of a stylesheet document into
the instructions the processor runs.

Modelled: /repo/include/XSLT/impl/xslt_stylesheet_compiler.hpp, xslt_compilation_context.hpp
(the handler stack) and the handlers of /repo/include/XSLT/impl/handler/.

Not modelled here: xsl:import and xsl:include (C57), xsl:output (C62), xsl:namespace-alias, and
what is inside an expression, a pattern, an attribute value template, a qualified name or a
number; those are the parameters `Ext` (C70, C71, C76, C12).
-/
set_option autoImplicit false

namespace Verif.XsltCompile

abbrev Str := List Char
/-- The namespaces in scope at an element, prefix and uri: what `NamespaceTracker` knows
(C16, C17). -/
abbrev Scope := List (Str × Str)

/-- An attribute as SAX reports it. -/
structure Attr where
  uri : Str
  loc : Str
  qn : Str
  value : Str
deriving DecidableEq, Repr

/-- A start of an element as SAX reports it, with the namespaces in scope. -/
structure El where
  uri : Str
  loc : Str
  qn : Str
  atts : List Attr
  scope : Scope
deriving Repr

/-- The events the compiler is driven by.  Comments and processing instructions are left out:
`DefaultHandler` ignores them. -/
inductive Event where
  | start (el : El)
  | chars (s : Str)
  | finish
deriving Repr

/-- What the handlers call on: the compilers of expressions, of patterns and of attribute value
templates, `processInternalQName`, and `lexical_cast<double>` of a normalised string.  `none` is an
exception.  The flags say if `current()` and if variables may be used
(xslt_compilation_context.hpp 72-91). -/
structure Ext (ε μ ν π : Type) where
  expr : (current : Bool) → (variables : Bool) → Scope → Str → Option ε
  avt : (current : Bool) → Scope → Str → Option ε
  pattern : (variables : Bool) → Scope → Str → Option μ
  name : Scope → Str → Option ν
  priority : Str → Option π

/-- `Sort`, xslt_sort.hpp; the language is `none` when there is none. -/
structure SortBy (ε : Type) where
  select : ε
  lang : Option ε
  dataType : ε
  order : ε
  caseOrder : ε
deriving DecidableEq, Repr

/-- How `Element` and `Attribute` get at a namespace: from the namespaces in scope or from a
template (xslt_element.hpp, xslt_attribute.hpp). -/
inductive Ns (ε : Type) where
  | scope (sc : Scope)
  | avt (e : ε)
deriving DecidableEq, Repr

/-- The compiled instructions, one for each of the classes of /repo/include/XSLT/impl/xslt_*.hpp. -/
inductive Code (ε ν : Type) where
  | text (s : Str) (raw : Bool)
  | valueOf (e : ε) (raw : Bool)
  | copyOf (e : ε)
  | applyImports
  | applyTemplates (select : Option ε) (mode : Option ν) (sorts : List (SortBy ε))
      (params : List (ν × Option ε × List (Code ε ν)))
  | callTemplate (name : ν) (params : List (ν × Option ε × List (Code ε ν)))
  | choose (whens : List (ε × List (Code ε ν))) (otherwise : Option (List (Code ε ν)))
  | ifThen (e : ε) (body : List (Code ε ν))
  | forEach (e : ε) (sorts : List (SortBy ε)) (body : List (Code ε ν))
  | message (terminate : Bool) (body : List (Code ε ν))
  | comment (body : List (Code ε ν))
  | procInst (name : ε) (body : List (Code ε ν))
  | copy (body : List (Code ε ν))
  | variable (name : ν) (select : Option ε) (body : List (Code ε ν))
  | param (name : ν) (select : Option ε) (body : List (Code ε ν))
  | element (name : ε) (ns : Ns ε) (body : List (Code ε ν))
  | attribute (name : ε) (ns : Ns ε) (body : List (Code ε ν))
  | literal (qn uri : Str) (atts : List (Str × Str × ε)) (body : List (Code ε ν))

/-- `Template`, xslt_template.hpp 12-70.  The empty string that stands for "no name" and "no
mode" is `none`. -/
structure Template (ε μ ν π : Type) where
  pat : Option μ
  name : Option ν
  mode : Option ν
  priority : Option π
  body : List (Code ε ν)

/-- `Key`, xslt_key.hpp. -/
structure Key (ε μ : Type) where
  pat : μ
  use : ε

/-- What an `ItemContainerHandler` is building: the class of its container and what the handler
adds to it (`done_sort_`, `done_params_`). -/
inductive Maker (ε μ ν π : Type) where
  | ifThen (e : ε)
  | forEach (e : ε) (sorts : List (SortBy ε)) (done : Bool)
  | message (terminate : Bool)
  | comment
  | procInst (name : ε)
  | copy
  | variable (name : ν) (select : Option ε)
  | param (name : ν) (select : Option ε)
  | element (name : ε) (ns : Ns ε)
  | attribute (name : ε) (ns : Ns ε)
  | literal (qn uri : Str) (atts : List (Str × Str × ε))
  | when (e : ε)
  | otherwise
  | withParam (name : ν) (select : Option ε)
  | global (isParam : Bool) (name : ν) (select : Option ε)
  | template (pat : Option μ) (name mode : Option ν) (priority : Option π) (done : Bool)
  | whole (pat : μ) (qn uri : Str) (atts : List (Str × Str × ε))

/-- A handler on the stack, after its first `startElement`: `push` makes that call at once
(xslt_compilation_context.hpp 118-129). -/
inductive Frame (ε μ ν π : Type) where
  /-- `ValueOfHandler`, `CopyOfHandler`, `ApplyImportsHandler`. -/
  | leaf (c : Code ε ν)
  | text (raw : Bool) (buffer : Str)
  | applyTemplates (select : Option ε) (mode : Option ν) (sorts : List (SortBy ε))
      (params : List (ν × Option ε × List (Code ε ν)))
  | callTemplate (name : ν) (params : List (ν × Option ε × List (Code ε ν)))
  | choose (whens : List (ε × List (Code ε ν))) (otherwise : Option (List (Code ε ν)))
      (seenWhen seenOtherwise : Bool)
  | sort (s : SortBy ε)
  | key (name : ν) (k : Key ε μ)
  | foreign (depth : Nat)
  | box (m : Maker ε μ ν π) (items : List (Code ε ν))

/-- The compiler: the handlers above the `StylesheetHandler`, the latter's `top_`, the context's
`current_allowed_`, and what has been added to the `CompiledStylesheet`. -/
structure St (ε μ ν π : Type) where
  frames : List (Frame ε μ ν π)
  top : Bool
  current : Bool
  templates : List (Template ε μ ν π)
  globals : List (Code ε ν)
  keys : List (ν × Key ε μ)

/-! The constants, xslt_constants.hpp 15-250. -/

namespace SC
def xslt : Str := "http://www.w3.org/1999/XSL/Transform".toList
def xml : Str := "http://www.w3.org/XML/1998/namespace".toList
def version : Str := "1.0".toList
def yes : Str := "yes".toList
def no : Str := "no".toList
def dot : Str := ".".toList
def slash : Str := "/".toList
def xmlns : Str := "xmlns:".toList
def text : Str := "text".toList
def ascending : Str := "ascending".toList
def upperFirst : Str := "upper-first".toList
def «default» : Str := "default".toList
def preserve : Str := "preserve".toList

def aCaseOrder : Str := "case-order".toList
def aDataType : Str := "data-type".toList
def aDisableOutputEscaping : Str := "disable-output-escaping".toList
def aExcludeResultPrefixes : Str := "exclude-result-prefixes".toList
def aExtensionElementPrefixes : Str := "extension-element-prefixes".toList
def aId : Str := "id".toList
def aLang : Str := "lang".toList
def aMatch : Str := "match".toList
def aMode : Str := "mode".toList
def aName : Str := "name".toList
def aNamespace : Str := "namespace".toList
def aOrder : Str := "order".toList
def aPriority : Str := "priority".toList
def aSelect : Str := "select".toList
def aSpace : Str := "space".toList
def aTerminate : Str := "terminate".toList
def aTest : Str := "test".toList
def aUse : Str := "use".toList
def aUseAttributeSets : Str := "use-attribute-sets".toList
def aVersion : Str := "version".toList

def eKey : Str := "key".toList
def eOtherwise : Str := "otherwise".toList
def eParam : Str := "param".toList
def eSort : Str := "sort".toList
def eStylesheet : Str := "stylesheet".toList
def eTemplate : Str := "template".toList
def eTransform : Str := "transform".toList
def eVariable : Str := "variable".toList
def eWhen : Str := "when".toList
def eWithParam : Str := "with-param".toList
end SC

/-- `is_space`, /repo/src/XML/XMLCharacterClasses.cpp (C12 models it on its own). -/
def isSpace (c : Char) : Bool := c = ' ' || c = '\t' || c = '\n' || c = '\r'

/-- The loops over a string for a character that is no space; `verifyNoCharacterData`,
xslt_value_validation.hpp 299-306. -/
def blank (s : Str) : Bool := s.all isSpace

/-! `AttributeValidators`, xslt_value_validation.hpp 60-292. -/

structure Rule where
  name : Str
  required : Bool
  deflt : Option Str
  allowed : List Str

/-- `Attributes::getValue` of a qualified name: empty when there is no such attribute
(AttributesImpl.hpp, C28). -/
def getValue (atts : List Attr) (qn : Str) : Str :=
  match atts.find? (fun a => a.qn = qn) with
  | some a => a.value
  | none => []

/-- `Attributes::getIndex` of a qualified name is not -1. -/
def hasIndex (atts : List Attr) (qn : Str) : Bool := atts.any (fun a => a.qn = qn)

/-- `AllowedValues::is_allowed`, xslt_value_validation.hpp 37-42. -/
def isAllowed (allowed : List Str) (v : Str) : Bool := allowed.isEmpty || allowed.contains v

/-- `validateAttribute` and `validateXmlAttribute`, xslt_value_validation.hpp 174-206. -/
def valid (rules : List Rule) (a : Attr) : Bool :=
  if a.uri = [] then
    match rules.find? (fun r => r.name = a.loc) with
    | some r => isAllowed r.allowed a.value
    | none => false
  else if a.uri = SC.xml && a.loc = SC.aSpace then isAllowed [SC.default, SC.preserve] a.value
  else true

/-- The second loop of `gather`, xslt_value_validation.hpp 151-168; the map is a list, the newest
entry first. -/
def gatherStep (rules : List Rule) (res : List (Str × Str)) (a : Attr) : Option (List (Str × Str)) :=
  if a.loc = [] then some res
  else if valid rules a then some ((a.loc, a.value) :: res) else none

/-- The default values, xslt_value_validation.hpp 147-148. -/
def defaults (rules : List Rule) : List (Str × Str) :=
  rules.filterMap (fun r => r.deflt.map (fun d => (r.name, d)))

/-- `gather`, xslt_value_validation.hpp 136-171. -/
def gather (rules : List Rule) (atts : List Attr) : Option (List (Str × Str)) :=
  if rules.any (fun r => r.required && (getValue atts r.name).isEmpty) then none
  else atts.foldlM (gatherStep rules) (defaults rules)

/-- `attrs[name]`: empty when the map has none. -/
def get (res : List (Str × Str)) (n : Str) : Str := (res.lookup n).getD []

def need (n : Str) : Rule := ⟨n, true, none, []⟩
def may (n : Str) : Rule := ⟨n, false, none, []⟩
def mayBe (n d : Str) : Rule := ⟨n, false, some d, []⟩
def yesNo (n : Str) : Rule := ⟨n, false, some SC.no, [SC.yes, SC.no]⟩

section
variable {ε μ ν π : Type}

/-- An optional expression: empty is none. -/
def optExpr (E : Ext ε μ ν π) (cur : Bool) (sc : Scope) (s : Str) : Option (Option ε) :=
  if s = [] then some none else (E.expr cur true sc s).map some

/-- An optional name: empty is none. -/
def optName (E : Ext ε μ ν π) (sc : Scope) (s : Str) : Option (Option ν) :=
  if s = [] then some none else (E.name sc s).map some

/-! The first `startElement` of each handler. -/

/-- xslt_value_of_handler.hpp 22-41. -/
def openValueOf (E : Ext ε μ ν π) (cur : Bool) (el : El) : Option (Frame ε μ ν π) := do
  let r ← gather [need SC.aSelect, yesNo SC.aDisableOutputEscaping] el.atts
  let e ← E.expr cur true el.scope (get r SC.aSelect)
  some (.leaf (.valueOf e (get r SC.aDisableOutputEscaping = SC.yes)))

/-- xslt_copy_handler.hpp 48-66. -/
def openCopyOf (E : Ext ε μ ν π) (cur : Bool) (el : El) : Option (Frame ε μ ν π) := do
  let r ← gather [need SC.aSelect] el.atts
  let e ← E.expr cur true el.scope (get r SC.aSelect)
  some (.leaf (.copyOf e))

/-- xslt_apply_imports_handler.hpp 20-40. -/
def openApplyImports (el : El) : Option (Frame ε μ ν π) :=
  if el.atts.isEmpty then some (.leaf .applyImports) else none

/-- xslt_text_handler.hpp 22-35. -/
def openText (el : El) : Option (Frame ε μ ν π) := do
  let r ← gather [yesNo SC.aDisableOutputEscaping] el.atts
  some (.text (get r SC.aDisableOutputEscaping = SC.yes) [])

/-- xslt_apply_templates_handler.hpp 28-51. -/
def openApplyTemplates (E : Ext ε μ ν π) (cur : Bool) (el : El) : Option (Frame ε μ ν π) := do
  let r ← gather [may SC.aSelect, may SC.aMode] el.atts
  let e ← optExpr E cur el.scope (get r SC.aSelect)
  let m ← optName E el.scope (get r SC.aMode)
  some (.applyTemplates e m [] [])

/-- xslt_call_template_handler.hpp 26-41. -/
def openCallTemplate (E : Ext ε μ ν π) (el : El) : Option (Frame ε μ ν π) := do
  let r ← gather [need SC.aName] el.atts
  let n ← E.name el.scope (get r SC.aName)
  some (.callTemplate n [])

/-- xslt_choose_handler.hpp 99-112. -/
def openChoose (el : El) : Option (Frame ε μ ν π) :=
  if el.atts.isEmpty then some (.choose [] none false false) else none

/-- xslt_sort_handler.hpp 26-58.  The language is complained about and dropped. -/
def openSort (E : Ext ε μ ν π) (cur : Bool) (el : El) : Option (Frame ε μ ν π) := do
  let r ← gather [mayBe SC.aSelect SC.dot, may SC.aLang, mayBe SC.aDataType SC.text,
                  mayBe SC.aOrder SC.ascending, mayBe SC.aCaseOrder SC.upperFirst] el.atts
  let e ← E.expr cur true el.scope (get r SC.aSelect)
  let d ← E.avt cur el.scope (get r SC.aDataType)
  let o ← E.avt cur el.scope (get r SC.aOrder)
  let c ← E.avt cur el.scope (get r SC.aCaseOrder)
  some (.sort ⟨e, none, d, o, c⟩)

/-- xslt_if_handler.hpp 23-32. -/
def openIf (E : Ext ε μ ν π) (cur : Bool) (el : El) : Option (Frame ε μ ν π) := do
  let r ← gather [need SC.aTest] el.atts
  let e ← E.expr cur true el.scope (get r SC.aTest)
  some (.box (.ifThen e) [])

/-- xslt_choose_handler.hpp 31-40. -/
def openWhen (E : Ext ε μ ν π) (cur : Bool) (el : El) : Option (Frame ε μ ν π) := do
  let r ← gather [need SC.aTest] el.atts
  let e ← E.expr cur true el.scope (get r SC.aTest)
  some (.box (.when e) [])

/-- xslt_choose_handler.hpp 67-76. -/
def openOtherwise (el : El) : Option (Frame ε μ ν π) :=
  if el.atts.isEmpty then some (.box .otherwise []) else none

/-- xslt_for_each_handler.hpp 28-36. -/
def openForEach (E : Ext ε μ ν π) (cur : Bool) (el : El) : Option (Frame ε μ ν π) := do
  let r ← gather [need SC.aSelect] el.atts
  let e ← E.expr cur true el.scope (get r SC.aSelect)
  some (.box (.forEach e [] false) [])

/-- xslt_message_handler.hpp 25-32. -/
def openMessage (el : El) : Option (Frame ε μ ν π) := do
  let r ← gather [yesNo SC.aTerminate] el.atts
  some (.box (.message (get r SC.aTerminate = SC.yes)) [])

/-- xslt_comment_handler.hpp 22-32. -/
def openComment (el : El) : Option (Frame ε μ ν π) :=
  if el.atts.isEmpty then some (.box .comment []) else none

/-- xslt_processing_instruction_handler.hpp 25-34. -/
def openProcInst (E : Ext ε μ ν π) (cur : Bool) (el : El) : Option (Frame ε μ ν π) := do
  let r ← gather [need SC.aName] el.atts
  let e ← E.avt cur el.scope (get r SC.aName)
  some (.box (.procInst e) [])

/-- xslt_copy_handler.hpp 22-31; the attribute sets are kept by `Copy` and never used. -/
def openCopy (el : El) : Option (Frame ε μ ν π) := do
  let _ ← gather [may SC.aUseAttributeSets] el.atts
  some (.box .copy [])

/-- `VariableHandler::createContainer`, xslt_variable_handler.hpp 41-61: its `select` is looked up
by qualified name, past `gather`. -/
def openVariable (E : Ext ε μ ν π) (cur : Bool) (mk : ν → Option ε → Maker ε μ ν π) (el : El) :
    Option (Frame ε μ ν π) := do
  let r ← gather [need SC.aName, may SC.aSelect] el.atts
  let e ← optExpr E cur el.scope (getValue el.atts SC.aSelect)
  let n ← E.name el.scope (get r SC.aName)
  some (.box (mk n e) [])

/-- xslt_element_handler.hpp 24-49. -/
def openElement (E : Ext ε μ ν π) (cur : Bool) (el : El) : Option (Frame ε μ ν π) := do
  let r ← gather [need SC.aName, mayBe SC.aNamespace [], may SC.aUseAttributeSets] el.atts
  let n ← E.avt cur el.scope (get r SC.aName)
  if get r SC.aUseAttributeSets ≠ [] then none
  else if get r SC.aNamespace = [] then some (.box (.element n (.scope el.scope)) [])
  else do
    let s ← E.avt cur el.scope (get r SC.aNamespace)
    some (.box (.element n (.avt s)) [])

/-- xslt_attribute_handler.hpp 20-41. -/
def openAttribute (E : Ext ε μ ν π) (cur : Bool) (el : El) : Option (Frame ε μ ν π) := do
  let r ← gather [need SC.aName, mayBe SC.aNamespace []] el.atts
  let n ← E.avt cur el.scope (get r SC.aName)
  if get r SC.aNamespace = [] then some (.box (.attribute n (.scope el.scope)) [])
  else do
    let s ← E.avt cur el.scope (get r SC.aNamespace)
    some (.box (.attribute n (.avt s)) [])

/-- The attributes of a literal result element, xslt_inline_element_handler.hpp 29-52, without
`xsl:namespace-alias`. -/
def inlineAtts (E : Ext ε μ ν π) (cur : Bool) (sc : Scope) : List Attr → Option (List (Str × Str × ε))
  | [] => some []
  | a :: as =>
    if SC.xmlns.isPrefixOf a.qn then inlineAtts E cur sc as
    else if a.uri = SC.xslt then inlineAtts E cur sc as
    else do
      let e ← E.avt cur sc a.value
      let rest ← inlineAtts E cur sc as
      some ((a.qn, a.uri, e) :: rest)

/-- xslt_inline_element_handler.hpp 24-60. -/
def openLiteral (E : Ext ε μ ν π) (cur : Bool) (el : El) : Option (Frame ε μ ν π) := do
  let as ← inlineAtts E cur el.scope el.atts
  some (.box (.literal el.qn el.uri as) [])

/-- xslt_template_handler.hpp 41-88.  A pattern has been compiled when there is one: `Disallow`
then leaves `current_allowed_` true (xslt_compilation_context.hpp 82-86, 279-286). -/
def openTemplate (E : Ext ε μ ν π) (el : El) : Option (Frame ε μ ν π) := do
  let r ← gather [may SC.aMatch, may SC.aMode, may SC.aName, may SC.aPriority] el.atts
  if get r SC.aMatch = [] ∧ get r SC.aName = [] then none
  else if hasIndex el.atts SC.aMode ∧ (get r SC.aMode = [] ∨ get r SC.aMatch = []) then none
  else if hasIndex el.atts SC.aPriority ∧ get r SC.aPriority = [] then none
  else do
    let n ← optName E el.scope (get r SC.aName)
    let m ← optName E el.scope (get r SC.aMode)
    if get r SC.aMatch = [] then some (.box (.template none n m none false) [])
    else do
      let p ← E.pattern true el.scope (get r SC.aMatch)
      if get r SC.aPriority = [] then some (.box (.template (some p) n m none false) [])
      else do
        let q ← E.priority (get r SC.aPriority)
        some (.box (.template (some p) n m (some q) false) [])

/-- xslt_key_handler.hpp 28-54.  The pattern is compiled before the expression, so that
`current_allowed_` is true for the latter. -/
def openKey (E : Ext ε μ ν π) (el : El) : Option (Frame ε μ ν π) := do
  let r ← gather [need SC.aName, need SC.aMatch, need SC.aUse] el.atts
  let n ← E.name el.scope (get r SC.aName)
  let p ← E.pattern false el.scope (get r SC.aMatch)
  let u ← E.expr true false el.scope (get r SC.aUse)
  some (.key n ⟨p, u⟩)

/-! The children of a container. -/

/-- The handlers `AllowedChildren` makes. -/
inductive Kind where
  | applyImports | applyTemplates | attribute | callTemplate | choose | comment | copy | copyOf
  | element | forEach | ifThen | message | procInst | text | valueOf | variable | notImplemented
deriving DecidableEq, Repr

/-- `AllowedChildren`, xslt_item_container_handler.hpp 140-164. -/
def allowedChildren : List (Str × Kind) :=
  [("apply-imports".toList, .applyImports), ("apply-templates".toList, .applyTemplates),
   ("attribute".toList, .attribute), ("call-template".toList, .callTemplate),
   ("choose".toList, .choose), ("comment".toList, .comment), ("copy".toList, .copy),
   ("copy-of".toList, .copyOf), ("element".toList, .element), ("fallback".toList, .notImplemented),
   ("for-each".toList, .forEach), ("if".toList, .ifThen), ("message".toList, .message),
   ("number".toList, .notImplemented), ("processing-instruction".toList, .procInst),
   ("text".toList, .text), ("value-of".toList, .valueOf), ("variable".toList, .variable)]

/-- The new handler and its first `startElement`; `NotImplementedYetHandler` throws
(xslt_create_handler.hpp 23-36). -/
def openKind (E : Ext ε μ ν π) (cur : Bool) (el : El) : Kind → Option (Frame ε μ ν π)
  | .applyImports => openApplyImports el
  | .applyTemplates => openApplyTemplates E cur el
  | .attribute => openAttribute E cur el
  | .callTemplate => openCallTemplate E el
  | .choose => openChoose el
  | .comment => openComment el
  | .copy => openCopy el
  | .copyOf => openCopyOf E cur el
  | .element => openElement E cur el
  | .forEach => openForEach E cur el
  | .ifThen => openIf E cur el
  | .message => openMessage el
  | .procInst => openProcInst E cur el
  | .text => openText el
  | .valueOf => openValueOf E cur el
  | .variable => openVariable E cur .variable el
  | .notImplemented => none

/-- `ItemContainerHandler::createChild`, xslt_item_container_handler.hpp 80-106. -/
def openChild (E : Ext ε μ ν π) (cur : Bool) (el : El) : Option (Frame ε μ ν π) :=
  if el.uri = SC.xslt then
    match allowedChildren.lookup el.loc with
    | some k => openKind E cur el k
    | none => none
  else openLiteral E cur el

/-- `createChild` of each container: xslt_for_each_handler.hpp 38-63,
xslt_template_handler.hpp 90-115, and the plain one.  The answer is the new state of this
container and the handler pushed on it. -/
def startInBox (E : Ext ε μ ν π) (cur : Bool) (el : El) :
    Maker ε μ ν π → Option (Maker ε μ ν π × Frame ε μ ν π)
  | .forEach e sorts done =>
    if el.uri = SC.xslt ∧ el.loc = SC.eSort then
      if done then none else (openSort E cur el).map (fun f => (.forEach e sorts done, f))
    else (openChild E cur el).map (fun f => (.forEach e sorts true, f))
  | .template p n m q done =>
    if el.uri = SC.xslt ∧ el.loc = SC.eParam then
      if done then none
      else (openVariable E cur .param el).map (fun f => (.template p n m q done, f))
    else (openChild E cur el).map (fun f => (.template p n m q true, f))
  | m => (openChild E cur el).map (fun f => (m, f))

/-- `characters` of a container: xslt_item_container_handler.hpp 68-77,
xslt_template_handler.hpp 24-38, xslt_variable_handler.hpp 63-72. -/
def charsInBox (s : Str) (items : List (Code ε ν)) :
    Maker ε μ ν π → Option (Frame ε μ ν π)
  | .template p n m q done =>
    if blank s then some (.box (.template p n m q done) items)
    else some (.box (.template p n m q true) (items ++ [.text s false]))
  | .variable n (some e) => if blank s then some (.box (.variable n (some e)) items) else none
  | .param n (some e) => if blank s then some (.box (.param n (some e)) items) else none
  | .withParam n (some e) => if blank s then some (.box (.withParam n (some e)) items) else none
  | .global b n (some e) => if blank s then some (.box (.global b n (some e)) items) else none
  | m => if blank s then some (.box m items) else some (.box m (items ++ [.text s false]))

/-- `parentContainer().add_item`, onto the container of the handler below. -/
def addItem (c : Code ε ν) : List (Frame ε μ ν π) → Option (List (Frame ε μ ν π))
  | .box m items :: fs => some (.box m (items ++ [c]) :: fs)
  | _ => none

/-- `add_when`, `set_otherwise`, `add_parameter` and `add_sort`, on the object of the handler
below. -/
def addWhen (w : ε × List (Code ε ν)) : List (Frame ε μ ν π) → Option (List (Frame ε μ ν π))
  | .choose ws o sw so :: fs => some (.choose (ws ++ [w]) o sw so :: fs)
  | _ => none
def setOtherwise (b : List (Code ε ν)) : List (Frame ε μ ν π) → Option (List (Frame ε μ ν π))
  | .choose ws _ sw so :: fs => some (.choose ws (some b) sw so :: fs)
  | _ => none
def addParam (p : ν × Option ε × List (Code ε ν)) :
    List (Frame ε μ ν π) → Option (List (Frame ε μ ν π))
  | .applyTemplates e m ss ps :: fs => some (.applyTemplates e m ss (ps ++ [p]) :: fs)
  | .callTemplate n ps :: fs => some (.callTemplate n (ps ++ [p]) :: fs)
  | _ => none
def addSort (s : SortBy ε) : List (Frame ε μ ν π) → Option (List (Frame ε μ ν π))
  | .applyTemplates e m ss ps :: fs => some (.applyTemplates e m (ss ++ [s]) ps :: fs)
  | .box (.forEach e ss d) items :: fs => some (.box (.forEach e (ss ++ [s]) d) items :: fs)
  | _ => none

/-- `CompiledStylesheet::add_template`, xslt_compiled_stylesheet.hpp 123-151, in a stylesheet
without imports: all templates have one precedence, and a second template of a name is refused. -/
def addTemplate [DecidableEq ν] (t : Template ε μ ν π) (s : St ε μ ν π) : Option (St ε μ ν π) :=
  match t.name with
  | none => some { s with templates := s.templates ++ [t] }
  | some n =>
    if s.templates.any (fun u => u.name = some n) then none
    else some { s with templates := s.templates ++ [t] }

/-- `endElement` of a container: xslt_item_container_handler.hpp 60-66, and the ones that do
something else: xslt_choose_handler.hpp 42-48, 78-84, xslt_with_param_handler.hpp 22-28,
xslt_variable_handler.hpp 92-98, xslt_template_handler.hpp 118-124,
xslt_inline_element_handler.hpp 86-92. -/
def endBox [DecidableEq ν] (s : St ε μ ν π) (fs : List (Frame ε μ ν π)) (items : List (Code ε ν)) :
    Maker ε μ ν π → Option (St ε μ ν π)
  | .ifThen e => (addItem (.ifThen e items) fs).map (fun fs => { s with frames := fs })
  | .forEach e ss _ => (addItem (.forEach e ss items) fs).map (fun fs => { s with frames := fs })
  | .message b => (addItem (.message b items) fs).map (fun fs => { s with frames := fs })
  | .comment => (addItem (.comment items) fs).map (fun fs => { s with frames := fs })
  | .procInst e => (addItem (.procInst e items) fs).map (fun fs => { s with frames := fs })
  | .copy => (addItem (.copy items) fs).map (fun fs => { s with frames := fs })
  | .variable n e => (addItem (.variable n e items) fs).map (fun fs => { s with frames := fs })
  | .param n e => (addItem (.param n e items) fs).map (fun fs => { s with frames := fs })
  | .element e ns => (addItem (.element e ns items) fs).map (fun fs => { s with frames := fs })
  | .attribute e ns => (addItem (.attribute e ns items) fs).map (fun fs => { s with frames := fs })
  | .literal q u as => (addItem (.literal q u as items) fs).map (fun fs => { s with frames := fs })
  | .when e => (addWhen (e, items) fs).map (fun fs => { s with frames := fs })
  | .otherwise => (setOtherwise items fs).map (fun fs => { s with frames := fs })
  | .withParam n e => (addParam (n, e, items) fs).map (fun fs => { s with frames := fs })
  | .global b n e =>
    some { s with frames := fs
                  globals := s.globals ++ [if b then .param n e items else .variable n e items] }
  | .template p n m q _ => addTemplate ⟨p, n, m, q, items⟩ { s with frames := fs }
  | .whole p q u as =>
    addTemplate ⟨some p, none, none, none, [.literal q u as items]⟩ { s with frames := fs }

/-! The stylesheet handler. -/

/-- `startStylesheet`, xslt_stylesheet_compiler.hpp 84-104. -/
def startStylesheet (el : El) (s : St ε μ ν π) : Option (St ε μ ν π) :=
  if el.loc = SC.eStylesheet ∨ el.loc = SC.eTransform then do
    let r ← gather [need SC.aVersion, may SC.aExtensionElementPrefixes,
                    may SC.aExcludeResultPrefixes, may SC.aId] el.atts
    if get r SC.aVersion ≠ SC.version then none
    else if get r SC.aExtensionElementPrefixes ≠ [] then none
    else some { s with top := false }
  else none

/-- The `xsl:version` of a literal result element, xslt_stylesheet_compiler.hpp 111-119. -/
def lreVersion (atts : List Attr) : Str :=
  match atts.find? (fun a => a.uri = SC.xslt && a.loc = SC.aVersion) with
  | some a => a.value
  | none => []

/-- `startLREAsStylesheet`, xslt_stylesheet_compiler.hpp 106-139. -/
def startLRE (E : Ext ε μ ν π) (el : El) (s : St ε μ ν π) : Option (St ε μ ν π) :=
  if lreVersion el.atts ≠ SC.version then none
  else do
    let p ← E.pattern true el.scope SC.slash
    let as ← inlineAtts E true el.scope el.atts
    some { s with frames := [.box (.whole p el.qn el.uri as) []], top := false, current := true }

/-- `startXSLTElement` and `allowedChildren`, xslt_stylesheet_compiler.hpp 141-205: templates,
variables, parameters and keys.  The rest throws here: for `xsl:attribute-set`,
`xsl:decimal-format`, `xsl:preserve-space` and `xsl:strip-space` that is what the code does;
`xsl:output`, `xsl:namespace-alias`, `xsl:import` and `xsl:include` are not modelled, and no theorem is
about a stylesheet with one. -/
def startTopLevel (E : Ext ε μ ν π) (el : El) (s : St ε μ ν π) : Option (St ε μ ν π) :=
  if el.loc = SC.eTemplate then
    (openTemplate E el).map (fun f =>
      { s with frames := [f]
               current := match f with
                 | .box (.template (some _) _ _ _ _) _ => true
                 | _ => s.current })
  else if el.loc = SC.eParam then
    (openVariable E s.current (.global true) el).map (fun f => { s with frames := [f] })
  else if el.loc = SC.eVariable then
    (openVariable E s.current (.global false) el).map (fun f => { s with frames := [f] })
  else if el.loc = SC.eKey then
    (openKey E el).map (fun f => { s with frames := [f], current := true })
  else none

/-- `StylesheetHandler::startElement`, xslt_stylesheet_compiler.hpp 45-67, and
xslt_foreign_element_handler.hpp 20-26. -/
def startRoot (E : Ext ε μ ν π) (el : El) (s : St ε μ ν π) : Option (St ε μ ν π) :=
  if s.top then
    if el.uri = SC.xslt then startStylesheet el s else startLRE E el s
  else if el.uri = SC.xslt then startTopLevel E el s
  else if el.uri ≠ [] then some { s with frames := [.foreign 1] }
  else none

/-! The events. -/

/-- `startElement` of the handler on top of the stack. -/
def start (E : Ext ε μ ν π) (el : El) (s : St ε μ ν π) : Option (St ε μ ν π) :=
  match s.frames with
  | [] => startRoot E el s
  -- xslt_value_of_handler.hpp 40, xslt_copy_handler.hpp 65, xslt_apply_imports_handler.hpp 39
  | .leaf _ :: _ => none
  -- xslt_text_handler.hpp 34
  | .text _ _ :: _ => none
  -- xslt_apply_templates_handler.hpp 53-80
  | .applyTemplates e m ss ps :: fs =>
    if el.uri = SC.xslt ∧ el.loc = SC.eSort then
      (openSort E s.current el).map (fun f => { s with frames := f :: .applyTemplates e m ss ps :: fs })
    else if el.uri = SC.xslt ∧ el.loc = SC.eWithParam then
      (openVariable E s.current .withParam el).map
        (fun f => { s with frames := f :: .applyTemplates e m ss ps :: fs })
    else none
  -- xslt_call_template_handler.hpp 43-54
  | .callTemplate n ps :: fs =>
    if el.uri = SC.xslt ∧ el.loc = SC.eWithParam then
      (openVariable E s.current .withParam el).map
        (fun f => { s with frames := f :: .callTemplate n ps :: fs })
    else none
  -- xslt_choose_handler.hpp 114-151
  | .choose ws o sw so :: fs =>
    if el.uri = SC.xslt ∧ el.loc = SC.eWhen then
      if so then none
      else (openWhen E s.current el).map (fun f => { s with frames := f :: .choose ws o true so :: fs })
    else if el.uri = SC.xslt ∧ el.loc = SC.eOtherwise then
      if so then none
      else (openOtherwise el).map (fun f => { s with frames := f :: .choose ws o sw true :: fs })
    else none
  -- xslt_sort_handler.hpp 57
  | .sort _ :: _ => none
  -- xslt_key_handler.hpp 33-34
  | .key _ _ :: _ => none
  | .foreign d :: fs => some { s with frames := .foreign (d + 1) :: fs }
  | .box m items :: fs =>
    (startInBox E s.current el m).map (fun mf => { s with frames := mf.2 :: .box mf.1 items :: fs })

/-- `characters` of the handler on top of the stack.  `ForeignElementHandler` and
`CallTemplateHandler` do nothing with them (xslt_call_template_handler.hpp 64-66). -/
def chars (t : Str) (s : St ε μ ν π) : Option (St ε μ ν π) :=
  match s.frames with
  | [] => if blank t then some s else none
  | .leaf _ :: _ => if blank t then some s else none
  | .text raw b :: fs => some { s with frames := .text raw (b ++ t) :: fs }
  | .applyTemplates _ _ _ _ :: _ => if blank t then some s else none
  | .callTemplate _ _ :: _ => some s
  | .choose _ _ _ _ :: _ => if blank t then some s else none
  | .sort _ :: _ => if blank t then some s else none
  | .key _ _ :: _ => if blank t then some s else none
  | .foreign _ :: _ => some s
  | .box m items :: fs => (charsInBox t items m).map (fun f => { s with frames := f :: fs })

/-- `endElement` of the handler on top of the stack. -/
def finish [DecidableEq ν] (s : St ε μ ν π) : Option (St ε μ ν π) :=
  match s.frames with
  | [] => some s
  | .leaf c :: fs => (addItem c fs).map (fun fs => { s with frames := fs })
  | .text raw b :: fs => (addItem (.text b raw) fs).map (fun fs => { s with frames := fs })
  | .applyTemplates e m ss ps :: fs =>
    (addItem (.applyTemplates e m ss ps) fs).map (fun fs => { s with frames := fs })
  | .callTemplate n ps :: fs => (addItem (.callTemplate n ps) fs).map (fun fs => { s with frames := fs })
  -- xslt_choose_handler.hpp 153-161
  | .choose ws o sw _ :: fs =>
    if sw then (addItem (.choose ws o) fs).map (fun fs => { s with frames := fs }) else none
  | .sort so :: fs => (addSort so fs).map (fun fs => { s with frames := fs })
  -- xslt_key_handler.hpp 56-62
  | .key n k :: fs => some { s with frames := fs, keys := s.keys ++ [(n, k)] }
  -- xslt_foreign_element_handler.hpp 28-34
  | .foreign d :: fs =>
    if d - 1 = 0 then some { s with frames := fs } else some { s with frames := .foreign (d - 1) :: fs }
  | .box m items :: fs => endBox s fs items m

def step [DecidableEq ν] (E : Ext ε μ ν π) (s : St ε μ ν π) : Event → Option (St ε μ ν π)
  | .start el => start E el s
  | .chars t => chars t s
  | .finish => finish s

/-- A run of events; an exception ends it. -/
def run [DecidableEq ν] (E : Ext ε μ ν π) : List Event → St ε μ ν π → Option (St ε μ ν π)
  | [], s => some s
  | e :: es, s => (step E s e).bind (run E es)

/-- The compiler before the document: xslt_stylesheet_compiler.hpp 31-43 and
xslt_compilation_context.hpp 41-53. -/
def fresh : St ε μ ν π := ⟨[], true, false, [], [], []⟩

/-- What `StylesheetCompiler::compile` gives, xslt_stylesheet_compiler.hpp 232-261: nothing when
an exception has been thrown. -/
structure Sheet (ε μ ν π : Type) where
  templates : List (Template ε μ ν π)
  globals : List (Code ε ν)
  keys : List (ν × Key ε μ)

def compile [DecidableEq ν] (E : Ext ε μ ν π) (es : List Event) : Option (Sheet ε μ ν π) :=
  (run E es fresh).map (fun s => ⟨s.templates, s.globals, s.keys⟩)

end

end Verif.XsltCompile
