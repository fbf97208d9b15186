import Verif.Model.XsltCompile
/-
What a stylesheet document means, from the XSLT 1.0 recommendation: which elements and attributes
it may have where (the syntax summaries), and the instructions they stand for.

From the model only the types are used: elements and attributes as SAX reports them, the
compiled instructions, and the parameters `Ext` for expressions, patterns, templates and names.
-/
set_option autoImplicit false

namespace Verif.Spec.XsltCompile

open Verif.XsltCompile (Str Scope Attr El Event Ext SortBy Ns Code Template Key Sheet)

/-- A stylesheet document: elements, and text nodes in the pieces the parser reports them in. -/
inductive Src where
  | text (pieces : List Str)
  | elem (el : El) (kids : List Src)

/-! The events of a document. -/

mutual
def events : Src → List Event
  | .text ps => ps.map Event.chars
  | .elem el kids => .start el :: (eventsAll kids ++ [.finish])
def eventsAll : List Src → List Event
  | [] => []
  | k :: ks => events k ++ eventsAll ks
end

def xsltNs : Str := "http://www.w3.org/1999/XSL/Transform".toList
def xmlNs : Str := "http://www.w3.org/XML/1998/namespace".toList

/-- The elements of XSLT. -/
inductive Tag where
  | applyImports | applyTemplates | attribute | callTemplate | choose | comment | copy | copyOf
  | element | fallback | forEach | ifThen | message | number | procInst | text | valueOf | «variable»
  | otherwise | param | sort | when | withParam
  | attributeSet | decimalFormat | «import» | «include» | key | namespaceAlias | output
  | preserveSpace | stripSpace | stylesheet | template | transform
deriving DecidableEq

def Tag.all : List Tag :=
  [.applyImports, .applyTemplates, .attribute, .callTemplate, .choose, .comment, .copy, .copyOf,
   .element, .fallback, .forEach, .ifThen, .message, .number, .procInst, .text, .valueOf, .variable,
   .otherwise, .param, .sort, .when, .withParam, .attributeSet, .decimalFormat, .import, .include,
   .key, .namespaceAlias, .output, .preserveSpace, .stripSpace, .stylesheet, .template, .transform]

def Tag.str : Tag → Str
  | .applyImports => "apply-imports".toList
  | .applyTemplates => "apply-templates".toList
  | .attribute => "attribute".toList
  | .callTemplate => "call-template".toList
  | .choose => "choose".toList
  | .comment => "comment".toList
  | .copy => "copy".toList
  | .copyOf => "copy-of".toList
  | .element => "element".toList
  | .fallback => "fallback".toList
  | .forEach => "for-each".toList
  | .ifThen => "if".toList
  | .message => "message".toList
  | .number => "number".toList
  | .procInst => "processing-instruction".toList
  | .text => "text".toList
  | .valueOf => "value-of".toList
  | .variable => "variable".toList
  | .otherwise => "otherwise".toList
  | .param => "param".toList
  | .sort => "sort".toList
  | .when => "when".toList
  | .withParam => "with-param".toList
  | .attributeSet => "attribute-set".toList
  | .decimalFormat => "decimal-format".toList
  | .import => "import".toList
  | .include => "include".toList
  | .key => "key".toList
  | .namespaceAlias => "namespace-alias".toList
  | .output => "output".toList
  | .preserveSpace => "preserve-space".toList
  | .stripSpace => "strip-space".toList
  | .stylesheet => "stylesheet".toList
  | .template => "template".toList
  | .transform => "transform".toList

/-- The element of XSLT an element is, if it is one. -/
def tag (el : El) : Option Tag :=
  if el.uri = xsltNs then Tag.all.find? (fun t => t.str = el.loc) else none

/-- The attributes of the elements of XSLT. -/
inductive Att where
  | caseOrder | dataType | disableOutputEscaping | excludeResultPrefixes | extensionElementPrefixes
  | id | lang | «match» | mode | name | «namespace» | order | priority | select | terminate | test
  | use | useAttributeSets | version
deriving DecidableEq

def Att.str : Att → Str
  | .caseOrder => "case-order".toList
  | .dataType => "data-type".toList
  | .disableOutputEscaping => "disable-output-escaping".toList
  | .excludeResultPrefixes => "exclude-result-prefixes".toList
  | .extensionElementPrefixes => "extension-element-prefixes".toList
  | .id => "id".toList
  | .lang => "lang".toList
  | .match => "match".toList
  | .mode => "mode".toList
  | .name => "name".toList
  | .namespace => "namespace".toList
  | .order => "order".toList
  | .priority => "priority".toList
  | .select => "select".toList
  | .terminate => "terminate".toList
  | .test => "test".toList
  | .use => "use".toList
  | .useAttributeSets => "use-attribute-sets".toList
  | .version => "version".toList

/-- The value of an attribute in no namespace. -/
def attr (el : El) (n : Att) : Option Str :=
  (el.atts.find? (fun a => a.uri = [] ∧ a.loc = n.str)).map Attr.value

/-- XSLT 2.1: the attributes of an element of XSLT that are in no namespace are among these. -/
def only (el : El) (ns : List Att) : Option Unit :=
  if ∀ a ∈ el.atts, a.uri = [] → ∃ n ∈ ns, a.loc = n.str then some () else none

/-- A required attribute; an empty one is no expression, no pattern and no name. -/
def need (el : El) (n : Att) : Option Str :=
  match attr el n with
  | some (c :: cs) => some (c :: cs)
  | _ => none

/-- An attribute that is yes or no, by default no. -/
def yesNo (el : El) (n : Att) : Option Bool :=
  match attr el n with
  | none => some false
  | some v => if v = "yes".toList then some true else if v = "no".toList then some false else none

/-- White space only: XSLT 3.4. -/
def white (s : Str) : Prop := ∀ c ∈ s, c = ' ' ∨ c = '\t' ∨ c = '\n' ∨ c = '\r'

instance (s : Str) : Decidable (white s) := inferInstanceAs (Decidable (∀ c ∈ s, _))

/-- No content: text nodes of white space are stripped, nothing else is there. -/
def nothing : List Src → Bool
  | [] => true
  | .text ps :: ks => white ps.flatten && nothing ks
  | .elem _ _ :: _ => false

/-- The text of `xsl:text`, which has no element content. -/
def characters : List Src → Option Str
  | [] => some []
  | .text ps :: ks => do
    let r ← characters ks
    some (ps.flatten ++ r)
  | .elem _ _ :: _ => none

section
variable {ε μ ν π : Type} (E : Ext ε μ ν π)

/-- An optional expression. -/
def select? (el : El) : Option (Option ε) :=
  match attr el .select with
  | none => some none
  | some [] => none
  | some (c :: cs) => (E.expr true true el.scope (c :: cs)).map some

/-- An optional name. -/
def name? (el : El) (n : Att) : Option (Option ν) :=
  match attr el n with
  | none => some none
  | some [] => none
  | some (c :: cs) => (E.name el.scope (c :: cs)).map some

/-- An attribute value template, with a default. -/
def avtOr (el : El) (n : Att) (d : String) : Option ε :=
  E.avt true el.scope ((attr el n).getD d.toList)

/-- The language of a sort. -/
def lang? (el : El) : Option (Option ε) :=
  match attr el .lang with
  | none => some none
  | some v => (E.avt true el.scope v).map some

/-- XSLT 10. -/
def sortOf (el : El) (kids : List Src) : Option (SortBy ε) := do
  only el [.select, .lang, .dataType, .order, .caseOrder]
  let e ← E.expr true true el.scope ((attr el .select).getD ".".toList)
  let l ← lang? E el
  let d ← avtOr E el .dataType "text"
  let o ← avtOr E el .order "ascending"
  let c ← avtOr E el .caseOrder "upper-first"
  if nothing kids then some ⟨e, l, d, o, c⟩ else none

/-- XSLT 7.1.2, 7.1.3: with no `namespace` the namespaces in scope are used. -/
def nsOf (el : El) : Option (Ns ε) :=
  match attr el .namespace with
  | none => some (.scope el.scope)
  | some v => (E.avt true el.scope v).map .avt

/-- The attributes of a literal result element, XSLT 7.1.1: attribute value templates, but for the
attributes of XSLT. -/
def literalAtts (sc : Scope) : List Attr → Option (List (Str × Str × ε))
  | [] => some []
  | a :: as =>
    if a.uri = xsltNs then literalAtts sc as
    else do
      let e ← E.avt true sc a.value
      let rest ← literalAtts sc as
      some ((a.qn, a.uri, e) :: rest)

/-- The name and the expression of a variable, a parameter or a `with-param`, XSLT 11. -/
def binding (el : El) : Option (ν × Option ε) := do
  only el [.name, .select]
  let n ← E.name el.scope (← need el .name)
  let e ← select? E el
  some (n, e)

mutual
/-- One child of a template: an instruction, a literal result element or text.  `none` is an
error. -/
def item : Src → Option (List (Code ε ν))
  | .text ps => if white ps.flatten then some [] else some (ps.map (fun p => .text p false))
  | .elem el kids =>
    if el.uri = xsltNs then
      match tag el with
      -- 5.6
      | some .applyImports => do
        only el []
        if nothing kids then some [.applyImports] else none
      -- 5.4
      | some .applyTemplates => do
        only el [.select, .mode]
        let e ← select? E el
        let m ← name? E el .mode
        let sp ← arguments true kids
        some [.applyTemplates e m sp.1 sp.2]
      -- 7.1.3
      | some .attribute => do
        only el [.name, .namespace]
        let n ← E.avt true el.scope (← need el .name)
        let ns ← nsOf E el
        some [.attribute n ns (← content kids)]
      -- 6
      | some .callTemplate => do
        only el [.name]
        let n ← E.name el.scope (← need el .name)
        let sp ← arguments false kids
        some [.callTemplate n sp.2]
      -- 9.2
      | some .choose => do
        only el []
        let wo ← branches kids
        if wo.1 = [] then none else some [.choose wo.1 wo.2]
      -- 7.4
      | some .comment => do
        only el []
        some [.comment (← content kids)]
      -- 7.5, without attribute sets
      | some .copy => do
        only el [.useAttributeSets]
        some [.copy (← content kids)]
      -- 11.3
      | some .copyOf => do
        only el [.select]
        let e ← E.expr true true el.scope (← need el .select)
        if nothing kids then some [.copyOf e] else none
      -- 7.1.2, without attribute sets
      | some .element => do
        only el [.name, .namespace, .useAttributeSets]
        let n ← E.avt true el.scope (← need el .name)
        let ns ← nsOf E el
        some [.element n ns (← content kids)]
      -- 15: nothing is done for it
      | some .fallback => do
        only el []
        let _ ← content kids
        some []
      -- 8
      | some .forEach => do
        only el [.select]
        let e ← E.expr true true el.scope (← need el .select)
        let sb ← sorted kids
        some [.forEach e sb.1 sb.2]
      -- 9.1
      | some .ifThen => do
        only el [.test]
        let e ← E.expr true true el.scope (← need el .test)
        some [.ifThen e (← content kids)]
      -- 13
      | some .message => do
        only el [.terminate]
        let b ← yesNo el .terminate
        some [.message b (← content kids)]
      -- 7.3
      | some .procInst => do
        only el [.name]
        let n ← E.avt true el.scope (← need el .name)
        some [.procInst n (← content kids)]
      -- 7.2
      | some .text => do
        only el [.disableOutputEscaping]
        let b ← yesNo el .disableOutputEscaping
        let s ← characters kids
        some [.text s b]
      -- 7.6.1
      | some .valueOf => do
        only el [.select, .disableOutputEscaping]
        let e ← E.expr true true el.scope (← need el .select)
        let b ← yesNo el .disableOutputEscaping
        if nothing kids then some [.valueOf e b] else none
      -- 11.2
      | some .variable => do
        let ne ← binding E el
        let b ← if ne.2.isNone then content kids else if nothing kids then some [] else none
        some [.variable ne.1 ne.2 b]
      | _ => none
    else do
      let as ← literalAtts E el.scope el.atts
      some [.literal el.qn el.uri as (← content kids)]

/-- The content of a template. -/
def content : List Src → Option (List (Code ε ν))
  | [] => some []
  | k :: ks => do
    let a ← item k
    let b ← content ks
    some (a ++ b)

/-- The content of `xsl:apply-templates` and `xsl:call-template`: sorts, if allowed, and
parameters. -/
def arguments (sorts : Bool) :
    List Src → Option (List (SortBy ε) × List (ν × Option ε × List (Code ε ν)))
  | [] => some ([], [])
  | .text ps :: ks => if white ps.flatten then arguments sorts ks else none
  | .elem el kids :: ks =>
    match tag el with
    | some .sort =>
      if sorts then do
        let s ← sortOf E el kids
        let r ← arguments sorts ks
        some (s :: r.1, r.2)
      else none
    | some .withParam => do
      let ne ← binding E el
      let b ← if ne.2.isNone then content kids else if nothing kids then some [] else none
      let r ← arguments sorts ks
      some (r.1, (ne.1, ne.2, b) :: r.2)
    | _ => none

/-- The content of `xsl:choose`: branches, and at most one `xsl:otherwise`, which is last. -/
def branches : List Src → Option (List (ε × List (Code ε ν)) × Option (List (Code ε ν)))
  | [] => some ([], none)
  | .text ps :: ks => if white ps.flatten then branches ks else none
  | .elem el kids :: ks =>
    match tag el with
    | some .when => do
      only el [.test]
      let e ← E.expr true true el.scope (← need el .test)
      let b ← content kids
      let r ← branches ks
      some ((e, b) :: r.1, r.2)
    | some .otherwise => do
      only el []
      let b ← content kids
      if nothing ks then some ([], some b) else none
    | _ => none

/-- The content of `xsl:for-each`: sorts, then a template. -/
def sorted : List Src → Option (List (SortBy ε) × List (Code ε ν))
  | [] => some ([], [])
  | .text ps :: ks =>
    if white ps.flatten then sorted ks
    else do
      let b ← content ks
      some ([], ps.map (fun p => .text p false) ++ b)
  | .elem el kids :: ks =>
    if tag el = some .sort then do
      let s ← sortOf E el kids
      let r ← sorted ks
      some (s :: r.1, r.2)
    else do
      let a ← item (.elem el kids)
      let b ← content ks
      some ([], a ++ b)
end

/-- The value of a variable: an expression or a content, not both. -/
def valueOr (e : Option ε) (kids : List Src) : Option (List (Code ε ν)) :=
  if e.isNone then content E kids else if nothing kids then some [] else none

/-- The content of `xsl:template`: parameters, then a template (6, 11.6). -/
def parametrised : List Src → Option (List (Code ε ν))
  | [] => some []
  | .text ps :: ks =>
    if white ps.flatten then parametrised ks else content E (.text ps :: ks)
  | .elem el kids :: ks =>
    if tag el = some .param then do
      let ne ← binding E el
      let b ← valueOr E ne.2 kids
      let r ← parametrised ks
      some (.param ne.1 ne.2 b :: r)
    else content E (.elem el kids :: ks)

/-- The priority of a template. -/
def priority? (el : El) : Option (Option π) :=
  match attr el .priority with
  | none => some none
  | some v => (E.priority v).map some

/-- XSLT 5.3, 5.5, 5.7, 6. -/
def templateOf (el : El) (kids : List Src) : Option (Template ε μ ν π) := do
  only el [.match, .mode, .name, .priority]
  let n ← name? E el .name
  let m ← name? E el .mode
  let b ← parametrised E kids
  if attr el .priority = some [] then none
  else match attr el .match with
    | none => if n.isNone ∨ m.isSome then none else some ⟨none, n, m, none, b⟩
    | some [] => none
    | some (c :: cs) => do
      let p ← E.pattern true el.scope (c :: cs)
      let q ← priority? E el
      some ⟨some p, n, m, q, b⟩

/-- XSLT 12.2: no variables in a key. -/
def keyOf (el : El) (kids : List Src) : Option (ν × Key ε μ) := do
  only el [.name, .match, .use]
  let n ← E.name el.scope (← need el .name)
  let p ← E.pattern false el.scope (← need el .match)
  let u ← E.expr true false el.scope (← need el .use)
  if nothing kids then some (n, ⟨p, u⟩) else none

/-- What a child of the stylesheet element adds: XSLT 2.2. -/
def topLevel : List Src → Option (Sheet ε μ ν π)
  | [] => some ⟨[], [], []⟩
  | .text ps :: ks => if white ps.flatten then topLevel ks else none
  | .elem el kids :: ks =>
    if el.uri = xsltNs then
      match tag el with
      | some .template => do
        let t ← templateOf E el kids
        let r ← topLevel ks
        some { r with templates := t :: r.templates }
      | some .key => do
        let k ← keyOf E el kids
        let r ← topLevel ks
        some { r with keys := k :: r.keys }
      | some .variable => do
        let ne ← binding E el
        let b ← valueOr E ne.2 kids
        let r ← topLevel ks
        some { r with globals := .variable ne.1 ne.2 b :: r.globals }
      | some .param => do
        let ne ← binding E el
        let b ← valueOr E ne.2 kids
        let r ← topLevel ks
        some { r with globals := .param ne.1 ne.2 b :: r.globals }
      | _ => none
    else if el.uri = [] then none
    else topLevel ks

/-- No two templates have one name: XSLT 6. -/
def NamesDistinct (s : Sheet ε μ ν π) : Prop := (s.templates.filterMap (·.name)).Nodup

instance [DecidableEq ν] (s : Sheet ε μ ν π) : Decidable (NamesDistinct s) :=
  inferInstanceAs (Decidable (List.Nodup _))

/-- The stylesheet a document is: XSLT 2.2, 2.3. -/
def stylesheet [DecidableEq ν] : Src → Option (Sheet ε μ ν π)
  | .text _ => none
  | .elem el kids =>
    if el.uri = xsltNs then
      if tag el = some .stylesheet ∨ tag el = some .transform then do
        only el [.version, .extensionElementPrefixes, .excludeResultPrefixes, .id]
        let _ ← need el .version
        let s ← topLevel E kids
        if NamesDistinct s then some s else none
      else none
    else
      -- a literal result element as a stylesheet
      if ∃ a ∈ el.atts, a.uri = xsltNs ∧ a.loc = Att.version.str then do
        let p ← E.pattern true el.scope "/".toList
        let as ← literalAtts E el.scope el.atts
        let b ← content E kids
        some ⟨[⟨some p, none, none, none, [.literal el.qn el.uri as b]⟩], [], []⟩
      else none

end

/-! What the theorems assume of a document. -/

mutual
/-- The elements of a document, each with its children. -/
def nodes : Src → List (El × List Src)
  | .text _ => []
  | .elem el kids => (el, kids) :: nodesAll kids
def nodesAll : List Src → List (El × List Src)
  | [] => []
  | k :: ks => nodes k ++ nodesAll ks
end

/-- The attributes of an element as a parser reports them, none of them twice; and those that are in a namespace
do not have the local name of an attribute of XSLT, nor are they `xml:space`. -/
structure Regular (el : El) : Prop where
  unprefixed : ∀ a ∈ el.atts, a.uri = [] → a.qn = a.loc ∧ a.loc ≠ []
  foreign : ∀ a ∈ el.atts, a.uri ≠ [] → ∀ n : Att, a.loc ≠ n.str ∧ a.qn ≠ n.str
  space : ∀ a ∈ el.atts, a.uri = xmlNs → a.loc ≠ "space".toList
  once : el.atts.Pairwise (fun a b => a.uri = [] → b.uri = [] → a.loc ≠ b.loc)

/-- A text node that is stripped, or in which no piece looks as if it were. -/
def TextWhole (ps : List Str) : Prop := white ps.flatten ∨ ∀ p ∈ ps, ¬ white p

/-- An element that uses none of the parts of XSLT the compiler does not have. -/
structure Plain (el : El) (kids : List Src) : Prop where
  regular : el.uri = xsltNs → Regular el
  bare : el.uri = xsltNs →
    tag el = some .applyImports ∨ tag el = some .choose ∨ tag el = some .otherwise ∨
      tag el = some .comment → ∀ a ∈ el.atts, a.uri = []
  supported : tag el ≠ some .fallback ∧ tag el ≠ some .number
  ns : el.uri = xsltNs → attr el .namespace ≠ some []
  sets : el.uri = xsltNs → attr el .useAttributeSets = none
  lang : el.uri = xsltNs → attr el .lang = none
  literal : el.uri ≠ xsltNs → ∀ a ∈ el.atts, ¬ "xmlns:".toList <+: a.qn
  texts : tag el ≠ some .text → ∀ ps, Src.text ps ∈ kids → TextWhole ps

/-- An element without those mistakes the compiler does not notice. -/
structure Careful (el : El) (kids : List Src) : Prop where
  empty : el.uri = xsltNs → ∀ n ∈ [Att.select, .mode, .name, .match], attr el n ≠ some []
  call : tag el = some .callTemplate → ∀ ps, Src.text ps ∈ kids → white ps.flatten
  binding : tag el = some .variable ∨ tag el = some .param ∨ tag el = some .withParam →
    attr el .select ≠ none → ∀ e k, Src.elem e k ∉ kids
  sorts : tag el = some .forEach → ∀ pre s k post ps, kids = pre ++ Src.elem s k :: post →
    tag s = some .sort → Src.text ps ∈ pre → white ps.flatten

/-- Plain, all through. -/
def AllPlain (k : Src) : Prop := ∀ x ∈ nodes k, Plain x.1 x.2
/-- Careful, all through. -/
def AllCareful (k : Src) : Prop := ∀ x ∈ nodes k, Careful x.1 x.2

/-- The compiler takes `current()` only after the first pattern: it is not used (first case), or the
first element of XSLT is one with a pattern. -/
def PatternFirst : List Src → Prop
  | [] => True
  | .text _ :: ks => PatternFirst ks
  | .elem el _ :: ks =>
    if el.uri = xsltNs then
      tag el = some .key ∨ (tag el = some .template ∧ attr el .match ≠ none)
    else PatternFirst ks

/-- Expressions mean the same whether `current()` is allowed or not. -/
def NoCurrent {ε μ ν π : Type} (E : Ext ε μ ν π) : Prop :=
  E.expr false = E.expr true ∧ E.avt false = E.avt true

/-- The children of `xsl:stylesheet` this part of the compiler is about; `xsl:output`,
`xsl:namespace-alias`, `xsl:import` and `xsl:include` are not modelled and the others not
implemented. -/
def Covered (el : El) : Prop :=
  ∀ t ∈ [Tag.output, .namespaceAlias, .import, .include, .attributeSet, .decimalFormat,
    .preserveSpace, .stripSpace], tag el ≠ some t

/-- A stylesheet document that uses none of the parts of XSLT the compiler does not have. -/
inductive PlainDocument : Src → Prop
  | stylesheet (el : El) (kids : List Src) :
    el.uri = xsltNs → Regular el → attr el .version = some "1.0".toList →
    attr el .extensionElementPrefixes = none ∨ attr el .extensionElementPrefixes = some [] →
    (∀ e k, Src.elem e k ∈ kids → e.uri = xsltNs → AllPlain (.elem e k) ∧ Covered e) →
    PlainDocument (.elem el kids)
  | literal (el : El) (kids : List Src) :
    el.uri ≠ xsltNs → AllPlain (.elem el kids) →
    (∀ a ∈ el.atts, a.uri = xsltNs → a.loc = Att.version.str → a.value = "1.0".toList) →
    PlainDocument (.elem el kids)

/-- A stylesheet document without those mistakes the compiler does not notice. -/
inductive CarefulDocument : Src → Prop
  | stylesheet (el : El) (kids : List Src) :
    el.uri = xsltNs → (∀ e k, Src.elem e k ∈ kids → e.uri = xsltNs → AllCareful (.elem e k)) →
    CarefulDocument (.elem el kids)
  | literal (el : El) (kids : List Src) :
    el.uri ≠ xsltNs → AllCareful (.elem el kids) → CarefulDocument (.elem el kids)

/-- `current()` is not used, or not before it is allowed. -/
def CurrentInTime {ε μ ν π : Type} (E : Ext ε μ ν π) : Src → Prop
  | .text _ => True
  | .elem el kids => el.uri = xsltNs → NoCurrent E ∨ PatternFirst kids

end Verif.Spec.XsltCompile
