import Verif.Spec.XsltCompile
import Verif.Spec.XsltRun
import Verif.Spec.XPathMatch
import Verif.Spec.XPathTemplate
set_option autoImplicit false
/-!
# What a stylesheet document gives

https://www.w3.org/TR/1999/REC-xslt-19991116, put together: `Verif.Spec.XsltCompile` says which elements a stylesheet
document is made of, here is said what the expressions, patterns, templates and names in it stand for, and
`Verif.Spec.XsltRun` says what the instructions give. From the models only the types are used.
-/
namespace Verif.Spec.XsltProcess
open Verif.XTree (World XN Pred)
open Verif.XPathParse (Expr Step Ex Reads tokens isWhite meaning NcName nameStart nameChar)
open Verif.XsltCompile (Str Scope Ext Ns SortBy Code Sheet)
open Verif.XsltRun (Global VName Params Attribute SortKey Item Items Whens Template Stylesheet)
open Verif.Spec.XPathMatch Verif.Spec.XPathEval
open Verif.Spec.XsltCompile (Src PatternFirst xsltNs)

/-! ## The text in a stylesheet document -/

/-- An expression, a pattern or a template as it is written, and the namespaces in scope there. -/
structure Text where
  scope : Scope
  text : Str

/-- The namespace a prefix is bound to. -/
def bound (sc : Scope) (p : Str) : Option Str :=
  match sc.lookup p with
  | some (c :: u) => some (c :: u)
  | _ => none

instance : DecidablePred NcName := fun s =>
  match s with
  | [] => isFalse id
  | _ :: _ => inferInstanceAs (Decidable (_ ∧ _))

/-- Section 2.4, the name of a template, mode, variable or parameter: the default namespace is not used. -/
def nameOf (sc : Scope) (s : Str) : Option VName :=
  if NcName s then some ([], s)
  else
    let p := s.takeWhile (· ≠ ':')
    let l := (s.dropWhile (· ≠ ':')).tail
    if NcName p ∧ NcName l then (bound sc p).map fun u => (u, l) else none

/-- A stylesheet with expressions, patterns and templates left as they are written; `num` reads the priorities. -/
def written (num : Str → Option Rat) : Ext Text Text VName Rat where
  expr _ _ sc s := some ⟨sc, s⟩
  avt _ sc s := some ⟨sc, s⟩
  pattern _ sc s := some ⟨sc, s⟩
  name := nameOf
  priority := num

/-! ## Expressions and templates -/

/-- The core functions, XPath section 4, with the fewest and the most arguments; without `id` and `lang`, which the
library does not have. -/
def functions : List (String × Nat × Option Nat) :=
  [("last", 0, some 0), ("position", 0, some 0), ("count", 1, some 1), ("local-name", 0, some 1),
   ("namespace-uri", 0, some 1), ("name", 0, some 1),
   ("string", 0, some 1), ("concat", 2, none), ("starts-with", 2, some 2), ("contains", 2, some 2),
   ("substring-before", 2, some 2), ("substring-after", 2, some 2), ("substring", 2, some 3),
   ("string-length", 0, some 1), ("normalize-space", 0, some 1), ("translate", 3, some 3),
   ("boolean", 1, some 1), ("not", 1, some 1), ("true", 0, some 0), ("false", 0, some 0),
   ("number", 0, some 1), ("sum", 1, some 1), ("floor", 1, some 1), ("ceiling", 1, some 1), ("round", 1, some 1)]

mutual

/-- All functions that are called are core functions, with as many arguments as they may have. -/
def Known : Expr → Prop
  | .number _ | .string _ | .var _ _ => True
  | .call u n args => u = [] ∧ (∃ f ∈ functions, n = f.1.toList ∧ f.2.1 ≤ args.length ∧ ∀ m, f.2.2 = some m → args.length ≤ m) ∧
      KnownAll args
  | .binary _ a b => Known a ∧ Known b
  | .negative e => Known e
  | .path _ ss => KnownSteps ss

def KnownAll : List Expr → Prop
  | [] => True
  | e :: es => Known e ∧ KnownAll es

def KnownStep : Step → Prop
  | .test _ _ ps => KnownAll ps
  | .expr e ps => Known e ∧ KnownAll ps

def KnownSteps : List Step → Prop
  | [] => True
  | s :: ss => KnownStep s ∧ KnownSteps ss

end

/-- The text is this expression, maybe with white space after it. -/
def Reading (t : Text) (x : Expr) : Prop :=
  ∃ (e : Ex) (r : Str), e.Ok (bound t.scope) ∧ Reads (tokens false e) t.text r ∧ r.all isWhite = true ∧
    x = meaning (bound t.scope) e

def ExprIs (t : Text) (x : Expr) : Prop := Reading t x ∧ Known x

/-- `current()` -/
def currentCall : Expr := .call [] "current".toList []

/-- Section 7.6.2: the parts of an attribute value template. A doubled brace is a part of its own, which makes no
difference to the string they give together. -/
inductive Parts (ns : Str → Option Str) : Str → List Expr → Prop where
  | nil : Parts ns [] []
  | text (t s : Str) (xs : List Expr) (some : t ≠ []) (plain : ∀ c ∈ t, c ≠ '{' ∧ c ≠ '}')
      (ends : ∀ c u, s = c :: u → c = '{' ∨ c = '}') (rest : Parts ns s xs) : Parts ns (t ++ s) (.string t :: xs)
  | left (s : Str) (xs : List Expr) (rest : Parts ns s xs) : Parts ns ('{' :: '{' :: s) (.string ['{'] :: xs)
  | right (s : Str) (xs : List Expr) (rest : Parts ns s xs) : Parts ns ('}' :: '}' :: s) (.string ['}'] :: xs)
  | embedded (e : Ex) (m white s : Str) (xs : List Expr) (ok : e.Ok ns)
      (text : Reads (tokens false e) m (white ++ '}' :: s)) (blank : white.all isWhite = true) (rest : Parts ns s xs) :
      Parts ns ('{' :: m) (meaning ns e :: xs)

/-- The parts one after the other. -/
def joined : List Expr → Expr
  | [x] => x
  | xs => .call [] "concat".toList xs

/-- The text is a template that stands for this expression. -/
def TemplateIs (t : Text) (x : Expr) : Prop :=
  ∃ xs, Parts (bound t.scope) t.text xs ∧ xs ≠ [] ∧ x = joined xs ∧ KnownAll xs

/-- The text is a template without expressions. -/
def Constant (t : Text) (s : Str) : Prop := t.text = s ∧ s ≠ [] ∧ ∀ c ∈ s, c ≠ '{' ∧ c ≠ '}'

/-! ## Names in the result -/

/-- A qualified name, its prefix, which may be empty, and its local part. -/
def QnIs (qn p l : Str) : Prop :=
  ':' ∉ p ∧ ((p = [] ∧ ':' ∉ l ∧ qn = l) ∨ (p ≠ [] ∧ qn = p ++ ':' :: l))

/-- The name of an `xsl:element` (section 7.1.2) or `xsl:attribute` (7.1.3). -/
def ComputedName (t : Text) (p l : Str) : Prop := QnIs t.text p l ∧ NcName l ∧ (p ≠ [] → NcName p)

/-- Its namespace: that of `namespace`, or that of the prefix; the default namespace is for elements only. -/
inductive NamespaceIs (isElement : Bool) (p : Str) : Ns Text → Str → Prop where
  | given (t : Text) (u : Str) (h : Constant t u) : NamespaceIs isElement p (.avt t) u
  | pfx (sc : Scope) (u : Str) (hp : p ≠ []) (h : bound sc p = some u) : NamespaceIs isElement p (.scope sc) u
  | default (sc : Scope) (u : Str) (hp : p = []) (he : isElement = true)
      (h : u = (sc.lookup []).getD []) : NamespaceIs isElement p (.scope sc) u
  | none (sc : Scope) (hp : p = []) (he : isElement = false) : NamespaceIs isElement p (.scope sc) []

/-- Section 7.3: a name, but not `xml`. -/
def TargetIs (t : Text) (s : Str) : Prop :=
  t.text = s ∧ NcName s ∧ ∀ a b c, s = [a, b, c] → ¬ (a.toLower = 'x' ∧ b.toLower = 'm' ∧ c.toLower = 'l')

/-- A mode, as the name of a group of rules: none is the empty string. -/
def modeText : Option VName → Str
  | none => []
  | some (u, l) => if u = [] then l else '{' :: u ++ '}' :: l

/-! ## Instructions -/

/-- The value of a variable or parameter: its `select`, or the empty string if it has neither that nor content. -/
inductive ValueIs : Option Text → List (Code Text VName) → Expr → Prop where
  | select (t : Text) (x : Expr) (h : ExprIs t x) : ValueIs (some t) [] x
  | empty : ValueIs none [] (.string [])

inductive ParamsAre : List (VName × Option Text × List (Code Text VName)) → Params → Prop where
  | nil : ParamsAre [] []
  | cons (n : VName) (v : Option Text) (b : List (Code Text VName)) (x : Expr)
      (ps : List (VName × Option Text × List (Code Text VName))) (qs : Params) (h : ValueIs v b x)
      (rest : ParamsAre ps qs) : ParamsAre ((n, v, b) :: ps) ((n, x) :: qs)

inductive AttributesAre : List (Str × Str × Text) → List Attribute → Prop where
  | nil : AttributesAre [] []
  | cons (qn p l u : Str) (t : Text) (x : Expr) (as : List (Str × Str × Text)) (bs : List Attribute) (name : QnIs qn p l)
      (h : TemplateIs t x) (rest : AttributesAre as bs) : AttributesAre ((qn, u, t) :: as) (⟨p, l, u, x⟩ :: bs)

/-- Sort keys: an expression, and templates for the other attributes. There is no `lang`. -/
inductive SortsAre : List (SortBy Text) → List SortKey → Prop where
  | nil : SortsAre [] []
  | cons (s : SortBy Text) (k : SortKey) (ss : List (SortBy Text)) (ks : List SortKey) (lang : s.lang = none)
      (select : ExprIs s.select k.select) (dataType : TemplateIs s.dataType k.dataType) (order : TemplateIs s.order k.order)
      (caseOrder : TemplateIs s.caseOrder k.caseOrder) (rest : SortsAre ss ks) : SortsAre (s :: ss) (k :: ks)

mutual

/-- What an instruction stands for. -/
inductive Stands : Code Text VName → Item → Prop where
  | text (s : Str) : Stands (.text s false) (.text s)
  | valueOf (t : Text) (x : Expr) (h : ExprIs t x) : Stands (.valueOf t false) (.valueOf x)
  | current (t : Text) (h : Reading t currentCall) : Stands (.valueOf t false) .valueOfCurrent
  | copyOf (t : Text) (x : Expr) (h : ExprIs t x) : Stands (.copyOf t) (.copyOf x)
  | applySelect (t : Text) (x : Expr) (m : Option VName) (ss : List (SortBy Text)) (ks : List SortKey)
      (ps : List (VName × Option Text × List (Code Text VName))) (qs : Params) (h : ExprIs t x) (hs : SortsAre ss ks)
      (hp : ParamsAre ps qs) : Stands (.applyTemplates (some t) m ss ps) (.applyTemplates (some x) ks (modeText m) qs)
  | applyChildren (m : Option VName) (ss : List (SortBy Text)) (ks : List SortKey)
      (ps : List (VName × Option Text × List (Code Text VName))) (qs : Params) (hs : SortsAre ss ks) (hp : ParamsAre ps qs) :
      Stands (.applyTemplates none m ss ps) (.applyTemplates none ks (modeText m) qs)
  | call (n : VName) (ps : List (VName × Option Text × List (Code Text VName))) (qs : Params) (hp : ParamsAre ps qs) :
      Stands (.callTemplate n ps) (.callTemplate n qs)
  | choose (ws : List (Text × List (Code Text VName))) (o : Option (List (Code Text VName))) (is : Whens)
      (h : StandsWhens ws o is) : Stands (.choose ws o) (.choose is)
  | ifThen (t : Text) (x : Expr) (b : List (Code Text VName)) (is : Items) (h : ExprIs t x) (hb : StandsAll b is) :
      Stands (.ifThen t b) (.ifThen x is)
  | forEach (t : Text) (x : Expr) (ss : List (SortBy Text)) (ks : List SortKey) (b : List (Code Text VName)) (is : Items)
      (h : ExprIs t x) (hs : SortsAre ss ks) (hb : StandsAll b is) : Stands (.forEach t ss b) (.forEach x ks is)
  | comment (b : List (Code Text VName)) (is : Items) (hb : StandsAll b is) : Stands (.comment b) (.comment is)
  | pi (t : Text) (s : Str) (b : List (Code Text VName)) (is : Items) (h : TargetIs t s) (hb : StandsAll b is) :
      Stands (.procInst t b) (.pi s is)
  | copy (b : List (Code Text VName)) (is : Items) (hb : StandsAll b is) : Stands (.copy b) (.copy is)
  | variable (n : VName) (v : Option Text) (b : List (Code Text VName)) (x : Expr) (h : ValueIs v b x) :
      Stands (.variable n v b) (.variable n x)
  | element (t : Text) (ns : Ns Text) (p l u : Str) (b : List (Code Text VName)) (is : Items) (h : ComputedName t p l)
      (hn : NamespaceIs true p ns u) (hb : StandsAll b is) : Stands (.element t ns b) (.element p l u [] is)
  | attribute (t : Text) (ns : Ns Text) (p l u : Str) (b : List (Code Text VName)) (is : Items) (h : ComputedName t p l)
      (hn : NamespaceIs false p ns u) (hb : StandsAll b is) : Stands (.attribute t ns b) (.attribute p l u is)
  | literal (qn u p l : Str) (as : List (Str × Str × Text)) (bs : List Attribute) (b : List (Code Text VName)) (is : Items)
      (h : QnIs qn p l) (ha : AttributesAre as bs) (hb : StandsAll b is) :
      Stands (.literal qn u as b) (.element p l u bs is)

inductive StandsAll : List (Code Text VName) → Items → Prop where
  | nil : StandsAll [] .nil
  | cons (c : Code Text VName) (cs : List (Code Text VName)) (i : Item) (is : Items) (h : Stands c i)
      (rest : StandsAll cs is) : StandsAll (c :: cs) (.cons i is)

inductive StandsWhens : List (Text × List (Code Text VName)) → Option (List (Code Text VName)) → Whens → Prop where
  | none : StandsWhens [] none (.otherwise .nil)
  | otherwise (b : List (Code Text VName)) (is : Items) (hb : StandsAll b is) : StandsWhens [] (some b) (.otherwise is)
  | when (t : Text) (x : Expr) (b : List (Code Text VName)) (is : Items) (ws : List (Text × List (Code Text VName)))
      (o : Option (List (Code Text VName))) (rs : Whens) (h : ExprIs t x) (hb : StandsAll b is)
      (rest : StandsWhens ws o rs) : StandsWhens ((t, b) :: ws) o (.when x is rs)

end

/-- A template: parameters, then instructions. -/
inductive StandsTemplate : List (Code Text VName) → Template → Prop where
  | body (cs : List (Code Text VName)) (is : Items) (h : StandsAll cs is) : StandsTemplate cs ⟨[], is⟩
  | param (n : VName) (v : Option Text) (b : List (Code Text VName)) (x : Expr) (cs : List (Code Text VName))
      (ps : Params) (is : Items) (h : ValueIs v b x) (rest : StandsTemplate cs ⟨ps, is⟩) :
      StandsTemplate (.param n v b :: cs) ⟨(n, x) :: ps, is⟩

/-- The variables and parameters outside templates. -/
inductive GlobalsStand : List (Code Text VName) → List Global → Prop where
  | nil : GlobalsStand [] []
  | variable (n : VName) (v : Option Text) (b : List (Code Text VName)) (x : Expr) (cs : List (Code Text VName))
      (gs : List Global) (h : ValueIs v b x) (rest : GlobalsStand cs gs) :
      GlobalsStand (.variable n v b :: cs) (⟨false, n, x⟩ :: gs)
  | param (n : VName) (v : Option Text) (b : List (Code Text VName)) (x : Expr) (cs : List (Code Text VName))
      (gs : List Global) (h : ValueIs v b x) (rest : GlobalsStand cs gs) :
      GlobalsStand (.param n v b :: cs) (⟨true, n, x⟩ :: gs)

/-! ## Template rules -/

section
/- The values of the predicates of patterns, and the functions that give numbers (C71). -/
variable (ev : Expr → Pred) (fnNum : Str → Str → Bool)

/-- The text is a pattern of these alternatives, as C71 and C72 need it. -/
structure PatternIs (t : Text) (p : List Alternative) : Prop where
  some : p ≠ []
  ok : ∀ a ∈ p, a.Ok (bound t.scope)
  plain : ∀ a ∈ p, a.Plain (bound t.scope) ev fnNum
  ranked : ∀ a ∈ p, a.Ranked
  reads : ∃ r, Reads (patternTokens p) t.text r ∧ r.all isWhite = true
  close : ∃ r, Reads (closeTokens p) t.text r ∧ r.all isWhite = true ∧ (endsBare p = true → r = [])

/-- A template rule for one alternative of a pattern. -/
structure Rule where
  mode : Str
  scope : Scope
  alternative : Alternative
  priority : Rat
  action : Template

/-- The rules of a template (section 5.3); each alternative has its own default priority (5.5). -/
inductive RulesOf (t : Verif.XsltCompile.Template Text Text VName Rat) (a : Template) : List Rule → Prop where
  | none (h : t.pat = none) : RulesOf t a []
  | pattern (p : Text) (as : List Alternative) (h : t.pat = some p) (hp : PatternIs ev fnNum p as) :
      RulesOf t a (as.map fun b => ⟨modeText t.mode, p.scope, b, t.priority.getD b.priority, a⟩)

/-- The templates of a stylesheet with their names, and all template rules, in document order. -/
inductive TemplatesAre : List (Verif.XsltCompile.Template Text Text VName Rat) → List (Option VName × Template) → List Rule →
    Prop where
  | nil : TemplatesAre [] [] []
  | cons (t : Verif.XsltCompile.Template Text Text VName Rat) (a : Template) (rs : List Rule)
      (ts : List (Verif.XsltCompile.Template Text Text VName Rat)) (names : List (Option VName × Template)) (rest : List Rule)
      (ht : StandsTemplate t.body a) (hr : RulesOf ev fnNum t a rs) (h : TemplatesAre ts names rest) :
      TemplatesAre (t :: ts) ((t.name, a) :: names) (rs ++ rest)

/-- A rule is for this mode and matches this node. -/
def Rule.For (w : World) (mode : Str) (x : XN) (r : Rule) : Prop :=
  r.mode = mode ∧ Matches (bound r.scope) ev w x r.alternative

/-- Section 5.5: the rule with the highest priority, and the last one of these. -/
def Chosen (w : World) (rs : List Rule) (mode : Str) (x : XN) (r : Rule) : Prop :=
  r.For ev w mode x ∧ ∃ before after, rs = before ++ r :: after ∧
    (∀ q ∈ before, q.For ev w mode x → q.priority ≤ r.priority) ∧
    (∀ q ∈ after, q.For ev w mode x → q.priority < r.priority)

/-- The stylesheet that templates are: which rule is for a node, and the templates that have names. -/
structure Is (w : World) (K : Nat → Prop) (names : List (Option VName × Template)) (rs : List Rule) (P : Stylesheet) :
    Prop where
  rule : ∀ mode x, NodeIn w K x → ∀ t, P.rule mode x = some t → ∃ r, Chosen ev w rs mode x r ∧ r.action = t
  builtIn : ∀ mode x, NodeIn w K x → P.rule mode x = none → ∀ r ∈ rs, ¬ r.For ev w mode x
  named : ∀ n t, P.named n = some t → (some n, t) ∈ names
  cdata : P.cdata = []

/-- A stylesheet document is this stylesheet. -/
def DocumentIs (num : Str → Option Rat) (w : World) (K : Nat → Prop) (doc : Src) (P : Stylesheet) : Prop :=
  ∃ sh names rs, Verif.Spec.XsltCompile.stylesheet (written num) doc = some sh ∧ sh.keys = [] ∧
    GlobalsStand sh.globals P.globals ∧ TemplatesAre ev fnNum sh.templates names rs ∧ Is ev w K names rs P

end

/-- The first element of XSLT in a stylesheet is one with a pattern (C79). -/
def PatternEarly : Src → Prop
  | .text _ => True
  | .elem el kids => el.uri = xsltNs → PatternFirst kids

end Verif.Spec.XsltProcess
