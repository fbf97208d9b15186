import Verif.Model.XsltRun
import Verif.Spec.XPathEval
import Verif.Spec.XsltSort
set_option autoImplicit false
/-!
# What a stylesheet gives

https://www.w3.org/TR/1999/REC-xslt-19991116, sections 5 to 11. From the model only the types of stylesheets
and of the instructions for the output are used; what those stand for is in `Verif.Spec.XsltOutput`.
-/
namespace Verif.Spec.XsltRun
open Verif.XTree Verif.XPath Verif.XPathEval Verif.Spec.XPathAxes Verif.Spec.XPathNodeSet Verif.Spec.XPathEval
open Verif.XPathParse (Expr)
open Verif.Xslt (Instr Instrs Key)
open Verif.Spec.XsltSort (Arranged)
open Verif.XsltRun (VName Params Attribute SortKey Item Items Whens Template Stylesheet Global Argument)

/-- A sequence of output instructions. -/
def seq : List Instr → Instrs
  | [] => .nil
  | i :: is => .cons i (seq is)

/-- The context: the current node, its position among the nodes that are processed, and their number. -/
structure Focus where
  node : XN
  position : Int
  size : Int

/-- Variables with their values, the latest first. -/
abbrev Bindings := List (VName × Val)

/-- What a variable stands for: local ones before global ones. -/
def variables (G : VName → Option Val) (L : Bindings) (u n : Str) : Option Val :=
  match L.lookup (u, n) with
  | some v => some v
  | none => G (u, n)

/-- The children of a node, in document order. -/
def Children (w : World) (x : XN) (l : List XN) : Prop :=
  ∃ rs, IsAxis (w.tree x.1) x.2 .child rs ∧ l = rs.map fun r => (x.1, r)

/-- What a stylesheet refers to: values of expressions, and the children of nodes. -/
structure Reading where
  value : (Str → Str → Option Val) → Expr → XN → Int → Int → Val → Prop
  children : XN → List XN → Prop

/-- By XPath. -/
def byXPath (w : World) (cv : Conv) : Reading where
  value vars e x i k v := Means w cv vars e x i k v
  children x l := Children w x l

/-- By XPath, as long as no expression meets what C75 shows to be wrong, and nobody asks for the children of an
attribute. -/
def careful (w : World) (cv : Conv) : Reading where
  value vars e x i k v := Means w cv vars e x i k v ∧ Sound w cv vars e x i k
  children x l := Children w x l ∧ ¬ IsAttr x.2

/-! ## Copies -/

/-- The local part of a name. -/
def localName (d : Data) : Str := if d.uri = [] then d.name else d.loc

mutual

/-- A copy of a node with all that is in it (section 11.3), without namespace nodes. -/
def copied : Tree → List Instr
  | .node d as ks =>
    match d.kind with
    | .attribute => [.copyAttribute d.uri (localName d) (d.pfx, localName d) d.value]
    | .comment => [.comment (seq [.text d.value])]
    | .document | .fragment => copiedAll ks
    | .element => [.element d.pfx (localName d) d.uri (seq (copiedAll as ++ copiedAll ks))]
    | .pi => [.pi d.name (seq [.text d.value])]
    | .text | .cdata => [.text d.value]
    | _ => []

def copiedAll : List Tree → List Instr
  | [] => []
  | t :: ts => copied t ++ copiedAll ts

end

/-- A copy of the nodes. -/
def copies (w : World) (l : List XN) : List Instr := copiedAll (l.filterMap fun y => sub (w.tree y.1) y.2)

/-! ## Instructions -/

section
variable (w : World) (cv : Conv) (R : Reading) (P : Stylesheet) (G : VName → Option Val)

/-- An expression has a value in a context. -/
def HasValue (φ : Focus) (L : Bindings) (e : Expr) (v : Val) : Prop :=
  R.value (variables G L) e φ.node φ.position φ.size v

/-- Parameters that are passed, and their values; no name is there twice. -/
def Passed (φ : Focus) (L : Bindings) : Params → Bindings → Prop
  | [], given => given = []
  | p :: ps, given => ∃ v rest, given = (p.1, v) :: rest ∧ HasValue R G φ L p.2 v ∧ Passed φ L ps rest ∧
      rest.lookup p.1 = none

/-- The parameters of a template, with what has been given or else with their own value; no name is there twice. -/
def Bound (φ : Focus) (given : Bindings) : Params → Bindings → Bindings → Prop
  | [], L, L' => L' = L
  | p :: ps, L, L' => L.lookup p.1 = none ∧
      ∃ v, (given.lookup p.1 = some v ∨ given.lookup p.1 = none ∧ HasValue R G φ L p.2 v) ∧
        Bound φ given ps ((p.1, v) :: L) L'

/-- The attributes of a literal element. -/
def AttributesGive (φ : Focus) (L : Bindings) : List Attribute → List Instr → Prop
  | [], out => out = []
  | a :: as, out => ∃ v rest, HasValue R G φ L a.value v ∧ AttributesGive φ L as rest ∧
      out = .attr a.pfx a.loc a.uri (seq [.text (toString w cv v)]) :: rest

/-- Section 10, a sort key of the nodes `l`: the type of its values, the order, and the value for each node, which is
evaluated with the node in its place in `l`. Strings are compared by their characters; which of upper case and lower case
is first, and the language, makes no difference. -/
structure KeyIs (φ : Focus) (L : Bindings) (l : List XN) (s : SortKey) (k : Key XN) : Prop where
  dataType : ∃ v, HasValue R G φ L s.dataType v ∧
    toString w cv v = if k.number then "number".toList else "text".toList
  order : ∃ v, HasValue R G φ L s.order v ∧
    toString w cv v = if k.ascending then "ascending".toList else "descending".toList
  caseOrder : ∃ v, HasValue R G φ L s.caseOrder v ∧
    (toString w cv v = "upper-first".toList ∨ toString w cv v = "lower-first".toList)
  values : ∀ (i : Nat) (y : XN), l[i]? = some y → ∃ v, HasValue R G ⟨y, i + 1, l.length⟩ L s.select v ∧
    if k.number then k.num y = toNumber w cv v else k.str y = toString w cv v

def KeysAre (φ : Focus) (L : Bindings) (l : List XN) : List SortKey → List (Key XN) → Prop
  | [], ks => ks = []
  | s :: ss, ks => ∃ k rest, ks = k :: rest ∧ KeyIs w cv R G φ L l s k ∧ KeysAre φ L l ss rest

/-- The nodes `l` in the order they are processed in: sorted, and without an `xsl:sort` as they are. -/
def SortedBy (φ : Focus) (L : Bindings) (sorts : List SortKey) (l l' : List XN) : Prop :=
  ∃ ks, KeysAre w cv R G φ L l sorts ks ∧ Arranged ks l l'

/-- The kind of a node. -/
def HasKind (x : XN) (ks : List Kind) : Prop := ∃ n, sub (w.tree x.1) x.2 = some n ∧ n.kind ∈ ks

/-- What can be instantiated: an instruction, a sequence, the cases of an `xsl:choose`, the content of an `xsl:for-each`
for the nodes from some position on, template rules for the nodes from some position on, a template, and the rule for one
node. -/
inductive Task where
  | item (φ : Focus) (L : Bindings) (i : Item)
  | items (φ : Focus) (L : Bindings) (is : Items)
  | whens (φ : Focus) (L : Bindings) (ws : Whens)
  | each (L : Bindings) (body : Items) (nodes : List XN) (i k : Int)
  | rules (mode : Str) (given : Bindings) (nodes : List XN) (i k : Int)
  | template (t : Template) (given : Bindings) (φ : Focus)
  | rule (mode : Str) (given : Bindings) (φ : Focus)

/-- An instruction that declares a variable. -/
def IsVariable : Item → Prop
  | .variable _ _ => True
  | _ => False

/-- What an instantiation writes. -/
inductive Gives : Task → List Instr → Prop where
  | text (φ : Focus) (L : Bindings) (s : Str) : Gives (.item φ L (.text s)) [.text s]
  | valueOf (φ : Focus) (L : Bindings) (e : Expr) (v : Val) (h : HasValue R G φ L e v) :
      Gives (.item φ L (.valueOf e)) [.text (toString w cv v)]
  | current (φ : Focus) (L : Bindings) : Gives (.item φ L .valueOfCurrent) [.text (stringValue w φ.node)]
  | ifTrue (φ : Focus) (L : Bindings) (t : Expr) (body : Items) (v : Val) (out : List Instr)
      (h : HasValue R G φ L t v) (hv : toBoolean w v) (hb : Gives (.items φ L body) out) :
      Gives (.item φ L (.ifThen t body)) out
  | ifFalse (φ : Focus) (L : Bindings) (t : Expr) (body : Items) (v : Val)
      (h : HasValue R G φ L t v) (hv : ¬ toBoolean w v) : Gives (.item φ L (.ifThen t body)) []
  | choose (φ : Focus) (L : Bindings) (ws : Whens) (out : List Instr) (h : Gives (.whens φ L ws) out) :
      Gives (.item φ L (.choose ws)) out
  | forEach (φ : Focus) (L : Bindings) (e : Expr) (sorts : List SortKey) (body : Items) (l l' : List XN)
      (out : List Instr) (h : HasValue R G φ L e (.nodes l)) (hs : SortedBy w cv R G φ L sorts l l')
      (hb : Gives (.each L body l' 1 l'.length) out) : Gives (.item φ L (.forEach e sorts body)) out
  | applySelect (φ : Focus) (L : Bindings) (e : Expr) (sorts : List SortKey) (mode : Str) (ps : Params) (given : Bindings)
      (l l' : List XN) (out : List Instr) (hp : Passed R G φ L ps given) (h : HasValue R G φ L e (.nodes l))
      (hs : SortedBy w cv R G φ L sorts l l') (hb : Gives (.rules mode given l' 1 l'.length) out) :
      Gives (.item φ L (.applyTemplates (some e) sorts mode ps)) out
  | applyChildren (φ : Focus) (L : Bindings) (sorts : List SortKey) (mode : Str) (ps : Params) (given : Bindings)
      (l l' : List XN) (out : List Instr) (hp : Passed R G φ L ps given) (h : R.children φ.node l)
      (hs : SortedBy w cv R G φ L sorts l l') (hb : Gives (.rules mode given l' 1 l'.length) out) :
      Gives (.item φ L (.applyTemplates none sorts mode ps)) out
  | call (φ : Focus) (L : Bindings) (name : VName) (ps : Params) (given : Bindings) (t : Template)
      (out : List Instr) (hp : Passed R G φ L ps given) (h : P.named name = some t)
      (hb : Gives (.template t given φ) out) : Gives (.item φ L (.callTemplate name ps)) out
  | element (φ : Focus) (L : Bindings) (p l u : Str) (as : List Attribute) (body : Items) (atts out : List Instr)
      (h : AttributesGive w cv R G φ L as atts) (hb : Gives (.items φ L body) out) :
      Gives (.item φ L (.element p l u as body)) [.element p l u (seq (atts ++ out))]
  | attribute (φ : Focus) (L : Bindings) (p l u : Str) (body : Items) (out : List Instr)
      (hb : Gives (.items φ L body) out) : Gives (.item φ L (.attribute p l u body)) [.attr p l u (seq out)]
  | comment (φ : Focus) (L : Bindings) (body : Items) (out : List Instr) (hb : Gives (.items φ L body) out) :
      Gives (.item φ L (.comment body)) [.comment (seq out)]
  | pi (φ : Focus) (L : Bindings) (t : Str) (body : Items) (out : List Instr) (hb : Gives (.items φ L body) out) :
      Gives (.item φ L (.pi t body)) [.pi t (seq out)]
  | copyElement (φ : Focus) (L : Bindings) (body : Items) (n : Tree) (out : List Instr)
      (h : sub (w.tree φ.node.1) φ.node.2 = some n) (hk : n.kind = .element) (hb : Gives (.items φ L body) out) :
      Gives (.item φ L (.copy body)) [.element n.data.pfx (localName n.data) n.data.uri (seq out)]
  | copyRoot (φ : Focus) (L : Bindings) (body : Items) (out : List Instr)
      (h : HasKind w φ.node [.document, .fragment]) (hb : Gives (.items φ L body) out) :
      Gives (.item φ L (.copy body)) out
  | copyOther (φ : Focus) (L : Bindings) (body : Items)
      (h : HasKind w φ.node [.attribute, .text, .cdata, .comment, .pi]) :
      Gives (.item φ L (.copy body)) (copies w [φ.node])
  | copyNodes (φ : Focus) (L : Bindings) (e : Expr) (l : List XN) (h : HasValue R G φ L e (.nodes l)) :
      Gives (.item φ L (.copyOf e)) (copies w l)
  | copyValue (φ : Focus) (L : Bindings) (e : Expr) (v : Val) (h : HasValue R G φ L e v) (hv : ∀ l, v ≠ .nodes l) :
      Gives (.item φ L (.copyOf e)) [.text (toString w cv v)]
  /-- a variable is there for the rest of the sequence; it may not hide another one of the template -/
  | variable (φ : Focus) (L : Bindings) (n : VName) (e : Expr) (rest : Items) (v : Val) (out : List Instr)
      (h : HasValue R G φ L e v) (hn : L.lookup n = none) (hb : Gives (.items φ ((n, v) :: L) rest) out) :
      Gives (.items φ L (.cons (.variable n e) rest)) out
  | nil (φ : Focus) (L : Bindings) : Gives (.items φ L .nil) []
  | cons (φ : Focus) (L : Bindings) (i : Item) (rest : Items) (a b : List Instr) (hn : ¬ IsVariable i)
      (h : Gives (.item φ L i) a) (hb : Gives (.items φ L rest) b) : Gives (.items φ L (.cons i rest)) (a ++ b)
  | otherwise (φ : Focus) (L : Bindings) (body : Items) (out : List Instr) (hb : Gives (.items φ L body) out) :
      Gives (.whens φ L (.otherwise body)) out
  | whenTrue (φ : Focus) (L : Bindings) (t : Expr) (body : Items) (rest : Whens) (v : Val) (out : List Instr)
      (h : HasValue R G φ L t v) (hv : toBoolean w v) (hb : Gives (.items φ L body) out) :
      Gives (.whens φ L (.when t body rest)) out
  | whenFalse (φ : Focus) (L : Bindings) (t : Expr) (body : Items) (rest : Whens) (v : Val) (out : List Instr)
      (h : HasValue R G φ L t v) (hv : ¬ toBoolean w v) (hb : Gives (.whens φ L rest) out) :
      Gives (.whens φ L (.when t body rest)) out
  | eachNil (L : Bindings) (body : Items) (i k : Int) : Gives (.each L body [] i k) []
  | eachCons (L : Bindings) (body : Items) (y : XN) (ys : List XN) (i k : Int) (a b : List Instr)
      (h : Gives (.items ⟨y, i, k⟩ L body) a) (hb : Gives (.each L body ys (i + 1) k) b) :
      Gives (.each L body (y :: ys) i k) (a ++ b)
  | rulesNil (mode : Str) (given : Bindings) (i k : Int) : Gives (.rules mode given [] i k) []
  | rulesCons (mode : Str) (given : Bindings) (y : XN) (ys : List XN) (i k : Int) (a b : List Instr)
      (h : Gives (.rule mode given ⟨y, i, k⟩) a) (hb : Gives (.rules mode given ys (i + 1) k) b) :
      Gives (.rules mode given (y :: ys) i k) (a ++ b)
  | template (t : Template) (given : Bindings) (φ : Focus) (L : Bindings) (out : List Instr)
      (h : Bound R G φ given t.params [] L) (hb : Gives (.items φ L t.body) out) : Gives (.template t given φ) out
  | rule (mode : Str) (given : Bindings) (φ : Focus) (t : Template) (out : List Instr)
      (h : P.rule mode φ.node = some t) (hb : Gives (.template t given φ) out) : Gives (.rule mode given φ) out
  /-- the built-in rules (section 5.8) -/
  | builtInParent (mode : Str) (given : Bindings) (φ : Focus) (l : List XN) (out : List Instr)
      (h : P.rule mode φ.node = none) (hk : HasKind w φ.node [.document, .fragment, .element])
      (hc : R.children φ.node l) (hb : Gives (.rules mode [] l 1 l.length) out) : Gives (.rule mode given φ) out
  | builtInText (mode : Str) (given : Bindings) (φ : Focus) (h : P.rule mode φ.node = none)
      (hk : HasKind w φ.node [.attribute, .text, .cdata]) :
      Gives (.rule mode given φ) [.text (stringValue w φ.node)]
  | builtInNothing (mode : Str) (given : Bindings) (φ : Focus) (h : P.rule mode φ.node = none)
      (hk : HasKind w φ.node [.comment, .pi]) : Gives (.rule mode given φ) []

end

/-! ## Global variables and parameters (section 11.4) -/

mutual

/-- The variables an expression refers to. -/
def mentions : Expr → List VName
  | .number _ | .string _ => []
  | .var u n => [(u, n)]
  | .call _ _ args => mentionsAll args
  | .binary _ a b => mentions a ++ mentions b
  | .negative e => mentions e
  | .path _ ss => mentionsSteps ss

def mentionsAll : List Expr → List VName
  | [] => []
  | e :: es => mentions e ++ mentionsAll es

def mentionsStep : Verif.XPathParse.Step → List VName
  | .test _ _ ps => mentionsAll ps
  | .expr e ps => mentions e ++ mentionsAll ps

def mentionsSteps : List Verif.XPathParse.Step → List VName
  | [] => []
  | s :: ss => mentionsStep s ++ mentionsSteps ss

end

/-- The value of an argument. -/
def argument : Argument → Val
  | .bool b => .bool b
  | .num n => .num n
  | .str s => .str s

/-- The caller has set the parameter to this, and not to something else later. -/
def Supplied (given : List (VName × Argument)) (g : Global) (a : Argument) : Prop :=
  g.param = true ∧ ∃ before after, given = before ++ (g.name, a) :: after ∧ ∀ p ∈ after, p.1 ≠ g.name

/-- The values of global variables: with `x` as the only node there is, each evaluated where all of them are known, and
none depending on itself. A parameter has the value the caller has set, if there is one. No two have one name. -/
structure GlobalsAre (R : Reading) (x : XN) (given : List (VName × Argument)) (gs : List Global) (G : VName → Option Val) :
    Prop where
  distinct : (gs.map (·.name)).Nodup
  only : ∀ n v, G n = some v → ∃ g ∈ gs, g.name = n
  supplied : ∀ g ∈ gs, ∀ a, Supplied given g a → G g.name = some (argument a)
  evaluated : ∀ g ∈ gs, (¬ ∃ a, Supplied given g a) →
    ∃ v, G g.name = some v ∧ R.value (fun u n => G (u, n)) g.value x 1 1 v
  wellFounded : ∃ rank : VName → Nat, ∀ g ∈ gs, (¬ ∃ a, Supplied given g a) → ∀ n ∈ mentions g.value,
    (∃ h ∈ gs, h.name = n) ∧ rank n < rank g.name

/-- What a stylesheet gives for a node (section 5.1): it is processed alone, in no mode. -/
def Transforms (w : World) (cv : Conv) (R : Reading) (P : Stylesheet) (given : List (VName × Argument)) (x : XN)
    (out : List Instr) : Prop :=
  ∃ G, GlobalsAre R x given P.globals G ∧ Gives w cv R P G (.rules [] [] [x] 1 1) out

/-! ## Stylesheets the library runs right -/

/-- Elements and attributes have a local name, as in documents that come from a parser. -/
def Named (w : World) (K : Nat → Prop) : Prop :=
  ∀ k, K k → ∀ r n, sub (w.tree k) r = some n → (n.data.uri = [] → n.data.loc = n.data.name) ∧
    (n.data.pfx = [] → n.data.loc = n.data.name)

mutual

/-- An instruction that processes other nodes, or may do so: `position()` and `current()` are wrong after it. -/
def moves : Item → Bool
  | .forEach _ _ _ | .applyTemplates _ _ _ _ | .callTemplate _ _ => true
  | .ifThen _ body | .element _ _ _ _ body | .attribute _ _ _ body | .comment body | .pi _ body | .copy body =>
    movesIn body
  | .choose ws => movesWhen ws
  | .text _ | .valueOf _ | .valueOfCurrent | .variable _ _ | .copyOf _ => false

def movesIn : Items → Bool
  | .nil => false
  | .cons i rest => moves i || movesIn rest

def movesWhen : Whens → Bool
  | .otherwise body => movesIn body
  | .when _ body rest => movesIn body || movesWhen rest

end

/-- A sequence without variables of its own. -/
def Undeclaring : Items → Prop
  | .nil => True
  | .cons i rest => ¬ IsVariable i ∧ Undeclaring rest

/-- A path that gives its nodes in document order, not backwards: its last step is neither along an axis that goes
backwards nor to parents; or a union of such paths. -/
def ForwardPath : Expr → Prop
  | .path _ ss => ∃ init a t ps, ss = init ++ [.test a t ps] ∧ ∀ axis, treeAxis a = some axis → axis ≠ .parent ∧ ¬ Reverse axis
  | .binary .union a b => ForwardPath a ∧ ForwardPath b
  | _ => False

mutual

/-- An expression that asks for `position()` and `last()` nowhere but in predicates. -/
def Unplaced : Expr → Prop
  | .call _ n args => n ≠ "position".toList ∧ n ≠ "last".toList ∧ UnplacedArgs args
  | .binary _ a b => Unplaced a ∧ Unplaced b
  | .negative a => Unplaced a
  | .path _ ss => UnplacedSteps ss
  | _ => True

def UnplacedArgs : List Expr → Prop
  | [] => True
  | e :: es => Unplaced e ∧ UnplacedArgs es

def UnplacedStep : Verif.XPathParse.Step → Prop
  | .test _ _ _ => True
  | .expr e _ => Unplaced e

def UnplacedSteps : List Verif.XPathParse.Step → Prop
  | [] => True
  | s :: ss => UnplacedStep s ∧ UnplacedSteps ss

end

section
variable (R : Reading)

/-- The value of the expression does not depend on the position. -/
def Fixed (e : Expr) : Prop := ∀ vars x i i' k v, R.value vars e x i k v → R.value vars e x i' k v

/-- After something has moved, the expression does not depend on the position. -/
def Still (moved : Bool) (e : Expr) : Prop := moved = true → Fixed R e

/-- The value of the expression depends on the node only, neither on its position nor on the number of nodes. -/
def Constant (e : Expr) : Prop := ∀ vars x i i' k k' v, R.value vars e x i k v → R.value vars e x i' k' v

/-- An expression for `xsl:copy-of`, or for nodes to be sorted: several nodes come from a forward path. -/
def Ordered (e : Expr) : Prop :=
  ForwardPath e ∨ ∀ vars x i k l, R.value vars e x i k (.nodes l) → l.length ≤ 1

/-- Sort keys that are right: their values do not depend on the position. -/
def TidySorts (moved : Bool) (sorts : List SortKey) : Prop :=
  ∀ s ∈ sorts, Constant R s.select ∧ Still R moved s.dataType ∧ Still R moved s.order ∧ Still R moved s.caseOrder

variable (free : VName → Prop)

mutual

/-- After an instruction that processes other nodes nothing depends on the position or on the current node: neither
expressions, nor `current()`, nor the templates that are called by name, which must be `free` then. There are no
variables directly in `xsl:comment`, `xsl:processing-instruction` and `xsl:copy` (C47). Nodes that are sorted come from
forward paths, and the sort keys do not depend on the position. -/
def TidyItem (moved : Bool) : Item → Prop
  | .text _ => True
  | .valueOf e => Still R moved e
  | .valueOfCurrent => moved = false
  | .ifThen t body => Still R moved t ∧ TidyItems moved body
  | .choose ws => TidyWhens moved ws
  | .forEach e sorts body => Still R moved e ∧ TidyItems false body ∧ TidySorts R moved sorts ∧ (sorts ≠ [] → Ordered R e)
  | .applyTemplates select sorts _ ps => (∀ e, select = some e → Still R moved e ∧ (sorts ≠ [] → Ordered R e)) ∧
      (∀ p ∈ ps, Still R moved p.2) ∧ TidySorts R moved sorts
  | .callTemplate name ps => (moved = true → free name) ∧ ∀ p ∈ ps, Still R moved p.2
  | .variable _ e => Still R moved e
  | .element _ _ _ as body => (∀ a ∈ as, Still R moved a.value) ∧ TidyItems moved body
  | .attribute _ _ _ body => TidyItems moved body
  | .comment body => TidyItems moved body ∧ Undeclaring body
  | .pi _ body => TidyItems moved body ∧ Undeclaring body
  | .copy body => TidyItems moved body ∧ Undeclaring body
  | .copyOf e => Still R moved e ∧ Ordered R e

def TidyItems (moved : Bool) : Items → Prop
  | .nil => True
  | .cons i rest => TidyItem moved i ∧ TidyItems (moved || moves i) rest

def TidyWhens (moved : Bool) : Whens → Prop
  | .otherwise body => TidyItems moved body
  | .when t body rest => Still R moved t ∧ TidyItems moved body ∧ TidyWhens moved rest

end

def TidyTemplate (moved : Bool) (t : Template) : Prop :=
  (∀ p ∈ t.params, Still R moved p.2) ∧ TidyItems R free moved t.body

/-- A stylesheet whose templates are all like that; the `free` ones are also right in any position. Global variables do not
depend on the position. -/
structure Tidy (P : Stylesheet) : Prop where
  rules : ∀ mode x t, P.rule mode x = some t → TidyTemplate R free false t
  named : ∀ name t, P.named name = some t → TidyTemplate R free false t
  free : ∀ name t, P.named name = some t → free name → TidyTemplate R free true t
  globals : ∀ g ∈ P.globals, Constant R g.value

end

end Verif.Spec.XsltRun
