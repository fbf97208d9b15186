import Verif.Model.XPathParse
set_option autoImplicit false
/-!
# XPath 1.0 expressions as they are written, and what they stand for

The syntax of https://www.w3.org/TR/1999/REC-xpath-19991116 sections 2 and 3: which expressions there are, the tokens they
are written with, what may stand between the tokens, and the operations and steps they mean.
-/
namespace Verif.XPathParse

/-- `p:n`, or `n`. -/
structure QName where
  pre : Option Str
  loc : Str

inductive NodeType where
  | comment | text | pi | node
  deriving DecidableEq

/-- [7] and [37], as written. -/
inductive NodeTest where
  | any
  | anyIn (p : Str)
  | name (q : QName)
  | type (t : NodeType)
  | target (quote : Char) (text : Str)

/-- [5], as written: nothing, `@` or an axis with its colons. -/
inductive AxisSpec where
  | child | atSign
  | named (a : Axis)

mutual

/-- Expressions, as written. -/
inductive Ex where
  | num (text : Str)
  | lit (quote : Char) (text : Str)
  | var (q : QName)
  | call (f : QName) (args : Exs)
  | paren (e : Ex)
  | filter (e : Ex) (ps : Exs)
  | path (h : Ex) (deep : Bool) (r : Rel)
  | rel (r : Rel)
  | root
  | abs (deep : Bool) (r : Rel)
  | neg (e : Ex)
  | bin (op : Op) (a b : Ex)

inductive Exs where
  | nil
  | cons (e : Ex) (es : Exs)

/-- Steps, as written: the others are `.` and `..`. -/
inductive St where
  | step (ax : AxisSpec) (t : NodeTest) (ps : Exs)
  | self | parent

/-- Relative paths, as written; `deep` for `//`. -/
inductive Rel where
  | one (s : St)
  | cons (s : St) (deep : Bool) (r : Rel)

end

/-! ## precedence -/

def opLevel : Op → Nat
  | .or => 1
  | .and => 2
  | .eq | .ne => 3
  | .lt | .gt | .le | .ge => 4
  | .plus | .minus => 5
  | .times | .div | .mod => 6
  | .union => 8

/-- How tightly an expression holds together. -/
def level : Ex → Nat
  | .bin op _ _ => opLevel op
  | .neg _ => 7
  | .path .. | .rel _ | .root | .abs .. => 9
  | .filter .. => 10
  | .num _ | .lit .. | .var _ | .call .. | .paren _ => 11

/-! ## tokens -/

/-- A token; a name must end where it ends, and a tight token must follow on what comes before. -/
structure Tok where
  text : Str
  isName : Bool := false
  tight : Bool := false

def sym (t : String) (tight : Bool := false) : Tok := { text := t.toList, tight := tight }

def opText : Op → Tok
  | .or => { text := "or".toList, isName := true }
  | .and => { text := "and".toList, isName := true }
  | .div => { text := "div".toList, isName := true }
  | .mod => { text := "mod".toList, isName := true }
  | .eq => sym "="
  | .ne => sym "!="
  | .lt => sym "<"
  | .gt => sym ">"
  | .le => sym "<="
  | .ge => sym ">="
  | .plus => sym "+"
  | .minus => sym "-"
  | .times => sym "*"
  | .union => sym "|"

def axisText : Axis → String
  | .ancestor => "ancestor"
  | .ancestorOrSelf => "ancestor-or-self"
  | .attribute => "attribute"
  | .child => "child"
  | .descendant => "descendant"
  | .descendantOrSelf => "descendant-or-self"
  | .following => "following"
  | .followingSibling => "following-sibling"
  | .namespace => "namespace"
  | .parent => "parent"
  | .preceding => "preceding"
  | .precedingSibling => "preceding-sibling"
  | .self => "self"

def typeText : NodeType → String
  | .comment => "comment"
  | .text => "text"
  | .pi => "processing-instruction"
  | .node => "node"

def qText (q : QName) : Str :=
  match q.pre with
  | none => q.loc
  | some p => p ++ ':' :: q.loc

def nameTok (t : Str) : Tok := { text := t, isName := true }

def axisTokens : AxisSpec → List Tok
  | .child => []
  | .atSign => [sym "@"]
  | .named a => [sym (axisText a), sym "::"]

/-- The target of a test for processing instructions, and the bracket before it, are tight. -/
def testTokens : NodeTest → List Tok
  | .any => [sym "*"]
  | .anyIn p => [{ text := p ++ ":*".toList }]
  | .name q => [nameTok (qText q)]
  | .type t => [sym (typeText t), sym "(", sym ")"]
  | .target q t => [sym "processing-instruction", sym "(" true, { text := q :: t ++ [q], tight := true }, sym ")"]

def St.short : St → Bool
  | .step .. => false
  | _ => true

def slashTok (deep tight : Bool) : Tok := sym (if deep then "//" else "/") tight

mutual

/-- The tokens of an expression; a minus sign after another is tight. -/
def tokens (tight : Bool) : Ex → List Tok
  | .num t => [{ text := t }]
  | .lit q t => [{ text := q :: t ++ [q] }]
  | .var q => [nameTok ('$' :: qText q)]
  | .call f args => nameTok (qText f) :: sym "(" :: argTokens args ++ [sym ")"]
  | .paren e => sym "(" :: tokens false e ++ [sym ")"]
  | .filter e ps => tokens false e ++ predTokens ps
  | .path h deep r => tokens false h ++ slashTok deep false :: relTokens true r
  | .rel r => relTokens false r
  | .root => [sym "/"]
  | .abs deep r => slashTok deep false :: relTokens true r
  | .neg e => sym "-" tight :: tokens true e
  | .bin op a b => tokens false a ++ opText op :: tokens false b

def argTokens : Exs → List Tok
  | .nil => []
  | .cons e es => tokens false e ++ moreTokens es

def moreTokens : Exs → List Tok
  | .nil => []
  | .cons e es => sym "," :: tokens false e ++ moreTokens es

def predTokens : Exs → List Tok
  | .nil => []
  | .cons e es => sym "[" :: tokens false e ++ sym "]" :: predTokens es

/-- `.` and `..` are tight after a slash. -/
def stTokens (tight : Bool) : St → List Tok
  | .step ax t ps => axisTokens ax ++ testTokens t ++ predTokens ps
  | .self => [sym "." tight]
  | .parent => [sym ".." tight]

/-- A slash after `.` or `..` is tight. -/
def relTokens (tight : Bool) : Rel → List Tok
  | .one s => stTokens tight s
  | .cons s deep r => stTokens tight s ++ slashTok deep s.short :: relTokens true r

end

/-! ## what may stand between tokens -/

def isWhite (c : Char) : Bool := c == ' ' || c == '\t' || c == '\n' || c == '\r'

def nameStart (c : Char) : Bool := c.isAlpha || c == '_'

def nameChar (c : Char) : Bool := c.isAlpha || c.isDigit || c == '.' || c == '-' || c == '_'

/-- `s` is the tokens, with white space before them where they are not tight, and then `r`. -/
inductive Reads : List Tok → Str → Str → Prop where
  | nil (r : Str) : Reads [] r r
  | cons (t : Tok) (ts : List Tok) (w s r : Str) (white : w.all isWhite = true) (tight : t.tight = true → w = [])
      (ends : t.isName = true → ∀ c u, s = c :: u → nameChar c = false) (rest : Reads ts s r) :
      Reads (t :: ts) (w ++ (t.text ++ s)) r

/-! ## which expressions there are -/

/-- Names, of ASCII characters. -/
def NcName : Str → Prop
  | [] => False
  | c :: s => nameStart c = true ∧ s.all nameChar = true

def QName.Ok (ns : Str → Option Str) (q : QName) : Prop :=
  NcName q.loc ∧ ∀ p, q.pre = some p → NcName p ∧ ns p ≠ none

/-- [30] -/
def Num (t : Str) : Prop :=
  ∃ a b : Str, a.all Char.isDigit = true ∧ b.all Char.isDigit = true ∧
    ((t = a ∧ a ≠ []) ∨ (t = a ++ '.' :: b ∧ a ≠ []) ∨ (t = '.' :: b ∧ b ≠ []))

/-- [29] -/
def Quoted (q : Char) (t : Str) : Prop := (q = '"' ∨ q = '\'') ∧ q ∉ t

def NodeTest.Ok (ns : Str → Option Str) : NodeTest → Prop
  | .anyIn p => NcName p ∧ ns p ≠ none
  | .name q => q.Ok ns
  | .target q t => Quoted q t
  | _ => True

/-- `processing-instruction()` and nothing else, but for brackets. -/
def barePi : Ex → Bool
  | .paren e => barePi e
  | .rel (.one (.step .child (.type .pi) .nil)) => true
  | _ => false

/-- A literal and nothing else, but for brackets. -/
def bareLit : Ex → Bool
  | .paren e => bareLit e
  | .lit .. => true
  | _ => false

/-- `/` and nothing else, but for brackets. -/
def bareRoot : Ex → Bool
  | .paren e => bareRoot e
  | .root => true
  | _ => false

/-- The last token is a `/`. -/
def endsInSlash : Ex → Bool
  | .root => true
  | .neg e => endsInSlash e
  | .bin _ _ b => endsInSlash b
  | _ => false

/-- The operators that are names, or the name `*`, after a `/`. -/
def Op.nameLike : Op → Bool
  | .or | .and | .times | .div | .mod => true
  | _ => false

def isType (f : QName) : Prop := f.pre = none ∧ ∃ t : NodeType, f.loc = (typeText t).toList

def Exs.startsWithLit : Exs → Bool
  | .cons e _ => bareLit e
  | .nil => false

mutual

/-- What [1] to [39] ask of an expression, with the prefixes bound.  Besides, a literal must not follow a
bare `processing-instruction()` among arguments, and a path must not go on from a bare `/` in brackets. -/
def Ex.Ok (ns : Str → Option Str) : Ex → Prop
  | .num t => Num t
  | .lit q t => Quoted q t
  | .var q => q.Ok ns
  | .call f args => f.Ok ns ∧ ¬ isType f ∧ args.Ok ns ∧ args.Apart
  | .paren e => e.Ok ns
  | .filter e ps => e.Ok ns ∧ ps.Ok ns ∧ level e = 11 ∧ ps ≠ .nil
  | .path h _ r => h.Ok ns ∧ r.Ok ns ∧ 10 ≤ level h ∧ bareRoot h = false
  | .rel r => r.Ok ns
  | .root => True
  | .abs _ r => r.Ok ns
  | .neg e => e.Ok ns ∧ 7 ≤ level e
  | .bin op a b =>
    a.Ok ns ∧ b.Ok ns ∧ opLevel op ≤ level a ∧ opLevel op < level b ∧ (op.nameLike = true → endsInSlash a = false)

def Exs.Ok (ns : Str → Option Str) : Exs → Prop
  | .nil => True
  | .cons e es => e.Ok ns ∧ es.Ok ns

def Exs.Apart : Exs → Prop
  | .nil => True
  | .cons e es => (barePi e = true → es.startsWithLit = false) ∧ es.Apart

def St.Ok (ns : Str → Option Str) : St → Prop
  | .step _ t ps => t.Ok ns ∧ ps.Ok ns
  | _ => True

def Rel.Ok (ns : Str → Option Str) : Rel → Prop
  | .one s => s.Ok ns
  | .cons s _ r => s.Ok ns ∧ r.Ok ns

end

/-! ## what they stand for -/

section
variable (ns : Str → Option Str)

def uriOf (p : Str) : Str := (ns p).getD []

def QName.uri (q : QName) : Str :=
  match q.pre with
  | none => []
  | some p => uriOf ns p

def axisMeaning : AxisSpec → Axis
  | .child => .child
  | .atSign => .attribute
  | .named a => a

/-- No attribute is called `xmlns` or has that prefix: those are namespaces. -/
def testMeaning (attr : Bool) : NodeTest → Test
  | .any => .star attr
  | .anyIn p => if attr = true ∧ p = "xmlns".toList then .fail else .qStar attr (uriOf ns p)
  | .name ⟨none, n⟩ => if attr = true ∧ n = "xmlns".toList then .fail else .name attr n
  | .name ⟨some p, n⟩ => if attr = true ∧ p = "xmlns".toList then .fail else .qName attr (uriOf ns p) n
  | .type .comment => .comment
  | .type .text => .text
  | .type .pi => .pi none
  | .type .node => .any
  | .target _ t => .pi (some t)

/-- `//` is short for `/descendant-or-self::node()/`. -/
def deepStep (deep : Bool) : List Step := if deep then [.test .descendantOrSelf .any []] else []

mutual

def meaning : Ex → Expr
  | .num t => .number t
  | .lit _ t => .string t
  | .var q => .var (q.uri ns) q.loc
  | .call f args => .call (f.uri ns) f.loc (meanings args)
  | .paren e => meaning e
  | .filter e ps => .path false [.expr (meaning e) (meanings ps)]
  | .path h deep r => .path false (.expr (meaning h) [] :: (deepStep deep ++ relMeaning r))
  | .rel r => .path false (relMeaning r)
  | .root => .path true [.test .self .root []]
  | .abs deep r => .path true (deepStep deep ++ relMeaning r)
  | .neg e => .negative (meaning e)
  | .bin op a b => .binary op (meaning a) (meaning b)

def meanings : Exs → List Expr
  | .nil => []
  | .cons e es => meaning e :: meanings es

def stMeaning : St → Step
  | .step ax t ps => .test (axisMeaning ax) (testMeaning ns (axisMeaning ax == .attribute) t) (meanings ps)
  | .self => .test .self .any []
  | .parent => .test .parent .any []

def relMeaning : Rel → List Step
  | .one s => [stMeaning s]
  | .cons s deep r => stMeaning s :: (deepStep deep ++ relMeaning r)

end

end

/-! ## paths that go on from paths -/

/-- A relative path at the head of a path, written out: `(a/b)/c` is `a/b/c`. -/
def unbracket : List Step → List Step
  | .expr (.path false (s :: ss)) [] :: rest => s :: (ss ++ rest)
  | ss => ss

mutual

/-- An expression with all such paths written out. -/
def flat : Expr → Expr
  | .number t => .number t
  | .string t => .string t
  | .var u n => .var u n
  | .call u n args => .call u n (flats args)
  | .binary op a b => .binary op (flat a) (flat b)
  | .negative e => .negative (flat e)
  | .path a ss => .path a (unbracket (flatSteps ss))

def flats : List Expr → List Expr
  | [] => []
  | e :: es => flat e :: flats es

def flatStep : Step → Step
  | .test a t ps => .test a t (flats ps)
  | .expr e ps => .expr (flat e) (flats ps)

def flatSteps : List Step → List Step
  | [] => []
  | s :: ss => flatStep s :: flatSteps ss

end

end Verif.XPathParse
