import Verif.Model.XPathEval
import Verif.Spec.XPath
import Verif.Spec.XPathPath
import Verif.Spec.XPathMatch
import Verif.Spec.Text
set_option autoImplicit false
/-!
# What XPath expressions mean (XPath 1.0, sections 2, 3 and 4)

From the model only the types are used: trees, numbers, expressions, the conversions of the library, and node-sets for
what a program sees of a result.
-/
namespace Verif.Spec.XPathEval
open Verif.XTree Verif.XPath Verif.XPathEval
open Verif.Spec.XPathAxes Verif.Spec.XPathNodeSet Verif.Spec.XPathPath Verif.Spec.XPath
open Verif.XPathParse (Expr)

/-- The values of XPath; the nodes of a node-set are given in document order. -/
inductive Val where
  | bool (b : Bool)
  | num (n : Num)
  | str (s : List Char)
  | nodes (l : List XN)
deriving DecidableEq, Repr

/-! ## Nodes -/

/-- The string value of a node (section 5): all text in a document or an element, the text from a text node up to the
next node that is not text, the value of an attribute, a comment or a processing instruction. -/
def stringValue (w : World) (x : XN) : List Char :=
  match sub (w.tree x.1) x.2 with
  | none => []
  | some n =>
    match n.kind with
    | .document | .fragment | .element => textInAll n.kids
    | .text | .cdata =>
      match x.2 with
      | .child i :: up => leadingText ((kidsOf (w.tree x.1) up).drop i)
      | _ => n.data.value
    | _ => n.data.value

/-- The kinds of nodes with a name, and that name: the qualified name of an element or attribute, the target of a
processing instruction. -/
def named (w : World) (x : XN) : Option Data :=
  match sub (w.tree x.1) x.2 with
  | none => none
  | some n => if n.kind = .element ∨ n.kind = .attribute ∨ n.kind = .pi then some n.data else none

def qualifiedName (w : World) (x : XN) : List Char :=
  match named w x with
  | none => []
  | some d => d.name

/-- The local part: all of a name that is in no namespace. -/
def localPart (w : World) (x : XN) : List Char :=
  match named w x with
  | none => []
  | some d => if d.uri = [] then d.name else d.loc

/-- The name of the namespace; a processing instruction has none. -/
def namespaceName (w : World) (x : XN) : List Char :=
  match named w x with
  | none => []
  | some d => if d.kind = .pi then [] else d.uri

/-! ## Conversions -/

/-- A value with the string values of nodes for the nodes. -/
def Val.plain (w : World) : Val → Value
  | .bool b => .bool b
  | .num n => .num n
  | .str s => .str s
  | .nodes l => .nodes (l.map (stringValue w))

/-- Section 4.2, `string`. -/
def toString (w : World) (cv : Conv) : Val → List Char
  | .bool true => "true".toList
  | .bool false => "false".toList
  | .num .nan => "NaN".toList
  | .num .pinf => "Infinity".toList
  | .num .ninf => "-Infinity".toList
  | .num (.fin q) => cv.string q
  | .str s => s
  | .nodes [] => []
  | .nodes (x :: _) => stringValue w x

/-- Section 4.4, `number`. -/
def toNumber (w : World) (cv : Conv) (v : Val) : Num := number cv (v.plain w)

/-- Section 4.3, `boolean`. -/
def toBoolean (w : World) (v : Val) : Prop := boolean (v.plain w)

/-- A value that is a boolean, and which. -/
def IsBool (v : Val) (p : Prop) : Prop := ∃ b, v = .bool b ∧ (b = true ↔ p)

/-! ## Functions -/

/-- The functions of the core library but `id` and `lang`. -/
def fnText : Fn → String
  | .last => "last" | .position => "position" | .count => "count" | .localName => "local-name"
  | .namespaceUri => "namespace-uri" | .name => "name" | .string => "string" | .concat => "concat"
  | .startsWith => "starts-with" | .contains => "contains" | .substringBefore => "substring-before"
  | .substringAfter => "substring-after" | .substring => "substring" | .stringLength => "string-length"
  | .normalizeSpace => "normalize-space" | .translate => "translate" | .boolean => "boolean" | .not => "not"
  | .true => "true" | .false => "false" | .number => "number" | .sum => "sum" | .floor => "floor"
  | .ceiling => "ceiling" | .round => "round"

section
variable (w : World) (cv : Conv) (x : XN) (i k : Int)

/-- A function of a node-set, or of the context node. -/
def OfNode (f : XN → List Char) : List Val → Val → Prop
  | [], v => v = .str (f x)
  | [.nodes []], v => v = .str []
  | [.nodes (y :: _)], v => v = .str (f y)
  | _, _ => False

/-- A function of a string, or of the string value of the context node. -/
def OfString (f : List Char → Val) : List Val → Val → Prop
  | [], v => v = f (stringValue w x)
  | [a], v => v = f (toString w cv a)
  | _, _ => False

def OfNumber (f : Num → Num → Prop) : List Val → Val → Prop
  | [a], v => ∃ n, v = .num n ∧ f (toNumber w cv a) n
  | _, _ => False

def OfStrings (f : List Char → List Char → Val → Prop) : List Val → Val → Prop
  | [a, b], v => f (toString w cv a) (toString w cv b) v
  | _, _ => False

/-- `substring`: of the rounded numbers. -/
def OfSubstring : List Val → Val → Prop
  | [a, b], v => ∃ r, IsRound (toNumber w cv b) r ∧ v = .str (substring (toString w cv a) r none)
  | [a, b, c], v => ∃ r l, IsRound (toNumber w cv b) r ∧ IsRound (toNumber w cv c) l ∧
      v = .str (substring (toString w cv a) r (some l))
  | _, _ => False

def OfConcat : List Val → Val → Prop
  | a :: b :: rest, v => v = .str ((a :: b :: rest).map (toString w cv)).flatten
  | _, _ => False

/-- Sections 4.1 to 4.4: what a function gives for these arguments, with the context node `x`, position `i` and
size `k`. -/
def FnMeans (fn : Fn) (args : List Val) (v : Val) : Prop :=
  match fn with
  | .last => args = [] ∧ v = .num (.fin k)
  | .position => args = [] ∧ v = .num (.fin i)
  | .count => ∃ l, args = [.nodes l] ∧ v = .num (.fin l.length)
  | .localName => OfNode x (localPart w) args v
  | .namespaceUri => OfNode x (namespaceName w) args v
  | .name => OfNode x (qualifiedName w) args v
  | .string => OfString w cv x .str args v
  | .concat => OfConcat w cv args v
  | .startsWith => OfStrings w cv (fun s t v => IsBool v (∃ r, s = t ++ r)) args v
  | .contains => OfStrings w cv (fun s t v => IsBool v (Contains s t)) args v
  | .substringBefore => OfStrings w cv (fun s t v => ∃ r, v = .str r ∧ IsBefore s t r) args v
  | .substringAfter => OfStrings w cv (fun s t v => ∃ r, v = .str r ∧ IsAfter s t r) args v
  | .substring => OfSubstring w cv args v
  | .stringLength => OfString w cv x (fun s => .num (.fin s.length)) args v
  | .normalizeSpace => OfString w cv x (fun s => .str (Spec.Text.joinSpace (Spec.Text.words s))) args v
  | .translate => ∃ a b c, args = [a, b, c] ∧ v = .str (translate (toString w cv a) (toString w cv b) (toString w cv c))
  | .boolean => ∃ a, args = [a] ∧ IsBool v (toBoolean w a)
  | .not => ∃ a, args = [a] ∧ IsBool v (¬ toBoolean w a)
  | .true => args = [] ∧ v = .bool Bool.true
  | .false => args = [] ∧ v = .bool Bool.false
  | .number => (args = [] ∧ v = .num (cv.number (stringValue w x))) ∨ ∃ a, args = [a] ∧ v = .num (toNumber w cv a)
  | .sum => ∃ l, args = [.nodes l] ∧ v = .num ((l.map fun y => cv.number (stringValue w y)).foldr Num.add (.fin 0))
  | .floor => OfNumber w cv IsFloor args v
  | .ceiling => OfNumber w cv IsCeiling args v
  | .round => OfNumber w cv IsRound args v

/-- `substring` does not start beyond the end of the string, nor at an infinity (C40). -/
def SafeSubstring (s : List Char) (start : Num) (len : Option Num) : Prop :=
  s.length < 2 ^ 31 ∧ (∀ q, start = .fin q → q < s.length + 3/2) ∧ start ≠ .pinf ∧ (start = .ninf → len ≠ none)

/-- `translate`: no character that stays follows one that goes (C40). -/
def SafeTranslate (s src dst : List Char) : Prop :=
  ∃ a b, s = a ++ b ∧ (∀ c ∈ a, ∀ r, src.idxOf? c = some r → r < dst.length) ∧ ∀ c ∈ b, c ∈ src

/-- The calls that XPath allows and for which the functions are right (C40): the right number of arguments, node-sets
where they are asked for. -/
def FnSafe (fn : Fn) (args : List Val) : Prop :=
  match fn with
  | .last | .position | .true | .false => args = []
  | .count | .sum => ∃ l, args = [.nodes l]
  | .localName | .namespaceUri | .name => args = [] ∨ ∃ l, args = [.nodes l]
  | .string | .stringLength | .normalizeSpace | .number => args = [] ∨ ∃ a, args = [a]
  | .concat => ∃ a b rest, args = a :: b :: rest
  | .startsWith | .contains | .substringBefore | .substringAfter => ∃ a b, args = [a, b]
  | .substring =>
    (∃ a b, args = [a, b] ∧ SafeSubstring (toString w cv a) (toNumber w cv b) none) ∨
    (∃ a b c, args = [a, b, c] ∧ SafeSubstring (toString w cv a) (toNumber w cv b) (some (toNumber w cv c)))
  | .translate => ∃ a b c, args = [a, b, c] ∧ SafeTranslate (toString w cv a) (toString w cv b) (toString w cv c)
  | .boolean | .not | .floor | .ceiling | .round => ∃ a, args = [a]

end

/-! ## Operators -/

/-- The product by IEEE 754, but for rounding and the sign of zeros. -/
def IsProduct : Num → Num → Num → Prop
  | .fin a, .fin b, r => r = .fin (a * b)
  | .nan, _, r | _, .nan, r => r = .nan
  | a, b, r =>
    if a = .fin 0 ∨ b = .fin 0 then r = .nan
    else if (a.lt (.fin 0) = true ↔ b.lt (.fin 0) = true) then r = .pinf else r = .ninf

/-- The quotient by IEEE 754, but for rounding and the sign of zeros. -/
def IsQuotient : Num → Num → Num → Prop
  | .nan, _, r | _, .nan, r => r = .nan
  | .fin a, .fin b, r =>
    if b = 0 then (if a = 0 then r = .nan else if 0 < a then r = .pinf else r = .ninf)
    else ∃ q, r = .fin q ∧ q * b = a
  | .fin _, _, r => r = .fin 0
  | a, .fin b, r => if (a = .ninf ↔ b < 0) then r = .pinf else r = .ninf
  | _, _, r => r = .nan

section
variable (w : World) (cv : Conv)

/-- Two numbers. -/
def Arith (f : Num → Num → Num → Prop) (a b v : Val) : Prop := ∃ n, v = .num n ∧ f (toNumber w cv a) (toNumber w cv b) n

/-- Sections 3.3 to 3.5: what an operator gives for `a` and the value of its right operand, which is one with `B`. -/
def OpMeans (op : Verif.XPathParse.Op) (a : Val) (B : Val → Prop) (v : Val) : Prop :=
  match op with
  | .or => (toBoolean w a ∧ v = .bool true) ∨ (¬ toBoolean w a ∧ ∃ b, B b ∧ IsBool v (toBoolean w b))
  | .and => (¬ toBoolean w a ∧ v = .bool false) ∨ (toBoolean w a ∧ ∃ b, B b ∧ IsBool v (toBoolean w b))
  | .eq => ∃ b, B b ∧ IsBool v (Holds cv .eq (a.plain w) (b.plain w))
  | .ne => ∃ b, B b ∧ IsBool v (Holds cv .ne (a.plain w) (b.plain w))
  | .lt => ∃ b, B b ∧ IsBool v (Holds cv .lt (a.plain w) (b.plain w))
  | .le => ∃ b, B b ∧ IsBool v (Holds cv .le (a.plain w) (b.plain w))
  | .gt => ∃ b, B b ∧ IsBool v (Holds cv .gt (a.plain w) (b.plain w))
  | .ge => ∃ b, B b ∧ IsBool v (Holds cv .ge (a.plain w) (b.plain w))
  | .plus => ∃ b, B b ∧ Arith w cv (fun m n r => r = m.add n) a b v
  | .minus => ∃ b, B b ∧ Arith w cv (fun m n r => r = m.sub n) a b v
  | .times => ∃ b, B b ∧ Arith w cv IsProduct a b v
  | .div => ∃ b, B b ∧ Arith w cv IsQuotient a b v
  | .mod => ∃ b, B b ∧ Arith w cv IsMod a b v
  | .union => ∃ l m u, a = .nodes l ∧ B (.nodes m) ∧ v = .nodes u ∧ InOrder w u ∧ ∀ y, y ∈ u ↔ y ∈ l ∨ y ∈ m

/-- Neither an empty node-set against a node-set nor a node-set against a boolean (C39). -/
def SafeLess : Val → Val → Prop
  | .nodes l, .nodes m => l ≠ [] ∧ m ≠ []
  | .nodes _, .bool _ => False
  | .bool _, .nodes _ => False
  | _, _ => True

/-- Integers that fit a `long`, the divisor not zero; or something is not a number (C43). -/
def SafeMod (m n : Num) : Prop :=
  m = .nan ∨ n = .nan ∨ ∃ a b : Int, m = .fin a ∧ n = .fin b ∧ (-(2 ^ 63 : Int) ≤ a ∧ a < (2 ^ 63 : Int)) ∧
    (-(2 ^ 63 : Int) ≤ b ∧ b < (2 ^ 63 : Int)) ∧ b ≠ 0 ∧ ¬ (a = -(2 ^ 63 : Int) ∧ b = -1)

/-- The operands that XPath allows and for which the operators are right. -/
def OpSafe (op : Verif.XPathParse.Op) (a b : Val) : Prop :=
  match op with
  | .lt | .le | .gt | .ge => SafeLess a b
  | .mod => SafeMod (toNumber w cv a) (toNumber w cv b)
  | .union => (∃ l, a = .nodes l) ∧ ∃ m, b = .nodes m
  | _ => True

/-- `l'` are the nodes of `l` that a predicate keeps, in the same order: the node at place `i` has position `i + 1` and
the number of nodes is the context size. -/
def Kept (p : XN → Int → Int → Val → Prop) (l l' : List XN) : Prop :=
  ∃ keep : List Nat, keep.Pairwise (· < ·) ∧ l'.map some = keep.map (fun i => l[i]?) ∧
    ∀ (i : Nat) (x : XN), l[i]? = some x →
      ∃ v, p x (i + 1) l.length v ∧ (i ∈ keep ↔ Keeps (i + 1) (v.plain w))

/-- The axes but the namespace axis. -/
def treeAxis : Verif.XPathParse.Axis → Option Axis
  | .ancestor => some .ancestor | .ancestorOrSelf => some .ancestorOrSelf | .attribute => some .attribute
  | .child => some .child | .descendant => some .descendant | .descendantOrSelf => some .descendantOrSelf
  | .following => some .following | .followingSibling => some .followingSibling | .namespace => none
  | .parent => some .parent | .preceding => some .preceding | .precedingSibling => some .precedingSibling
  | .self => some .self

/-- The nodes of an axis that pass a test, in the order of the axis. -/
def Candidates (a : Verif.XPathParse.Axis) (t : Verif.XPathParse.Test) (x : XN) (l : List XN) : Prop :=
  ∃ (axis : Axis) (axisNodes passing : List Ref), treeAxis a = some axis ∧ IsAxis (w.tree x.1) x.2 axis axisNodes ∧
    passing.Sublist axisNodes ∧
    (∀ r ∈ axisNodes, r ∈ passing ↔ ∃ n, sub (w.tree x.1) r = some n ∧ Passes n.data (Verif.Spec.XPathMatch.treeTest t)) ∧
    l = passing.map fun r => (x.1, r)

end

/-! ## Expressions -/

section
variable (w : World) (cv : Conv) (vars : List Char → List Char → Option Val)

mutual

/-- `e` means `v` with the context node `x`, position `i` and size `k`. -/
def Means : Expr → XN → Int → Int → Val → Prop
  | .number t, _, _, _, v => v = .num (cv.number t)
  | .string t, _, _, _, v => v = .str t
  | .var u n, _, _, _, v => vars u n = some v
  | .call u n args, x, i, k, v =>
    u = [] ∧ ∃ fn vs, n = (fnText fn).toList ∧ ArgsMean args x i k vs ∧ FnMeans w cv x i k fn vs v
  | .binary op a b, x, i, k, v => ∃ va, Means a x i k va ∧ OpMeans w cv op va (fun vb => Means b x i k vb) v
  | .negative a, x, i, k, v => ∃ va, Means a x i k va ∧ v = .num (toNumber w cv va).neg
  | .path absolute ss, x, i, k, v =>
    ∃ l, v = .nodes l ∧ InOrder w l ∧ ∀ y, y ∈ l ↔ PathMeans ss (if absolute then (x.1, []) else x) i k y

/-- Arguments and their values. -/
def ArgsMean : List Expr → XN → Int → Int → List Val → Prop
  | [], _, _, _, vs => vs = []
  | e :: es, x, i, k, vs => ∃ v rest, vs = v :: rest ∧ Means e x i k v ∧ ArgsMean es x i k rest

/-- Predicates keep, one after the other, the nodes `l'` of `l`. -/
def PredsMean : List Expr → List XN → List XN → Prop
  | [], l, l' => l' = l
  | p :: ps, l, l' => ∃ m, Kept w (fun x i k v => Means p x i k v) l m ∧ PredsMean ps m l'

/-- A step selects `y` from `x`; an expression as a step is one that gives a node-set. -/
def StepMeans : Verif.XPathParse.Step → XN → Int → Int → XN → Prop
  | .test a t ps, x, _, _, y => ∃ l kept, Candidates w a t x l ∧ PredsMean ps l kept ∧ y ∈ kept
  | .expr e ps, x, i, k, y => ∃ l kept, Means e x i k (.nodes l) ∧ PredsMean ps l kept ∧ y ∈ kept

/-- Some steps select `y` from `x`. -/
def PathMeans : List Verif.XPathParse.Step → XN → Int → Int → XN → Prop
  | [], x, _, _, y => y = x
  | s :: ss, x, i, k, y => ∃ m, StepMeans s x i k m ∧ PathMeans ss m i k y

end

/-- Only the first step of a path can be an expression. -/
def IsTest : Verif.XPathParse.Step → Prop
  | .test _ _ _ => True
  | .expr _ _ => False

mutual

/-- An expression that XPath allows, whose evaluation keeps away from the known faults: variables have values, functions
are known and get what they ask for, the operands of operators are what these can deal with (C39, C40, C43), node-sets
are where they must be, there is no step to the children of an attribute (C35), no namespace axis and no test for a
processing instruction with an empty name. The test `.node` is one of patterns only; in an expression `node()` is
`.any`. -/
def Sound : Expr → XN → Int → Int → Prop
  | .number _, _, _, _ => True
  | .string _, _, _, _ => True
  | .var u n, _, _, _ => ∃ v, vars u n = some v
  | .call u n args, x, i, k =>
    u = [] ∧ ∃ fn, n = (fnText fn).toList ∧ SoundArgs args x i k ∧
      ∀ vs, ArgsMean w cv vars args x i k vs → FnSafe w cv fn vs
  | .binary op a b, x, i, k => Sound a x i k ∧ Sound b x i k ∧
      ∀ va vb, Means w cv vars a x i k va → Means w cv vars b x i k vb → OpSafe w cv op va vb
  | .negative a, x, i, k => Sound a x i k
  | .path absolute ss, x, i, k =>
      (∀ s ∈ ss.tail, IsTest s) ∧ SoundSteps ss (if absolute then (x.1, []) else x) i k

def SoundArgs : List Expr → XN → Int → Int → Prop
  | [], _, _, _ => True
  | e :: es, x, i, k => Sound e x i k ∧ SoundArgs es x i k

/-- Predicates of these nodes. -/
def SoundPreds : List Expr → List XN → Prop
  | [], _ => True
  | p :: ps, l => (∀ (i : Nat) (x : XN), l[i]? = some x → Sound p x (i + 1) l.length) ∧
      ∀ m, Kept w (fun x i k v => Means w cv vars p x i k v) l m → SoundPreds ps m

def SoundStep : Verif.XPathParse.Step → XN → Int → Int → Prop
  | .test a t ps, x, _, _ => a ≠ .namespace ∧ (a = .child → ¬ IsAttr x.2) ∧ t ≠ .pi (some []) ∧ t ≠ .node ∧
      ∀ l, Candidates w a t x l → SoundPreds ps l
  | .expr e ps, x, i, k => Sound e x i k ∧ (∀ v, Means w cv vars e x i k v → ∃ l, v = .nodes l) ∧
      ∀ l, Means w cv vars e x i k (.nodes l) → SoundPreds ps l

def SoundSteps : List Verif.XPathParse.Step → XN → Int → Int → Prop
  | [], _, _, _ => True
  | s :: ss, x, i, k => SoundStep s x i k ∧ ∀ m, StepMeans w cv vars s x i k m → SoundSteps ss m i k

end

end

/-! ## What a program sees -/

/-- A result with these nodes: in document order, or backwards with the mark for that. -/
def ShowsNodes (ns : NodeSet) (l : List XN) : Prop :=
  ns.sorted = true ∧ ns.nodes = if ns.forward then l else l.reverse

/-- A value of the library is this value. -/
def Shows : XVal → Val → Prop
  | .bool b, .bool c => b = c
  | .num m, .num n => m = n
  | .str s, .str t => s = t
  | .nodes ns, .nodes l => ShowsNodes ns l
  | _, _ => False

/-- Documents: trees that the DOM can build, without document types or entity references, not too large, without text
next to text. -/
structure Documents (w : World) (K : Nat → Prop) : Prop where
  document : ∀ k, K k → (w.tree k).kind = .document
  dom : ∀ k, K k → DomTree (w.tree k)
  expanded : ∀ k, K k → Expanded (w.tree k)
  small : ∀ k, K k → Small (w.tree k)
  normalized : ∀ k, K k → Normalized (w.tree k)

/-- The nodes of these trees. -/
def NodeIn (w : World) (K : Nat → Prop) (x : XN) : Prop := K x.1 ∧ XNode (w.tree x.1) x.2

/-- The variables of the library have these values, whose nodes are of these trees. -/
def SameVariables (w : World) (K : Nat → Prop) (vars : List Char → List Char → Option XVal)
    (vars' : List Char → List Char → Option Val) : Prop :=
  ∀ u n v', vars' u n = some v' → ∃ v, vars u n = some v ∧ Shows v v' ∧
    ∀ l, v' = .nodes l → InOrder w l ∧ ∀ x ∈ l, NodeIn w K x

end Verif.Spec.XPathEval
