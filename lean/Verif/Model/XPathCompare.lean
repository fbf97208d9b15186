import Verif.Model.XPathNum
set_option autoImplicit false
/-!
# Comparison of XPath values: include/XPath/impl/xpath_object.hpp lines 500-770,
# include/XPath/impl/xpath_value.hpp

A node-set is given by the string values of its nodes, in the order of the set; the set is already
sorted, so that `top()` is its first node. The conversion of strings to numbers and of numbers to
strings (`boost::lexical_cast`) are parameters.
-/
namespace Verif.XPath

/-- `XPathValue`: `BoolValue`, `NumericValue`, `StringValue`, `NodeSetValue` (xpath_value.hpp). -/
inductive Value where
  | bool (b : Bool)
  | num (n : Num)
  | str (s : List Char)
  | nodes (l : List (List Char))
deriving DecidableEq, Repr

/-- The library conversions. -/
structure Conv where
  /-- `stringAsNumber`, xpath_object.hpp lines 420-436 -/
  number : List Char → Num
  /-- `NumericValue::asString` for finite numbers, xpath_value.hpp line 110 -/
  string : Rat → List Char

variable (cv : Conv)

/-- `asBool` of each class: xpath_value.hpp lines 74, 100-105, 142, 173-176. -/
def asBool : Value → Bool
  | .bool b => b
  | .num n => if n.isNaN then false else !(n.eq (.fin 0))
  | .str s => !s.isEmpty
  | .nodes l => !l.isEmpty

/-- `asString` of each class: xpath_value.hpp lines 76, 107-116, 147, 181-186. -/
def asString : Value → List Char
  | .bool b => if b then ['t', 'r', 'u', 'e'] else ['f', 'a', 'l', 's', 'e']
  | .num .nan => ['N', 'a', 'N']
  | .num .pinf => ['I', 'n', 'f', 'i', 'n', 'i', 't', 'y']
  | .num .ninf => ['-', 'I', 'n', 'f', 'i', 'n', 'i', 't', 'y']
  | .num (.fin q) => cv.string q
  | .str s => s
  | .nodes [] => []
  | .nodes (n :: _) => n

/-- `asNumber` of each class: xpath_value.hpp lines 75, 106, 143-146, 177-180. -/
def asNumber : Value → Num
  | .bool b => if b then .fin 1 else .fin 0
  | .num n => n
  | .str s => cv.number s
  | .nodes l => cv.number (asString cv (.nodes l))

/-- The first loop of `nodeSetsCompare`, xpath_object.hpp lines 545-551: the first node on the left
against every node on the right; `none` means it returned true, otherwise the collected values. -/
def firstLoop (p1 : List Char → List Char → Bool) (lvalue : List Char) :
    List (List Char) → List (List Char) → Option (List (List Char))
  | [], values => some values
  | r :: rs, values =>
    if p1 lvalue r then none else firstLoop p1 lvalue rs (if r ∈ values then values else r :: values)

/-- `nodeSetsCompare`, xpath_object.hpp lines 532-560; `p2` says whether "found in `values`" is what
the second loop looks for. `std::set` is a list without repetitions. -/
def nodeSetsCompare (p1 : List Char → List Char → Bool) (p2 : Bool) (lns rns : List (List Char)) : Bool :=
  match lns with
  | [] => false
  | lvalue :: ls =>
    if rns = [] then false
    else
      match firstLoop p1 lvalue rns [] with
      | none => true
      | some values => ls.any (fun l => decide (l ∈ values) == p2)

/-- `nodeSetsEqual`, xpath_object.hpp lines 562-568. -/
def nodeSetsEqual (l r : List (List Char)) : Bool := nodeSetsCompare (fun a b => decide (a = b)) true l r

/-- `nodeSetsNotEqual`, xpath_object.hpp lines 570-576. -/
def nodeSetsNotEqual (l r : List (List Char)) : Bool :=
  nodeSetsCompare (fun a b => decide (a ≠ b)) false l r

/-- `nodeSetAndValueEqual`, xpath_object.hpp lines 578-605. `rhs` is no node-set. -/
def nodeSetAndValueEqual (lns : List (List Char)) : Value → Bool
  | .bool b => (!lns.isEmpty) == b
  | .str s => lns.any (fun n => decide (n = s))
  | .num v => lns.any (fun n => (cv.number n).eq v)
  | .nodes _ => false

/-- `nodeSetAndValueNotEqual`, xpath_object.hpp lines 607-634. -/
def nodeSetAndValueNotEqual (lns : List (List Char)) : Value → Bool
  | .bool b => (!lns.isEmpty) != b
  | .str s => lns.any (fun n => decide (n ≠ s))
  | .num v => lns.any (fun n => !((cv.number n).eq v))
  | .nodes _ => false

/-- The loop of `minValue`, xpath_object.hpp lines 640-647. -/
def minLoop (v : Num) : List Num → Num
  | [] => v
  | vt :: rest =>
    if vt.isNaN then minLoop v rest
    else if !(Num.lt v vt) then minLoop vt rest
    else minLoop v rest

/-- `minValue`, xpath_object.hpp lines 636-649; `none`: `ns[0]` of an empty vector is undefined. -/
def minValue (ns : List (List Char)) : Option Num :=
  match ns.map cv.number with
  | [] => none
  | v :: vs => some (minLoop v (v :: vs))

/-- The loop of `maxValue`, xpath_object.hpp lines 655-662. -/
def maxLoop (v : Num) : List Num → Num
  | [] => v
  | vt :: rest =>
    if vt.isNaN then maxLoop v rest
    else if !(Num.lt vt v) then maxLoop vt rest
    else maxLoop v rest

/-- `maxValue`, xpath_object.hpp lines 651-664. -/
def maxValue (ns : List (List Char)) : Option Num :=
  match ns.map cv.number with
  | [] => none
  | v :: vs => some (maxLoop v (v :: vs))

/-- `compareNodeSets`, xpath_object.hpp lines 666-670. -/
def compareNodeSets (op : Num → Num → Bool) (l r : List (List Char)) : Option Bool :=
  match minValue cv l, maxValue cv r with
  | some a, some b => some (op a b)
  | _, _ => none

/-- `compareNodeSetWith`, xpath_object.hpp lines 672-679. -/
def compareNodeSetWith (op : Num → Num → Bool) (l : List (List Char)) (v : Num) : Bool :=
  l.any (fun n => op (cv.number n) v)

/-- `areEqual`, xpath_object.hpp lines 681-705. -/
def areEqual : Value → Value → Bool
  | .nodes l, .nodes r => nodeSetsEqual l r
  | .nodes l, v => nodeSetAndValueEqual cv l v
  | v, .nodes r => nodeSetAndValueEqual cv r v
  | .bool a, v => a == asBool v
  | v, .bool b => asBool v == b
  | .num a, v => a.eq (asNumber cv v)
  | v, .num b => (asNumber cv v).eq b
  | .str a, .str b => decide (a = b)

/-- `areNotEqual`, xpath_object.hpp lines 707-723. -/
def areNotEqual : Value → Value → Bool
  | .nodes l, .nodes r => nodeSetsNotEqual l r
  | .nodes l, v => nodeSetAndValueNotEqual cv l v
  | v, .nodes r => nodeSetAndValueNotEqual cv r v
  | l, r => !(areEqual cv l r)

/-- `isLessThan`, xpath_object.hpp lines 725-741. `std::greater(a, b)` is `b < a`. -/
def isLessThan : Value → Value → Option Bool
  | .nodes l, .nodes r => compareNodeSets cv Num.lt l r
  | .nodes l, v => some (compareNodeSetWith cv Num.lt l (asNumber cv v))
  | v, .nodes r => some (compareNodeSetWith cv (fun a b => Num.lt b a) r (asNumber cv v))
  | l, r => some ((asNumber cv l).lt (asNumber cv r))

/-- `isLessThanEquals`, xpath_object.hpp lines 743-759. -/
def isLessThanEquals : Value → Value → Option Bool
  | .nodes l, .nodes r => compareNodeSets cv Num.le l r
  | .nodes l, v => some (compareNodeSetWith cv Num.le l (asNumber cv v))
  | v, .nodes r => some (compareNodeSetWith cv (fun a b => Num.le b a) r (asNumber cv v))
  | l, r => some ((asNumber cv l).le (asNumber cv r))

/-- `isGreaterThan`, xpath_object.hpp lines 761-765. -/
def isGreaterThan (l r : Value) : Option Bool := isLessThan cv r l

/-- `isGreaterThanEquals`, xpath_object.hpp lines 767-771. -/
def isGreaterThanEquals (l r : Value) : Option Bool := isLessThanEquals cv r l

/-- `OrOperator::evaluateAsBool`, include/XPath/impl/xpath_logical.hpp lines 44-55, of evaluated
operands. -/
def orOp (l r : Value) : Bool := asBool l || asBool r

/-- `AndOperator::evaluateAsBool`, include/XPath/impl/xpath_logical.hpp lines 69-80. -/
def andOp (l r : Value) : Bool := asBool l && asBool r

end Verif.XPath
