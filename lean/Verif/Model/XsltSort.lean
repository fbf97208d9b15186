import Verif.Model.XPathNum
set_option autoImplicit false
/-!
# Sorting in XSLT: include/XSLT/impl/xslt_sort.hpp
-/
namespace Verif.Xslt
open Verif.XPath (Num)

/-- One `xsl:sort` after `set_context` has read its attributes, lines 38-65: `sort_fn_` is chosen by
`number` and `ascending`; `num` and `str` are `grabAsNumber` and `grabAsString` (lines 151-160), the
value of the select expression for a node. Strings are sequences of code units. -/
structure Key (α : Type) where
  number : Bool
  ascending : Bool
  num : α → Num
  str : α → List Char

/-- `std::less` or `std::greater` of numbers. -/
def numCompare (ascending : Bool) (v1 v2 : Num) : Bool := if ascending then v1.lt v2 else v2.lt v1

/-- `nanAscending`, `nanDescending`, lines 101-108. -/
def nanCompare (ascending nan1 nan2 : Bool) : Bool := if ascending then !nan2 else !nan1

/-- `std::less` or `std::greater` of strings: lexicographic by code unit. -/
def strCompare (ascending : Bool) (v1 v2 : List Char) : Bool :=
  if ascending then decide (v1 < v2) else decide (v2 < v1)

/-- `Sort::operator()` with `numberSort` (lines 109-128) and `stringSort` (lines 137-149). The list is
the chain of `sub_sort_` pointers; a sort with no sub sort is the last. -/
def sortLess {α : Type} : List (Key α) → α → α → Bool
  | [], _, _ => false
  | k :: sub, n1, n2 =>
    if k.number then
      let v1 := k.num n1
      let v2 := k.num n2
      let nan1 := v1.isNaN
      let nan2 := v2.isNaN
      if ((nan1 && nan2) || v1.eq v2) && !sub.isEmpty then sortLess sub n1 n2
      else if nan1 || nan2 then nanCompare k.ascending nan1 nan2
      else numCompare k.ascending v1 v2
    else
      let v1 := k.str n1
      let v2 := k.str n2
      if decide (v1 = v2) && !sub.isEmpty then sortLess sub n1 n2
      else strCompare k.ascending v1 v2

/-- Behind everything that is less, for `stableSort`. -/
def insertNode {α : Type} (keys : List (Key α)) (a : α) : List α → List α
  | [] => [a]
  | b :: l => if sortLess keys b a then b :: insertNode keys a l else a :: b :: l

/-- `Sortable::sort`, lines 194-207, with at least one sort key. How `std::stable_sort` goes about it is not fixed; given a
strict weak order, which `sortLess` is, there is only one result, and inserting gives it. -/
def stableSort {α : Type} (keys : List (Key α)) : List α → List α
  | [] => []
  | a :: l => insertNode keys a (stableSort keys l)

end Verif.Xslt
