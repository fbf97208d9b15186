import Verif.Model.XPathNum
import Verif.Model.Text
set_option autoImplicit false
/-!
# The string functions of XPath: include/XPath/impl/xpath_function.hpp lines 345-555

The arguments are already evaluated (`argAsString`, `argAsNumber`). Strings are sequences of code
units of the string type.
-/
namespace Verif.XPath

/-- What a call does: return, throw `std::out_of_range`, or be undefined. -/
inductive Res (α : Type) where
  | val (a : α)
  | outOfRange
  | ub
deriving DecidableEq, Repr

/-- `string_adaptor::find(s, t)`, `std::basic_string::find` (include/Arabica/StringAdaptor.hpp lines
63-64): the first position at which `t` occurs in `s`; `none` is `npos`. -/
def find : List Char → List Char → Option Nat
  | [], t => if t = [] then some 0 else none
  | c :: cs, t => if t.isPrefixOf (c :: cs) then some 0 else (find cs t).map (· + 1)

/-- `string_adaptor::find(s, c)` for one character. -/
def findChar : List Char → Char → Option Nat
  | [], _ => none
  | d :: ds, c => if d = c then some 0 else (findChar ds c).map (· + 1)

/-- `std::basic_string::substr(pos, n)`: throws if `pos` is beyond the end; a negative `int` passed
for `n` is a huge `size_t`, so the rest of the string is taken. A negative `pos` would be a huge
position too. -/
def substr (s : List Char) (pos n : Int) : Res (List Char) :=
  if pos < 0 ∨ (s.length : Int) < pos then .outOfRange
  else if n < 0 then .val (s.drop pos.toNat)
  else .val ((s.drop pos.toNat).take n.toNat)

/-- `ConcatFn::doEvaluate`, lines 355-361. -/
def concatFn : List (List Char) → List Char
  | [] => []
  | a :: as => a ++ concatFn as

/-- The loop of `StartsWithFn::doEvaluate`, lines 382-387: both iterators advance together. -/
def startsLoop : List Char → List Char → Bool
  | _, [] => true
  | [], _ :: _ => false
  | i :: is, s :: ss => if i ≠ s then false else startsLoop is ss

/-- `StartsWithFn::doEvaluate`, lines 373-390. -/
def startsWithFn (value start : List Char) : Bool :=
  if value.length < start.length then false else startsLoop value start

/-- `ContainsFn::doEvaluate`, lines 402-407. -/
def containsFn (value t : List Char) : Bool := (find value t).isSome

/-- `SubstringBeforeFn::doEvaluate`, lines 421-431. -/
def substringBeforeFn (value t : List Char) : Res (List Char) :=
  match find value t with
  | none => .val []
  | some splitAt => substr value 0 splitAt

/-- `SubstringAfterFn::doEvaluate`, lines 444-455. -/
def substringAfterFn (value split : List Char) : Res (List Char) :=
  match find value split with
  | none => .val []
  | some splitAt =>
    if splitAt + split.length ≥ value.length then .val []
    else substr value (splitAt + split.length : Nat) value.length

/-- The end of `SubstringFn::doEvaluate`, lines 476-485, once `startAt` and `endAt` are computed. -/
def substringCut (value : List Char) (startAt endAt : Num) : Res (List Char) :=
  if endAt.lt (.fin 0) || endAt.lt startAt || endAt.isNaN then .val []
  else
    let startAt := if startAt.lt (.fin 0) then .fin 0 else startAt
    let endAt := if endAt.isInfinite || Num.lt (.fin value.length) endAt then .fin value.length else endAt
    match castTo 32 startAt, castTo 32 (endAt.sub startAt) with
    | some p, some n => substr value p n
    | _, _ => .ub

/-- `SubstringFn::doEvaluate`, lines 468-486; `len = none` is the call with two arguments. -/
def substringFn (value : List Char) (start : Num) (len : Option Num) : Res (List Char) :=
  if value = [] then .val []
  else
    let startAt := (roundNumber start).sub (.fin 1)
    substringCut value startAt ((roundNumber (len.getD .pinf)).add startAt)

/-- `StringLengthFn::doEvaluate`, lines 498-503. -/
def stringLengthFn (v : List Char) : Num := .fin v.length

/-- `NormalizeSpaceFn::doEvaluate`, lines 516-522. -/
def normalizeSpaceFn (v : List Char) : List Char := Text.normalizeWhitespace v

/-- The loop of `TranslateFn::doEvaluate`, lines 540-548: `i` reads and `p` writes in the same
string. The argument counts the characters still to be read. -/
def translateLoop (from_ to : List Char) : Nat → List Char → Nat → Nat → List Char × Nat
  | 0, str, _, p => (str, p)
  | n + 1, str, i, p =>
    match str[i]? with
    | none => (str, p)
    | some c =>
      match findChar from_ c with
      | none => translateLoop from_ to n str (i + 1) (p + 1)
      | some r =>
        match to[r]? with
        | none => translateLoop from_ to n str (i + 1) p
        | some d => translateLoop from_ to n (str.set p d) (i + 1) (p + 1)

/-- `TranslateFn::doEvaluate`, lines 534-553. The NUL written at `p` is not part of the result. -/
def translateFn (str from_ to : List Char) : List Char :=
  let (buf, p) := translateLoop from_ to str.length str 0 0
  buf.take p

end Verif.XPath
