set_option autoImplicit false
/-!
# The numbers of XPath: include/XPath/impl/xpath_object.hpp lines 390-417,
# include/XPath/impl/xpath_arithmetic.hpp

A C++ `double` is NaN, one of the infinities or an exact rational. Simplifications: results of
finite arithmetic are not rounded and the two zeros are one.
-/
namespace Verif.XPath

/-- `double`, as XPath uses it. -/
inductive Num where
  | nan
  | ninf
  | pinf
  | fin (q : Rat)
deriving DecidableEq, Repr

namespace Num

/-- `<` of IEEE 754: false if either side is NaN. -/
def lt : Num → Num → Bool
  | .fin a, .fin b => decide (a < b)
  | .nan, _ => false
  | _, .nan => false
  | .ninf, .ninf => false
  | .ninf, _ => true
  | _, .ninf => false
  | .pinf, _ => false
  | _, .pinf => true

/-- `==` of IEEE 754: false if either side is NaN. -/
def eq : Num → Num → Bool
  | .fin a, .fin b => decide (a = b)
  | .ninf, .ninf => true
  | .pinf, .pinf => true
  | _, _ => false

/-- `<=` of IEEE 754. -/
def le (a b : Num) : Bool := lt a b || eq a b

/-- `+` of IEEE 754, exact. -/
def add : Num → Num → Num
  | .fin a, .fin b => .fin (a + b)
  | .nan, _ => .nan
  | _, .nan => .nan
  | .ninf, .pinf => .nan
  | .pinf, .ninf => .nan
  | .ninf, _ => .ninf
  | _, .ninf => .ninf
  | .pinf, _ => .pinf
  | _, .pinf => .pinf

/-- Unary `-`. -/
def neg : Num → Num
  | .fin a => .fin (-a)
  | .nan => .nan
  | .ninf => .pinf
  | .pinf => .ninf

/-- Binary `-`. -/
def sub (a b : Num) : Num := add a (neg b)

/-- `isNaN`, xpath_object.hpp line 400. -/
def isNaN : Num → Bool
  | .nan => true
  | _ => false

/-- `isInfinite`, xpath_object.hpp lines 401-403. -/
def isInfinite : Num → Bool
  | .ninf => true
  | .pinf => true
  | _ => false

end Num

/-- `roundNumber`, xpath_object.hpp lines 407-417. -/
def roundNumber : Num → Num
  | .fin q =>
    if q = 0 then .fin q
    else if q < 0 ∧ -1/2 < q then .fin 0
    else .fin (q + 1/2).floor
  | v => v

/-- `std::floor`, xpath_function.hpp line 676. -/
def floorFn : Num → Num
  | .fin q => .fin q.floor
  | v => v

/-- `std::ceil`, xpath_function.hpp line 693. -/
def ceilingFn : Num → Num
  | .fin q => .fin q.ceil
  | v => v

/-- The integer part of a rational: what `static_cast` from `double` to an integer type keeps. -/
def truncate (q : Rat) : Int := if q < 0 then q.ceil else q.floor

/-- `static_cast<int>(double)` or `static_cast<long>(double)`: undefined (`none`) for NaN, the
infinities and values whose integer part does not fit into the `bits` bits of the type. -/
def castTo (bits : Nat) : Num → Option Int
  | .fin q =>
    if -(2 ^ (bits - 1) : Int) ≤ truncate q ∧ truncate q < (2 ^ (bits - 1) : Int) then some (truncate q)
    else none
  | _ => none

/-- `NaN_aware_modulus::operator()`, xpath_arithmetic.hpp lines 66-74, with a 64 bit `long`.
`none` is undefined behaviour: the casts, a zero divisor, and the quotient that does not fit. -/
def modulus (lhs rhs : Num) : Option Num :=
  if lhs.isNaN || rhs.isNaN then some .nan
  else
    match castTo 64 lhs, castTo 64 rhs with
    | some a, some b =>
      if b = 0 then none
      else if a = -(2 ^ 63 : Int) ∧ b = -1 then none
      else some (.fin (Int.tmod a b))
    | _, _ => none

end Verif.XPath
