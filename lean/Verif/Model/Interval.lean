/-!
# Model of `esl/mathematics/interval.hpp`

`interval<number_t_, left_closed_, right_closed_>`; integral number types are modelled by `Int`
(the subtraction `upper - lower` is assumed not to overflow), floating-point types by a linear
order without the integral branch.
-/
namespace Esl.Interval

/-- An interval over the integers (interval.hpp:45-92). -/
structure Iv where
  lower : Int
  upper : Int
  leftClosed : Bool
  rightClosed : Bool
deriving DecidableEq, Repr

/-- `empty()` for integral types (interval.hpp:97-116). -/
def Iv.empty (i : Iv) : Bool :=
  if i.lower > i.upper then true
  else if i.lower = i.upper then i.leftClosed || i.rightClosed
  else if 1 = i.upper - i.lower then i.leftClosed && i.rightClosed
  else false

/-- `singleton()` for integral types (interval.hpp:121-135). -/
def Iv.singleton (i : Iv) : Bool :=
  let sufficient := !i.leftClosed && !i.rightClosed && decide (i.lower = i.upper)
  if sufficient then sufficient
  else
    let asymmetric := decide (1 = i.upper - i.lower) && (i.leftClosed != i.rightClosed)
    let symmetric := decide (2 = i.upper - i.lower) && (i.leftClosed && i.rightClosed)
    decide (i.upper > i.lower) && (asymmetric || symmetric)

/-- `degenerate()` (interval.hpp:140-143). -/
def Iv.degenerate (i : Iv) : Bool := i.empty || i.singleton

/-- `contains(value)` (interval.hpp:149-153). -/
def Iv.contains (i : Iv) (v : Int) : Bool :=
  (decide (i.lower < v) || (i.leftClosed && decide (i.lower = v))) &&
  (decide (i.upper > v) || (i.rightClosed && decide (i.upper = v)))

/-- An interval over a floating-point type, modelled by the rationals (no NaN, no infinities). -/
structure Rv where
  lower : Rat
  upper : Rat
  leftClosed : Bool
  rightClosed : Bool

/-- `empty()` for non-integral types: the integral branch is compiled out (interval.hpp:97-116). -/
def Rv.empty (i : Rv) : Bool :=
  if i.lower > i.upper then true
  else if i.lower = i.upper then i.leftClosed || i.rightClosed
  else false

/-- `singleton()` for floating-point types (interval.hpp:121-127). -/
def Rv.singleton (i : Rv) : Bool :=
  !i.leftClosed && !i.rightClosed && decide (i.lower = i.upper)

/-- `contains(value)` (interval.hpp:149-153). -/
def Rv.contains (i : Rv) (v : Rat) : Bool :=
  (decide (i.lower < v) || (i.leftClosed && decide (i.lower = v))) &&
  (decide (i.upper > v) || (i.rightClosed && decide (i.upper = v)))

end Esl.Interval
