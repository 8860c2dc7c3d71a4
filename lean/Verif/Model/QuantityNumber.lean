import Verif.Model.Quantity
import Verif.Model.Double
/-!
# Model of quantities together with floating-point numbers (`esl/quantity.hpp`)

A number is a `double`: finite, infinite or not a number. The language is C++17 (CMakeLists.txt:43-44), so that `!=` is not derived from `==`.
-/
namespace Esl.QNum
open Double

/-- A value of type `double`. Simplification: a finite value is any rational; theorems say where it has to be representable. The sign of zero is not modelled. -/
inductive Number
  | finite (x : Rat)
  | infinite (negative : Bool)
  | nan
deriving DecidableEq

/-- `operator double` (quantity.hpp:290-293), and the conversion of `amount` in a comparison with a `double`: rounded to the nearest representable number. -/
def toDouble (a : Nat) : Rat := binary64 a

/-- `operator std::uint64_t` (quantity.hpp:299-302). -/
def toUint64 (a : Nat) : Nat := a

/-- The constructor from `std::uint64_t` (quantity.hpp:58-62) applied to a `double`: the number is truncated; the conversion is undefined if the truncated number is not an unsigned 64-bit one. -/
def ofNumber : Number → Outcome Nat
  | .finite x => if 0 ≤ trunc x ∧ trunc x < 2 ^ 64 then .ok (trunc x).toNat else .ub
  | _ => .ub

/-- `operator == (double)` (quantity.hpp:198-201). -/
def eqNum (a : Nat) : Number → Bool
  | .finite x => decide (toDouble a = x)
  | _ => false

/-- `operator < (double)` (quantity.hpp:216-219). -/
def ltNum (a : Nat) : Number → Bool
  | .finite x => decide (toDouble a < x)
  | .infinite negative => !negative
  | .nan => false

/-- `operator > (double)` (quantity.hpp:226-229). -/
def gtNum (a : Nat) : Number → Bool
  | .finite x => decide (x < toDouble a)
  | .infinite negative => negative
  | .nan => false

/-- `operator <= (double)` (quantity.hpp:236-239). -/
def leNum (a : Nat) (x : Number) : Bool := ltNum a x || eqNum a x

/-- `operator >= (double)` (quantity.hpp:246-249). -/
def geNum (a : Nat) (x : Number) : Bool := gtNum a x || eqNum a x

/-- `operator == (const quantity &)` (quantity.hpp:206-209). -/
def eq (a b : Nat) : Bool := a == b

/-- `operator != (const quantity &)` (quantity.hpp:211-214). -/
def ne (a b : Nat) : Bool := !(eq a b)

/-- `q != x` for a `double` (quantity.hpp:211-214): there is no `operator != (double)`, so that the number is made a quantity first. -/
def neNum (a : Nat) (x : Number) : Outcome Bool :=
  match ofNumber x with
  | .ok b => .ok (ne a b)
  | .throws => .throws
  | .ub => .ub

/-- `q * x` for a `double` (quantity.hpp:123-127): the operand is made a `std::uint64_t` first. -/
def mulNum (a : Nat) (x : Number) : Outcome Nat :=
  match ofNumber x with
  | .ok b => .ok (Quantity.mul a b)
  | .throws => .throws
  | .ub => .ub

/-- `q + x` for a `double` (quantity.hpp:149-153): the number is made a quantity first. -/
def addNum (a : Nat) (x : Number) : Outcome Nat :=
  match ofNumber x with
  | .ok b => .ok (Quantity.add a b)
  | .throws => .throws
  | .ub => .ub

/-- `q /= d` for an unsigned integer (quantity.hpp:115-120): the new amount; division by zero is undefined. -/
def divAssign (a d : Nat) : Outcome Nat := if d = 0 then .ub else .ok (a / d)

/-- `q /= i` for a signed integer (quantity.hpp:115-120): the divisor is converted to `std::uint64_t`. -/
def divAssignInt (a : Nat) (i : Int) : Outcome Nat := divAssign a (i % 2 ^ 64).toNat

/-- `q /= x` for a `double` (quantity.hpp:115-120): the quotient is computed in `double` and truncated. Dividing by zero is infinite or not a number, for which the conversion is undefined. -/
def divAssignNum (a : Nat) : Number → Outcome Nat
  | .finite x => if x = 0 then .ub else ofNumber (.finite (binary64 (toDouble a / x)))
  | .infinite _ => .ok 0
  | .nan => .ub

/-- `q *= n` (quantity.hpp:138-142). -/
def mulAssign (a n : Nat) : Nat := Quantity.mul a n

end Esl.QNum
