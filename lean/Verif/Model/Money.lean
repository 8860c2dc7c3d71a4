import Verif.Model.Price
import Verif.Model.Double
/-!
Amounts of money from numbers: `economics/money.hpp:75-95`, with the rounding rule of `algorithms.hpp:149-153`.

Operations on floating-point numbers are operations on rational numbers followed by a rounding `fl`. Infinities and NaNs are left out.
-/
namespace Esl.Money
open Esl.Price Esl.Double

/-- `algorithms.hpp:149-153` `rounding::integer_towards_zero<double, int64_t>`: the fraction is cut off; the conversion is undefined if the result does not fit. -/
def towardsZero (x : Rat) : Outcome Int := if InI64 (trunc x) then .ok (trunc x) else .ub

/-- `algorithms.hpp:149-153` `rounding::integer_towards_zero<double, uint64_t>`. -/
def towardsZeroUnsigned (x : Rat) : Outcome Nat := if 0 ≤ trunc x ∧ trunc x < 2 ^ 64 then .ok (trunc x).toNat else .ub

/-- `money.hpp:76-81` `amount(real, rounding_rule)`: the denominator is converted. -/
def amount (fl : Rat → Rat) (rule : Rat → Outcome Nat) (c : Currency) (real : Rat) : Outcome Nat := rule (fl (real * fl c.denominator))

/-- `money.hpp:83-86` `price(quantity)`: the amount becomes a signed number. -/
def ofQuantity (c : Currency) (q : Nat) : P := ⟨wrapI64 q, c⟩

/-- `money.hpp:88-94` `price(real, rounding_rule)`. -/
def price (fl : Rat → Rat) (rule : Rat → Outcome Int) (c : Currency) (real : Rat) : Outcome P := rule (fl (real * fl c.denominator)) >>= fun v => .ok ⟨v, c⟩

end Esl.Money
