import Verif.Model.Price
import Verif.Model.Double
import Verif.Model.Serialization
/-!
# Model of the arithmetic of `esl/economics/price.hpp`, `markets/quote.hpp`, `rate.hpp`, `exchange_rate.hpp` and `interest_rate.hpp`

The `assert`s that prices have the same currency are compiled out (in builds with assertions they end the program). `fl` rounds the results of operations on
`double` (`Model/Double.lean`); numbers that are infinite or not a number only arise in a division by zero, which is a separate case.
-/
namespace Esl.Arith
open Esl.Price
open Esl.Double (trunc)

/-- An `int64_t` result of signed arithmetic: undefined when out of range. -/
def signed (z : Int) (c : Currency) : Outcome P := if InI64 z then .ok ⟨z, c⟩ else .ub

/-- `static_cast<int64_t>` of a `double`: undefined when out of range. -/
def cast (x : Rat) (c : Currency) : Outcome P := signed (trunc x) c

/-- `operator +` and `operator +=` (price.hpp:161-172). -/
def add (a b : P) : Outcome P := signed (a.value + b.value) a.valuation

/-- Unary `operator -` (price.hpp:174-177). -/
def neg (a : P) : Outcome P := signed (-a.value) a.valuation

/-- `operator -` and `operator -=` (price.hpp:179-190). -/
def sub (a b : P) : Outcome P := signed (a.value - b.value) a.valuation

/-- `operator *` and `operator *=` with a price (price.hpp:193-204). -/
def mul (a b : P) : Outcome P := signed (a.value * b.value) a.valuation

/-- `operator /` and `operator /=` with a price (price.hpp:206-217): integer division, which is undefined for zero. -/
def div (a b : P) : Outcome P := if b.value = 0 then .ub else signed (a.value.tdiv b.value) a.valuation

/-- `operator *` with an integer other than `uint64_t` (price.hpp:224-229). -/
def scale (a : P) (n : Int) : Outcome P := signed (a.value * n) a.valuation

/-- `operator +(double)` (price.hpp:249-252). -/
def addDouble (fl : Rat → Rat) (a : P) (x : Rat) : Outcome P := cast (fl (fl a.value + x)) a.valuation

/-- `operator -(double)` (price.hpp:254-257). -/
def subDouble (fl : Rat → Rat) (a : P) (x : Rat) : Outcome P := cast (fl (fl a.value - x)) a.valuation

/-- `operator *(double)` (price.hpp:259-262). -/
def mulDouble (fl : Rat → Rat) (a : P) (x : Rat) : Outcome P := cast (fl (fl a.value * x)) a.valuation

/-- `operator /(double)` (price.hpp:264-267). Dividing by zero gives an infinity or not a number, whose conversion to an integer is undefined. -/
def divDouble (fl : Rat → Rat) (a : P) (x : Rat) : Outcome P := if x = 0 then .ub else cast (fl (fl a.value / x)) a.valuation

/-- `operator double` (price.hpp:241-244). -/
def toDouble (fl : Rat → Rat) (a : P) : Rat := fl (fl a.value / fl a.valuation.denominator)

/-- `approximate` (price.hpp:90-96). -/
def approximate (fl : Rat → Rat) (x : Rat) (c : Currency) : Outcome P := cast (fl (x * fl c.denominator)) c

/-- The constructor from a number and a price (price.hpp:116-120). -/
def similar (fl : Rat → Rat) (x : Rat) (p : P) : Outcome P := approximate fl x p.valuation

/-! ## Quotes -/

/-- The operators of quotes (quote.hpp:246-296): `assert_equal_lot_` (quote.hpp:69-74) throws; a quote always is a price. -/
def quoteOp (op : P → P → Outcome P) (a b : Quote) : Outcome Quote :=
  if a.lot ≠ b.lot then .throws else op a.price b.price >>= fun p => Quote.make p a.lot

/-- `operator +` (quote.hpp:246-257). -/
def quoteAdd (a b : Quote) : Outcome Quote := quoteOp add a b

/-- `operator -` (quote.hpp:259-270). -/
def quoteSub (a b : Quote) : Outcome Quote := quoteOp sub a b

/-- `operator *` (quote.hpp:272-283). -/
def quoteMul (a b : Quote) : Outcome Quote := quoteOp mul a b

/-- `operator /` (quote.hpp:285-296). -/
def quoteDiv (a b : Quote) : Outcome Quote := quoteOp div a b

/-- `operator +(double)`, `-`, `*`, `/` (quote.hpp:300-342): the operator of the price, with the lot unchanged. -/
def quoteDouble (op : P → Rat → Outcome P) (a : Quote) (x : Rat) : Outcome Quote := op a.price x >>= fun p => Quote.make p a.lot

/-- `operator floating_point_t_` (quote.hpp:130-137). -/
def quoteToDouble (fl : Rat → Rat) (a : Quote) : Rat := fl (toDouble fl a.price / a.lot)

/-- The constructor from a number and a quote (quote.hpp:109-115). -/
def quoteSimilar (fl : Rat → Rat) (x : Rat) (q : Quote) : Outcome Quote := similar fl x q.price >>= fun p => Quote.make p q.lot

/-! ## Rates -/

open Esl.Archive (Ratio)

/-- `rate(numerator, denominator)` (rate.hpp:50-54): `boost::rational` brings to lowest terms with a positive denominator and throws for a denominator of zero. The numbers
`-2^63`, whose negation overflows, are left out. -/
def rate (n d : Int) : Outcome Ratio := if n = -(2 ^ 63) ∨ d = -(2 ^ 63) then .ub else Ratio.make n d

/-- `rate(double, precision)` (rate.hpp:69-75), with 64-bit integers. -/
def rateFrom (fl : Rat → Rat) (x : Rat) (precision : Nat) : Outcome Ratio :=
  let n := trunc (fl (x * fl precision))
  if InI64 n then rate n (wrapI64 precision) else .ub

/-- `operator floating_point_t_` (rate.hpp:138-142) with `boost::rational_cast`. -/
def rateToDouble (fl : Rat → Rat) (r : Ratio) : Rat := fl (fl r.num / fl r.den)

/-- `from_consumer_prices` (interest_rate.hpp:89-92). -/
def fromConsumerPrices (start stop : P) (duration : Nat) : Outcome (Ratio × Nat) :=
  sub stop start >>= fun p => rate p.value start.value >>= fun r => .ok (r, duration)

/-- `exchange_rate(quote, base)` (exchange_rate.hpp:42-49): numbers are unsigned. -/
def exchangeRate (quote base : Nat) : Outcome Ratio := Ratio.make quote base

/-- `exchange_rate(double, similar)` (exchange_rate.hpp:73-77): the conversion to `uint64_t` is undefined for numbers that are out of range after truncation. -/
def exchangeSimilar (fl : Rat → Rat) (x : Rat) (r : Ratio) : Outcome Ratio :=
  let n := trunc (fl (x * fl r.den))
  if 0 ≤ n ∧ n < 2 ^ 64 then exchangeRate n.toNat r.den.toNat else .ub

end Esl.Arith
