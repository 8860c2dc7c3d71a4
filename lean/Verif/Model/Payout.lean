import Verif.Model.Company
import Verif.Model.Double
/-!
Dividends of companies in the arithmetic of floating point numbers: `economics/company.cpp:59-80` as in `Model/Company.lean`, but every operation of the type `double` is followed by a rounding `fl`.
With `fl := binary64` these are the operations of the program: the numbers lie between `2^-128` and `2^128`, so that nothing overflows or is subnormal.
-/
namespace Esl.Payout
open Esl.Company

/-- `price.hpp:241-244` `operator double`: the units, and the denominator, are converted, then divided. -/
def real (fl : Rat → Rat) (p : Price) : Rat := fl (fl p.value / fl p.valuation.denominator)

/-- `money.hpp:88-94` `price(double)`: the product with the converted denominator, rounded towards zero; undefined if the result does not fit. -/
def cashPrice (fl : Rat → Rat) (tender : Money) (amount : Rat) : Outcome Price :=
  let units := truncate (fl (amount * fl tender.denominator))
  if -2 ^ 63 ≤ units ∧ units < 2 ^ 63 then .ok ⟨units, tender⟩ else .ub

/-- The loop `company.cpp:72-77`: the number of shares is converted. -/
def dividendLoop (fl : Rat → Rat) (tender : Money) (fraction : Rat) : Register Nat → Register (Nat × Price) → Outcome (Register (Nat × Price))
  | [], result => .ok result
  | (s, q) :: m, result =>
    if s.dividend then cashPrice fl tender (fl (fraction * fl q)) >>= fun p => dividendLoop fl tender fraction m (result.insert s (q, p))
    else dividendLoop fl tender fraction m result

/-- `company.cpp:59-80` `compute_dividend_per_share`; for the case without shares see `Company.computeDividend`. -/
def computeDividend (fl : Rat → Rat) (outstanding : Register Nat) (tender : Money) (profit : Price) : Outcome (Register (Nat × Price)) :=
  if real fl profit ≤ 0 then .ok []
  else if totalShares outstanding = 0 then (if outstanding.any fun e => e.1.dividend then .ub else .ok [])
  else dividendLoop fl tender (fl (real fl profit / fl (totalShares outstanding))) outstanding []

end Esl.Payout
