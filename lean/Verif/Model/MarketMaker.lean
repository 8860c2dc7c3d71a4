import Verif.Model.Basic
import Verif.Model.Double
import Mathlib.Algebra.Order.Floor.Ring
import Mathlib.Data.Rat.Floor
import Mathlib.Analysis.SpecialFunctions.Log.Basic
/-!
A model of `esl/economics/markets/order_book/avellaneda_stoikov.hpp`, with real numbers in place of floating-point numbers, and one in which every operation is rounded. An operation whose floating-point result is infinite or NaN is undefined when it is
converted to an integer, which all results here are.
-/
namespace Esl.Maker

/-- `avellaneda_stoikov.hpp:68` `reservation_`; the price is `mid / denominator`. -/
noncomputable def reservation (mid : Int) (denominator : Nat) (long short : Nat) (theta sigma gamma : ℝ) : ℝ :=
  (mid : ℝ) / denominator - ((long : ℝ) - short) * gamma * sigma * sigma * (1 - theta)

/-- `avellaneda_stoikov.hpp:69` `spread_`. -/
noncomputable def spread (theta sigma gamma k : ℝ) : ℝ := gamma * (sigma * sigma) * (1 - theta) + 2 / gamma * Real.log (1 + gamma / k)

open Classical in
/-- `avellaneda_stoikov.hpp:57-82` `avellaneda_stoikov`: the values of the bid and the ask. Division by zero and the logarithm of a number that is not positive give infinite values or NaN. -/
noncomputable def quotes (mid : Int) (denominator : Nat) (long short : Nat) (theta sigma gamma k : ℝ) : Outcome (Int × Int) :=
  if denominator = 0 ∨ gamma = 0 ∨ k = 0 ∨ 1 + gamma / k ≤ 0 then .ub
  else
  let r := reservation mid denominator long short theta sigma gamma
  let s := spread theta sigma gamma k
  let bid := ⌊(r - s / 2) * denominator⌋
  let ask := ⌈(r + s / 2) * denominator⌉
  if ¬InI64 bid ∨ ¬InI64 ask then .ub
  else if bid = ask then (if InI64 (ask + 1) ∧ InI64 (bid - 1) then .ok (bid - 1, ask + 1) else .ub)
  else .ok (bid, ask)

/-- `avellaneda_stoikov.hpp:68` `reservation_`, where `fl` rounds the result of each operation on `double`; `double(mid)` is price.hpp:241-244. -/
def reservationDouble (fl : Rat → Rat) (mid : Int) (denominator : Nat) (long short : Nat) (theta sigma gamma : Rat) : Rat :=
  fl (fl (fl mid / fl denominator) - fl (fl (fl (fl (fl (fl long - fl short) * gamma) * sigma) * sigma) * fl (1 - theta)))

/-- `avellaneda_stoikov.hpp:69` `spread_`; `log` is the function of the standard library. -/
def spreadDouble (fl : Rat → Rat) (log : Rat → Rat) (theta sigma gamma k : Rat) : Rat :=
  fl (fl (fl (gamma * fl (sigma * sigma)) * fl (1 - theta)) + fl (fl (2 / gamma) * log (fl (1 + fl (gamma / k)))))

/-- `avellaneda_stoikov.hpp:57-82` `avellaneda_stoikov`, where every operation on `double` is rounded. Simplification: the exponent is not bounded, so that nothing is infinite but what is divided by zero. -/
def quotesDouble (fl : Rat → Rat) (log : Rat → Rat) (mid : Int) (denominator : Nat) (long short : Nat) (theta sigma gamma k : Rat) : Outcome (Int × Int) :=
  if denominator = 0 ∨ gamma = 0 ∨ k = 0 ∨ fl (1 + fl (gamma / k)) ≤ 0 then .ub
  else
  let r := reservationDouble fl mid denominator long short theta sigma gamma
  let s := spreadDouble fl log theta sigma gamma k
  let bid := ⌊fl (fl (r - fl (s / 2)) * fl denominator)⌋
  let ask := ⌈fl (fl (r + fl (s / 2)) * fl denominator)⌉
  if ¬InI64 bid ∨ ¬InI64 ask then .ub
  else if bid = ask then (if InI64 (ask + 1) ∧ InI64 (bid - 1) then .ok (bid - 1, ask + 1) else .ub)
  else .ok (bid, ask)

end Esl.Maker
