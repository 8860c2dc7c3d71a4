import Verif.Model.Basic
/-!
Sampling of parameters whose values are integers, `esl/simulation/parameter/sampler.hpp` with `number_t_` = `int`.
-/
namespace Esl.Grid

/-- The conversion of an `unsigned int` to an `int`. -/
def wrapI32 (z : Int) : Int := (z + 2 ^ 31) % 2 ^ 32 - 2 ^ 31

/-- `sampler.hpp:104` (and 149) for integers: `lower + (upper - lower) / (d - 1) * s`. The difference is an `int`, and then converted to `unsigned int` as `d` and `s` are; the sum is converted back to `int` when it is
stored, `sampler.hpp:105` (and 150). Overflow and division by zero are undefined. -/
def intValue (lower upper : Int) (d s : Nat) : Outcome Int :=
  if upper - lower < -2 ^ 31 ∨ 2 ^ 31 ≤ upper - lower then .ub
  else if d = 1 then .ub
  else .ok (wrapI32 (lower + ((upper - lower) % 2 ^ 32 / ((d : Int) - 1) * s) % 2 ^ 32))

/-- `sampler.hpp:103-106` for integers: the values of one parameter. -/
def intValues (lower upper : Int) (d : Nat) : List (Outcome Int) := (List.range d).map (intValue lower upper d)

end Esl.Grid
