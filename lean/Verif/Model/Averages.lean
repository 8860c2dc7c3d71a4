import Verif.Model.Basic
import Mathlib.Analysis.SpecialFunctions.Log.Basic
/-!
Models of `geometric_mean`, `growth_rate` and `enumerate` in `esl/algorithms.hpp`.

For sequences of `double`, the numbers are real numbers and `std::log`, `std::exp` and the operators are the exact functions, other than in `geometricMeanWith`, where they are whatever approximations the platform has. The logarithm of a number that is not positive is not a real number in the program: `geometricMean` and `growthRate` do not describe it, `geometricMeanAny` and `growthRateAny` do, with the infinities and NaN of `double`. For sequences of an integer type, the conversions back to the integer type are modelled, the intermediate `double` is again exact, and the numbers are assumed to fit the type.
-/
namespace Esl.Averages

/-- `algorithms.hpp:171-173`: the loop, with the sum of logarithms and the number of elements so far. -/
noncomputable def meanLoop : List ℝ → ℝ → ℕ → ℝ × ℕ
  | [], s, n => (s, n)
  | x :: r, s, n => meanLoop r (s + Real.log x) (n + 1)

/-- `algorithms.hpp:162-175` `geometric_mean(begin, end)` for `double`. An empty range violates the assertion of line 167; without assertions the program returns a NaN. -/
noncomputable def geometricMean (xs : List ℝ) : Outcome ℝ :=
  match xs with
  | [] => .ub
  | _ :: _ =>
    let (s, n) := meanLoop xs 0 0
    .ok (Real.exp (s / n))

/-- `algorithms.hpp:194-198` `geometric_mean(c)`: the mean of the range from the first to the last element. -/
noncomputable def geometricMeanOf (c : List ℝ) : Outcome ℝ := geometricMean c

/-- `std::log`, `std::exp` and the rounding of the results of `+` and `/`, on some platform. -/
structure Arith where
  log : ℝ → ℝ
  exp : ℝ → ℝ
  fl : ℝ → ℝ

/-- `algorithms.hpp:171-173`: the loop, in the arithmetic of a platform. -/
def meanLoopWith (A : Arith) : List ℝ → ℝ → ℕ → ℝ × ℕ
  | [], s, n => (s, n)
  | x :: r, s, n => meanLoopWith A r (A.fl (s + A.log x)) (n + 1)

/-- `algorithms.hpp:162-175` `geometric_mean(begin, end)` for `double`, in the arithmetic of a platform; the number of elements is exactly a `double`. -/
noncomputable def geometricMeanWith (A : Arith) (xs : List ℝ) : Outcome ℝ :=
  match xs with
  | [] => .ub
  | _ :: _ =>
    let (s, n) := meanLoopWith A xs 0 0
    .ok (A.exp (A.fl (s / n)))

/-- `algorithms.hpp:187-189`: the loop, with `*begin` in `x` and the range from `next_` on in the list. -/
noncomputable def growthLoop : ℝ → List ℝ → ℝ → ℕ → ℝ × ℕ
  | _, [], s, n => (s, n)
  | x, y :: r, s, n => growthLoop y r (s + (Real.log y - Real.log x)) (n + 1)

/-- `algorithms.hpp:177-192` `growth_rate(begin, end)` for `double`. With an empty range `std::next(begin)` (line 185) is undefined. The count starts at one (line 184). -/
noncomputable def growthRate (xs : List ℝ) : Outcome ℝ :=
  match xs with
  | [] => .ub
  | x :: r =>
    let (s, n) := growthLoop x r 0 1
    .ok (Real.exp (s / n) - 1)

/-- A value of type `double`, other than for rounding: a number, an infinity or NaN. Zeros of both signs are one number. -/
inductive Value where
  | num (x : ℝ)
  | negInf
  | posInf
  | nan

/-- `std::log` of a finite number. -/
noncomputable def Value.log (x : ℝ) : Value := if 0 < x then .num (Real.log x) else if x = 0 then .negInf else .nan

/-- `+` of `double`. -/
noncomputable def Value.add : Value → Value → Value
  | .num a, .num b => .num (a + b)
  | .nan, _ => .nan
  | _, .nan => .nan
  | .negInf, .posInf => .nan
  | .posInf, .negInf => .nan
  | .negInf, _ => .negInf
  | .posInf, _ => .posInf
  | .num _, .negInf => .negInf
  | .num _, .posInf => .posInf

/-- The sign of a `double`, exchanged. -/
noncomputable def Value.neg : Value → Value
  | .num a => .num (-a)
  | .negInf => .posInf
  | .posInf => .negInf
  | .nan => .nan

/-- Division of a `double` by a positive count. -/
noncomputable def Value.over (v : Value) (n : ℕ) : Value :=
  match v with
  | .num a => .num (a / n)
  | v => v

/-- `std::exp`. -/
noncomputable def Value.exp : Value → Value
  | .num a => .num (Real.exp a)
  | .negInf => .num 0
  | .posInf => .posInf
  | .nan => .nan

/-- `algorithms.hpp:171-173`: the loop, for any finite numbers. -/
noncomputable def meanLoopAny : List ℝ → Value → ℕ → Value × ℕ
  | [], s, n => (s, n)
  | x :: r, s, n => meanLoopAny r (s.add (.log x)) (n + 1)

/-- `algorithms.hpp:162-175` `geometric_mean(begin, end)` for `double`, for any finite numbers. -/
noncomputable def geometricMeanAny (xs : List ℝ) : Outcome Value :=
  match xs with
  | [] => .ub
  | _ :: _ =>
    let (s, n) := meanLoopAny xs (.num 0) 0
    .ok (s.over n).exp

/-- `algorithms.hpp:187-189`: the loop, for any finite numbers. -/
noncomputable def growthLoopAny : ℝ → List ℝ → Value → ℕ → Value × ℕ
  | _, [], s, n => (s, n)
  | x, y :: r, s, n => growthLoopAny y r (s.add ((Value.log y).add (Value.log x).neg)) (n + 1)

/-- `algorithms.hpp:177-192` `growth_rate(begin, end)` for `double`, for any finite numbers. -/
noncomputable def growthRateAny (xs : List ℝ) : Outcome Value :=
  match xs with
  | [] => .ub
  | x :: r =>
    let (s, n) := growthLoopAny x r (.num 0) 1
    .ok ((s.over n).exp.add (.num (-1)))

/-- `algorithms.hpp:168-173` for an unsigned integer type: `result_log_` has the type of the elements, so each `+=` discards the fraction. -/
noncomputable def meanLoopInteger : List ℕ → ℕ → ℕ → ℕ × ℕ
  | [], s, n => (s, n)
  | x :: r, s, n => meanLoopInteger r ⌊(s : ℝ) + Real.log x⌋₊ (n + 1)

/-- `algorithms.hpp:162-175` for an unsigned integer type: `result_log_ / elements_` is a division of integers, and the result is converted to the integer type (lines 164-165). -/
noncomputable def geometricMeanInteger (xs : List ℕ) : Outcome ℕ :=
  match xs with
  | [] => .ub
  | _ :: _ =>
    let (s, n) := meanLoopInteger xs 0 0
    .ok ⌊Real.exp ((s / n : ℕ) : ℝ)⌋₊

/-- `algorithms.hpp:242-262`: the iterator of `enumerate`; `iter` is the position in the sequence, as the elements that remain. -/
structure Enumerator (α : Type) where
  i : ℕ
  iter : List α

/-- `algorithms.hpp:264-276`: `begin()` of the wrapper. -/
def Enumerator.start (xs : List α) : Enumerator α := ⟨0, xs⟩

/-- `algorithms.hpp:252-256` `operator ++` and 258-261 `operator *`: the pair at the current position and the next iterator, or nothing when the position equals that of `end()` (247-250: the index is not compared). -/
def Enumerator.step (e : Enumerator α) : Option ((ℕ × α) × Enumerator α) :=
  match e.iter with
  | [] => none
  | x :: r => some ((e.i, x), ⟨e.i + 1, r⟩)

/-- A range-based `for` over `enumerate(xs)` with at most `fuel` turns: the pairs the body sees. -/
def Enumerator.visit : ℕ → Enumerator α → List (ℕ × α)
  | 0, _ => []
  | f + 1, e =>
    match e.step with
    | none => []
    | some (p, e') => p :: Enumerator.visit f e'

end Esl.Averages
