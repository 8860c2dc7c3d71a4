import Mathlib.Analysis.SpecialFunctions.Exp
/-!
Model of `esl/mathematics/zero_truncated_poisson_distribution.hpp`. Numbers of the type `double` are real numbers, and their arithmetic and `std::exp` are exact. All members of the class are private: a program can use it only after changing that.
-/
namespace Esl.Poisson

/-- zero_truncated_poisson_distribution.hpp:59-64, the loop: `left` more increments are possible before `k` is the largest number of its type. -/
noncomputable def loop (lambda u : ℝ) : Nat → Nat → ℝ → ℝ → Nat
  | 0, k, _, _ => k
  | left + 1, k, t, s =>
    open Classical in
    if s < u then loop lambda u left (k + 1) (t * (lambda / k)) (s + t * (lambda / k)) else k

/-- zero_truncated_poisson_distribution.hpp:48-67 `operator()`: `u` is the uniform random number of line 57, at least zero and below one; `max` is the largest number of the type. -/
noncomputable def draw (max : Nat) (lambda u : ℝ) : Nat :=
  let t := Real.exp (-lambda) / (1 - Real.exp (-lambda)) * lambda
  loop lambda u (max - 1) 1 t t

end Esl.Poisson
