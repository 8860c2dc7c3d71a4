import Mathlib.Analysis.SpecialFunctions.Pow.Real
/-!
Model of `get_best_distance`, `esl/simulation/parameter/sampler.hpp`, with which improved hypercube sampling selects points. Numbers of the type `unsigned int` have 32 bits; those of the type `double` are real numbers, and their arithmetic, `sqrt` and `std::pow` are exact.
-/
namespace Esl.Distance

/-- `std::numeric_limits<double>::max()`. -/
def largest : Nat := (2 ^ 53 - 1) * 2 ^ 971

/-- sampler.hpp:228-229: `(a - b) * (a - b)`, on 32 bits. -/
def squared (a b : Nat) : Nat := ((a + (2 ^ 32 - b)) % 2 ^ 32) * ((a + (2 ^ 32 - b)) % 2 ^ 32) % 2 ^ 32

/-- sampler.hpp:226-230: `distance_`, of a candidate from a point that has been selected: lists of one number for each dimension. -/
def distance (c p : List Nat) : Nat := (List.zipWith squared c p).sum

/-- sampler.hpp:223-234: `min_can`, for the points that have been selected (columns `count, ..., samples - 1` of `result`). -/
def nearest (chosen : List (List Nat)) (c : List Nat) : Nat := chosen.foldl (fun m p => if distance c p < m then distance c p else m) largest

/-- sampler.hpp:217 `adjustment_`. -/
noncomputable def adjustment (dimensions samples : Nat) : ℝ := (samples : ℝ) ^ (1 - 1 / (dimensions : ℝ))

/-- sampler.hpp:235. -/
noncomputable def score (adj : ℝ) (chosen : List (List Nat)) (c : List Nat) : ℝ := |√(nearest chosen c : ℝ) - adj|

/-- sampler.hpp:222-241, the loop over the candidates: the number of the next candidate, `min_all` and `best`. -/
noncomputable def search (adj : ℝ) (chosen : List (List Nat)) : List (List Nat) → Nat → ℝ → Nat → Nat
  | [], _, _, best => best
  | c :: cs, k, m, best =>
    open Classical in
    if score adj chosen c < m then search adj chosen cs (k + 1) (score adj chosen c) k else search adj chosen cs (k + 1) m best

/-- sampler.hpp:210-244 `get_best_distance`: the candidates are the first `duplication * count` points in `point`. -/
noncomputable def bestDistance (dimensions samples : Nat) (chosen candidates : List (List Nat)) : Nat := search (adjustment dimensions samples) chosen candidates 0 largest 0

end Esl.Distance
