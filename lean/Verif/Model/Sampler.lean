import Verif.Model.Basic
/-!
Models of the parameter samplers, `esl/simulation/parameter/sampler.hpp`.

`uniform_random` and `orthogonal` are not modelled: they do not compile when they are used. Operations on floating-point numbers are operations on rational numbers followed by a
rounding `fl`, as in `Model/Double.lean`, and `NaN` is `none`.
-/
namespace Esl.Sampler

/-- `parameter.hpp:103-114` `interval`. -/
structure Param where
  lower : Rat
  upper : Rat
deriving DecidableEq, Repr

/-- `sampler.hpp:104` (and 149): `lower + (upper - lower) / (d - 1) * s`. Division by zero gives an infinite number or NaN, and multiplying it by `s`, which is zero if `d` is one, gives NaN. Numbers
of the type `unsigned int` are converted exactly. -/
def gridValue (fl : Rat → Rat) (p : Param) (d s : Nat) : Option Rat :=
  if d = 1 then none else some (fl (p.lower + fl (fl (fl (p.upper - p.lower) / ((d : Rat) - 1)) * s)))

/-- `sampler.hpp:103-106`: the values of one parameter. -/
def gridValues (fl : Rat → Rat) (p : Param) (d : Nat) : List (Option Rat) := (List.range d).map (gridValue fl p d)

/-- `sampler.hpp:98-99` `points_`, on 32 bits. -/
def points (ps : List (Param × Nat)) : Nat := ps.foldl (fun n p => n * p.2 % 2 ^ 32) 1

/-- `sampler.hpp:112-119`: the sample with number `s`, from a parameter with the given `prefix_`. The values are in the order in which the map stores the parameters. -/
def sample (fl : Rat → Rat) (s : Nat) : Nat → List (Param × Nat) → Outcome (List (Option Rat))
  | _, [] => .ok []
  | pre, (p, d) :: ps =>
    if pre = 0 ∨ d = 0 then .ub
    else match (gridValues fl p d)[s / pre % d]? with
      | none => .ub
      | some v => sample fl s (pre * d % 2 ^ 32) ps >>= fun vs => .ok (v :: vs)

/-- Runs `f` on each element, and collects the results. -/
def collect {α β : Type} (f : α → Outcome β) : List α → Outcome (List β)
  | [] => .ok []
  | a :: l => f a >>= fun b => collect f l >>= fun bs => .ok (b :: bs)

/-- `sampler.hpp:91-123` `grid`: the parameters with their densities, in the order of the map. -/
def grid (fl : Rat → Rat) (ps : List (Param × Nat)) : Outcome (List (List (Option Rat))) := collect (fun s => sample fl s 1 ps) (List.range (points ps))

/-- `sampler.hpp:158-161`: sample `s`. -/
def latinSample (fl : Rat → Rat) (density s : Nat) : List (Param × List Nat) → Outcome (List (Option Rat))
  | [] => .ok []
  | (p, index) :: ps =>
    match index[s]? with
    | none => .ub
    | some i => match (gridValues fl p density)[i]? with
      | none => .ub
      | some v => latinSample fl density s ps >>= fun vs => .ok (v :: vs)

/-- `sampler.hpp:132-166` `latin_hypercube`, for distinct parameters, each with its shuffled indices `0, ..., density - 1` (`std::shuffle`, line 153). -/
def latin (fl : Rat → Rat) (ps : List (Param × List Nat)) (density : Nat) : Outcome (List (List (Option Rat))) :=
  collect (fun s => latinSample fl density s ps) (List.range density)

/-! ## Improved hypercube sampling -/

/-- `sampler.hpp:219-243`: the loop of `get_best_distance`. Which candidates improve on all before is decided by distances, computed with floating-point numbers; here it is any function. -/
def bestDistance (improves : Nat → Bool) (n : Nat) : Nat := (List.range n).foldl (fun best k => if improves k then k else best) 0

/-- One dimension of the variables of `sampler.hpp:262-358`: `result_[i]`, `options_[i]` and the index stored in `reverse_` for each value. -/
structure Row where
  result : List Nat
  options : List Nat
  reverse : Nat → Option Nat

/-- `sampler.hpp:270-307`: the variables before the loop; `first` is the random number of line 276. -/
def Row.init (samples first : Nat) : Outcome Row :=
  if samples = 0 ∨ first = 0 ∨ samples < first then .ub
  else
    .ok { result := (List.replicate samples 0).set (samples - 1) first
          options := (List.range' 1 samples).set (first - 1) samples
          reverse := fun v => if v = samples then some (first - 1) else if 1 ≤ v ∧ v ≤ samples then some (v - 1) else none }

/-- `sampler.hpp:317-321`: `list`, up to the entries that are read below. -/
def Row.candidates (r : Row) (duplication count : Nat) : List Nat := (List.replicate duplication (r.options.take count)).flatten

/-- `sampler.hpp:323-329`: the entries of `point` for this dimension. `draw k` is the random number below `k`. -/
def drawPoints (draw : Nat → Nat) : Nat → List Nat → Outcome (List Nat)
  | 0, _ => .ok []
  | k + 1, list =>
    match list[draw (k + 1)]?, list[k]? with
    | some p, some last => drawPoints draw k (list.set (draw (k + 1)) last) >>= fun ps => .ok (ps ++ [p])
    | _, _ => .ub

/-- `sampler.hpp:334-352`: takes over the point with number `best`. -/
def Row.choose (r : Row) (count best : Nat) (point : List Nat) : Outcome Row :=
  match point[best]? with
  | none => .ub
  | some v =>
    match r.reverse v with
    | none => .throws
    | some j =>
      match r.options[j]?, r.options[count - 1]? with
      | some w, some last =>
        if w ≠ v then .throws
        else .ok { result := r.result.set (count - 1) v
                   options := r.options.set j last
                   reverse := fun x => if x = last then some j else r.reverse x }
      | _, _ => .ub

/-- The random numbers: of line 276 for each dimension, and of line 326 for each `count`, dimension and `k`; and the decisions of `get_best_distance`. -/
structure Random where
  first : Nat → Nat
  draw : Nat → Nat → Nat → Nat
  improves : Nat → Nat → Bool

/-- `sampler.hpp:313` and `317-321`: whether an entry is written beyond the end of `list`, which has `duplication * samples` entries; sizes and indices are `unsigned int`. -/
def listOverrun (samples duplication count : Nat) : Bool :=
  (List.range duplication).any fun k => (List.range count).any fun j => decide (duplication * samples % 2 ^ 32 ≤ (j + k * count) % 2 ^ 32)

/-- `sampler.hpp:309` and `323-329`: whether an entry is written beyond the end of `point`, which has `dimensions * duplication * samples` entries; sizes and indices are `unsigned int`. -/
def pointOverrun (dimensions samples duplication count : Nat) : Bool :=
  (List.range (count * duplication % 2 ^ 32)).any fun k => (List.range dimensions).any fun i =>
    decide (dimensions * duplication * samples % 2 ^ 32 ≤ (i + k * dimensions) % 2 ^ 32)

/-- `sampler.hpp:311-353`: one iteration of the loop over `count`. Rows, one for each dimension, are kept with the number of their dimension; nothing is written if there are none. -/
def iteration (rnd : Random) (samples duplication count : Nat) (rows : List (Nat × Row)) : Outcome (List (Nat × Row)) :=
  if rows.length ≠ 0 ∧ (listOverrun samples duplication count || pointOverrun rows.length samples duplication count) = true then .ub
  else
    let best := bestDistance (rnd.improves count) (duplication * count % 2 ^ 32)
    collect (fun ir => drawPoints (rnd.draw count ir.1) (count * duplication % 2 ^ 32) (ir.2.candidates duplication count) >>= fun point =>
      ir.2.choose count best point >>= fun r => .ok (ir.1, r)) rows

/-- `sampler.hpp:311`: `count`, ..., 2. -/
def iterations (rnd : Random) (samples duplication : Nat) : Nat → List (Nat × Row) → Outcome (List (Nat × Row))
  | 0, rows => .ok rows
  | 1, rows => .ok rows
  | c + 2, rows => iteration rnd samples duplication (c + 2) rows >>= fun rows => iterations rnd samples duplication (c + 1) rows

/-- `sampler.hpp:262-358` `improved_hypercube_sampling`. -/
def improved (rnd : Random) (dimensions samples duplication : Nat) : Outcome (List (List Nat)) :=
  collect (fun i => Row.init samples (rnd.first i) >>= fun r => .ok (i, r)) (List.range dimensions) >>= fun rows =>
  iterations rnd samples duplication (samples - 1) rows >>= fun rows =>
  collect (fun ir => match ir.2.options[0]? with
    | none => .ub
    | some v => .ok (ir.2.result.set 0 v)) rows

end Esl.Sampler
