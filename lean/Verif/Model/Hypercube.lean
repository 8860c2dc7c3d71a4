import Verif.Model.Sampler
import Verif.Model.Exchange

/-!
# Latin hypercubes of any list of parameters

Models `latin_hypercube` of `esl/simulation/parameter/sampler.hpp` with its loop over the parameters, of which the same one may be listed several times. `Model/Sampler.lean` has the result for distinct parameters.
Parameters are shared pointers, here numbers; `param` are the intervals they point to. Maps are lists of entries in the order of insertion; the order of iteration does not matter for what is modelled.
-/

namespace Esl.Hypercube
open Esl.Sampler Esl.Exchange

/-- sampler.hpp:138-139: the entries of `values_` and `indices_` for each parameter. -/
abbrev Tables := List (Nat × (List (Option Rat) × List Nat))

/-- sampler.hpp:142-154: the loop for one parameter. `emplace` does nothing if there is an entry; values and indices are appended; all indices are shuffled. -/
def addParam (fl : Rat → Rat) (param : Nat → Param) (density : Nat) (shuffle : List Nat → List Nat) (t : Tables) (p : Nat) : Tables :=
  let t := emplaceKey p ([], []) t
  let e := (t.lookup p).getD ([], [])
  assignKey p (e.1 ++ gridValues fl (param p) density, shuffle (e.2 ++ List.range density)) t

/-- sampler.hpp:142-154: the loop over all parameters; `shuffle k` is the `k`-th shuffle with the generator. -/
def tables (fl : Rat → Rat) (param : Nat → Param) (density : Nat) : (Nat → List Nat → List Nat) → Tables → List Nat → Tables
  | _, t, [] => t
  | shuffle, t, p :: ps => tables fl param density (fun k => shuffle (k + 1)) (addParam fl param density (shuffle 0) t p) ps

/-- sampler.hpp:158-161: the sample `s`; access beyond the end of a vector is undefined. -/
def sampleAt (s : Nat) : Tables → Outcome (List (Nat × Option Rat))
  | [] => .ok []
  | (p, values, index) :: t =>
    match index[s]? with
    | none => .ub
    | some i => match values[i]? with
      | none => .ub
      | some v => sampleAt s t >>= fun r => .ok ((p, v) :: r)

/-- sampler.hpp:132-166 `latin_hypercube`: each sample has a value for each parameter. -/
def hypercube (fl : Rat → Rat) (param : Nat → Param) (density : Nat) (shuffle : Nat → List Nat → List Nat) (ps : List Nat) : Outcome (List (List (Nat × Option Rat))) :=
  collect (fun s => sampleAt s (tables fl param density shuffle [] ps)) (List.range density)

end Esl.Hypercube
