import Verif.Model.Basic
import Mathlib.Algebra.Order.Field.Rat

/-!
# The tatonnement: aggregate excess demand and the choice of clearing multipliers

Models `esl/economics/markets/walras/tatonnement.cpp` and `tatonnement.hpp`.

Simplifications, for the whole file:
* `double`s are rational numbers and their arithmetic is exact: no rounding, infinities or NaNs;
* automatic differentiation (Adept) is not modelled, it only provides derivatives to the solvers;
* the GSL solvers are external. An attempt to solve is an arbitrary sequence of iterates: the status the library returns, the point it has moved to and
  the gradient it reports. What the code does with the iterates is modelled in full. GSL's guarantee that `solver->f` is the function at `solver->x` is assumed;
* the configuration with Adept is modelled (the `#if defined(ADEPT_VERSION)` branches).
-/

namespace Esl.Tat

/-- A participant's excess demand: for each property it mentions, once, how much more it wants to hold at the given multipliers of the quotes
(`walras/differentiable_order_message.hpp`, `excess_demand`, returns a `std::map`). -/
abbrev Demand := List (Nat × Rat) → List (Nat × Rat)

/-- `terms_map`: adds to the entry with the key, which is created when absent (tatonnement.cpp:241-247 creates it with the value, 279-280 with zero and then adds:
the same for exact arithmetic). The order of the entries does not matter. -/
def addTerm : List (Nat × Rat) → Nat × Rat → List (Nat × Rat)
  | [], (k, v) => [(k, v)]
  | (j, u) :: m, (k, v) => if j = k then (j, u + v) :: m else (j, u) :: addTerm m (k, v)

/-- The loops over the excess demand functions (tatonnement.cpp:225-247 and 268-282): `keys` are the traded properties in the order of iteration, `x` the multipliers. -/
def terms (fs : List Demand) (keys : List Nat) (x : List Rat) : List (Nat × Rat) :=
  fs.foldl (fun m f => (f (keys.zip x)).foldl addTerm m) []

/-- `demand_supply_mismatch` (tatonnement.cpp:223-256): the sum of squares over all properties that anyone mentions. -/
def mismatch (fs : List Demand) (keys : List Nat) (x : List Rat) : Rat :=
  ((terms fs keys x).map fun e => e.2 * e.2).sum

/-- The loop at tatonnement.cpp:284-288: a traded property that nobody mentions is looked up with an assertion, and dereferences `end()` without it. -/
def collect (m : List (Nat × Rat)) : List Nat → Outcome (List Rat)
  | [] => .ok []
  | k :: ks =>
    match m.lookup k with
    | none => .ub
    | some v => do let r ← collect m ks; .ok (v :: r)

/-- `excess_demand` (tatonnement.cpp:265-290). -/
def excessDemand (fs : List Demand) (keys : List Nat) (x : List Rat) : Outcome (List Rat) :=
  collect (terms fs keys x) keys

/-- The status codes of GSL, as far as they are distinguished: `GSL_SUCCESS`, `GSL_CONTINUE`, and all errors. -/
inductive Status where
  | success
  | continue_
  | failure
  deriving DecidableEq

/-- One iteration of a GSL solver: the returned status, the point, and the gradient there. -/
structure Iter where
  status : Status
  x : List Rat
  gradient : List Rat := []

/-- `excess_demand_model::solver` (tatonnement.hpp:90-95). -/
inductive Method where
  | minimization
  | root
  | derivativeFreeMinimization
  | derivativeFreeRoot
  deriving DecidableEq

/-- The member variables of `excess_demand_model` (tatonnement.hpp:72-118): traded properties in order of iteration, functions and circuit breaker. -/
structure Model where
  keys : List Nat
  fs : List Demand
  breaker : Rat × Rat := (1 / 11, 11)

/-- The default methods (tatonnement.hpp:108-113). -/
def defaultMethods : List Method := [.root, .minimization, .derivativeFreeRoot, .derivativeFreeMinimization]

/-- `std::max(a, b)`. -/
def cmax (a b : Rat) : Rat := if a < b then b else a
/-- `std::min(a, b)`. -/
def cmin (a b : Rat) : Rat := if b < a then b else a

/-- `std::abs` of a `double`. -/
def cabs (a : Rat) : Rat := if a < 0 then -a else a

/-- `uniroot_function_value` (tatonnement.cpp:144-152): `cb_[0]`. -/
def uniValue (M : Model) (x : Rat) : Outcome Rat := do
  let r ← excessDemand M.fs M.keys [x]
  match r with
  | [] => .ub
  | v :: _ => .ok v

/-- The body of the loop at tatonnement.cpp:445-461 up to the break at 456-459: whether the error is within the tolerance, the best quote and its error. -/
def uniStep (M : Model) (j : Iter) (best bestError : Rat) : Outcome (Bool × Rat × Rat) := do
  let xt := j.x.headD 0
  let e ← uniValue M xt
  .ok (decide (cabs e < 1 / 1000000), if cabs e < cabs bestError then (xt, e) else (best, bestError))

/-- The loop at tatonnement.cpp:445-461; `left` is the number of further iterations allowed, `i` the number of those done. Returns the status and the best quote. -/
def uniLoop (M : Model) (it : Nat → Iter) : Nat → Nat → Rat → Rat → Outcome (Status × Rat)
  | 0, i, best, bestError => do
    let r ← uniStep M (it i) best bestError
    .ok (if r.1 then .success else (it i).status, r.2.1)
  | left + 1, i, best, bestError => do
    let r ← uniStep M (it i) best bestError
    if r.1 then .ok (.success, r.2.1)
    else if (it i).status = .continue_ then uniLoop M it left (i + 1) r.2.1 r.2.2
    else .ok ((it i).status, r.2.1)

/-- The univariate root finder (tatonnement.cpp:417-475): the best quote, with the circuit breaker applied. -/
def uniRoot (M : Model) (maxIt : Nat) (it : Nat → Iter) : Outcome (Option (List Rat)) := do
  let e ← uniValue M 1
  let (status, best) ← uniLoop M it (maxIt - 1) 0 1 e
  if status = .success then .ok (some [cmin (cmax best M.breaker.1) M.breaker.2]) else .ok none

/-- `gsl_multiroot_test_residual`: the sum of absolute values against the tolerance 1e-4. -/
def testResidual (f : List Rat) : Status := if (f.map cabs).sum < 1 / 10000 then .success else .continue_

/-- The loop at tatonnement.cpp:500-506: the status and the number of the last iterate; `left` iterations remain. -/
def multiLoop (M : Model) (it : Nat → Iter) : Nat → Nat → List Rat → Outcome (Status × List Rat)
  | 0, _, x => .ok (.continue_, x)
  | left + 1, i, _ => do
    if (it i).status ≠ .success then .ok ((it i).status, (it i).x)
    else
      let f ← excessDemand M.fs M.keys (it i).x
      match testResidual f with
      | .success => .ok (.success, (it i).x)
      | _ => multiLoop M it left (i + 1) (it i).x

/-- The multivariate root finder (tatonnement.cpp:476-524). Setting up the solver evaluates the function at the starting point. -/
def multiRoot (M : Model) (maxIt : Nat) (it : Nat → Iter) : Outcome (Option (List Rat)) := do
  let _ ← excessDemand M.fs M.keys (M.keys.map fun _ => 1)
  let (status, x) ← multiLoop M it maxIt 0 (M.keys.map fun _ => 1)
  if status = .success then .ok (some (x.map fun v => cmax (cmin v M.breaker.2) M.breaker.1)) else .ok none

/-- The loops at tatonnement.cpp:596-614 and 665-687, that differ in the last test: `stop` is `gsl_multimin_test_gradient` or `gsl_multimin_test_size`. -/
def minLoop (M : Model) (it : Nat → Iter) (stop : Iter → Bool) : Nat → Nat → Status × List Rat
  | left, i =>
    if mismatch M.fs M.keys (it i).x ≤ 1 / 10000 then (.success, (it i).x)
    else if (it i).status ≠ .success then ((it i).status, (it i).x)
    else if stop (it i) then (.success, (it i).x)
    else match left with
      | 0 => (.continue_, (it i).x)
      | left + 1 => minLoop M it stop left (i + 1)

/-- `gsl_multimin_test_gradient(gradient, 1e-4)`: the Euclidean norm against the tolerance; here its square. -/
def testGradient (j : Iter) : Bool := (j.gradient.map fun v => v * v).sum < 1 / 100000000

/-- The minimizer with derivatives (tatonnement.cpp:565-628). -/
def minimize (M : Model) (maxIt : Nat) (it : Nat → Iter) : Option (List Rat) :=
  let r := minLoop M it testGradient (maxIt - 1) 0
  if r.1 = .success then some r.2 else none

/-- The minimizer without derivatives (tatonnement.cpp:633-703): `gsl_multimin_test_size` is given the number of properties instead of the size of the simplex. -/
def minimizeFree (M : Model) (maxIt : Nat) (it : Nat → Iter) : Option (List Rat) :=
  let r := minLoop M it (fun _ => decide ((M.keys.length : Rat) < 1 / 10000)) (maxIt - 1) 0
  if r.1 = .success then some r.2 else none

/-- The loop at tatonnement.cpp:734-781. -/
def freeLoop (M : Model) (it : Nat → Iter) : Nat → Nat → List Rat → Rat → Outcome (List Rat)
  | 0, _, best, _ => .ok best
  | left + 1, i, best, residual => do
    if (it i).status ≠ .success then .ok best
    else
      let f ← excessDemand M.fs M.keys (it i).x
      let r := (f.map cabs).sum
      let best' := if r < residual then (it i).x else best
      match testResidual f with
      | .success => .ok best'
      | _ => freeLoop M it left (i + 1) best' (if r < residual then r else residual)

/-- The root finder without derivatives (tatonnement.cpp:706-796): the best residual starts as the sum of the starting multipliers; there is always a result. -/
def freeRoot (M : Model) (maxIt : Nat) (it : Nat → Iter) : Outcome (List Rat) := do
  let _ ← excessDemand M.fs M.keys (M.keys.map fun _ => 1)
  freeLoop M it maxIt 0 (M.keys.map fun _ => 1) ((M.keys.map fun _ => cabs 1).sum)

/-- One pass of the loop over the methods (tatonnement.cpp:396-797). -/
def attempt (M : Model) (maxIt : Nat) (it : Nat → Iter) : Method → Outcome (Option (List Rat))
  | .root => if M.keys.length = 1 then uniRoot M maxIt it else multiRoot M maxIt it
  | .minimization => .ok (minimize M maxIt it)
  | .derivativeFreeMinimization => .ok (minimizeFree M maxIt it)
  | .derivativeFreeRoot => do let r ← freeRoot M maxIt it; .ok (some r)

/-- The loop over the methods; attempt number `n` has its own iterates. -/
def tryMethods (M : Model) (maxIt : Nat) (its : Nat → Nat → Iter) : Nat → List Method → Outcome (Option (List Rat))
  | _, [] => .ok none
  | n, m :: ms => do
    let r ← attempt M maxIt (its n) m
    match r with
    | some x => .ok (some x)
    | none => tryMethods M maxIt its (n + 1) ms

/-- `compute_clearing_quotes` (tatonnement.cpp:387-799): throws without methods. -/
def computeClearingQuotes (M : Model) (ms : List Method) (maxIt : Nat) (its : Nat → Nat → Iter) : Outcome (Option (List (Nat × Rat))) :=
  if ms = [] then .throws
  else do
    let r ← tryMethods M maxIt its 0 ms
    .ok (r.map fun x => M.keys.zip x)

end Esl.Tat
