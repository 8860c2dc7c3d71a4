import Verif.Model.Tatonnement

/-!
# The tatonnement with rounded arithmetic

Models `esl/economics/markets/walras/tatonnement.cpp` as `Verif.Model.Tatonnement` does, but every addition and every square of the code is rounded by `fl`. What a participant's function
returns are the `double`s that are added up, so that rounding within those functions is theirs. Maps are kept in the order of their keys, as the order of additions matters. Infinities
and NaNs are not modelled; the GSL solvers are arbitrary sequences of iterates as before.
-/

namespace Esl.TatFl

open Esl.Tat (Demand Status Iter Method Model collect cmax cmin cabs)

/-- `terms_map`, ordered by key: adds to the entry, which is created with `first` of the value when absent. In `demand_supply_mismatch` (tatonnement.cpp:241-247) that is the value itself, in `excess_demand` (279-280) the value is
added to zero. -/
def addTerm (fl first : Rat → Rat) : List (Nat × Rat) → Nat × Rat → List (Nat × Rat)
  | [], (k, v) => [(k, first v)]
  | (j, u) :: m, (k, v) =>
    if j = k then (j, fl (u + v)) :: m else if k < j then (k, first v) :: (j, u) :: m else (j, u) :: addTerm fl first m (k, v)

/-- The loops over the excess demand functions (tatonnement.cpp:225-247 and 268-282). -/
def terms (fl first : Rat → Rat) (fs : List Demand) (keys : List Nat) (x : List Rat) : List (Nat × Rat) :=
  fs.foldl (fun m f => (f (keys.zip x)).foldl (addTerm fl first) m) []

/-- A loop that adds to a variable that starts at zero (tatonnement.cpp:248-252, and in `gsl_multiroot_test_residual`). -/
def total (fl : Rat → Rat) (l : List Rat) : Rat := l.foldl (fun s v => fl (s + v)) 0

/-- `demand_supply_mismatch` (tatonnement.cpp:223-256). The square is `pow(t, 2)`, taken to be rounded as other operations are. -/
def mismatch (fl : Rat → Rat) (fs : List Demand) (keys : List Nat) (x : List Rat) : Rat :=
  total fl ((terms fl id fs keys x).map fun e => fl (e.2 * e.2))

/-- `excess_demand` (tatonnement.cpp:265-290). -/
def excessDemand (fl : Rat → Rat) (fs : List Demand) (keys : List Nat) (x : List Rat) : Outcome (List Rat) :=
  collect (terms fl (fun v => fl (0 + v)) fs keys x) keys

/-- `uniroot_function_value` (tatonnement.cpp:144-152). -/
def uniValue (fl : Rat → Rat) (M : Model) (x : Rat) : Outcome Rat := do
  let r ← excessDemand fl M.fs M.keys [x]
  match r with
  | [] => .ub
  | v :: _ => .ok v

/-- The body of the loop at tatonnement.cpp:445-461, see `Tat.uniStep`. -/
def uniStep (fl : Rat → Rat) (M : Model) (j : Iter) (best bestError : Rat) : Outcome (Bool × Rat × Rat) := do
  let xt := j.x.headD 0
  let e ← uniValue fl M xt
  .ok (decide (cabs e < 1 / 1000000), if cabs e < cabs bestError then (xt, e) else (best, bestError))

/-- The loop at tatonnement.cpp:445-461, see `Tat.uniLoop`. -/
def uniLoop (fl : Rat → Rat) (M : Model) (it : Nat → Iter) : Nat → Nat → Rat → Rat → Outcome (Status × Rat)
  | 0, i, best, bestError => do
    let r ← uniStep fl M (it i) best bestError
    .ok (if r.1 then .success else (it i).status, r.2.1)
  | left + 1, i, best, bestError => do
    let r ← uniStep fl M (it i) best bestError
    if r.1 then .ok (.success, r.2.1)
    else if (it i).status = .continue_ then uniLoop fl M it left (i + 1) r.2.1 r.2.2
    else .ok ((it i).status, r.2.1)

/-- The univariate root finder (tatonnement.cpp:417-475). -/
def uniRoot (fl : Rat → Rat) (M : Model) (maxIt : Nat) (it : Nat → Iter) : Outcome (Option (List Rat)) := do
  let e ← uniValue fl M 1
  let (status, best) ← uniLoop fl M it (maxIt - 1) 0 1 e
  if status = .success then .ok (some [cmin (cmax best M.breaker.1) M.breaker.2]) else .ok none

/-- `gsl_multiroot_test_residual`: the sum of absolute values against the tolerance 1e-4. -/
def testResidual (fl : Rat → Rat) (f : List Rat) : Status := if total fl (f.map cabs) < 1 / 10000 then .success else .continue_

/-- The loop at tatonnement.cpp:500-506, see `Tat.multiLoop`. -/
def multiLoop (fl : Rat → Rat) (M : Model) (it : Nat → Iter) : Nat → Nat → List Rat → Outcome (Status × List Rat)
  | 0, _, x => .ok (.continue_, x)
  | left + 1, i, _ => do
    if (it i).status ≠ .success then .ok ((it i).status, (it i).x)
    else
      let f ← excessDemand fl M.fs M.keys (it i).x
      match testResidual fl f with
      | .success => .ok (.success, (it i).x)
      | _ => multiLoop fl M it left (i + 1) (it i).x

/-- The multivariate root finder (tatonnement.cpp:476-524). -/
def multiRoot (fl : Rat → Rat) (M : Model) (maxIt : Nat) (it : Nat → Iter) : Outcome (Option (List Rat)) := do
  let _ ← excessDemand fl M.fs M.keys (M.keys.map fun _ => 1)
  let (status, x) ← multiLoop fl M it maxIt 0 (M.keys.map fun _ => 1)
  if status = .success then .ok (some (x.map fun v => cmax (cmin v M.breaker.2) M.breaker.1)) else .ok none

/-- The loops at tatonnement.cpp:596-614 and 665-687, see `Tat.minLoop`. -/
def minLoop (fl : Rat → Rat) (M : Model) (it : Nat → Iter) (stop : Iter → Bool) : Nat → Nat → Status × List Rat
  | left, i =>
    if mismatch fl M.fs M.keys (it i).x ≤ 1 / 10000 then (.success, (it i).x)
    else if (it i).status ≠ .success then ((it i).status, (it i).x)
    else if stop (it i) then (.success, (it i).x)
    else match left with
      | 0 => (.continue_, (it i).x)
      | left + 1 => minLoop fl M it stop left (i + 1)

/-- The minimizer with derivatives (tatonnement.cpp:565-628). The norm of the gradient is computed by GSL, which scales it and is taken to be exact. -/
def minimize (fl : Rat → Rat) (M : Model) (maxIt : Nat) (it : Nat → Iter) : Option (List Rat) :=
  let r := minLoop fl M it Tat.testGradient (maxIt - 1) 0
  if r.1 = .success then some r.2 else none

/-- The minimizer without derivatives (tatonnement.cpp:633-703). -/
def minimizeFree (fl : Rat → Rat) (M : Model) (maxIt : Nat) (it : Nat → Iter) : Option (List Rat) :=
  let r := minLoop fl M it (fun _ => decide ((M.keys.length : Rat) < 1 / 10000)) (maxIt - 1) 0
  if r.1 = .success then some r.2 else none

/-- The loop at tatonnement.cpp:734-781, see `Tat.freeLoop`. -/
def freeLoop (fl : Rat → Rat) (M : Model) (it : Nat → Iter) : Nat → Nat → List Rat → Rat → Outcome (List Rat)
  | 0, _, best, _ => .ok best
  | left + 1, i, best, residual => do
    if (it i).status ≠ .success then .ok best
    else
      let f ← excessDemand fl M.fs M.keys (it i).x
      let r := total fl (f.map cabs)
      let best' := if r < residual then (it i).x else best
      match testResidual fl f with
      | .success => .ok best'
      | _ => freeLoop fl M it left (i + 1) best' (if r < residual then r else residual)

/-- The root finder without derivatives (tatonnement.cpp:706-796). -/
def freeRoot (fl : Rat → Rat) (M : Model) (maxIt : Nat) (it : Nat → Iter) : Outcome (List Rat) := do
  let _ ← excessDemand fl M.fs M.keys (M.keys.map fun _ => 1)
  freeLoop fl M it maxIt 0 (M.keys.map fun _ => 1) (total fl (M.keys.map fun _ => cabs 1))

/-- One pass of the loop over the methods (tatonnement.cpp:396-797). -/
def attempt (fl : Rat → Rat) (M : Model) (maxIt : Nat) (it : Nat → Iter) : Method → Outcome (Option (List Rat))
  | .root => if M.keys.length = 1 then uniRoot fl M maxIt it else multiRoot fl M maxIt it
  | .minimization => .ok (minimize fl M maxIt it)
  | .derivativeFreeMinimization => .ok (minimizeFree fl M maxIt it)
  | .derivativeFreeRoot => do let r ← freeRoot fl M maxIt it; .ok (some r)

/-- The loop over the methods. -/
def tryMethods (fl : Rat → Rat) (M : Model) (maxIt : Nat) (its : Nat → Nat → Iter) : Nat → List Method → Outcome (Option (List Rat))
  | _, [] => .ok none
  | n, m :: ms => do
    let r ← attempt fl M maxIt (its n) m
    match r with
    | some x => .ok (some x)
    | none => tryMethods fl M maxIt its (n + 1) ms

/-- `compute_clearing_quotes` (tatonnement.cpp:387-799). -/
def computeClearingQuotes (fl : Rat → Rat) (M : Model) (ms : List Method) (maxIt : Nat) (its : Nat → Nat → Iter) : Outcome (Option (List (Nat × Rat))) :=
  if ms = [] then .throws
  else do
    let r ← tryMethods fl M maxIt its 0 ms
    .ok (r.map fun x => M.keys.zip x)

end Esl.TatFl
