import Verif.Model.Tatonnement
import Mathlib.Algebra.MvPolynomial.PDeriv
/-!
How `esl/economics/markets/walras/tatonnement.cpp` uses the libraries Adept and GSL: the derivatives that it passes from one to the other, and the memory and the error handler of GSL.

What is assumed about the libraries: Adept computes exact derivatives; `adept::Stack::jacobian(p)` stores the derivative of the dependent variable `i` by the independent variable `j` at `p[j * m + i]`, where `m` is the number of dependent variables (Adept stores matrices by columns);
the element in row `i` and column `j` of a `gsl_matrix` with `n` columns is `data[i * n + j]` (GSL stores them by rows). Excess demand functions are polynomials with rational coefficients.
-/
namespace Esl.Solvers
open MvPolynomial

/-! ## Derivatives -/

/-- The total excess demand of each of `n` properties, as a function of their multipliers. -/
abbrev Demands (n : Nat) := Fin n → MvPolynomial (Fin n) ℚ

/-- `adept::Stack::jacobian`: column by column, one for each independent variable. -/
noncomputable def adeptJacobian {n : Nat} (E : Demands n) (x : Fin n → ℚ) : List ℚ :=
  (List.finRange n).flatMap fun j => (List.finRange n).map fun i => eval x (pderiv j (E i))

/-- tatonnement.cpp:359-381 `multiroot_function_value_and_gradient`, the `jacobian`: the independent variables are the multipliers (372), the dependent ones the excess demands (373), both in the order of iteration of `quotes`. -/
noncomputable def functionJacobian {n : Nat} (E : Demands n) (x : Fin n → ℚ) : List ℚ := adeptJacobian E x

/-- tatonnement.cpp:101-107 `multiroot_function_jacobian_cb` and 127-142 `multiroot_function_value_and_gradient_cb`: what is in `df->data` afterwards. -/
noncomputable def jacobianCallback {n : Nat} (E : Demands n) (x : Fin n → ℚ) : List ℚ := functionJacobian E x

/-- `gsl_matrix_get(df, i, j)`. -/
def gslMatrix {n : Nat} (data : List ℚ) (i j : Fin n) : ℚ := (data[i.val * n + j.val]?).getD 0

/-- tatonnement.cpp:154-163 `uniroot_function_value_and_gradient` and 165-181 `uniroot_function_jacobian_cb`: the derivative for the solver in one variable. All derivatives are finite here. -/
noncomputable def uniDerivative (E : Demands 1) (x : Fin 1 → ℚ) : ℚ := (functionJacobian E x).headD 0

/-- tatonnement.cpp:336-351 `minimizer_function_value_and_gradient`: the gradient of the sum of squares of the excess demands (223-256), if all orders concern traded properties only. -/
noncomputable def minimizerGradient {n : Nat} (E : Demands n) (x : Fin n → ℚ) : List ℚ := (List.finRange n).map fun j => eval x (pderiv j (∑ i, E i ^ 2))

/-! ## Memory and error handler -/

/-- What a solution method does with the objects of GSL: the vector of multipliers, the solver and the vector of step sizes, and with the error handler. -/
inductive Object where
  | variables | solver | steps
deriving DecidableEq, Repr

inductive Event where
  /-- `gsl_vector_alloc`, which does not initialise, or the allocation of a solver. -/
  | allocate (o : Object)
  /-- All elements are written, or the solver is set up. -/
  | write (o : Object)
  | read (o : Object)
  | free (o : Object)
  /-- `gsl_set_error_handler(&handler)`, the previous handler is kept in a local variable. -/
  | silence
  /-- `gsl_set_error_handler(old_handler_)`. -/
  | restore
deriving DecidableEq, Repr

/-- The objects that exist, and whether they have been written; the error handler, a number, where 0 is the handler that ignores all errors (tatonnement.cpp:192-198); and the handler in the local variable. -/
structure State where
  objects : List (Object × Bool)
  handler : Nat
  old : Nat := 0
deriving DecidableEq, Repr

/-- One event: reading an object that does not exist or that has not been written, writing or freeing one that does not exist are undefined behaviour. -/
def step (s : State) : Event → Outcome State
  | .allocate o => .ok { s with objects := (o, false) :: s.objects }
  | .write o => if s.objects.any fun e => e.1 == o then .ok { s with objects := s.objects.map fun e => if e.1 = o then (o, true) else e } else .ub
  | .read o => if s.objects.any fun e => e.1 == o && e.2 then .ok s else .ub
  | .free o => if s.objects.any fun e => e.1 == o then .ok { s with objects := s.objects.filter fun e => e.1 != o } else .ub
  | .silence => .ok { s with handler := 0, old := s.handler }
  | .restore => .ok { s with handler := s.old }

/-- Several events. -/
def steps (s : State) : List Event → Outcome State
  | [] => .ok s
  | e :: l => step s e >>= fun s' => steps s' l

/-- What one method does, for at least one property; `one`: there is one; `success`: it reports a result. tatonnement.cpp:417-475 (one property), 488-523 (several), 584-628 `minimization`, 635-703 `derivative_free_minimization`, 719-792 `derivative_free_root`. Setting up a solver
(497, 592, 659, 729) reads the vectors it is given; iterations and results (448-472, 500-517, 596-621, 665-694, 734-789) read the solver. -/
def effects (one success : Bool) : Tat.Method → List Event
  | .root =>
    if one then [.silence, .allocate .solver, .write .solver, .read .solver, .free .solver] ++ (if success then [] else [.restore])
    else [.allocate .variables, .write .variables, .allocate .solver, .read .variables, .write .solver, .read .solver, .free .solver, .free .variables]
  | .minimization => [.allocate .variables, .write .variables, .allocate .solver, .read .variables, .write .solver, .read .solver, .free .solver, .free .variables]
  | .derivativeFreeMinimization =>
    [.allocate .steps, .allocate .variables, .write .variables, .allocate .solver, .read .variables, .read .steps, .write .solver, .read .solver, .free .solver, .free .variables, .free .steps]
  | .derivativeFreeRoot => [.allocate .variables, .write .variables, .allocate .solver, .read .variables, .write .solver, .read .solver, .free .solver, .free .variables]

/-- The loop over the methods (tatonnement.cpp:396-797), as far as memory and the error handler are concerned: method after method, until one reports a result. -/
def loop (M : Tat.Model) (maxIt : Nat) (its : Nat → Nat → Tat.Iter) (s : State) : Nat → List Tat.Method → Outcome State
  | _, [] => .ok s
  | n, m :: ms =>
    Tat.attempt M maxIt (its n) m >>= fun r =>
    steps s (effects (M.keys.length == 1) r.isSome m) >>= fun s' =>
    if r.isSome then .ok s' else loop M maxIt its s' (n + 1) ms

/-- A call of `compute_clearing_quotes` (tatonnement.cpp:387-799), as far as memory and the error handler are concerned. Without methods it throws. -/
def call (s : State) (M : Tat.Model) (ms : List Tat.Method) (maxIt : Nat) (its : Nat → Nat → Tat.Iter) : Outcome State := if ms = [] then .throws else loop M maxIt its s 0 ms

end Esl.Solvers
