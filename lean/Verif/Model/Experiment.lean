import Verif.Model.Python
/-!
Setting up a simulation in Python: `parametrization.add_constant` and `simple_experiment` (`esl/__init__.py`), and the parameters that a model takes from a parametrization (`simulation/model.cpp`).
-/
namespace Esl.Experiment
open Esl.Python (Parameter Number)

/-- Values that a Python program may give to a parameter. Floating point numbers by their representation; a `numpy` number has a type with or without a sign, or a floating point type. -/
inductive Value where
  | float (bits : Nat)
  | int (z : Int)
  | bool (b : Bool)
  | price (value : Int) (currency : List Nat)
  | numpySigned (z : Int)
  | numpyUnsigned (n : Nat)
  | numpyFloat (bits : Nat)
  | other
deriving DecidableEq, Repr

/-- The constructor of `constant_int64` in Python: a number that does not fit is refused. -/
def makeInt (z : Int) : Outcome Parameter := if -2 ^ 63 ≤ z ∧ z < 2 ^ 63 then .ok (.int64 z) else .throws

/-- The constructor of `constant_uint64` in Python. -/
def makeUint (z : Int) : Outcome Parameter := if 0 ≤ z ∧ z < 2 ^ 64 then .ok (.uint64 z.toNat) else .throws

/-- `esl/__init__.py:115-132`: the parameter that `add_constant` makes. In Python `True` and `False` are integers. -/
def make : Value → Outcome Parameter
  | .float b => .ok (.double b)
  | .int z => makeInt z
  | .bool b => makeInt (if b then 1 else 0)
  | .price v c => .ok (.price v c)
  | .numpySigned z => makeInt z
  | .numpyUnsigned n => makeUint n
  | .numpyFloat b => .ok (.double b)
  | .other => .throws

/-- The parameters by name, `parametrization.hpp:40`; the order of a `std::map` does not matter here. -/
abbrev Parameters := List (String × Parameter)

/-- `values[name] = p`. -/
def assign (ps : Parameters) (name : String) (p : Parameter) : Parameters := (name, p) :: ps.filter fun e => !(e.1 == name)

/-- `esl/__init__.py:107-134` `add_constant`. -/
def addConstant (ps : Parameters) (name : String) (v : Value) : Outcome Parameters := make v >>= fun p => .ok (assign ps name p)

/-- `parametrization.hpp:49-65` without arguments, as Python constructs it: `verbosity` is one, or zero in a release; `threads` is that of `verbosity` (64). Times are `std::uint64_t`. -/
def fresh (release : Bool) : Parameters :=
  let verbosity := if release then 0 else 1
  [("sample", .uint64 0), ("start", .uint64 0), ("end", .uint64 1), ("verbosity", .uint64 verbosity), ("threads", .uint64 verbosity)]

/-- `parametrization.hpp:73-86` `get<std::uint64_t>`: an exception if there is no parameter with this name, or it is of another type. -/
def get (ps : Parameters) (name : String) : Outcome Nat :=
  match ps.lookup name with
  | some (.uint64 n) => .ok n
  | _ => .throws

/-- `python_module_esl.cpp:1488-1512`, `parameters[name]` in Python. -/
def read (ps : Parameters) (name : String) : Outcome Number :=
  match ps.lookup name with
  | some (.double b) => .ok (.float b)
  | some (.int64 z) => .ok (.int z)
  | some (.uint64 n) => .ok (.int n)
  | _ => .throws

structure Model where
  start : Nat
  stop : Nat
  time : Nat
  sample : Nat
  verbosity : Nat
  threads : Nat
deriving DecidableEq, Repr

/-- `simulation/model.cpp:38-53`, the constructor. -/
def construct (ps : Parameters) : Outcome Model :=
  get ps "start" >>= fun start => get ps "end" >>= fun stop => get ps "start" >>= fun time => get ps "sample" >>= fun sample =>
  get ps "verbosity" >>= fun verbosity => get ps "threads" >>= fun threads => .ok ⟨start, stop, time, sample, verbosity, max 1 threads⟩

/-- `esl/__init__.py:155-179` `simple_experiment`: the model, and the seed of `numpy`, which refuses numbers that are not of 32 bits. -/
def simpleExperiment (ps : Parameters) : Outcome (Model × Nat) :=
  construct ps >>= fun m => read ps "sample" >>= fun
    | .int z => if 0 ≤ z ∧ z < 2 ^ 32 then .ok (m, z.toNat) else .throws
    | .float _ => .throws

end Esl.Experiment
