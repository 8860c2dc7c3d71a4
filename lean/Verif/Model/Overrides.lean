import Verif.Model.Basic
/-!
Classes written in Python that derive from the classes of the library, `esl/python_module_esl.cpp`: the wrappers `python_environment` (392-503), `python_model` (1409-1466), `python_agent` (314-351) and `python_company` (590-618), and the
order in which `environment::run`, `environment::step` and `model::step` call their virtual functions. What agents do is left open: it is described by the number of rounds of each step and by the time of the next one.
-/
namespace Esl.Overrides

/-- The virtual functions: of a model, of an environment, of an agent, and `act` of a company. -/
inductive Method where
  | initialize | modelStep | terminate
  | run | envStep | activate | deactivate | beforeStep | afterStep | afterRun | sendMessages | activateAgent | deactivateAgent
  | act | describe
  | companyAct
deriving DecidableEq, Repr

/-- What a Python method returns. -/
inductive Returned where
  | none
  | number (n : Nat)
  | text
  | other
deriving DecidableEq, Repr

/-- A statement of a Python method: something of its own, a call of the method of the base class, `super().m(argument)`, or of a method of the same object, `self.m(argument)`. -/
inductive Statement where
  | own (n : Nat)
  | inherited
  | call (m : Method) (argument : Nat)
deriving DecidableEq, Repr

/-- The body of a Python method, for a given argument. -/
structure Body where
  statements : List Statement
  result : Returned
deriving DecidableEq, Repr

/-- What the Python classes of a simulation define. The argument is the start of the step for `model.step` and `agent.act`, an identity for `activate_agent` and `deactivate_agent`, and not used otherwise. -/
abbrev Classes := Method → Option (Nat → Body)

/-- What happens: a Python method is entered, does something of its own, or a function of the library is entered. -/
inductive Event where
  | python (m : Method) (argument : Nat)
  | own (n : Nat)
  | library (m : Method) (argument : Nat)
deriving DecidableEq, Repr

/-- The result of a call: it returns, it raises an exception, or it has not returned after the given number of steps of the simulation. -/
inductive Result (α : Type) where
  | ok (a : α)
  | throws
  | running
deriving DecidableEq, Repr

/-- Sequencing. -/
def Result.bind {α β : Type} : Result α → (α → Result β) → Result β
  | .ok a, f => f a
  | .throws, _ => .throws
  | .running, _ => .running

/-- What happened, and the number that is returned. -/
abbrev Trace := List Event × Nat

/-- One call after the other: the number is that of the second. -/
def Result.andThen (x y : Result Trace) : Result Trace := x.bind fun a => y.bind fun b => .ok (a.1 ++ b.1, b.2)

/-- A simulation: its start and end, and what its agents do, as the number of rounds after the first (model.cpp:105-249) of a step and the time of the next event. -/
structure Simulation where
  start : Nat
  stop : Nat
  rounds : Nat → Nat
  next : Nat → Nat

/-- The functions for which a wrapper looks for a method of the Python class with `get_override`: python_module_esl.cpp:326-340, 342-350, 410-481, 493-502, 1424-1465. `python_environment` does not override `activate_agent` and `deactivate_agent`:
483-491 are new functions, `activate_agent_python` and `deactivate_agent_python`, which are not bound. `python_company` (590-618) overrides only `upcoming_dividend` (C145). -/
def wrapped : Method → Bool
  | .activateAgent | .deactivateAgent | .companyAct => false
  | _ => true

/-- `get_override(name)`: there is a method of that name in the Python class of the object. -/
def overridden (c : Classes) (m : Method) : Bool := wrapped m && (c m).isSome

/-- The value that the wrapper makes of the result: `None` is the end of the step for times (333-335, 1451-1453), numbers are extracted as 64 bit numbers (337, 437, 448, 498, 1454), text as text (347); the result of other methods is not used. -/
def convert (s : Simulation) (m : Method) (r : Returned) : Result Nat :=
  match m, r with
  | .modelStep, .none | .act, .none => .ok s.stop
  | .modelStep, .number n | .act, .number n | .activate, .number n | .deactivate, .number n | .sendMessages, .number n => if n < 2 ^ 64 then .ok n else .throws
  | .modelStep, _ | .act, _ | .activate, _ | .deactivate, _ | .sendMessages, _ => .throws
  | .describe, .text => .ok 0
  | .describe, _ => .throws
  | _, _ => .ok 0

/-- A virtual call: the Python method, or else the function of the library. `python` calls a Python method. -/
def dispatch (c : Classes) (python library : Method → Nat → Result Trace) (m : Method) (a : Nat) : Result Trace := if overridden c m then python m a else library m a

/-- Functions of the library that call none of the others: environment.cpp:60-82 `activate` and `deactivate` (when there are no new or deleted agents; see C74 and C138), 87-95 `before_step` and `after_step`, 97-129 `after_run`, which returns at once, 134-168
`send_messages`, 173-184, model.cpp:54-57 and 260-263 `initialize` and `terminate`, agent.cpp:52-57 `act`, which returns the end of the step. The number of messages is left out. -/
def leaf (s : Simulation) (m : Method) (a : Nat) : Result Trace := .ok ([.library m a], if m = .act then s.stop else 0)

/-- The same call, again and again. -/
def again (f : Result Trace) : Nat → Result Trace
  | 0 => .ok ([], 0)
  | n + 1 => f.andThen (again f n)

/-- model.cpp:90-255 `model::step`: refuses an empty interval (92-94), `before_step` (97), in each round `send_messages` (240), `after_step` (251), and the time of the next event. -/
def stepLibrary (s : Simulation) (c : Classes) (python : Method → Nat → Result Trace) (m : Method) (a : Nat) : Result Trace :=
  if m = .modelStep then
    if s.stop ≤ a then .throws
    else
      ((Result.ok ([.library .modelStep a], 0)).andThen
        ((dispatch c python (leaf s) .beforeStep 0).andThen
          ((again (dispatch c python (leaf s) .sendMessages 0) (s.rounds a + 1)).andThen (dispatch c python (leaf s) .afterStep 0)))).bind
        fun t => .ok (t.1, s.next a)
  else leaf s m a

/-- environment.cpp:221-245: the loop of `run`, with at most `k` steps. -/
def runLoop (s : Simulation) (c : Classes) (python : Method → Nat → Result Trace) : (k : Nat) → (lower : Nat) → Result Trace
  | 0, _ => .running
  | k + 1, lower =>
    ((dispatch c python (stepLibrary s c python) .activate 0).andThen
      ((dispatch c python (stepLibrary s c python) .deactivate 0).andThen (dispatch c python (stepLibrary s c python) .modelStep lower))).bind fun t =>
        if t.2 < s.stop then (Result.ok t).andThen (runLoop s c python k t.2) else .ok t

/-- The functions of the library. environment.cpp:188-198 `step`; 202-270 `run`: `initialize` (205), the loop, `terminate` (260), `after_run` (263). -/
def library (s : Simulation) (c : Classes) (k : Nat) (python : Method → Nat → Result Trace) (m : Method) (a : Nat) : Result Trace :=
  let call := dispatch c python (stepLibrary s c python)
  if m = .run then
    ((Result.ok ([.library .run a], 0)).andThen ((call .initialize 0).andThen ((runLoop s c python k s.start).andThen ((call .terminate 0).andThen (call .afterRun 0))))).bind fun t => .ok (t.1, 0)
  else if m = .envStep then
    ((Result.ok ([.library .envStep a], 0)).andThen ((if s.start < s.stop then call .modelStep s.start else .ok ([], 0)).andThen ((call .activate 0).andThen (call .deactivate 0)))).bind fun t => .ok (t.1, 0)
  else stepLibrary s c python m a

/-- The statements of a Python method `m`. `super().m(...)` is a call of the function that is bound to the name (1612-1613, 1651-1660, 3068-3070): a pointer to a virtual member function, so that the call is a virtual call on the same object.
`company` has no function `act` in Python (1762-1777). -/
def execute (s : Simulation) (c : Classes) (k : Nat) (python : Method → Nat → Result Trace) (m : Method) (a : Nat) : List Statement → Result (List Event)
  | [] => .ok []
  | .own n :: l => (execute s c k python m a l).bind fun t => .ok (.own n :: t)
  | .inherited :: l =>
    (if m = .companyAct then .throws else dispatch c python (library s c k python) m a).bind fun x => (execute s c k python m a l).bind fun t => .ok (x.1 ++ t)
  | .call m' a' :: l =>
    (if (c m').isSome then python m' a' else library s c k python m' a').bind fun x => (execute s c k python m a l).bind fun t => .ok (x.1 ++ t)

/-- A call of a Python method. Python raises `RecursionError` when more than `depth` calls are nested. -/
def python (s : Simulation) (c : Classes) (k : Nat) : (depth : Nat) → Method → Nat → Result Trace
  | 0, _, _ => .throws
  | d + 1, m, a =>
    match c m with
    | none => .throws
    | some b => (execute s c k (python s c k d) m a (b a).statements).bind fun t => (convert s m (b a).result).bind fun v => .ok (.python m a :: t, v)

/-- A call of a function by the library, or through the name that is bound in Python. -/
def invoke (s : Simulation) (c : Classes) (k depth : Nat) (m : Method) (a : Nat) : Result Trace := dispatch c (python s c k depth) (library s c k (python s c k depth)) m a

end Esl.Overrides
