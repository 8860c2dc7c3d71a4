import Verif.Model.Scheduler
import Verif.Model.Quantity
/-!
Model of the worker threads in `esl/simulation/model.cpp:213-238` and of the number of threads
(`model.cpp:38-52`, `esl/simulation/parameter/parametrization.hpp`).
-/
namespace Esl.Threads
open Esl.Comm Esl.Sched

/-- `model.cpp:219-233`: hand out the acting agents to tasks of the given sizes, by advancing one iterator. Advancing beyond the
end is undefined behaviour. -/
def splitTasks {α : Type} : List Nat → List α → Outcome (List (List α))
  | [], _ => .ok []
  | n :: ns, l => if l.length < n then .ub else splitTasks ns (l.drop n) >>= fun r => .ok (l.take n :: r)

/-- `model.cpp:220`: `quantity(acting_agents_.size()) / threads`. -/
def tasks {α : Type} (threads : Nat) (acting : List α) : Outcome (List (List α)) :=
  Quantity.div acting.length threads >>= fun sizes => splitTasks sizes acting

/-- The atomic parts of `job_` (`model.cpp:114-190`) as far as the shared data is concerned: `compute` processes messages and acts (137-139; touches only the agent and local
variables), `commit` is the block that holds the mutex (143-156), `prune` drops the messages that were due from the
agent's inbox (169-178). -/
inductive Op where
  | compute (i : Nat)
  | commit (i : Nat)
  | prune (i : Nat)
deriving DecidableEq, Repr

/-- The agent that an operation works on. -/
def Op.agent : Op → Nat
  | .compute i => i
  | .commit i => i
  | .prune i => i

/-- The job of one agent. -/
def jobOps (i : Nat) : List Op := [.compute i, .commit i, .prune i]

/-- The shared state of the threads, and for every agent the local variables of its job (`message_time_`, `act_time_`, as an event). -/
structure State (σ : Type) where
  agents : List (Agent σ)
  wake : Wake
  first : Nat
  loc : Nat → Option Event

/-- One atomic operation. An exception in a thread ends the program (`std::terminate`). Operations on an agent that does not exist,
or `commit` without `compute`, do not occur (see `C23_independence`) and are undefined here. -/
def exec {σ : Type} (P : Program σ) (end_ : Nat) (step : Step) (n : Nat) (op : Op) (s : State σ) : Outcome (State σ) :=
  match op with
  | .compute i =>
    match s.agents.find? fun x => x.id == i with
    | none => .ub
    | some a =>
      let (a', e) := job P step n a
      .ok { s with agents := putAgent s.agents { a' with inbox := a.inbox },
                   loc := fun j => if j = i then some e else s.loc j }
  | .commit i =>
    match s.loc i with
    | none => .ub
    | some e =>
      if e.requested < step.lower then .throws
      else
        let wake := setWake s.wake i e.requested
        .ok { s with wake := wake, first := determineNext end_ wake }
  | .prune i =>
    match s.agents.find? fun x => x.id == i with
    | none => .ub
    | some a => .ok { s with agents := putAgent s.agents { a with inbox := a.inbox.filter fun e => decide (e.1 > step.lower) } }

/-- A schedule of operations. -/
def execAll {σ : Type} (P : Program σ) (end_ : Nat) (step : Step) (n : Nat) : List Op → State σ → Outcome (State σ)
  | [], s => .ok s
  | op :: ops, s => exec P end_ step n op s >>= execAll P end_ step n ops

/-- All interleavings of the operations of several threads, each thread in its own order (`std::thread`, joined at the end,
`model.cpp:227-237`). -/
inductive Interleaves : List (List Op) → List Op → Prop where
  | done (ts : List (List Op)) (h : ∀ t ∈ ts, t = []) : Interleaves ts []
  | step (ts1 ts2 : List (List Op)) (t : List Op) (op : Op) (tr : List Op) :
      Interleaves (ts1 ++ t :: ts2) tr → Interleaves (ts1 ++ (op :: t) :: ts2) (op :: tr)

/-- `model.cpp:227-232`: a thread runs the jobs of its agents one after the other. -/
def threadOps (is : List Nat) : List Op := is.flatMap jobOps

/-- `model.cpp:213-238`: all jobs of a round with the given number of threads. This is a relation because the scheduling of the threads is not
determined. With at most one thread the jobs run in the main thread. -/
def JobsWith {σ : Type} (threads : Nat) (P : Program σ) (end_ : Nat) (step : Step) (n : Nat) (acting : List Nat)
    (s : State σ) (o : Outcome (State σ)) : Prop :=
  if threads ≤ 1 then o = execAll P end_ step n (threadOps acting) s
  else
    match tasks threads acting with
    | .ok parts => ∃ tr, Interleaves (parts.map threadOps) tr ∧ o = execAll P end_ step n tr s
    | .throws => o = .throws
    | .ub => o = .ub

/-- What is left of the model between rounds: agents, wake-up times and the next event. -/
structure Shared (σ : Type) where
  agents : List (Agent σ)
  wake : Wake
  first : Nat

/-- `model.cpp:105-249`: one round with the given number of threads; compare `Sched.round`. -/
def RoundWith {σ : Type} (threads : Nat) (P : Program σ) (end_ : Nat) (step : Step) (n : Nat) (w : Shared σ)
    (o : Outcome (Shared σ)) : Prop :=
  let wake := emplaceMissing step.lower (w.agents.map (·.id)) w.wake
  let act := w.agents.filter fun a => findWake wake a.id == some step.lower
  ∃ oj, JobsWith threads P end_ step n (act.map (·.id)) ⟨w.agents, wake, determineNext end_ w.wake, fun _ => none⟩ oj ∧
    o = oj >>= fun w1 =>
      sendMessages (w1.agents, w1.wake) >>= fun (s, sent) =>
        .ok ⟨s.1, s.2, if 0 < sent then determineNext end_ s.2 else w1.first⟩

/-- `model.cpp:105-249`: the loop of `model::step` with the given number of threads; compare `Sched.stepLoop`. -/
def StepLoopWith {σ : Type} (threads : Nat) (P : Program σ) (end_ : Nat) (step : Step) :
    (fuel n : Nat) → Shared σ → Option (Outcome (Shared σ)) → Prop
  | 0, _, _, r => r = none
  | fuel + 1, n, w, r =>
    ∃ o, RoundWith threads P end_ step n w o ∧
      match o with
      | .ok w' => if step.lower ≥ w'.first then StepLoopWith threads P end_ step fuel (n + 1) w' r else r = some (.ok w')
      | .throws => r = some .throws
      | .ub => r = some .ub

/-- `environment.cpp:202-270` `run` with the given number of threads; compare `Sched.modelStep` and `Sched.runLoop`. -/
def RunWith {σ : Type} (threads : Nat) (P : Program σ) (end_ : Nat) (fuel : Nat) :
    (k lower : Nat) → Shared σ → Option (Outcome (Shared σ × List Nat)) → Prop
  | 0, _, _, r => r = none
  | k + 1, lower, w, r =>
    ∃ q, (if end_ ≤ lower then q = some .throws else StepLoopWith threads P end_ ⟨lower, end_⟩ fuel 0 w q) ∧
      match q with
      | none => r = none
      | some .throws => r = some .throws
      | some .ub => r = some .ub
      | some (.ok w') =>
        if w'.first < end_ then
          ∃ r', RunWith threads P end_ fuel k w'.first w' r' ∧
            r = match r' with
              | some (.ok (w'', ts)) => some (.ok (w'', lower :: ts))
              | r' => r'
        else r = some (.ok (w', [lower]))

/-- The stored parameters, `parametrization.hpp:49-65`; `values["threads"]` is constructed from `verbosity`. -/
structure Parameters where
  sample : Nat
  start : Nat
  stop : Nat
  verbosity : Nat
  threads : Nat

/-- Constructor of `parametrization` (`parametrization.hpp:49-65`): note that `threads` is not used. -/
def Parameters.make (sample start stop verbosity _threads : Nat) : Parameters :=
  ⟨sample, start, stop, verbosity, verbosity⟩

/-- Constructor of `model` (`model.cpp:38-52`): `threads(std::max(1, parameters.get("threads")))`. -/
def modelThreads (p : Parameters) : Nat := max 1 p.threads

end Esl.Threads
