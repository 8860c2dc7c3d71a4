import Verif.Model.Scheduler
/-!
# Simulations in which agents create and delete agents

Extends the scheduler (`Model/Scheduler.lean`) by `agents.create` and `agents.deactivate` (`esl/simulation/agent_collection.hpp`, `agent_collection.cpp`), called by agents while they handle messages or act.
-/
namespace Esl.Population
open Esl.Comm Esl.Sched

/-- A change to the population: `agents.create` makes an agent with an identifier and a state (agent_collection.hpp:73-86), `agents.deactivate` deletes one (agent_collection.cpp:47-52). Simplification: agents that were deleted are not activated again. -/
inductive Change (σ : Type) where
  | create (id : Nat) (state : σ)
  | delete (id : Nat)

/-- What agents do (`Sched.Program`), and the changes to the population that an agent makes during its job, which depend on the agent with its inbox, the round and the step. -/
structure Program (σ : Type) extends Sched.Program σ where
  changes : (round : Nat) → Step → Agent σ → List (Change σ)

/-- The place of an agent in `local_agents_`, which is sorted by identifiers. -/
def place {σ : Type} (a : Agent σ) : List (Agent σ) → List (Agent σ)
  | [] => [a]
  | x :: l => if a.id < x.id then a :: x :: l else x :: place a l

/-- `local_agents_.insert` (agent_collection.cpp:43): no effect if the identifier is present. -/
def insertAgent {σ : Type} (a : Agent σ) (l : List (Agent σ)) : List (Agent σ) := if a.id ∈ l.map (·.id) then l else place a l

/-- agent_collection.cpp:40-52: `activate` for a new agent, and `deactivate`. `wake_up_times` is not touched. The lists of the environment of activated and deactivated agents are the subject of C74 and C138. -/
def change {σ : Type} (ags : List (Agent σ)) : Change σ → List (Agent σ)
  | .create i s => insertAgent ⟨i, s, [], []⟩ ags
  | .delete i => ags.filter fun a => a.id != i

/-- Ghost record of one round of a step: the jobs in their order, each with the changes to the population. -/
structure Record (σ : Type) where
  time : Nat
  round : Nat
  jobs : List (Event × List (Change σ))

/-- `agents.local_agents_`, `wake_up_times` and `first_event_` (as in `Sched.World`), and the rounds so far. -/
structure World (σ : Type) where
  agents : List (Agent σ)
  wake : Wake
  first : Nat
  history : List (Record σ)

/-- The variables during a round. -/
structure Busy (σ : Type) where
  agents : List (Agent σ)
  wake : Wake
  first : Nat
  jobs : List (Event × List (Change σ))

/-- model.cpp:114-190 `job_` (`Sched.runJob`) with the changes to the population. The job works on the agent that `acting_agents_` points to, also if it is no longer in `local_agents_`; it then has its wake-up time set (154), but its state and outbox are gone
once the job has ended. -/
def runJob {σ : Type} (P : Program σ) (end_ : Nat) (step : Step) (round : Nat) (a : Agent σ) (w : Busy σ) : Outcome (Busy σ) :=
  let (a', e) := job P.toProgram step round a
  if e.requested < step.lower then .throws
  else
    let wake := setWake w.wake a.id e.requested
    let cs := P.changes round step a
    .ok ⟨cs.foldl change (putAgent w.agents a'), wake, determineNext end_ wake, w.jobs ++ [(e, cs)]⟩

/-- model.cpp:213-216: the acting agents one after the other (one thread). -/
def runJobs {σ : Type} (P : Program σ) (end_ : Nat) (step : Step) (round : Nat) : List (Agent σ) → Busy σ → Outcome (Busy σ)
  | [], w => .ok w
  | a :: as, w =>
    match runJob P end_ step round a w with
    | .ok w' => runJobs P end_ step round as w'
    | .throws => .throws
    | .ub => .ub

/-- model.cpp:105-249: one round of `model::step`, with one thread. `acting_agents_` (193-208) is collected before the jobs. -/
def round {σ : Type} (P : Program σ) (end_ : Nat) (step : Step) (n : Nat) (w : World σ) : Outcome (World σ) :=
  let wake := emplaceMissing step.lower (w.agents.map (·.id)) w.wake
  let act := w.agents.filter fun a => findWake wake a.id == some step.lower
  match runJobs P end_ step n act ⟨w.agents, wake, determineNext end_ w.wake, []⟩ with
  | .throws => .throws
  | .ub => .ub
  | .ok b =>
    match sendMessages (b.agents, b.wake) with
    | .throws => .throws
    | .ub => .ub
    | .ok (s, sent) => .ok ⟨s.1, s.2, if 0 < sent then determineNext end_ s.2 else b.first, w.history ++ [⟨step.lower, n, b.jobs⟩]⟩

/-- model.cpp:105-249: the loop of `model::step`; `none` means it has not ended after `fuel` rounds. -/
def stepLoop {σ : Type} (P : Program σ) (end_ : Nat) (step : Step) : (fuel : Nat) → (n : Nat) → World σ → Option (Outcome (World σ))
  | 0, _, _ => none
  | fuel + 1, n, w =>
    match round P end_ step n w with
    | .ok w' => if step.lower ≥ w'.first then stepLoop P end_ step fuel (n + 1) w' else some (.ok w')
    | .throws => some .throws
    | .ub => some .ub

/-- model.cpp:90-255 `model::step`. -/
def modelStep {σ : Type} (P : Program σ) (end_ : Nat) (fuel : Nat) (step : Step) (w : World σ) : Option (Outcome (World σ)) :=
  if step.upper ≤ step.lower then some .throws else stepLoop P end_ step fuel 0 w

/-- What an environment does with the agents that were created and deleted in the rounds of the step before: `environment::activate` and `environment::deactivate`, which are virtual (environment.hpp:111-115). They do not touch the agents or `wake_up_times`, but may fail. -/
abbrev Environment (σ : Type) := List (Record σ) → Outcome Unit

/-- The agents that are announced to the environment by `activate_agent` (agent_collection.cpp:44) in some rounds. -/
def announced {σ : Type} (rs : List (Record σ)) : List Nat :=
  rs.flatMap fun r => r.jobs.flatMap fun j => j.2.filterMap fun c => match c with
    | .create i _ => some i
    | .delete _ => none

/-- environment.cpp:60-69: `activate` of the base class (`Sched.activate`, C74). Simplification: `deactivate` (75-83) is left out, see C138. -/
def base {σ : Type} : Environment σ := fun rs =>
  match Sched.activate (announced rs) with
  | .ok _ => .ok ()
  | .throws => .throws
  | .ub => .ub

/-- environment.cpp:202-270 `run`: the loop, with at most `k` steps of at most `fuel` rounds each, and the start times of the steps. `since` are the rounds of the step before. -/
def runLoop {σ : Type} (P : Program σ) (env : Environment σ) (end_ : Nat) (fuel : Nat) : (k : Nat) → (since : List (Record σ)) → (lower : Nat) → World σ → Option (Outcome (World σ × List Nat))
  | 0, _, _, _ => none
  | k + 1, since, lower, w =>
    match env since with
    | .throws => some .throws
    | .ub => some .ub
    | .ok () =>
      match modelStep P end_ fuel ⟨lower, end_⟩ w with
      | none => none
      | some .throws => some .throws
      | some .ub => some .ub
      | some (.ok w') =>
        if w'.first < end_ then
          match runLoop P env end_ fuel k (w'.history.drop w.history.length) w'.first w' with
          | some (.ok (w'', ts)) => some (.ok (w'', lower :: ts))
          | r => r
        else some (.ok (w', [lower]))

end Esl.Population
