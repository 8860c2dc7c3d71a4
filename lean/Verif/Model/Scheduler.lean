import Verif.Model.Communicator
/-!
Model of `esl/simulation/model.cpp` (`model::step`, `determine_next_event`),
`esl/computation/environment.cpp` (`send_messages`, `run`, `activate`, `deactivate`) and
`esl/simulation/agent_collection.cpp`.
-/
namespace Esl.Sched
open Esl.Comm

/-- What a model's agents do. All functions may depend on the agent and on the round, because the seed that
is handed to callbacks and to `act` is computed from the agent's identity, `step.lower`, the round
and the sample index (`model.cpp:123-126`). `handlers a r code` are the callbacks of agent `a`, `act a r`
is `agent::act`, `shuffle a t r` is the shuffle of equal-priority messages. -/
structure Program (σ : Type) where
  handlers : Nat → Nat → Nat → Handlers σ
  act : Nat → Nat → σ → Step → σ × List Msg × Nat
  shuffle : Nat → Nat → Nat → List Msg → List Msg

/-- An agent: its identity, private state, inbox and outbox (`esl/agent.hpp`,
`esl/interaction/communicator.hpp:123-130`). -/
structure Agent (σ : Type) where
  id : Nat
  state : σ
  inbox : Inbox
  outbox : List Msg

/-- Ghost record of one execution of the job of an agent: when it ran, the messages that were due in
its inbox, the calls made, the messages it sent, the delivery times of the messages that stay in its inbox,
and the wake-up time it asked for. -/
structure Event where
  agent : Nat
  time : Nat
  round : Nat
  due : List Msg
  calls : List (Msg × Int × Nat)
  sent : List Msg
  pending : List Nat
  requested : Nat

/-- `model.hpp:118` `wake_up_times`. -/
abbrev Wake := List (Nat × Nat)

/-- The part of the model that `step` works on: `agents.local_agents_` (by identity), `wake_up_times`, the local
variable `first_event_`, and a ghost log. -/
structure World (σ : Type) where
  agents : List (Agent σ)
  wake : Wake
  first : Nat
  log : List Event

/-- `model.cpp:67-85` `determine_next_event`: the loop over all wake-up times. -/
def determineNext (end_ : Nat) (wake : Wake) : Nat :=
  wake.foldl (fun r e => if r > e.2 then min r e.2 else r) end_

/-- `wake_up_times[a] = t` (`model.cpp:154`). -/
def setWake : Wake → Nat → Nat → Wake
  | [], a, t => [(a, t)]
  | (b, s) :: l, a, t => if b = a then (b, t) :: l else (b, s) :: setWake l a t

/-- `wake_up_times.find(a)`. -/
def findWake (wake : Wake) (a : Nat) : Option Nat := (wake.find? fun e => e.1 == a).map (·.2)

/-- `model.cpp:193-208`, first part: agents without a wake-up time get `step.lower`. -/
def emplaceMissing (now : Nat) (ids : List Nat) (wake : Wake) : Wake :=
  ids.foldl (fun wk i => if findWake wk i = none then setWake wk i now else wk) wake

/-- `model.cpp:114-190` `job_`, the part that concerns the agent itself: process messages (137), act (139), and drop
the messages that were due from the inbox (169-178; reinsertion in order keeps the order).
Returns the agent and the event, whose `requested` is `std::min(message_time_, act_time_)` (144). -/
def job {σ : Type} (P : Program σ) (step : Step) (round : Nat) (a : Agent σ) : Agent σ × Event :=
  let (r, messageTime) := processMessages (P.handlers a.id round) (P.shuffle a.id step.lower round) step a.inbox
    ⟨a.state, [], []⟩
  let (s, out, actTime) := P.act a.id round r.agent step
  let inbox := a.inbox.filter fun e => decide (e.1 > step.lower)
  (⟨a.id, s, inbox, a.outbox ++ r.outbox ++ out⟩,
   ⟨a.id, step.lower, round, (a.inbox.filter fun e => decide (e.1 ≤ step.lower)).map (·.2), r.calls,
    r.outbox ++ out, inbox.map (·.1), min messageTime actTime⟩)

/-- Replace an agent. -/
def putAgent {σ : Type} (ags : List (Agent σ)) (a : Agent σ) : List (Agent σ) :=
  ags.map fun x => if x.id = a.id then a else x

/-- `model.cpp:114-190` `job_`, with its effects on the model: the wake-up time is refused if it lies before the
current time (145-149), otherwise stored (154), and the next event is determined again (156). -/
def runJob {σ : Type} (P : Program σ) (end_ : Nat) (step : Step) (round : Nat) (a : Agent σ) (w : World σ) :
    Outcome (World σ) :=
  let (a', e) := job P step round a
  if e.requested < step.lower then .throws
  else
    let wake := setWake w.wake a.id e.requested
    .ok ⟨putAgent w.agents a', wake, determineNext end_ wake, w.log ++ [e]⟩

/-- `model.cpp:213-216`: the acting agents one after the other (one thread). -/
def runJobs {σ : Type} (P : Program σ) (end_ : Nat) (step : Step) (round : Nat) :
    List (Agent σ) → World σ → Outcome (World σ)
  | [], w => .ok w
  | a :: as, w => runJob P end_ step round a w >>= runJobs P end_ step round as

/-- `environment.cpp:153-158`: the recipient wakes up no later than the delivery. -/
def lowerWake (wake : Wake) (a t : Nat) : Wake :=
  match findWake wake a with
  | none => setWake wake a t
  | some s => setWake wake a (min s t)

/-- `environment.cpp:142-160`: deliver one message. -/
def deliver {σ : Type} (m : Msg) (s : List (Agent σ) × Wake) : Outcome (List (Agent σ) × Wake) :=
  if s.1.any fun x => x.id == m.recipient then
    .ok (s.1.map fun x =>
          if x.id = m.recipient then
            { x with inbox := mmInsert (fun a b => decide (a ≤ b)) m.received m x.inbox }
          else x,
         lowerWake s.2 m.recipient m.received)
  else .throws

/-- `environment.cpp:142-161`: deliver the messages of one outbox. -/
def deliverAll {σ : Type} : List Msg → List (Agent σ) × Wake → Outcome (List (Agent σ) × Wake)
  | [], s => .ok s
  | m :: ms, s => deliver m s >>= deliverAll ms

/-- The outbox of agent `i`. -/
def outboxOf {σ : Type} (ags : List (Agent σ)) (i : Nat) : List Msg :=
  ((ags.find? fun x => x.id == i).map (·.outbox)).getD []

/-- `environment.cpp:163`: clear the outbox of agent `i`. -/
def clearOutbox {σ : Type} (ags : List (Agent σ)) (i : Nat) : List (Agent σ) :=
  ags.map fun x => if x.id = i then { x with outbox := [] } else x

/-- `environment.cpp:140-166`: the loop over all agents of `send_messages`. -/
def sendFrom {σ : Type} : List Nat → List (Agent σ) × Wake → Nat → Outcome ((List (Agent σ) × Wake) × Nat)
  | [], s, n => .ok (s, n)
  | i :: is, s, n =>
    deliverAll (outboxOf s.1 i) s >>= fun s' =>
      sendFrom is (clearOutbox s'.1 i, s'.2) (n + (outboxOf s.1 i).length)

/-- `environment.cpp:134-168` `send_messages`. -/
def sendMessages {σ : Type} (s : List (Agent σ) × Wake) : Outcome ((List (Agent σ) × Wake) × Nat) :=
  sendFrom (s.1.map (·.id)) s 0

/-- `model.cpp:105-249`: one round of `model::step`, with one thread. The acting agents (193-208) are those whose
wake-up time is exactly `step.lower`; the C++ code collects pointers to them, here their values are collected,
which is the same because identities are unique keys and a job only changes its own agent. -/
def round {σ : Type} (P : Program σ) (end_ : Nat) (step : Step) (n : Nat) (w : World σ) : Outcome (World σ) :=
  let ids := w.agents.map (·.id)
  let first := determineNext end_ w.wake
  let wake := emplaceMissing step.lower ids w.wake
  let act := w.agents.filter fun a => findWake wake a.id == some step.lower
  runJobs P end_ step n act { w with wake := wake, first := first } >>= fun w1 =>
    sendMessages (w1.agents, w1.wake) >>= fun (s, sent) =>
      .ok { w1 with agents := s.1, wake := s.2, first := if 0 < sent then determineNext end_ s.2 else w1.first }

/-- `model.cpp:105-249`: the loop of `model::step`: `none` means it has not ended after `fuel` rounds. -/
def stepLoop {σ : Type} (P : Program σ) (end_ : Nat) (step : Step) :
    (fuel : Nat) → (n : Nat) → World σ → Option (Outcome (World σ))
  | 0, _, _ => none
  | fuel + 1, n, w =>
    match round P end_ step n w with
    | .ok w' => if step.lower ≥ w'.first then stepLoop P end_ step fuel (n + 1) w' else some (.ok w')
    | .throws => some .throws
    | .ub => some .ub

/-- `model.cpp:90-255` `model::step`; the value returned by the C++ function is `first`. `time_interval` is
half-open, so `step.empty()` is `upper <= lower` (see C49). `before_step` and `after_step` are empty
(`environment.cpp:87-95`). -/
def modelStep {σ : Type} (P : Program σ) (end_ : Nat) (fuel : Nat) (step : Step) (w : World σ) :
    Option (Outcome (World σ)) :=
  if step.upper ≤ step.lower then some .throws else stepLoop P end_ step fuel 0 w

/-- `environment.cpp:202-270` `run`: the loop, with at most `k` steps of at most `fuel` rounds each. The
list of start times of the steps is a ghost result. `activate` and `deactivate` are modelled separately below,
the progress display is not modelled. -/
def runLoop {σ : Type} (P : Program σ) (end_ : Nat) (fuel : Nat) :
    (k : Nat) → (lower : Nat) → World σ → Option (Outcome (World σ × List Nat))
  | 0, _, _ => none
  | k + 1, lower, w =>
    match modelStep P end_ fuel ⟨lower, end_⟩ w with
    | none => none
    | some .throws => some .throws
    | some .ub => some .ub
    | some (.ok w') =>
      if w'.first < end_ then
        match runLoop P end_ fuel k w'.first w' with
        | some (.ok (w'', ts)) => some (.ok (w'', lower :: ts))
        | r => r
      else some (.ok (w', [lower]))

/-- `agent_collection.cpp:47-52` `deactivate`: the agent leaves `local_agents_`; `wake_up_times` is not
touched. -/
def deactivateAgent {σ : Type} (w : World σ) (i : Nat) : World σ :=
  { w with agents := w.agents.filter fun a => a.id != i }

/-- `environment.cpp:60-69` `activate`: a range-based loop over `activated_` whose body appends to
`activated_` (`activate_agent`, 173-176). Appending to a `std::vector` invalidates the iterator past the end that
the loop compares with, so a loop with at least one element is undefined behaviour. Returns the
list afterwards and the number of activations. -/
def activate (activated : List Nat) : Outcome (List Nat × Nat) :=
  if activated = [] then .ok ([], 0) else .ub

end Esl.Sched
