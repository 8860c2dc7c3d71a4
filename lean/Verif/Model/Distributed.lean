import Verif.Model.Basic
import Verif.Model.Communicator
import Verif.Model.Scheduler

/-!
# The distributed environment, the agent collection, and single steps of the environment

Models `esl/computation/distributed/mpi_environment.cpp`, `protocol.hpp`, `esl/simulation/agent_collection.cpp` and `environment::step` of `esl/computation/environment.cpp`.

A cluster is a list of processes; the rank of a process is its index. Agents are numbered; of an agent that moves, its contents are some value that MPI and the serialization transport
unchanged (an assumption). Collective operations are synchronization points, so that what the processes do between them is modelled process by process. The blocking point-to-point
operations of `migrate` are modelled as a transition system.
-/

namespace Esl.Mpi
open Esl.Comm

/-- `boost::mpi::all_to_all(communicator, in, out)`: process `i` receives element `i` of each process. It asserts, and without assertions assumes, that each input has one element per process. -/
def allToAll {α : Type} (rows : List (List α)) : Outcome (List (List α)) :=
  if rows.all fun r => decide (r.length = rows.length) then .ok ((List.range rows.length).map fun i => rows.filterMap fun r => r[i]?) else .ub

/-- `std::unordered_map::operator[]` with assignment. -/
def setKey {α : Type} (m : List (Nat × α)) (k : Nat) (v : α) : List (Nat × α) := (k, v) :: m.filter fun e => !(e.1 == k)

/-! ## Activation and deactivation -/

/-- The members of `mpi_environment` and `environment` on one process: `agent_locations_` (mpi_environment.hpp:67), `activated_`, `deactivated_` (environment.hpp:62-69). -/
structure Process where
  locations : List (Nat × Nat)
  activated : List Nat
  deactivated : List Nat
deriving DecidableEq, Repr

/-- mpi_environment.cpp:386-394 `activate_agent`, on the process with the given rank. -/
def activateAgent (rank : Nat) (p : Process) (a : Nat) : Process :=
  { p with locations := setKey p.locations a rank, activated := p.activated ++ [a] }

/-- mpi_environment.cpp:408-413 `deactivate_agent`. -/
def deactivateAgent (p : Process) (a : Nat) : Process :=
  { p with locations := p.locations.filter fun e => !(e.1 == a), deactivated := p.deactivated ++ [a] }

/-- mpi_environment.cpp:98-105: what process `rank` sends: to every process the same list of activations, with the location and the agent. -/
def activationRow (n rank : Nat) (p : Process) : List (List (Nat × Nat)) := List.replicate n (p.activated.map fun a => (rank, a))

/-- mpi_environment.cpp:110-125 and 400-404: record what was received. -/
def recordActivations (p : Process) (stacked : List (List (Nat × Nat))) : Process :=
  { p with locations := stacked.flatten.foldl (fun m e => setKey m e.2 e.1) p.locations, activated := [] }

/-- mpi_environment.cpp:96-126 `activate`, on all processes. -/
def activate (c : List Process) : Outcome (List Process) :=
  allToAll (c.mapIdx fun r p => activationRow c.length r p) >>= fun received => .ok (c.zipWith recordActivations received)

/-- mpi_environment.cpp:129-145 `deactivate`, on all processes. The list of pending deactivations is the input of the collective operation, and is not cleared; what is received is appended to it. -/
def deactivate (c : List Process) : Outcome (List Process) :=
  allToAll (c.map (·.deactivated)) >>= fun received => .ok (c.zipWith (fun p l => l.foldl deactivateAgent p) received)

/-! ## Migration -/

/-- protocol.hpp:69-95 `migration`. -/
structure Migration where
  source : Nat
  target : Nat
  migrant : Nat
deriving DecidableEq, Repr

/-- mpi_environment.cpp:159-171: what a process proposes, by target; a target that does not exist is undefined behaviour. (At 160 the model's time is compared with its end; the time is never changed
and the branch is not taken.) -/
def proposalRow (n : Nat) (ideas : List Migration) : Outcome (List (List Migration)) :=
  if ideas.all fun m => decide (m.target < n) then .ok ((List.range n).map fun t => ideas.filter fun m => decide (m.target = t)) else .ub

/-- The rows of all processes. -/
def proposalRows (n : Nat) : List (List Migration) → Outcome (List (List (List Migration)))
  | [] => .ok []
  | i :: is => proposalRow n i >>= fun r => proposalRows n is >>= fun rs => .ok (r :: rs)

/-- mpi_environment.cpp:266-278: what process `rank` accepts of the propositions it got. -/
def accept (rank : Nat) (propositions : List (List Migration)) : List Migration := propositions.flatten.filter fun m => decide (m.target = rank)

/-- mpi_environment.cpp:159-285: agreement on the migrations: what each process gets. `ideas` is what `migrate_agents` returns on each process. -/
def agree (ideas : List (List Migration)) : Outcome (List (List Migration)) :=
  proposalRows ideas.length ideas >>= fun rows =>
  allToAll rows >>= fun propositions =>
  allToAll (propositions.mapIdx fun r p => List.replicate ideas.length (accept r p)) >>= fun migrations =>
  .ok (migrations.map List.flatten)

/-- mpi_environment.cpp:77-83 `process_migrations`. -/
def processMigrations (locations : List (Nat × Nat)) (ms : List Migration) : List (Nat × Nat) := ms.foldl (fun l m => setKey l m.migrant m.target) locations

/-- The state while migrations are executed (mpi_environment.cpp:290-319): for each process the migrations it still has to handle and its agents with their contents; and the agents on their way from one process to
another, in the order in which they were sent. -/
structure Moving (α : Type) where
  todo : Nat → List Migration
  agents : Nat → List (Nat × α)
  channel : Nat → Nat → List (Nat × α)

def update {α : Type} (f : Nat → α) (k : Nat) (v : α) : Nat → α := fun i => if i = k then v else f i
def update2 {α : Type} (f : Nat → Nat → α) (k l : Nat) (v : α) : Nat → Nat → α := fun i j => if i = k ∧ j = l then v else f i j

/-- Removing an agent. -/
def remove {α : Type} (l : List (Nat × α)) (a : Nat) : List (Nat × α) := l.filter fun e => !(e.1 == a)

/-- `flat_map::insert`: no effect if there is an agent with the identity. -/
def insertAgent {α : Type} (l : List (Nat × α)) (e : Nat × α) : List (Nat × α) := if l.any fun x => x.1 == e.1 then l else l ++ [e]

/-- What process `r` can do next. -/
inductive Step {α : Type} (r : Nat) : Moving α → Moving α → Prop where
  /-- A migration that does not concern the process, or of an agent that is not here. -/
  | skip (s : Moving α) (m : Migration) (ms : List Migration) : s.todo r = m :: ms → m.source ≠ r → m.target ≠ r → Step r s { s with todo := update s.todo r ms }
  | missing (s : Moving α) (m : Migration) (ms : List Migration) : s.todo r = m :: ms → m.source = r → (s.agents r).lookup m.migrant = none → Step r s { s with todo := update s.todo r ms }
  /-- 291-302: a send that is buffered. -/
  | send (s : Moving α) (m : Migration) (ms : List Migration) (x : α) : s.todo r = m :: ms → m.source = r → (s.agents r).lookup m.migrant = some x →
      Step r s ⟨update s.todo r ms, update s.agents r (remove (s.agents r) m.migrant), update2 s.channel r m.target (s.channel r m.target ++ [(m.migrant, x)])⟩
  /-- 303-308: a receive. It takes whatever agent was sent first by the source. -/
  | receive (s : Moving α) (m : Migration) (ms : List Migration) (e : Nat × α) (es : List (Nat × α)) : s.todo r = m :: ms → m.source ≠ r → m.target = r → s.channel m.source r = e :: es →
      Step r s ⟨update s.todo r ms, update s.agents r (insertAgent (s.agents r) e), update2 s.channel m.source r es⟩

/-- A send that is not buffered completes together with the receive: process `r` sends to process `t`. -/
inductive Rendezvous {α : Type} (r t : Nat) : Moving α → Moving α → Prop where
  | both (s : Moving α) (m m' : Migration) (ms ms' : List Migration) (x : α) : r ≠ t → s.todo r = m :: ms → m.source = r → m.target = t → (s.agents r).lookup m.migrant = some x →
      s.todo t = m' :: ms' → m'.source = r → m'.target = t → s.channel r t = [] →
      Rendezvous r t s ⟨update (update s.todo r ms) t ms', update (update s.agents r (remove (s.agents r) m.migrant)) t (insertAgent (s.agents t) (m.migrant, x)), s.channel⟩

/-- One action of one of `n` processes, or of two. -/
inductive Action {α : Type} (n : Nat) : Moving α → Moving α → Prop where
  | one (r : Nat) (s t : Moving α) : r < n → Step r s t → Action n s t
  | two (r q : Nat) (s t : Moving α) : r < n → q < n → Rendezvous r q s t → Action n s t

/-- Actions when nothing is buffered: no buffered sends. -/
inductive Unbuffered {α : Type} (n : Nat) : Moving α → Moving α → Prop where
  | skip (r : Nat) (s : Moving α) (m : Migration) (ms : List Migration) : r < n → s.todo r = m :: ms → m.source ≠ r → m.target ≠ r → Unbuffered n s { s with todo := update s.todo r ms }
  | missing (r : Nat) (s : Moving α) (m : Migration) (ms : List Migration) : r < n → s.todo r = m :: ms → m.source = r → (s.agents r).lookup m.migrant = none →
      Unbuffered n s { s with todo := update s.todo r ms }
  | two (r q : Nat) (s t : Moving α) : r < n → q < n → Rendezvous r q s t → Unbuffered n s t

/-- Executions of `k` actions, any process going first at any time. -/
inductive Executes {α : Type} (n : Nat) : Nat → Moving α → Moving α → Prop where
  | refl (s : Moving α) : Executes n 0 s s
  | step (k : Nat) (s t u : Moving α) : Executes n k s t → Action n t u → Executes n (k + 1) s u

/-- Executions without buffers. -/
inductive ExecutesUnbuffered {α : Type} (n : Nat) : Moving α → Moving α → Prop where
  | refl (s : Moving α) : ExecutesUnbuffered n s s
  | step (s t u : Moving α) : ExecutesUnbuffered n s t → Unbuffered n t u → ExecutesUnbuffered n s u

/-- The start of the execution of agreed migrations. -/
def Moving.start {α : Type} (ms : List Migration) (agents : Nat → List (Nat × α)) : Moving α := ⟨fun _ => ms, agents, fun _ _ => []⟩

/-! ## Messages -/

/-- An agent of a process: identity, inbox and outbox. -/
structure Mailbox where
  id : Nat
  inbox : Inbox
  outbox : List Msg

/-- A process: its agents and `agent_locations_`. -/
structure Host where
  agents : List Mailbox
  locations : List (Nat × Nat)

/-- `agent_locations_[a]` (mpi_environment.cpp:335): an agent that is not known is at process zero. -/
def Host.locate (h : Host) (a : Nat) : Nat := (h.locations.lookup a).getD 0

/-- mpi_environment.cpp:336-343: one message: the agents of the process, and what is to be sent elsewhere with its target. A recipient that is not here is dereferenced: undefined behaviour. -/
def routeOne (rank n : Nat) (h : Host) (agents : List Mailbox) (m : Msg) : Outcome (List Mailbox × List (Nat × Msg)) :=
  if h.locate m.recipient = rank then
    if agents.any fun x => x.id == m.recipient then
      .ok (agents.map fun x => if x.id = m.recipient then { x with inbox := mmInsert (fun a b => decide (a ≤ b)) m.received m x.inbox } else x, [])
    else .ub
  else if h.locate m.recipient < n then .ok (agents, [(h.locate m.recipient, m)])
  else .ub

/-- The messages of one outbox. -/
def routeAll (rank n : Nat) (h : Host) : List Msg → List Mailbox → Outcome (List Mailbox × List (Nat × Msg))
  | [], agents => .ok (agents, [])
  | m :: ms, agents => routeOne rank n h agents m >>= fun r => routeAll rank n h ms r.1 >>= fun r' => .ok (r'.1, r.2 ++ r'.2)

/-- mpi_environment.cpp:332-346: the loop over the agents; at the end all outboxes are empty. `outboxes` are those at the beginning. -/
def routeHost (rank n : Nat) (h : Host) : Outcome (List Mailbox × List (Nat × Msg)) :=
  routeAll rank n h (h.agents.flatMap (·.outbox)) h.agents >>= fun r => .ok (r.1.map fun x => { x with outbox := [] }, r.2)

/-- The rows for the collective operation: `messages_sent_` (mpi_environment.cpp:329-343). Of each message only its header is kept, which does not matter for what follows. -/
def sentRow (n : Nat) (sent : List (Nat × Msg)) : List (List Msg) := (List.range n).map fun t => (sent.filter fun e => decide (e.1 = t)).map (·.2)

/-- All processes. -/
def routeCluster (n : Nat) : Nat → List Host → Outcome (List (Host × List (Nat × Msg)))
  | _, [] => .ok []
  | rank, h :: hs => routeHost rank n h >>= fun r => routeCluster n (rank + 1) hs >>= fun rs => .ok (({ h with agents := r.1 }, r.2) :: rs)

/-- mpi_environment.cpp:349-370: what a process does with what it received: `none` if the loop at 356 is reached, whose condition is always true. It is reached when a process got messages from itself. -/
def absorb (rank : Nat) (received : List (List Msg)) (h : Host) : Option Host := if (received[rank]?).any fun l => !l.isEmpty then none else some h

/-- mpi_environment.cpp:326-373 `send_messages` on all processes. The result of the function is always zero. `wake_up_times` is not changed. -/
def sendMessages (c : List Host) : Outcome (List (Option Host) × Nat) :=
  routeCluster c.length 0 c >>= fun routed =>
  allToAll (routed.map fun r => sentRow c.length r.2) >>= fun received =>
  .ok (((routed.zip received).mapIdx fun i e => absorb i e.2 e.1.1), 0)

/-! ## The run -/

/-- What happens before `deactivate` in the first pass of the loop of `run` (mpi_environment.cpp:441-491): `lowers` are the results of the first step on each process, `end_` the end of the simulation. The
minimum is distributed to all (460-464). `true` if the loop goes on. -/
def continues (end_ : Nat) (lowers : List Nat) : Bool := decide (lowers.foldl min end_ < end_)

/-- mpi_environment.cpp:454-516: one pass of the loop, up to the second step: after the first step returned `lowers`, agents are activated and deactivated. -/
def pass (end_ : Nat) (lowers : List Nat) (c : List Process) : Outcome (List Process) :=
  if continues end_ lowers then activate c >>= deactivate else .ok c

/-! ## The agent collection -/

/-- agent_collection.hpp:62-64: the identities of all agents and the agents here; a null pointer is `none`. -/
structure Collection (α : Type) where
  global : List Nat
  here : List (Nat × Option α)

/-- agent_collection.cpp:40-45 `activate`. -/
def Collection.activate {α : Type} (c : Collection α) (a : Nat) (x : α) : Collection α :=
  ⟨if c.global.contains a then c.global else c.global ++ [a], if c.here.any fun e => e.1 == a then c.here else c.here ++ [(a, some x)]⟩

/-- agent_collection.cpp:47-52 `deactivate`. -/
def Collection.deactivate {α : Type} (c : Collection α) (a : Nat) : Collection α :=
  ⟨c.global.filter fun i => !(i == a), c.here.filter fun e => !(e.1 == a)⟩

/-- agent_collection.cpp:54-58 `operator[]`: `flat_map::operator[]` inserts a null pointer for an unknown identity. -/
def Collection.get {α : Type} (c : Collection α) (a : Nat) : Collection α × Option α :=
  match c.here.lookup a with
  | some x => (c, x)
  | none => ({ c with here := c.here ++ [(a, none)] }, none)

/-- The loops over `local_agents_` that dereference each pointer, for example environment.cpp:140-142. -/
def Collection.visit {α : Type} (c : Collection α) : Outcome (List α) :=
  c.here.foldr (fun e acc => match e.2 with | none => .ub | some x => acc >>= fun l => .ok (x :: l)) (.ok [])

/-! ## `environment::step` -/

/-- environment.cpp:188-198 `step`. `time` is `simulation.time`, the start of the simulation, which nothing changes. Activation and deactivation are left out (see C74). -/
def envStep {σ : Type} (P : Sched.Program σ) (time end_ fuel : Nat) (w : Sched.World σ) : Option (Outcome (Sched.World σ)) :=
  if time < end_ then Sched.modelStep P end_ fuel ⟨time, end_⟩ w else some (.ok w)

/-- `k` calls of `step`. -/
def envSteps {σ : Type} (P : Sched.Program σ) (time end_ fuel : Nat) : Nat → Sched.World σ → Option (Outcome (Sched.World σ))
  | 0, w => some (.ok w)
  | k + 1, w =>
    match envStep P time end_ fuel w with
    | some (.ok w') => envSteps P time end_ fuel k w'
    | r => r

end Esl.Mpi
