import Verif.Model.Basic
/-!
A model of `esl/computation/thread_pool.hpp` together with the queues of `esl/computation/blocking_queue.hpp` it is made of, in steps between which any other thread may run: each lock, each access to a queue, each unlock
and each notification is a step of its own. It is finer than `Verif.Model.ThreadPool`, and tasks may use the pool: they may call `enqueue_work` and `enqueue_task` at any time, also while the destructor waits for the
threads, and they may wait for the future of another task.

The mutexes and the condition variables behave as in the C++ standard: `wait` may return for no reason, and `std::try_to_lock` may fail although the mutex is free. Whether the latter has happened is recorded in the state.

Simplifications. Threads outside the pool call `enqueue_work` and `enqueue_task` only before the destructor begins, and the destructor begins when these calls have returned. Tasks throw nothing, and end unless they wait
for a future that is never ready. `enqueue_work` and `enqueue_task` differ only in the future, which is ready when the task has been executed.
-/
namespace Esl.Workers

/-- One of the `queues_` (`thread_pool.hpp:46`): the members of `blocking_queue.hpp:42-60`, with the thread that holds the mutex. -/
structure Queue (τ : Type) where
  items : List τ := []
  closed : Bool := false
  owner : Option Nat := none
deriving DecidableEq, Repr

/-- What a thread does next. `j` is the place of a queue in `queues_`. Those marked with * hold the mutex of that queue. -/
inductive PC (τ : Type) where
  /-- worker, `thread_pool.hpp:81-82` with `blocking_queue.hpp:220`: about to try to lock the queue `n` places after its own -/
  | scan (n : Nat)
  /-- worker, `blocking_queue.hpp:221-225` * -/
  | scanBody (n j : Nat)
  /-- worker, `blocking_queue.hpp:226-227`: unlock and return * -/
  | scanUnlock (n j : Nat) (r : Option τ)
  /-- worker, `thread_pool.hpp:87` with `blocking_queue.hpp:170`: about to lock its own queue -/
  | own
  /-- worker, `blocking_queue.hpp:171-178` * -/
  | ownCheck (j : Nat)
  /-- worker, `blocking_queue.hpp:172`: in `wait` -/
  | wait (j : Nat)
  /-- worker, `blocking_queue.hpp:172`: notified, has to lock again -/
  | woken (j : Nat)
  /-- worker, `blocking_queue.hpp:175, 179`: unlock and return * -/
  | ownUnlock (j : Nat) (r : Option τ)
  /-- worker, `thread_pool.hpp:91`: executes the task -/
  | run (x : τ)
  /-- worker: the task `x` waits for the future of `y` -/
  | await (x y : τ)
  /-- worker, `thread_pool.hpp:88`: behind the loop -/
  | exited
  /-- in `enqueue_work` or `enqueue_task`, `thread_pool.hpp:133-134` (169-170) with `blocking_queue.hpp:133`: about to `try_push` the task `x`. `b` is the task that makes the call, `none` for a thread outside the pool -/
  | tryPush (b : Option τ) (x : τ) (i n : Nat)
  /-- `thread_pool.hpp:139` (175) with `blocking_queue.hpp:96`: about to lock -/
  | lock (b : Option τ) (x : τ) (j : Nat)
  /-- `blocking_queue.hpp:137` (97): about to insert * -/
  | insert (b : Option τ) (x : τ) (j : Nat)
  /-- `blocking_queue.hpp:138` (98) * -/
  | unlock (b : Option τ) (j : Nat)
  /-- `blocking_queue.hpp:139` (99): about to call `notify_one` -/
  | notify (b : Option τ) (j : Nat)
  /-- outside the pool: the call has returned -/
  | returned
  /-- the owner uses the pool -/
  | uses
  /-- the destructor, `thread_pool.hpp:105-106` with `blocking_queue.hpp:236` -/
  | closeLock (j : Nat)
  /-- the destructor, `blocking_queue.hpp:237` * -/
  | closeSet (j : Nat)
  /-- the destructor, `blocking_queue.hpp:238` * -/
  | closeUnlock (j : Nat)
  /-- the destructor, `blocking_queue.hpp:239`: about to call `notify_all` -/
  | closeNotify (j : Nat)
  /-- the destructor, `thread_pool.hpp:108-110`: has joined `k` threads -/
  | join (k : Nat)
  /-- the destructor has returned -/
  | done
deriving DecidableEq, Repr

/-- `thread_pool.hpp:46-64`: the members, and the threads: first the workers, then the owner of the pool, then the callers of `enqueue_work` and `enqueue_task` outside the pool. The rest is bookkeeping: the tasks that have been
passed to the pool, those that have been executed, whether `std::try_to_lock` has failed on a free mutex, and whether a task has been put into a queue after the destructor began. -/
structure Pool (τ : Type) where
  threads : Nat
  queues : List (Queue τ)
  started : Nat
  agents : List (PC τ)
  index : Nat := 0
  enqueued : List τ := []
  ran : List τ := []
  spurious : Bool := false
  late : Bool := false
deriving DecidableEq, Repr

/-- `thread_pool.hpp:66-98`: the constructor. `hardware` is `std::thread::hardware_concurrency()`; see `Verif.Model.ThreadPool` about zero threads. -/
def Pool.init (τ : Type) (threads hardware : Nat) : Pool τ :=
  { threads := threads
    queues := List.replicate threads {}
    started := if threads = 0 then if hardware = 0 then 1 else hardware else threads
    agents := List.replicate (if threads = 0 then if hardware = 0 then 1 else hardware else threads) (.scan 0) ++ [.uses] }

/-- `(unsigned int)(threads * load_factor)`, `thread_pool.hpp:81`, 133, 169. The conversion is undefined from `2^31` threads on; this is not modelled. -/
def Pool.limit {τ : Type} (p : Pool τ) : Nat := 2 * p.threads

/-- Thread `a` goes to `pc`. -/
def Pool.go {τ : Type} (p : Pool τ) (a : Nat) (pc : PC τ) : Pool τ := { p with agents := p.agents.set a pc }

/-- A queue changes. -/
def Pool.put {τ : Type} (p : Pool τ) (j : Nat) (q : Queue τ) : Pool τ := { p with queues := p.queues.set j q }

/-- `std::unique_lock`: thread `a` locks queue `j` if its mutex is free, and has to wait otherwise. There may be no such queue. -/
def Pool.acquire {τ : Type} (p : Pool τ) (a j : Nat) (pc : PC τ) : Option (Outcome (Pool τ)) :=
  match p.queues[j]? with
  | none => some .ub
  | some q => if q.owner = none then some (.ok ((p.put j { q with owner := some a }).go a pc)) else none

/-- `std::try_to_lock`: as `acquire`, but goes to `fail` if the mutex is not free, or, if `spurious`, although it is. -/
def Pool.tryAcquire {τ : Type} (p : Pool τ) (a j : Nat) (spurious : Bool) (pc fail : PC τ) : Outcome (Pool τ) :=
  match p.queues[j]? with
  | none => .ub
  | some q =>
    if q.owner = none then
      if spurious then .ok { p.go a fail with spurious := true } else .ok ((p.put j { q with owner := some a }).go a pc)
    else .ok (p.go a fail)

/-- A notification of those who wait for queue `j`: only its own worker does. -/
def Pool.wake {τ : Type} (p : Pool τ) (j : Nat) : Pool τ :=
  match p.agents[j]? with
  | some (.wait k) => if k = j then p.go j (.woken j) else p
  | _ => p

/-- What thread `a` does where it accesses queue `j`. -/
def Pool.access {τ : Type} (p : Pool τ) (j : Nat) (f : Queue τ → Pool τ) : Outcome (Pool τ) :=
  match p.queues[j]? with
  | none => .ub
  | some q => .ok (f q)

/-- The destructor has begun. -/
def Pool.destroying {τ : Type} (p : Pool τ) : Bool := match p.agents[p.started]? with | some .uses => false | _ => true

/-- What a worker does when it has left a queue with or without a task: execute it, or else do `other`. -/
def after {τ : Type} (other : PC τ) : Option τ → PC τ
  | some x => .run x
  | none => other

/-- The next step of thread `a`, if it can take one. -/
def Pool.run {τ : Type} [DecidableEq τ] (p : Pool τ) (a : Nat) (spurious : Bool) : PC τ → Option (Outcome (Pool τ))
  | .scan n =>
    if n < p.limit then some (p.tryAcquire a ((a + n) % 2 ^ 32 % p.threads) spurious (.scanBody n ((a + n) % 2 ^ 32 % p.threads)) (.scan (n + 1)))
    else some (.ok (p.go a .own))
  | .scanBody n j => some (p.access j fun q =>
      match q.items with
      | [] => p.go a (.scanUnlock n j none)
      | x :: items => (p.put j { q with items := items }).go a (.scanUnlock n j (some x)))
  | .scanUnlock n j r => some (p.access j fun q => (p.put j { q with owner := none }).go a (after (.scan (n + 1)) r))
  | .own => p.acquire a a (.ownCheck a)
  | .ownCheck j => some (p.access j fun q =>
      match q.items with
      | [] => if q.closed then p.go a (.ownUnlock j none) else (p.put j { q with owner := none }).go a (.wait j)
      | x :: items => (p.put j { q with items := items }).go a (.ownUnlock j (some x)))
  | .wait _ => none
  | .woken j => p.acquire a j (.ownCheck j)
  | .ownUnlock j r => some (p.access j fun q => (p.put j { q with owner := none }).go a (after .exited r))
  | .run x => some (.ok { p.go a (.scan 0) with ran := p.ran ++ [x] })
  | .await x y => if y ∈ p.ran then some (.ok (p.go a (.run x))) else none
  | .exited => none
  | .tryPush b x i n =>
    if n < p.limit then some (p.tryAcquire a ((i + n) % 2 ^ 32 % p.threads) spurious (.insert b x ((i + n) % 2 ^ 32 % p.threads)) (.tryPush b x i (n + 1)))
    else some (.ok (p.go a (.lock b x (i % p.threads))))
  | .lock b x j => p.acquire a j (.insert b x j)
  | .insert b x j => some (p.access j fun q => { (p.put j { q with items := q.items ++ [x] }).go a (.unlock b j) with late := p.late || p.destroying })
  | .unlock b j => some (p.access j fun q => (p.put j { q with owner := none }).go a (.notify b j))
  | .notify b j => some (.ok ((p.wake j).go a (after .returned b)))
  | .returned => none
  | .uses => none
  | .closeLock j => if j < p.queues.length then p.acquire a j (.closeSet j) else some (.ok (p.go a (.join 0)))
  | .closeSet j => some (p.access j fun q => (p.put j { q with closed := true }).go a (.closeUnlock j))
  | .closeUnlock j => some (p.access j fun q => (p.put j { q with owner := none }).go a (.closeNotify j))
  | .closeNotify j => some (.ok ((p.wake j).go a (.closeLock (j + 1))))
  | .join k =>
    if k < p.started then
      match p.agents[k]? with
      | some .exited => some (.ok (p.go a (.join (k + 1))))
      | _ => none
    else some (.ok (p.go a .done))
  | .done => none

/-- A call from outside the pool has returned. -/
def PC.isReturned {τ : Type} : PC τ → Bool
  | .returned => true
  | _ => false

/-- What may happen next. -/
inductive Act (τ : Type) where
  /-- somebody outside the pool calls `enqueue_work` or `enqueue_task` -/
  | enqueue (x : τ)
  /-- the task that worker `a` executes calls `enqueue_work` or `enqueue_task` -/
  | spawn (a : Nat) (y : τ)
  /-- the task that worker `a` executes waits for the future of another -/
  | await (a : Nat) (y : τ)
  /-- thread `a` takes its next step; if it is a `std::try_to_lock` of a free mutex, it fails if `spurious` -/
  | run (a : Nat) (spurious : Bool)
  /-- `wait` returns for no reason -/
  | wakes (a : Nat)
  /-- the destructor begins -/
  | destroy
deriving DecidableEq, Repr

/-- One step: `none` if it cannot be taken now. -/
def Pool.step {τ : Type} [DecidableEq τ] (p : Pool τ) : Act τ → Option (Outcome (Pool τ))
  | .enqueue x =>
    if p.destroying then none
    else some (.ok { p with agents := p.agents ++ [.tryPush none x p.index 0], index := (p.index + 1) % 2 ^ 32, enqueued := p.enqueued ++ [x] })
  | .spawn a y =>
    match p.agents[a]? with
    | some (.run x) => some (.ok { p.go a (.tryPush (some x) y p.index 0) with index := (p.index + 1) % 2 ^ 32, enqueued := p.enqueued ++ [y] })
    | _ => none
  | .await a y =>
    match p.agents[a]? with
    | some (.run x) => some (.ok (p.go a (.await x y)))
    | _ => none
  | .run a spurious =>
    match p.agents[a]? with
    | some pc => p.run a spurious pc
    | none => none
  | .wakes a =>
    match p.agents[a]? with
    | some (.wait j) => some (.ok (p.go a (.woken j)))
    | _ => none
  | .destroy =>
    if !p.destroying && (p.agents.drop (p.started + 1)).all PC.isReturned then some (.ok (p.go p.started (.closeLock 0))) else none

/-- Several steps, none of which is undefined. -/
def Pool.steps {τ : Type} [DecidableEq τ] (p : Pool τ) : List (Act τ) → Option (Pool τ)
  | [] => some p
  | a :: as =>
    match p.step a with
    | some (.ok p') => p'.steps as
    | _ => none

/-- The states that a pool with the given number of threads can be in. -/
inductive Reachable {τ : Type} [DecidableEq τ] (threads hardware : Nat) : Pool τ → Prop where
  | init : Reachable threads hardware (Pool.init τ threads hardware)
  | step {p p' : Pool τ} (a : Act τ) : Reachable threads hardware p → p.step a = some (.ok p') → Reachable threads hardware p'

end Esl.Workers
