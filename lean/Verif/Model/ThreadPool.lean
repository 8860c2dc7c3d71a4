import Verif.Model.Basic
/-!
A model of `esl/computation/thread_pool.hpp`.

Simplifications. The operations of the queues take effect in one step each: they do so while holding the mutex, see `Verif.Model.BlockingQueue`, where they are modelled in detail and C50 is proved.
`try_push` and `try_pop` may fail at any time, because another thread may hold the mutex. Tasks end and throw nothing. A task may enqueue further tasks (this is `enqueue`, by any thread), but nobody calls
`enqueue_work` or `enqueue_task` once the destructor has begun. `enqueue_work` and `enqueue_task` differ only in what is put into the future.
-/
namespace Esl.TPool

/-- One of the `queues_`: what is in it and whether it is closed. -/
structure Queue (τ : Type) where
  items : List τ := []
  closed : Bool := false
deriving DecidableEq, Repr

/-- A worker thread, `thread_pool.hpp:78-93`. -/
inductive Worker (τ : Type) where
  /-- `:81-85`: about to look at the queue `n` places after its own -/
  | scan (n : Nat)
  /-- `:87`: about to `pop` from its own queue -/
  | own
  /-- `:91`: executes the task -/
  | run (x : τ)
  /-- behind the loop -/
  | exited
deriving DecidableEq, Repr

/-- A call of `enqueue_work` (`:122-140`) or `enqueue_task` (`:152-178`) in progress: the task, `i`, `n`. -/
structure Call (τ : Type) where
  task : τ
  i : Nat
  n : Nat
deriving DecidableEq, Repr

/-- The owner of the pool. -/
inductive Main where
  /-- uses the pool -/
  | using
  /-- `:105-107`: the destructor has closed `k` queues -/
  | closing (k : Nat)
  /-- `:108-110`: the destructor has joined `k` threads -/
  | joining (k : Nat)
  /-- the destructor has returned -/
  | done
deriving DecidableEq, Repr

/-- `:46-64`: the members, the calls in progress, and as bookkeeping the tasks that have been passed to the pool and those that have been executed. -/
structure Pool (τ : Type) where
  threads : Nat
  queues : List (Queue τ)
  workers : List (Worker τ)
  index : Nat := 0
  calls : List (Call τ) := []
  main : Main := .using
  enqueued : List τ := []
  ran : List τ := []
deriving DecidableEq, Repr

/-- `:66-98`: the constructor. `hardware` is `std::thread::hardware_concurrency()`. The test at `:70` changes the parameter, which then gives the number of worker threads, but neither the number of queues nor the
member `threads`. -/
def Pool.init (τ : Type) (threads hardware : Nat) : Pool τ :=
  { threads := threads
    queues := List.replicate threads {}
    workers := List.replicate (if threads = 0 then if hardware = 0 then 1 else hardware else threads) (.scan 0) }

/-- What may happen next. -/
inductive Act (τ : Type) where
  /-- somebody calls `enqueue_work` or `enqueue_task` -/
  | enqueue (x : τ)
  /-- a call in progress takes its next step; if it is a `try_push`, it succeeds if `ok` -/
  | call (c : Nat) (ok : Bool)
  /-- a worker takes its next step; a `try_pop` gets the mutex if `ok` -/
  | worker (i : Nat) (ok : Bool)
  /-- the destructor begins, all calls having returned -/
  | destroy
  /-- the destructor takes its next step -/
  | main
deriving DecidableEq, Repr

/-- `(unsigned int)(threads * load_factor)`. The conversion would be undefined from `2^31` threads on; this is not modelled. -/
def Pool.limit {τ : Type} (p : Pool τ) : Nat := 2 * p.threads

/-- A task is put into `queues_[j]`, and the call returns. -/
def Pool.put {τ : Type} (p : Pool τ) (c j : Nat) (x : τ) : Outcome (Pool τ) :=
  match p.queues[j]? with
  | none => .ub
  | some q => .ok { p with queues := p.queues.set j { q with items := q.items ++ [x] }, calls := p.calls.eraseIdx c }

/-- `:133-139` (169-175): a step of a call. The index is an `unsigned int`; taking it modulo zero is undefined. -/
def Pool.call {τ : Type} (p : Pool τ) (c : Nat) (a : Call τ) (ok : Bool) : Outcome (Pool τ) :=
  if a.n < p.limit then
    if p.threads = 0 then .ub
    else if ok then p.put c ((a.i + a.n) % 2 ^ 32 % p.threads) a.task
    else .ok { p with calls := p.calls.set c { a with n := a.n + 1 } }
  else if p.threads = 0 then .ub
  else p.put c (a.i % p.threads) a.task

/-- `:81-91`: a step of worker `i`, unless it has to wait. -/
def Pool.work {τ : Type} (p : Pool τ) (i : Nat) (ok : Bool) : Worker τ → Option (Outcome (Pool τ))
  | .scan n =>
    if n < p.limit then
      match p.queues[(i + n) % 2 ^ 32 % p.threads]? with
      | none => some .ub
      | some q =>
        match ok, q.items with
        | true, x :: items =>
          some (.ok { p with queues := p.queues.set ((i + n) % 2 ^ 32 % p.threads) { q with items := items }, workers := p.workers.set i (.run x) })
        | _, _ => some (.ok { p with workers := p.workers.set i (.scan (n + 1)) })
    else some (.ok { p with workers := p.workers.set i .own })
  | .own =>
    match p.queues[i]? with
    | none => some .ub
    | some q =>
      match q.items with
      | x :: items => some (.ok { p with queues := p.queues.set i { q with items := items }, workers := p.workers.set i (.run x) })
      | [] => if q.closed then some (.ok { p with workers := p.workers.set i .exited }) else none
  | .run x => some (.ok { p with ran := p.ran ++ [x], workers := p.workers.set i (.scan 0) })
  | .exited => none

/-- One step: `none` if it cannot be taken now. -/
def Pool.step {τ : Type} (p : Pool τ) : Act τ → Option (Outcome (Pool τ))
  | .enqueue x =>
    match p.main with
    | .using => some (.ok { p with calls := p.calls ++ [⟨x, p.index, 0⟩], index := (p.index + 1) % 2 ^ 32, enqueued := p.enqueued ++ [x] })
    | _ => none
  | .call c ok =>
    match p.calls[c]? with
    | some a => some (p.call c a ok)
    | none => none
  | .worker i ok =>
    match p.workers[i]? with
    | some w => p.work i ok w
    | none => none
  | .destroy =>
    match p.main, p.calls with
    | .using, [] => some (.ok { p with main := .closing 0 })
    | _, _ => none
  | .main =>
    match p.main with
    | .using => none
    | .closing k =>
      match p.queues[k]? with
      | some q => some (.ok { p with queues := p.queues.set k { q with closed := true }, main := .closing (k + 1) })
      | none => some (.ok { p with main := .joining 0 })
    | .joining k =>
      match p.workers[k]? with
      | some .exited => some (.ok { p with main := .joining (k + 1) })
      | some _ => none
      | none => some (.ok { p with main := .done })
    | .done => none

/-- Several steps, none of which is undefined. -/
def Pool.steps {τ : Type} (p : Pool τ) : List (Act τ) → Option (Pool τ)
  | [] => some p
  | a :: as =>
    match p.step a with
    | some (.ok p') => p'.steps as
    | _ => none

/-- The states that a pool with the given number of threads can be in. -/
inductive Reachable {τ : Type} (threads hardware : Nat) : Pool τ → Prop where
  | init : Reachable threads hardware (Pool.init τ threads hardware)
  | step {p p' : Pool τ} (a : Act τ) : Reachable threads hardware p → p.step a = some (.ok p') → Reachable threads hardware p'

end Esl.TPool
