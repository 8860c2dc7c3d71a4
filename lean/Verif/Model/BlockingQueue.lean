import Verif.Model.Basic
/-!
A model of `esl/computation/blocking_queue.hpp`: any number of threads, each executing operations of one queue, in steps between which any other thread may run.

The mutex, the condition variable (with waking up for no reason) and `std::try_to_lock` (with failing for no reason) behave as in the C++ standard.
The overloads for copying and for moving are the same here.
-/
namespace Esl.BQueue

/-- The operations. -/
inductive Op (α : Type) where
  | push (x : α)
  | tryPush (x : α)
  | pop
  | tryPop
  | close
  | empty
  | size
deriving DecidableEq, Repr

/-- What `empty` and `size` return. -/
inductive Answer where
  | empty (b : Bool)
  | size (n : Nat)
deriving DecidableEq, Repr

/-- What a thread does next. The comment tells whether the thread holds the mutex. -/
inductive PC (α : Type) where
  /-- no operation in progress -/
  | idle
  /-- `blocking_queue.hpp:81` (96): lock the mutex -/
  | pushLock (x : α)
  /-- `:82` (97, 116, 137): insert (holds the mutex) -/
  | pushBody (x : α)
  /-- `:83` (98, 117, 138): unlock (holds the mutex) -/
  | pushUnlock (x : α)
  /-- `:84` (99, 118, 139): `notify_one` -/
  | notifyOne (x : α)
  /-- `:112` (133): try to lock -/
  | tryPush (x : α)
  /-- `:155` (170): lock -/
  | popLock
  /-- `:156` (171): the condition of the loop (holds the mutex) -/
  | popCheck
  /-- `:157` (172): in `wait` -/
  | popWait
  /-- `:157` (172): notified, has to lock the mutex again -/
  | popWoken
  /-- `:159-163` (174-178): behind the loop (holds the mutex) -/
  | popTake
  /-- unlock and return (holds the mutex) -/
  | popUnlock (r : Option α)
  /-- `:198` (220): try to lock -/
  | tryPop
  /-- `:199-204` (221-226): (holds the mutex) -/
  | tryPopBody
  /-- `:236`: lock -/
  | closeLock
  /-- `:237` (holds the mutex) -/
  | closeBody
  /-- `:238` unlock (holds the mutex) -/
  | closeUnlock
  /-- `:239` `notify_all` -/
  | notifyAll
  /-- `:248`: lock -/
  | emptyLock
  /-- `:249`: (holds the mutex) -/
  | emptyBody
  /-- `:256`: lock -/
  | sizeLock
  /-- `:257`: (holds the mutex) -/
  | sizeBody
  /-- `:250` (258): unlock and return (holds the mutex) -/
  | answer (a : Answer)
deriving DecidableEq, Repr

/-- The first step of an operation. -/
def Op.pc {α : Type} : Op α → PC α
  | .push x => .pushLock x
  | .tryPush x => .tryPush x
  | .pop => .popLock
  | .tryPop => .tryPop
  | .close => .closeLock
  | .empty => .emptyLock
  | .size => .sizeLock

/-- `blocking_queue.hpp:42-60`: the members, and the threads. The rest is bookkeeping about the history: elements in the order in which they were put into `queue_` and taken out of it, elements
whose `push` or `try_push` has returned (with success), what the calls of `pop` and `try_pop` have returned, and what
the calls of `empty` and `size` have returned, with the thread. -/
structure Sys (α : Type) where
  queue : List α := []
  owner : Option Nat := none
  closed : Bool := false
  threads : List (PC α)
  entered : List α := []
  left : List α := []
  accepted : List α := []
  returned : List (Option α) := []
  answers : List (Nat × Answer) := []
deriving DecidableEq, Repr

/-- `blocking_queue.hpp:66-70`: a new queue, and `n` threads. -/
def Sys.init (α : Type) (n : Nat) : Sys α := { threads := List.replicate n .idle }

/-- What may happen next. -/
inductive Act (α : Type) where
  /-- a thread begins an operation -/
  | start (t : Nat) (op : Op α)
  /-- a thread takes its next step, other than `notify_one` -/
  | run (t : Nat)
  /-- `notify_one` by thread `t` wakes thread `w`, or nobody if no thread waits -/
  | notify (t : Nat) (w : Option Nat)
  /-- `std::try_to_lock` fails for no reason -/
  | tryFails (t : Nat)
  /-- `wait` returns for no reason -/
  | wakes (t : Nat)
deriving DecidableEq, Repr

/-- Thread `t` goes to `pc`. -/
def Sys.go {α : Type} (s : Sys α) (t : Nat) (pc : PC α) : Sys α := { s with threads := s.threads.set t pc }

/-- Thread `t` locks the mutex, if it is free, and goes to `pc`. -/
def Sys.lock {α : Type} (s : Sys α) (t : Nat) (pc : PC α) : Option (Sys α) :=
  if s.owner = none then some { s.go t pc with owner := some t } else none

/-- `std::try_to_lock`: as `lock`, but the operation ends without success if the mutex is not free. -/
def Sys.tryLock {α : Type} (s : Sys α) (t : Nat) (pc : PC α) (fail : Sys α) : Sys α :=
  if s.owner = none then { s.go t pc with owner := some t } else fail

/-- `notify_all`. -/
def wakeAll {α : Type} (l : List (PC α)) : List (PC α) := l.map fun
  | .popWait => .popWoken
  | p => p

/-- The next step of a thread, if it can take one. -/
def Sys.run {α : Type} (s : Sys α) (t : Nat) : PC α → Option (Sys α)
  | .idle => none
  | .pushLock x => s.lock t (.pushBody x)
  | .pushBody x => some { s.go t (.pushUnlock x) with queue := s.queue ++ [x], entered := s.entered ++ [x] }
  | .pushUnlock x => some { s.go t (.notifyOne x) with owner := none }
  | .notifyOne _ => none
  | .tryPush x => some (s.tryLock t (.pushBody x) (s.go t .idle))
  | .popLock => s.lock t .popCheck
  | .popCheck => some (if s.queue.isEmpty && !s.closed then { s.go t .popWait with owner := none } else s.go t .popTake)
  | .popWait => none
  | .popWoken => s.lock t .popCheck
  | .popTake =>
    match s.queue with
    | [] => some (s.go t (.popUnlock none))
    | x :: q => some { s.go t (.popUnlock (some x)) with queue := q, left := s.left ++ [x] }
  | .popUnlock r => some { s.go t .idle with owner := none, returned := s.returned ++ [r] }
  | .tryPop => some (s.tryLock t .tryPopBody { s.go t .idle with returned := s.returned ++ [none] })
  | .tryPopBody =>
    match s.queue with
    | [] => some (s.go t (.popUnlock none))
    | x :: q => some { s.go t (.popUnlock (some x)) with queue := q, left := s.left ++ [x] }
  | .closeLock => s.lock t .closeBody
  | .closeBody => some { s.go t .closeUnlock with closed := true }
  | .closeUnlock => some { s.go t .notifyAll with owner := none }
  | .notifyAll => some { s with threads := (wakeAll s.threads).set t .idle }
  | .emptyLock => s.lock t .emptyBody
  | .emptyBody => some (s.go t (.answer (.empty s.queue.isEmpty)))
  | .sizeLock => s.lock t .sizeBody
  | .sizeBody => some (s.go t (.answer (.size (s.queue.length % 2 ^ 32))))
  | .answer a => some { s.go t .idle with owner := none, answers := s.answers ++ [(t, a)] }

/-- One step of the system. -/
def Sys.step {α : Type} (s : Sys α) : Act α → Option (Sys α)
  | .start t op =>
    match s.threads[t]? with
    | some .idle => some (s.go t op.pc)
    | _ => none
  | .run t =>
    match s.threads[t]? with
    | some pc => s.run t pc
    | none => none
  | .notify t w =>
    match s.threads[t]? with
    | some (.notifyOne x) =>
      match w with
      | none => if s.threads.any (fun | .popWait => true | _ => false) then none else some { s.go t .idle with accepted := s.accepted ++ [x] }
      | some w =>
        match s.threads[w]? with
        | some .popWait => some { (s.go w .popWoken).go t .idle with accepted := s.accepted ++ [x] }
        | _ => none
    | _ => none
  | .tryFails t =>
    match s.threads[t]? with
    | some (.tryPush _) => some (s.go t .idle)
    | some .tryPop => some { s.go t .idle with returned := s.returned ++ [none] }
    | _ => none
  | .wakes t =>
    match s.threads[t]? with
    | some .popWait => some (s.go t .popWoken)
    | _ => none

/-- Several steps. -/
def Sys.steps {α : Type} (s : Sys α) : List (Act α) → Option (Sys α)
  | [] => some s
  | a :: as => (s.step a).bind fun s => s.steps as

/-- The states that a queue used by `n` threads can be in. -/
inductive Reachable {α : Type} (n : Nat) : Sys α → Prop where
  | init : Reachable n (Sys.init α n)
  | step {s s' : Sys α} (a : Act α) : Reachable n s → s.step a = some s' → Reachable n s'

end Esl.BQueue
