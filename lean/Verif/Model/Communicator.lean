import Verif.Model.Basic
/-!
Model of `esl/interaction/communicator.{hpp,cpp}`: registering callbacks and processing the inbox.
-/
namespace Esl.Comm

/-- `esl/interaction/header.hpp:73-107` `header`: the message code, sender, recipient, the time sent and
the delivery time `received`. `payload` stands for everything a derived message type adds. Agents are
numbered (see `Model/Identity.lean` for the identities themselves); time points are unsigned
(`esl/simulation/time.hpp`). -/
structure Msg where
  type : Nat
  sender : Nat
  recipient : Nat
  sent : Nat
  received : Nat
  payload : Nat
deriving DecidableEq, Repr

/-- `esl/mathematics/interval.hpp`, `simulation::time_interval` : the `[lower, upper)` step. -/
structure Step where
  lower : Nat
  upper : Nat
deriving DecidableEq, Repr

/-- `esl/interaction/communicator.hpp:71-74` `callback_handle`: a callback changes the agent (`σ`), puts
messages into its outbox and returns the time of the next event. The seed is an argument of the
callback in C++; here it is part of the function. -/
abbrev Callback (σ : Type) := σ → Msg → Step → σ × List Msg × Nat

/-- `communicator.hpp:76-99` `callback_t`: the function and the line where it was registered, which
serves as its name here. The textual fields are not modelled. -/
structure Entry (σ : Type) where
  line : Nat
  function : Callback σ

/-- `communicator.hpp:141-142` `callbacks_` for one message code: a `flat_multimap` from priority to
callback, i.e. a list ordered by priority in which equal priorities are in insertion order. -/
abbrev Handlers (σ : Type) := List (Int × Entry σ)

/-- Insertion into a multimap: after all entries with a key that is not greater. Models
`flat_multimap::emplace`/`insert` (`communicator.hpp:264`, `communicator.cpp:114`,
`environment.cpp:150`) and `std::multimap::insert`. -/
def mmInsert {κ α : Type} (le : κ → κ → Bool) (k : κ) (a : α) : List (κ × α) → List (κ × α)
  | [] => [(k, a)]
  | (k', a') :: l => if le k' k then (k', a') :: mmInsert le k a l else (k, a) :: (k', a') :: l

/-- The communicator's callback table and lock, `communicator.hpp:141-152`. A message code without
entry and one with an empty multimap are both `[]`. -/
structure Table (σ : Type) where
  handlers : Nat → Handlers σ
  locked : Bool

/-- `communicator.hpp:221-265` `register_callback`: refused if locked, otherwise inserted into the
multimap of the message code. The downcast wrapper (249-257) is not modelled. -/
def register {σ : Type} (t : Table σ) (code : Nat) (prio : Int) (f : Entry σ) : Outcome (Table σ) :=
  if t.locked then .throws
  else .ok { t with handlers := fun c => if c = code then mmInsert (fun a b => decide (a ≤ b)) prio f (t.handlers c)
                                          else t.handlers c }

/-- `communicator.cpp:32-37`: a new communicator has no callbacks and is not locked. -/
def Table.empty {σ : Type} : Table σ := ⟨fun _ => [], false⟩

/-- `esl/simulation/agent_collection.hpp:76-88` `create`: once the agent was constructed its callbacks
are locked. -/
def lock {σ : Type} (t : Table σ) : Table σ := { t with locked := true }

/-- `communicator.cpp:108-112`: the highest priority among the callbacks, starting from the smallest
`int8_t`. -/
def highest {σ : Type} (hs : Handlers σ) : Int := hs.foldl (fun m e => max m e.1) (-128)

/-- The inbox: `flat_multimap` by delivery time, `communicator.hpp:104-109`. -/
abbrev Inbox := List (Nat × Msg)

/-- `communicator.cpp:92-115`: the loop that puts the messages that are due into the multimap from
highest priority to message. It stops at the first message of the future and skips messages without
callbacks. -/
def collect {σ : Type} (hs : Nat → Handlers σ) (now : Nat) : Inbox → List (Int × Msg) → List (Int × Msg)
  | [], acc => acc
  | (k, m) :: rest, acc =>
    if now < k then acc
    else if (hs m.type).isEmpty then collect hs now rest acc
    else collect hs now rest (mmInsert (fun a b => decide (a ≤ b)) (highest (hs m.type)) m acc)

/-- `communicator.cpp:120-126`: the inner loop that takes the messages with equal priority, returning them
and the rest. -/
def takeEqual (p : Int) : List (Int × Msg) → List Msg × List (Int × Msg)
  | [] => ([], [])
  | (q, m) :: l =>
    if q = p then ((m :: (takeEqual p l).1), (takeEqual p l).2) else ([], (q, m) :: l)

theorem takeEqual_length (p : Int) (l : List (Int × Msg)) : (takeEqual p l).2.length ≤ l.length := by
  induction l with
  | nil => simp [takeEqual]
  | cons e l ih =>
    obtain ⟨q, m⟩ := e
    unfold takeEqual
    split
    · simp; omega
    · simp

/-- `communicator.cpp:119-138`: the order in which messages are handled, with at most `fuel` groups. The list is the multimap in
reverse order (`rbegin` to `rend`). `shuffle` is what `std::shuffle` does to a group of equal priority (the
identity when the schedule is `in_order`). -/
def orderFuel (shuffle : List Msg → List Msg) : Nat → List (Int × Msg) → List Msg
  | 0, _ => []
  | _ + 1, [] => []
  | fuel + 1, (p, m) :: rs => shuffle (m :: (takeEqual p rs).1) ++ orderFuel shuffle fuel (takeEqual p rs).2

/-- There are at most as many groups as messages, so the fuel is never exhausted (see `order_cons`). -/
def order (shuffle : List Msg → List Msg) (rs : List (Int × Msg)) : List Msg := orderFuel shuffle rs.length rs

theorem orderFuel_eq (shuffle : List Msg → List Msg) (fuel : Nat) (rs : List (Int × Msg)) (h : rs.length ≤ fuel) :
    orderFuel shuffle fuel rs = order shuffle rs := by
  unfold order
  generalize hk : rs.length = k at h
  induction k using Nat.strongRecOn generalizing fuel rs with
  | ind k ih =>
    cases rs with
    | nil => subst hk; cases fuel <;> rfl
    | cons e rs =>
      obtain ⟨p, m⟩ := e
      have hl := takeEqual_length p rs
      simp at hk
      cases fuel with
      | zero => omega
      | succ fuel =>
        subst hk
        simp only [orderFuel]
        rw [ih _ (by omega) fuel (takeEqual p rs).2 rfl (by omega),
          ih _ (by omega) rs.length (takeEqual p rs).2 rfl (by omega)]

theorem order_nil (shuffle : List Msg → List Msg) : order shuffle [] = [] := rfl

theorem order_cons (shuffle : List Msg → List Msg) (p : Int) (m : Msg) (rs : List (Int × Msg)) :
    order shuffle ((p, m) :: rs) = shuffle (m :: (takeEqual p rs).1) ++ order shuffle (takeEqual p rs).2 := by
  rw [order, List.length_cons, orderFuel, orderFuel_eq _ _ _ (takeEqual_length p rs)]

/-- Induction over groups. -/
theorem order_induct (motive : List (Int × Msg) → Prop) (nil : motive [])
    (cons : ∀ p m rs, motive (takeEqual p rs).2 → motive ((p, m) :: rs)) (rs : List (Int × Msg)) : motive rs := by
  generalize hk : rs.length = k
  induction k using Nat.strongRecOn generalizing rs with
  | ind k ih =>
    cases rs with
    | nil => exact nil
    | cons e rs =>
      obtain ⟨p, m⟩ := e
      have hl := takeEqual_length p rs
      simp at hk
      exact cons p m rs (ih _ (by omega) _ rfl)

/-- The messages `process_messages` hands to `process_message`, in order (`communicator.cpp:87-140`). -/
def handled {σ : Type} (hs : Nat → Handlers σ) (shuffle : List Msg → List Msg) (now : Nat) (inbox : Inbox) :
    List Msg :=
  order shuffle (collect hs now inbox []).reverse

/-- The state while callbacks run: the agent, the messages it put into its outbox, and the calls made so
far (message, priority and line of the callback; a ghost field for stating properties). -/
structure Run (σ : Type) where
  agent : σ
  outbox : List Msg
  calls : List (Msg × Int × Nat)

/-- `communicator.cpp:60-76`: the callbacks of one message, from the back of the multimap to its front. -/
def runCallbacks {σ : Type} (step : Step) (m : Msg) : Handlers σ → Run σ × Nat → Run σ × Nat
  | [], s => s
  | (p, f) :: l, (r, first) =>
    let (a, out, next) := f.function r.agent m step
    runCallbacks step m l (⟨a, r.outbox ++ out, r.calls ++ [(m, p, f.line)]⟩, min first next)

/-- `communicator.cpp:48-79` `process_message`. The `assert` of line 67 is not modelled. -/
def processMessage {σ : Type} (hs : Nat → Handlers σ) (step : Step) (m : Msg) (r : Run σ) : Run σ × Nat :=
  runCallbacks step m (hs m.type).reverse (r, step.upper)

/-- `communicator.cpp:133-137`: handle the messages one after the other. -/
def processAll {σ : Type} (hs : Nat → Handlers σ) (step : Step) : List Msg → Run σ × Nat → Run σ × Nat
  | [], s => s
  | m :: ms, (r, first) =>
    let (r', next) := processMessage hs step m r
    processAll hs step ms (r', min first next)

/-- `communicator.cpp:87-140` `process_messages`: handles the due messages and returns the earliest time
at which a callback wants to be called again. -/
def processMessages {σ : Type} (hs : Nat → Handlers σ) (shuffle : List Msg → List Msg) (step : Step)
    (inbox : Inbox) (r : Run σ) : Run σ × Nat :=
  processAll hs step (handled hs shuffle step.lower inbox) (r, step.upper)

end Esl.Comm
