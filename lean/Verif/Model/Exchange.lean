import Verif.Model.Basic
import Verif.Model.OrderBook

/-!
# The centralized exchange and the matching engine

Models `esl/economics/markets/centralized_exchange.hpp` and `order_book/matching_engine.hpp`.

Agents and tickers are numbered. Books are binary tree order books (`Model/OrderBook.lean`). `flat_map`s are lists of entries with distinct keys; the order of iteration does not
matter for what is modelled. The optional output of orders (`output_orders`) is in `Model/OrderLog.lean`; logging and the sessions (that are never used) are not modelled.
-/

namespace Esl.Exchange
open Esl.Book

/-- `position_report` (centralized_exchange.hpp:106-136). -/
structure Position where
  supply : Nat
  bought : Nat
  sold : Nat
deriving DecidableEq, Repr

/-- `data_subscription` (centralized_exchange.hpp:174-190). -/
structure Subscription where
  depth : Nat
  start : Nat
  periodicity : Nat
deriving DecidableEq, Repr

/-- `market_data_request_message::request_t` (market_data_request_message.hpp:51-55). -/
inductive Request where
  | snapshot
  | stream
  | cancel
deriving DecidableEq, Repr

/-- The members of `centralized_exchange`: `traded_properties` (market.hpp:52), `books` (centralized_exchange.hpp:67), `positions` (centralized_exchange.hpp:172), `market_data_subscriptions` (centralized_exchange.hpp:192). -/
structure Exchange where
  traded : List Nat
  books : List (Nat × Book)
  positions : List (Nat × List (Nat × Position))
  subscriptions : List (Nat × List (Nat × Subscription))
deriving DecidableEq

/-- `flat_map::emplace` and `insert`: no effect when the key is present. -/
def emplaceKey {α : Type} (k : Nat) (v : α) (l : List (Nat × α)) : List (Nat × α) :=
  if l.any fun e => e.1 == k then l else l ++ [(k, v)]

/-- Assignment to the value of an existing key. -/
def assignKey {α : Type} (k : Nat) (v : α) (l : List (Nat × α)) : List (Nat × α) :=
  l.map fun e => if e.1 = k then (e.1, v) else e

/-- `flat_map::erase` of an element that was found. -/
def eraseKey {α : Type} (k : Nat) (l : List (Nat × α)) : List (Nat × α) := l.filter fun e => !(e.1 == k)

/-- centralized_exchange.hpp:427-438, the constructor: no books, and an empty map of positions for each ticker. The books are added by the modeller. -/
def create (traded : List Nat) (books : List (Nat × Book)) : Exchange :=
  ⟨traded, books, traded.foldl (fun l t => emplaceKey t [] l) [], []⟩

/-- centralized_exchange.hpp:221-237 `logon_participant`. -/
def logon (x : Exchange) (sender : Nat) (supply : Nat → Option Nat) : Exchange :=
  { x with positions := x.traded.foldl (fun l t => emplaceKey t [(sender, ⟨(supply t).getD 0, 0, 0⟩)] l) x.positions }

/-- centralized_exchange.hpp:250-275: one pass of the loop in `logout_participant`. -/
def logoutTicker (sender : Nat) (l : List (Nat × List (Nat × Position))) (t : Nat) : List (Nat × List (Nat × Position)) :=
  match l.lookup t with
  | none => l
  | some ps =>
    if ps.any fun e => e.1 == sender then
      (if (eraseKey sender ps).isEmpty then eraseKey t l else assignKey t (eraseKey sender ps) l)
    else l

/-- centralized_exchange.hpp:245-277 `logout_participant`. -/
def logout (x : Exchange) (sender : Nat) : Exchange :=
  { x with positions := x.traded.foldl (logoutTicker sender) x.positions }

/-- A message that the exchange creates: an `execution_report_message` with the order and the report, or a `market_data_message` with trades, best ask and best bid. -/
inductive Out where
  | report (recipient arrival : Nat) (order : Order) (r : Report)
  | data (recipient arrival symbol : Nat) (trades : List (Int × Nat)) (ask bid : Option Int)
deriving DecidableEq, Repr

/-- centralized_exchange.hpp:385-417: one pass of the loop over the subscribers. The sum of times is that of `uint64_t`. `latency` samples the communication model (zero without one). -/
def feedOne (latency : Nat → Nat) (lower symbol : Nat) (b : Book) (trade : Bool) (r : Report) (s : Nat × Subscription) : (Nat × Subscription) × List Out :=
  if u64 (s.2.start + s.2.periodicity) > lower then (s, [])
  else ((s.1, { s.2 with start := lower }),
    [.data s.1 (u64 (lower + latency s.1)) symbol (if trade then [(r.limit, r.quantity)] else []) b.ask b.bid])

/-- centralized_exchange.hpp:310-419: the loop over the reports. `changed` is `best_bid_ask_`, `subs` are the subscriptions for the symbol, if there is an entry. -/
def reportLoop (latency : Nat → Nat) (lower sender : Nat) (o : Order) (b : Book) (changed : Bool) :
    List Report → Option (List (Nat × Subscription)) → Option (List (Nat × Subscription)) × List Out
  | [], subs => (subs, [])
  | r :: rs, subs =>
    let response := Out.report r.owner (u64 (lower + latency sender)) o r
    match subs with
    | none =>
      let rest := reportLoop latency lower sender o b changed rs none
      (rest.1, response :: rest.2)
    | some l =>
      let trade := decide (r.state = .match_)
      if (trade && decide (r.owner = sender)) || changed then
        let fed := l.map (feedOne latency lower o.symbol b trade r)
        let rest := reportLoop latency lower sender o b changed rs (some (fed.map (·.1)))
        (rest.1, response :: (fed.flatMap (·.2) ++ rest.2))
      else
        let rest := reportLoop latency lower sender o b changed rs (some l)
        (rest.1, response :: rest.2)

/-- centralized_exchange.hpp:286-422 `insert_order`. -/
def insertOrder (latency : Nat → Nat) (x : Exchange) (lower sender : Nat) (o : Order) : Outcome (Exchange × List Out) :=
  match x.books.lookup o.symbol with
  | none => .throws
  | some b =>
    let b' := b.insert o
    let r := reportLoop latency lower sender o b' (decide (b.ask ≠ b'.ask) || decide (b.bid ≠ b'.bid)) b'.reports (x.subscriptions.lookup o.symbol)
    .ok ({ x with
      books := assignKey o.symbol { b' with reports := [] } x.books
      subscriptions := match r.1 with
        | none => x.subscriptions
        | some l => assignKey o.symbol l x.subscriptions }, r.2)

/-- centralized_exchange.hpp:578-586 `cancel`. -/
def cancelOrder (x : Exchange) (symbol id : Nat) : Exchange :=
  match x.books.lookup symbol with
  | none => x
  | some b => { x with books := assignKey symbol (b.cancel id) x.books }

/-- `std::numeric_limits<time_point>::max()`. -/
def maxTime : Nat := 2 ^ 64 - 1

/-- centralized_exchange.hpp:467-515: the request for one instrument. `market_data_subscriptions[i]` inserts an empty map. Erasing `end()` is undefined behaviour. -/
def requestOne (sender depth lower : Nat) (type : Request) (subs : List (Nat × List (Nat × Subscription))) (i : Nat) :
    Outcome (List (Nat × List (Nat × Subscription))) :=
  match type with
  | .snapshot =>
    let subs := emplaceKey i [] subs
    let l := (subs.lookup i).getD []
    let s : Subscription := ⟨depth, lower, maxTime⟩
    .ok (assignKey i (if l.any fun e => e.1 == sender then assignKey sender s l else emplaceKey sender s l) subs)
  | .cancel =>
    match subs.lookup i with
    | none => .ok subs
    | some l => if l.any fun e => e.1 == sender then .ok (assignKey i (eraseKey sender l) subs) else .ub
  | .stream =>
    match subs.lookup i with
    | none => .ok subs
    | some l =>
      let s : Subscription := ⟨depth, lower, 0⟩
      .ok (assignKey i (if l.any fun e => e.1 == sender then assignKey sender s l else emplaceKey sender s l) subs)

/-- The loop over the instruments of a request. -/
def requestAll (sender depth lower : Nat) (type : Request) : List Nat → List (Nat × List (Nat × Subscription)) → Outcome (List (Nat × List (Nat × Subscription)))
  | [], subs => .ok subs
  | i :: is, subs => requestOne sender depth lower type subs i >>= fun s => requestAll sender depth lower type is s

/-- The messages an exchange handles (centralized_exchange.hpp:441-549). -/
inductive Event where
  | logon (sender : Nat) (supply : Nat → Option Nat)
  | logout (sender : Nat)
  | request (sender depth : Nat) (type : Request) (instruments : List Nat)
  | order (sender : Nat) (o : Order)
  | cancel (symbol id : Nat)

/-- The callbacks; `lower` is the start of the time interval. -/
def handle (latency : Nat → Nat) (x : Exchange) (lower : Nat) : Event → Outcome (Exchange × List Out)
  | .logon s supply => .ok (logon x s supply, [])
  | .logout s => .ok (logout x s, [])
  | .request s depth type is => requestAll s depth lower type is x.subscriptions >>= fun subs => .ok ({ x with subscriptions := subs }, [])
  | .order s o => insertOrder latency x lower s o
  | .cancel symbol id => .ok (cancelOrder x symbol id, [])

/-- A history: events with the times at which they are handled. `latency i` are the latencies for the `i`-th event, since the seed that the communication model is given differs between calls (centralized_exchange.hpp:366-369, 397-401). -/
def runEvents (latency : Nat → Nat → Nat) : Exchange → List (Nat × Event) → Outcome (Exchange × List Out)
  | x, [] => .ok (x, [])
  | x, (t, e) :: es => handle (latency 0) x t e >>= fun r => runEvents (fun i => latency (i + 1)) r.1 es >>= fun r' => .ok (r'.1, r.2 ++ r'.2)

/-! ## The matching engine -/

/-- `matching_engine::books` (matching_engine.hpp:50) with the default factory. -/
abbrev Engine := List (Nat × Book)

/-- matching_engine.hpp:67-75 `insert`: creates the book when there is none. -/
def Engine.insert (e : Engine) (o : Order) : Engine :=
  let e := emplaceKey o.symbol empty e
  assignKey o.symbol (((e.lookup o.symbol).getD empty).insert o) e

/-- matching_engine.hpp:77-85 `cancel`. -/
def Engine.cancel (e : Engine) (symbol id : Nat) : Engine :=
  match e.lookup symbol with
  | none => e
  | some b => assignKey symbol (b.cancel id) e

/-- The operations of a matching engine. -/
inductive EngineOp where
  | insert (o : Order)
  | cancel (symbol id : Nat)

def Engine.apply (e : Engine) : EngineOp → Engine
  | .insert o => e.insert o
  | .cancel s i => e.cancel s i

end Esl.Exchange
