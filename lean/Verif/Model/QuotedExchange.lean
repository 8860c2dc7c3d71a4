import Verif.Model.Exchange
import Verif.Model.QuotedBook
/-!
# An exchange that trades quotes

Model of `esl/economics/markets/centralized_exchange.hpp` in which limits are quotes, as in the code, and books are those of `Model/QuotedBook.lean`. `Model/Exchange.lean` has integers instead. Everything that does not depend on limits (participants, requests for market
data) is taken from there. Comparisons of quotes may throw: an exception leaves the callback and, since nobody catches it, ends the simulation. Hence the state that is left behind is not part of the outcome.
-/
namespace Esl.QExchange
open Esl.Price Esl.Exchange

/-- The members of `centralized_exchange`: `traded_properties` (market.hpp:52), `books` (centralized_exchange.hpp:67), `positions` (centralized_exchange.hpp:172), `market_data_subscriptions` (centralized_exchange.hpp:192). -/
structure Venue where
  traded : List Nat
  books : List (Nat × QBook.Book)
  positions : List (Nat × List (Nat × Position))
  subscriptions : List (Nat × List (Nat × Subscription))

/-- centralized_exchange.hpp:427-438, the constructor: an empty map of positions for each ticker. The modeller adds a new book for each ticker. -/
def create (traded : List Nat) : Venue :=
  ⟨traded, traded.map fun t => (t, QBook.empty), traded.foldl (fun l t => emplaceKey t [] l) [], []⟩

/-- Everything but the books, to use the functions of `Model/Exchange.lean` for participants. -/
def Venue.shell (x : Venue) : Exchange.Exchange := ⟨x.traded, [], x.positions, x.subscriptions⟩

/-- A message that the exchange creates: an `execution_report_message` with the order and the report, or a `market_data_message` with trades, best ask and best bid. -/
inductive Out where
  | report (recipient arrival : Nat) (order : QBook.Order) (r : QBook.Report)
  | data (recipient arrival symbol : Nat) (trades : List (Quote × Nat)) (ask bid : Option Quote)
deriving DecidableEq

/-- `binary_tree_order_book.hpp:99-105` `ask`. -/
def ask (b : QBook.Book) : Option Quote := b.asks.head?.map (·.key)

/-- `binary_tree_order_book.hpp:90-96` `bid`. -/
def bid (b : QBook.Book) : Option Quote := b.bids.head?.map (·.key)

/-- `operator !=` of `std::optional<quote>`: the values are compared if there are two. -/
def differs : Option Quote → Option Quote → Outcome Bool
  | none, none => .ok false
  | some p, some q => Quote.ne p q
  | _, _ => .ok true

/-- centralized_exchange.hpp:382: `ask_ != b.ask() || bid_ != b.bid()`. -/
def changed (ask₀ bid₀ : Option Quote) (b : QBook.Book) : Outcome Bool :=
  differs ask₀ (ask b) >>= fun c => if c then .ok true else differs bid₀ (bid b)

/-- centralized_exchange.hpp:385-417: one pass of the loop over the subscribers, as in `Exchange.feedOne`. -/
def feedOne (latency : Nat → Nat) (lower symbol : Nat) (b : QBook.Book) (trade : Bool) (r : QBook.Report) (s : Nat × Subscription) : (Nat × Subscription) × List Out :=
  if u64 (s.2.start + s.2.periodicity) > lower then (s, [])
  else ((s.1, { s.2 with start := lower }),
    [.data s.1 (u64 (lower + latency s.1)) symbol (if trade then [(r.limit, r.quantity)] else []) (ask b) (bid b)])

/-- centralized_exchange.hpp:310-419: the loop over the reports. Quotes are compared in each pass, if there is an entry for the symbol in the subscriptions. -/
def reportLoop (latency : Nat → Nat) (lower sender : Nat) (o : QBook.Order) (b : QBook.Book) (ask₀ bid₀ : Option Quote) :
    List QBook.Report → Option (List (Nat × Subscription)) → Outcome (Option (List (Nat × Subscription)) × List Out)
  | [], subs => .ok (subs, [])
  | r :: rs, subs =>
    let response := Out.report r.owner (u64 (lower + latency sender)) o r
    match subs with
    | none => reportLoop latency lower sender o b ask₀ bid₀ rs none >>= fun rest => .ok (rest.1, response :: rest.2)
    | some l =>
      let trade := decide (r.state = .match_)
      changed ask₀ bid₀ b >>= fun c =>
      if (trade && decide (r.owner = sender)) || c then
        let fed := l.map (feedOne latency lower o.symbol b trade r)
        reportLoop latency lower sender o b ask₀ bid₀ rs (some (fed.map (·.1))) >>= fun rest => .ok (rest.1, response :: (fed.flatMap (·.2) ++ rest.2))
      else reportLoop latency lower sender o b ask₀ bid₀ rs (some l) >>= fun rest => .ok (rest.1, response :: rest.2)

/-- centralized_exchange.hpp:286-422 `insert_order`. -/
def insertOrder (latency : Nat → Nat) (x : Venue) (lower sender : Nat) (o : QBook.Order) : Outcome (Venue × List Out) :=
  match x.books.lookup o.symbol with
  | none => .throws
  | some b =>
    (b.insert o).2 >>= fun _ =>
    reportLoop latency lower sender o (b.insert o).1 (ask b) (bid b) (b.insert o).1.reports (x.subscriptions.lookup o.symbol) >>= fun r =>
    .ok ({ x with
      books := assignKey o.symbol { (b.insert o).1 with reports := [] } x.books
      subscriptions := match r.1 with
        | none => x.subscriptions
        | some l => assignKey o.symbol l x.subscriptions }, r.2)

/-- centralized_exchange.hpp:578-586 `cancel`. -/
def cancelOrder (x : Venue) (symbol id : Nat) : Outcome Venue :=
  match x.books.lookup symbol with
  | none => .ok x
  | some b => (b.cancel id).2 >>= fun _ => .ok { x with books := assignKey symbol (b.cancel id).1 x.books }

/-- The messages an exchange handles (centralized_exchange.hpp:441-549). -/
inductive Event where
  | logon (sender : Nat) (supply : Nat → Option Nat)
  | logout (sender : Nat)
  | request (sender depth : Nat) (type : Request) (instruments : List Nat)
  | order (sender : Nat) (o : QBook.Order)
  | cancel (symbol id : Nat)

/-- The callbacks; `lower` is the start of the time interval. -/
def handle (latency : Nat → Nat) (x : Venue) (lower : Nat) : Event → Outcome (Venue × List Out)
  | .logon s supply => .ok ({ x with positions := (logon x.shell s supply).positions }, [])
  | .logout s => .ok ({ x with positions := (logout x.shell s).positions }, [])
  | .request s depth type is => requestAll s depth lower type is x.subscriptions >>= fun subs => .ok ({ x with subscriptions := subs }, [])
  | .order s o => insertOrder latency x lower s o
  | .cancel symbol id => cancelOrder x symbol id >>= fun x' => .ok (x', [])

/-- A history, as in `Exchange.runEvents`. -/
def runEvents (latency : Nat → Nat → Nat) : Venue → List (Nat × Event) → Outcome (Venue × List Out)
  | x, [] => .ok (x, [])
  | x, (t, e) :: es => handle (latency 0) x t e >>= fun r => runEvents (fun i => latency (i + 1)) r.1 es >>= fun r' => .ok (r'.1, r.2 ++ r'.2)

end Esl.QExchange
