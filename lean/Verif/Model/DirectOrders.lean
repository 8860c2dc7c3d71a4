import Verif.Model.Exchange

/-!
# Orders that the modeller enters at an exchange without a message

Models the public method `insert` of `esl/economics/markets/centralized_exchange.hpp`, between the messages that the exchange handles (`Model/Exchange.lean`). The public method `cancel` is what the
callback for cancellations calls (centralized_exchange.hpp:540-549), so that entering a cancellation directly is the event `Event.cancel`.
-/

namespace Esl.DirectOrders
open Esl.Book Esl.Exchange

/-- centralized_exchange.hpp:560-573 `insert`. The book that it returns a reference to is the one found in the exchange afterwards. -/
def insertDirect (x : Exchange) (o : Order) : Outcome Exchange :=
  match x.books.lookup o.symbol with
  | none => .throws
  | some b => .ok { x with books := assignKey o.symbol (b.insert o) x.books }

/-- What happens to an exchange: it handles a message, or the modeller enters an order. -/
inductive Act where
  | message (e : Event)
  | insert (o : Order)

/-- The effect of an act at time `t`, and the messages that are created: by the callbacks (centralized_exchange.hpp:441-549), and none by `insert` (centralized_exchange.hpp:560-573). -/
def act (latency : Nat → Nat) (x : Exchange) (t : Nat) : Act → Outcome (Exchange × List Out)
  | .message e => handle latency x t e
  | .insert o => insertDirect x o >>= fun x' => .ok (x', [])

/-- A history of acts with the times at which they happen; `latency i` as in `Exchange.runEvents` (centralized_exchange.hpp:366-369, 397-401). -/
def runActs (latency : Nat → Nat → Nat) : Exchange → List (Nat × Act) → Outcome (Exchange × List Out)
  | x, [] => .ok (x, [])
  | x, (t, a) :: as => act (latency 0) x t a >>= fun r => runActs (fun i => latency (i + 1)) r.1 as >>= fun r' => .ok (r'.1, r.2 ++ r'.2)

end Esl.DirectOrders
