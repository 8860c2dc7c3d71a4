import Verif.Model.Exchange

/-!
# The log of orders of an exchange

Models the optional output `output_orders` of `esl/economics/markets/centralized_exchange.hpp` when the modeller has set it. The output itself is modelled in `Model/Output.lean`; here it is the list of the values
that are put, with their times.
-/

namespace Esl.OrderLog
open Esl.Book Esl.Exchange

/-- What is put in the output (centralized_exchange.hpp:205-212, 353-361): the time, the symbol, the limit, the owner, the side, the quantity and the state. -/
structure Logged where
  time : Nat
  symbol : Nat
  limit : Int
  owner : Nat
  side : Side
  quantity : Nat
  state : Status
deriving DecidableEq, Repr

/-- centralized_exchange.hpp:352-362: the loop over the reports, as far as it writes the log. -/
def logReports (lower sender symbol : Nat) : List Report → List Logged
  | [] => []
  | r :: rs =>
    if r.state ≠ .invalid ∧ r.owner = sender then ⟨lower, symbol, r.limit, r.owner, r.side, r.quantity, r.state⟩ :: logReports lower sender symbol rs
    else logReports lower sender symbol rs

/-- What handling an event adds to the log: only `insert_order` writes (centralized_exchange.hpp:286-362), others such as `cancel` (578-586) do not. -/
def logEvent (x : Exchange) (lower : Nat) : Event → List Logged
  | .order sender o =>
    match x.books.lookup o.symbol with
    | none => []
    | some b => logReports lower sender o.symbol (b.insert o).reports
  | _ => []

/-- A history, with the log that it leaves. The exchange itself is not affected by the log. -/
def runLogged (latency : Nat → Nat → Nat) : Exchange → List (Nat × Event) → Outcome (Exchange × List Out × List Logged)
  | x, [] => .ok (x, [], [])
  | x, (t, e) :: es =>
    handle (latency 0) x t e >>= fun r => runLogged (fun i => latency (i + 1)) r.1 es >>= fun r' => .ok (r'.1, r.2 ++ r'.2.1, logEvent x t e ++ r'.2.2)

end Esl.OrderLog
