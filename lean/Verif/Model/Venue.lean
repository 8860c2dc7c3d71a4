import Verif.Model.Scheduler
import Verif.Model.Exchange
/-!
# An exchange that takes part in a simulation

Puts the callbacks of `esl/economics/markets/centralized_exchange.hpp` (`Model/Exchange.lean`) into an agent that the scheduler (`Model/Scheduler.lean`) runs.
-/
namespace Esl.Venue
open Esl.Comm Esl.Sched Esl.Book Esl.Exchange

/-- The state of an agent that is a `centralized_exchange` (centralized_exchange.hpp:60-214), and in `rest` everything else. `failed` is set once a callback has thrown an exception or its behaviour is undefined: nothing catches exceptions in the
job of the agent (`model.cpp:114-190`), so that the run ends. Simplification: the modelled run goes on with the mark, and statements are about runs without marks. -/
structure Desk (τ : Type) where
  exchange : Exchange
  failed : Bool
  rest : τ

/-- `library_message_code<0x00C00>()` (logon_message.hpp:39), with the mask of header.hpp:46-57. -/
def logonCode : Nat := 0x8000000000000C00

/-- `library_message_code<0x00C01>()` (logout_message.hpp:37). -/
def logoutCode : Nat := 0x8000000000000C01

/-- `library_message_code<0x00C02>()` (market_data_request_message.hpp:40). -/
def requestCode : Nat := 0x8000000000000C02

/-- `library_message_code<0x00C05>()` (new_order_single_message.hpp:37). -/
def orderCode : Nat := 0x8000000000000C05

/-- `library_message_code<0x00C07>()` (cancel_order_message.hpp:37). -/
def cancelCode : Nat := 0x8000000000000C07

/-- `library_message_code<0x00C09>()` (execution_report_message.hpp:37). -/
def reportCode : Nat := 0x8000000000000C09

/-- `library_message_code<0x00C0B>()` (market_data_message.hpp:36). -/
def dataCode : Nat := 0x8000000000000C0B

/-- What the derived message types add to the header, as numbers: how the contents of messages to an exchange are read (logon_message.hpp:41-44, market_data_request_message.hpp:43-72, new_order_single_message.hpp:40, cancel_order_message.hpp:40-42),
and how those of messages from an exchange are written (execution_report_message.hpp:40-48, market_data_message.hpp:41-53). `reported` reads execution reports. -/
structure Contents where
  supply : Nat → Nat → Option Nat
  request : Nat → Nat × Request × List Nat
  order : Nat → Order
  cancel : Nat → Nat × Nat
  report : Order → Report → Nat
  reported : Nat → Order × Report
  data : List (Int × Nat) → Option Int → Option Int → Nat → Nat

/-- The messages for which an exchange registers callbacks (centralized_exchange.hpp:441-549), and what they ask for. -/
def event (c : Contents) (m : Msg) : Option Exchange.Event :=
  if m.type = logonCode then some (.logon m.sender (c.supply m.payload))
  else if m.type = logoutCode then some (.logout m.sender)
  else if m.type = requestCode then some (.request m.sender (c.request m.payload).1 (c.request m.payload).2.1 (c.request m.payload).2.2)
  else if m.type = orderCode then some (.order m.sender (c.order m.payload))
  else if m.type = cancelCode then some (.cancel (c.cancel m.payload).1 (c.cancel m.payload).2)
  else none

/-- A message from the exchange as it is put into the outbox (centralized_exchange.hpp:364-376, 392-416; communicator.hpp:190-202 `create_message`). -/
def post (c : Contents) (self lower : Nat) : Out → Msg
  | .report recipient arrival o r => ⟨reportCode, self, recipient, lower, arrival, c.report o r⟩
  | .data recipient arrival symbol trades ask bid => ⟨dataCode, self, recipient, lower, arrival, c.data trades ask bid symbol⟩

/-- The callbacks that an exchange registers (centralized_exchange.hpp:441-549). All of them return the end of the step. The line is that of the callback for orders. `latency` is what the communication model samples at a time, for a recipient. -/
def exchangeEntry {τ : Type} (c : Contents) (latency : Nat → Nat → Nat) (self : Nat) : Comm.Entry (Desk τ) where
  line := 528
  function := fun s m step =>
    match event c m with
    | none => (s, [], step.upper)
    | some e =>
      match handle (latency step.lower) s.exchange step.lower e with
      | .ok (x, outs) => ({ s with exchange := x }, outs.map (post c self step.lower), step.upper)
      | _ => ({ s with failed := true }, [], step.upper)

end Esl.Venue
