import Verif.Model.Serialization
/-!
Creating messages (`communicator::create_message` and the constructors of messages), what the types of messages save in archives, and models of latency.
-/
namespace Esl.Messages
open Esl.Archive

/-- The arguments of the constructor of a message that go into its header; the constructors of the library give each of them a default value. -/
structure Arguments where
  sender : List Nat := []
  recipient : List Nat := []
  sent : Nat := 0
  received : Nat := 0
deriving DecidableEq

/-- `interaction/message.hpp:42-55` with `header.hpp:130-143`. These constructors pass their arguments on in this order: `logon_message.hpp:43-56`, `logout_message.hpp:39-52`, `market_data_message.hpp:53-67`,
`market_data_request_message.hpp:68-85`, `new_order_single_message.hpp:42-54`, `new_order_list_message.hpp:44-57`, `cancel_order_message.hpp:45-58`, `execution_report_message.hpp:50-60`,
`order_status_request_message.hpp:40-50`, `markets/order_message.hpp:44-53`, `walras/order_message.hpp:44-50`, `markets/quote_message.hpp:57-70`, `walras/quote_message.hpp:41-53`, `impact_function/order.hpp:49-57`.
`replace_order_message.hpp:35-40` and `position_request_message.hpp:36-42` have no constructor of their own. -/
def construct (code : Nat) (a : Arguments) : Header := ⟨code, a.sender, a.recipient, a.sent, a.received⟩

/-- `interaction/transfer.hpp:76-92`: the times are not among the arguments. -/
def transferArguments (sender recipient : List Nat) : Arguments := { sender := sender, recipient := recipient }

/-- `interaction/communicator.hpp:187-202` `create_message`: the message that is returned, and the outbox. `asserts` says whether assertions are checked. A failing assertion ends the program, which is modelled as an exception. -/
def createMessage {β : Type} (asserts : Bool) (outbox : List (Header × β)) (recipient : List Nat) (delivery code : Nat) (a : Arguments) (contents : β) : Outcome ((Header × β) × List (Header × β)) :=
  if asserts && recipient.isEmpty then .throws
  else
    let h := construct code a
    let m := ({ h with recipient := recipient, received := delivery }, contents)
    .ok (m, outbox ++ [m])

/-! ## Messages that the library creates -/

/-- The messages that agents of the library create, by the place where they do. -/
inductive Site where
  /-- walras/price_setter.cpp:155-156 and impact_function/market.cpp:146-147 -/
  | quote
  /-- walras/price_setter.cpp:529-533: property for a participant -/
  | give
  /-- walras/price_setter.cpp:539-544: property from a participant -/
  | take
  /-- centralized_exchange.hpp:370-374 -/
  | report
  /-- centralized_exchange.hpp:402-405 -/
  | data
  /-- shareholder.cpp:94-95 -/
  | record
  /-- company.cpp:130-132 -/
  | announcement
deriving DecidableEq, Repr

/-- The header of the message that the agent `self` creates for the agent `other` in a step that begins at `now`, to be delivered at `delivery`. -/
def Site.header (s : Site) (code : Nat) (self other : List Nat) (now delivery : Nat) : Outcome Header :=
  match s with
  | .take => createMessage false [] other delivery code (transferArguments other self) () >>= fun m => .ok m.1.1
  | .give => createMessage false [] other delivery code (transferArguments self other) () >>= fun m => .ok m.1.1
  | .report | .data => createMessage false [] other delivery code {} () >>= fun m => .ok { m.1.1 with sender := self, sent := now }
  | .quote | .record | .announcement => createMessage false [] other delivery code { sender := self, recipient := other } () >>= fun m => .ok m.1.1

/-- `markets/order_message.hpp:60-66`: an order that answers a quote. -/
def reply (code : Nat) (q : Header) : Header := construct code ⟨q.recipient, q.sender, q.received, q.received⟩

/-! ## What is saved of each type of message -/

/-- A class without a function `serialize` of its own, or with one that saves nothing but its base: nothing is written, and the target keeps what it has. -/
def nothing {β : Type} : Codec β := ⟨fun _ => [], fun t a => .ok (t, a)⟩

/-- `interaction/transfer.hpp:96-107`: transferor, transferee and what is transferred, as a sequence of properties with amounts. -/
def transferContents : Codec (List Nat × List Nat × List (List Nat × Nat)) :=
  pair (vector natCodec 0) (pair (vector natCodec 0) (vector (pair (vector natCodec 0) natCodec) ([], 0)))

/-- A new `quote` without arguments. -/
def blankQuote : Quote := ⟨1, ⟨0, ⟨['U', 'S', 'D'], 100⟩⟩⟩

/-- `markets/quote_message.hpp:74-84`: the proposed quotes, and whether they are binding (as a number). Also for `walras/quote_message.hpp:57-67`, `order_status_response_message.hpp` and `impact_function/quote.hpp`. -/
def quoteContents : Codec (List (List Nat × Quote) × Nat) := pair (vector (pair (vector natCodec 0) quote) ([], blankQuote)) natCodec

/-- Supply and demand by property: `differentiable_order_message::supply`. It is not saved (walras/differentiable_order_message.hpp:60-71), and the function saves nothing (differentiable_demand_supply_function.hpp:78-83). -/
def walrasOrderContents : Codec (List (List Nat × Nat × Nat)) := nothing

/-- `impact_function/order.hpp:59-66`: volumes by property, with the side; not saved. -/
def impactOrderContents : Codec (List (List Nat × Nat × Bool)) := nothing

/-- A limit order: symbol, side, limit, quantity and owner, as numbers. -/
abbrev LimitOrder := Nat × Bool × Int × Nat × List Nat

/-- `new_order_single_message.hpp:35-57`: no function `serialize`. -/
def newOrderContents : Codec LimitOrder := nothing

/-- `new_order_list_message.hpp:37-59`: no function `serialize`. -/
def orderListContents : Codec (List LimitOrder) := nothing

/-- `cancel_order_message.hpp:35-60`: the symbol and the order; no function `serialize`. -/
def cancelContents : Codec (Nat × Nat) := nothing

/-! ## Latency -/

/-- `interaction/communication.hpp:56-70` `instant`. -/
def instant : Nat := 0

/-- `interaction/communication.hpp:79-107` `shifted_gamma_latency::sample`, before the number is cut to a whole number: the parameters of `std::gamma_distribution` are shape and *scale*, so that a sample is `scale` times a sample
`g` for scale one (with the same shape). Numbers are rational. -/
def gammaLatency (rate shift g : Rat) : Rat := shift + rate * g

/-- The conversion to a duration, an unsigned number: undefined for negative numbers and for those that are too large. -/
def toDuration (x : Rat) : Outcome Nat := if x ≤ -1 ∨ (2 : Rat) ^ 64 ≤ x then .ub else .ok x.floor.toNat

/-! ## Balance sheets -/

/-- `accounting/balance_sheet.hpp:33-57`: the constructor ignores the owner, and the loop over its inventory is commented out. The result is in the reporting currency. -/
def balanceSheetAssets (_inventory : List (Nat × Nat)) : Int := 0

end Esl.Messages
