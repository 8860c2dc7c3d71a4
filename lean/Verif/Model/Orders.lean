import Verif.Model.Basic
import Verif.Model.OrderBook
import Verif.Model.Price
import Verif.Model.Ticker
import Verif.Model.Exchange
/-!
Limit orders as objects (`economics/markets/order_book/order.hpp`), how they are made in Python (`python_module_esl.cpp`), and the position reports of an exchange (`economics/markets/centralized_exchange.hpp`).
-/
namespace Esl.Orders
open Esl.Price (Quote)
open Esl.Ticker (Ticker)
open Esl.Identity (Ident)
export Esl.Book (Side Lifetime)

/-- `order.hpp:45-67` `limit_order`. The quantity is a `std::uint32_t`. -/
structure Order where
  lifetime : Lifetime
  side : Side
  symbol : Ticker
  owner : Ident
  limit : Quote
  quantity : Nat
deriving DecidableEq, Repr

/-- `order.hpp:69-84`, the constructor. Arguments are converted to `std::uint32_t` by the caller. -/
def create (symbol : Ticker) (owner : Ident) (side : Side) (limit : Quote) (quantity : Nat) (lifetime : Lifetime) : Order := ⟨lifetime, side, symbol, owner, limit, quantity⟩

/-- `a && b` where `b` may throw. -/
def andThen (a : Bool) (b : Outcome Bool) : Outcome Bool := if a then b else .ok false

/-- `order.hpp:86-94` `operator==`. -/
def Order.eq (a b : Order) : Outcome Bool :=
  andThen (decide (a.lifetime = b.lifetime)) (andThen (decide (a.side = b.side)) (andThen (Ticker.eq a.symbol b.symbol) (andThen (Identity.eq a.owner b.owner)
    (Quote.eq a.limit b.limit >>= fun l => .ok (l && decide (a.quantity = b.quantity))))))

/-- `order.hpp:98-101` `closed`. -/
def Order.closed (o : Order) : Bool := decide (0 = o.quantity)

/-- `order.hpp:106-109` `cancel`. -/
def Order.cancel (o : Order) : Order := { o with quantity := 0 }

/-- The conversion of a Python integer to an unsigned type of `w` bits: a number that does not fit is refused with an exception. -/
def toUnsigned (w : Nat) (z : Int) : Outcome Nat := if 0 ≤ z ∧ z < 2 ^ w then .ok z.toNat else .throws

/-- `python_module_esl.cpp:749-761` `python_limit_order_message_constructor`: the argument is a `std::uint64_t`, which is passed on to the constructor of `limit_order` as a `std::uint32_t`. -/
def pythonOrder (symbol : Ticker) (owner : Ident) (side : Side) (limit : Quote) (quantity : Int) (lifetime : Lifetime) : Outcome Order :=
  toUnsigned 64 quantity >>= fun n => .ok (create symbol owner side limit (n % 2 ^ 32) lifetime)

/-- `python_module_esl.cpp:2265`, the assignment of the attribute `quantity`. -/
def pythonAssign (o : Order) (quantity : Int) : Outcome Order := toUnsigned 32 quantity >>= fun n => .ok { o with quantity := n }

/-- `python_module_esl.cpp:2268-2269`, `x in orders` for `limit_orders`: `std::find` from the first element on. -/
def contains (x : Order) : List Order → Outcome Bool
  | [] => .ok false
  | o :: l => Order.eq o x >>= fun e => if e then .ok true else contains x l

/-- The order as a book takes it; `symbolNumber` and `ownerNumber` number tickers and agents (`Model/OrderBook.lean`). The limit of one item in the smallest unit. -/
def Order.booked (o : Order) (symbolNumber : Ticker → Nat) (ownerNumber : Ident → Nat) : Book.Order :=
  ⟨o.lifetime, o.side, symbolNumber o.symbol, ownerNumber o.owner, o.limit.price.value, o.quantity⟩

/-! ## Positions -/

/-- `centralized_exchange.hpp:142-145` `liquidity_provided`. -/
def liquidityProvided (p : Exchange.Position) : Nat := min p.bought p.sold

/-- `centralized_exchange.hpp:151-157` `liquidity_taken`; the subtractions are those of `std::uint64_t`. -/
def liquidityTaken (p : Exchange.Position) : Nat := if p.bought ≥ p.sold then u64 (p.bought + (2 ^ 64 - p.sold)) else u64 (p.sold + (2 ^ 64 - p.bought))

/-- `centralized_exchange.hpp:159-166` `operator<<`. -/
def printPosition (p : Exchange.Position) : List Char := (Nat.toDigits 10 p.supply) ++ '+' :: (Nat.toDigits 10 p.bought ++ '-' :: (Nat.toDigits 10 p.sold ++ ['\n']))

/-- `centralized_exchange.hpp:264`: whether a warning is logged that the trades do not clear, when the participant logs out. The sum is that of `std::uint64_t`. -/
def warned (p : Exchange.Position) : Bool := decide (u64 (p.supply + p.bought) < p.sold)

end Esl.Orders
