import Verif.Model.Basic
import Verif.Model.Communicator
import Mathlib.Algebra.Order.Field.Rat

/-!
# The impact function market

Models `esl/economics/markets/impact_function/market.cpp` and `order.hpp`. Agents and properties are numbered. `double`s are rational numbers with exact arithmetic;
dividing by zero gives an infinity or a NaN, for which there is `none`.
-/

namespace Esl.Impact
open Esl.Comm

/-- `order_message::side_t` (impact_function/order.hpp:41-44): `buy` is 0, `sell` is 1. -/
inductive Side where
  | buy
  | sell
deriving DecidableEq, Repr

/-- `double(side)`. -/
def Side.toRat : Side → Rat
  | .buy => 0
  | .sell => 1

/-- An order: for each property a pair of a volume (`uint64_t`) and a side (`impact_function/order.hpp:46`). -/
abbrev Volumes := List (Nat × Nat × Side)

/-- A traded property with its quote (impact_function/market.hpp:65): price in the smallest unit of the currency, and lot. -/
structure Traded where
  id : Nat
  value : Int
  lot : Nat
deriving DecidableEq, Repr

/-- The members of `market` that `act` uses (impact_function/market.hpp:55-65); `participants` in order of iteration. -/
structure Market where
  sendingQuotes : Bool
  traded : List Traded
  participants : List Nat
deriving DecidableEq

/-- market.cpp:90-101: the orders, the first of each sender, up to the first stale one; and whether there is a stale one. -/
def collectOrders (code lower : Nat) : Inbox → List (Nat × Msg) → List (Nat × Msg) × Bool
  | [], acc => (acc, false)
  | (_, m) :: l, acc =>
    if m.type = code then
      if m.sent < lower then (acc, true)
      else collectOrders code lower l (if acc.any fun e => e.1 == m.sender then acc else acc ++ [(m.sender, m)])
    else collectOrders code lower l acc

/-- market.cpp:166-170: what one entry adds to the volume. The first element of the pair, which is the volume, is compared with the sides (`buy` is 0, `sell` is 1),
and the second element, which is the side, is added or subtracted. -/
def contribution (volume : Nat) (side : Side) : Rat :=
  if volume = 0 then side.toRat
  else if volume = 1 then -side.toRat
  else 0

/-- market.cpp:159-172: `volumes_[p]`. -/
def netVolume (orders : List Volumes) (p : Nat) : Rat :=
  (orders.flatten.map fun e => if e.1 = p then contribution e.2.1 e.2.2 else 0).sum

/-- The properties in `volumes_`. -/
def ordered (orders : List Volumes) : List Nat := (orders.flatten.map (·.1)).eraseDups

/-- `traded_properties[p]` (market.cpp:176): inserts a default quote, of price zero and lot one, when the property is not traded. -/
def touch (traded : List Traded) (p : Nat) : List Traded :=
  if traded.any fun t => t.id == p then traded else traded ++ [⟨p, 0, 1⟩]

/-- `double(quote)` (markets/quote.hpp:131-137) in the smallest unit of currency: price per unit. `price::operator double` divides by the denominator of the currency,
which is a constant factor that is left out here. -/
def unitPrice (t : Traded) : Rat := t.value / t.lot

/-- market.cpp:174-178: `(old + impact(v)) / old`; `none` when dividing by zero. -/
def multiplier (f : Rat → Rat) (traded : List Traded) (v : Rat) (p : Nat) : Option Rat :=
  match traded.find? fun t => t.id == p with
  | none => none
  | some t => if unitPrice t = 0 then none else some ((unitPrice t + f v) / unitPrice t)

/-- market.cpp:153-181 `clear_market`: the multipliers, and the traded properties afterwards. -/
def clearMarket (f : Rat → Rat) (traded : List Traded) (orders : List Volumes) : List (Nat × Option Rat) × List Traded :=
  let traded' := (ordered orders).foldl touch traded
  ((ordered orders).map fun p => (p, multiplier f traded' (netVolume orders p) p), traded')

/-- What `act` does: quotes sent to each participant with their delivery time, multipliers computed, and the time of the next activation. -/
structure ActResult where
  market : Market
  quotes : List (Nat × Nat × List Traded)
  multipliers : List (Nat × Option Rat)
  wakeUp : Nat

/-- market.cpp:71-151 `act`. `volumes` reads the payload of an order. The multipliers are not used (108-117): quotes are sent with the prices in `traded_properties`. -/
def act (code : Nat) (volumes : Msg → Volumes) (f : Rat → Rat) (m : Market) (step : Step) (inbox : Inbox) : ActResult :=
  if m.sendingQuotes then
    ⟨{ m with sendingQuotes := false }, m.participants.map fun p => (p, step.lower + 1, m.traded), [], step.lower⟩
  else
    let r := collectOrders code step.lower inbox []
    let next := if r.2 then step.lower else step.upper
    if r.1 = [] then
      ⟨m, m.participants.map fun p => (p, step.lower + 1, m.traded), [], if step.lower > 1 then step.lower else next⟩
    else
      let c := clearMarket f m.traded (r.1.map fun e => volumes e.2)
      ⟨{ m with traded := c.2 }, m.participants.map fun p => (p, step.lower + 1, c.2), c.1, next⟩

end Esl.Impact
