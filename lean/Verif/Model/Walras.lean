import Verif.Model.Basic
import Verif.Model.Double
import Verif.Model.Communicator
/-!
Model of `esl/economics/markets/walras/price_setter.cpp`: collecting orders and sending quotes (`act`), applying a
solution to the quotes, turning demands into integer transfers, settlement, netting.
The solver itself is modelled in `Model/Tatonnement.lean`.

Agents and properties are numbered. `double` arithmetic is exact rational arithmetic followed by a
rounding function where the result matters (see `Model/Double.lean`).
-/
namespace Esl.Walras
open Esl.Comm

/-! ## `act` -/

/-- The fields of the price setter that `act` uses: `state == sending_quotes`, `next_market_date` (price_setter.hpp) and
`participants` (markets/market.hpp:59), in iteration order. -/
structure Setter where
  sendingQuotes : Bool
  nextMarketDate : Nat
  participants : List Nat
deriving DecidableEq, Repr

/-- price_setter.cpp:72-80, the constructor. -/
def Setter.initial (participants : List Nat) : Setter := ⟨true, 0, participants⟩

/-- price_setter.cpp:106-117: the loop over the inbox. `code` is the message code of
`differentiable_order_message`. The loop ends at the first stale order; `emplace` keeps the first order of each sender. -/
def collectOrders (code lower : Nat) : Inbox → List (Nat × Msg) → List (Nat × Msg)
  | [], acc => acc
  | (_, m) :: l, acc =>
    if m.type = code then
      if m.sent < lower then acc
      else collectOrders code lower l (if acc.any fun e => e.1 == m.sender then acc else acc ++ [(m.sender, m)])
    else collectOrders code lower l acc

/-- What one `act` does: the orders it clears (the market is cleared iff there are any), the quotes it sends, as pairs of
recipient and delivery time, and the wake-up time it asks for. -/
structure ActResult where
  setter : Setter
  orders : List (Nat × Msg)
  quotes : List (Nat × Nat)
  wakeUp : Nat

/-- price_setter.cpp:101-162 `act`. The clearing itself (123) and the contents of the quotes are modelled below. -/
def act (code : Nat) (s : Setter) (step : Step) (inbox : Inbox) : ActResult :=
  let orders := collectOrders code step.lower inbox []
  let offs := if orders = [] then 0 else 1
  let wakeUp := if orders = [] then step.lower else step.lower + 1
  let date := step.lower + offs
  if (s.sendingQuotes = true ∧ s.nextMarketDate = 0) ∨ s.nextMarketDate < date then
    ⟨⟨false, date, s.participants⟩, orders, s.participants.map fun p => (p, date), wakeUp⟩
  else ⟨{ s with sendingQuotes := false }, orders, [], wakeUp⟩

/-! ## `apply_results` -/

/-- A traded property with a quote of type `price` (quote.hpp): identifier, value of the price in the smallest unit of the
currency, and lot size. Quotes that are exchange rates (price_setter.cpp:192-194) are not modelled. -/
structure Quoted where
  id : Nat
  value : Int
  lot : Nat
deriving DecidableEq, Repr

/-- price_setter.cpp:186-190: the new value of one price. `fl` rounds the conversion of the value to `double` and the
product. A product outside the range of `int64_t` is undefined behaviour. -/
def applyOne (fl : Rat → Rat) (value : Int) (scalar : Rat) : Outcome Int :=
  let v := Double.trunc (fl (fl value * scalar))
  if -(2 ^ 63) ≤ v ∧ v < 2 ^ 63 then .ok (if v = 0 then 1 else v) else .ub

/-- price_setter.cpp:171-203 `apply_results`: the quotes afterwards. A property that is missing in the solution is looked up
with `find(..)->second` (178), which is undefined behaviour. -/
def applyResults (fl : Rat → Rat) (result : Nat → Option Rat) : List Quoted → Outcome (List Quoted)
  | [] => .ok []
  | q :: qs =>
    match result q.id with
    | none => .ub
    | some scalar =>
      applyOne fl q.value scalar >>= fun v => applyResults fl result qs >>= fun r => .ok ({ q with value := v } :: r)

/-! ## `compute_transfers` -/

/-- price_setter.cpp:225-231: truncate the demanded units and add up. A conversion or sum outside the range of
`int64_t` is undefined behaviour. -/
def allocate : List (Nat × Rat) → Int → Outcome (List (Nat × Int) × Int)
  | [], err => .ok ([], err)
  | (p, u) :: l, err =>
    let a := Double.trunc u
    if -(2 ^ 63) ≤ a ∧ a < 2 ^ 63 ∧ -(2 ^ 63) ≤ err + a ∧ err + a < 2 ^ 63 then
      allocate l (err + a) >>= fun r => .ok ((p, a) :: r.1, r.2)
    else .ub

/-- price_setter.cpp:244-246 and 253-255: the loop that corrects the allocations, one unit at a time in
turns. `d` is `1` or `-1`, `k` is the number of iterations. -/
def spread (d : Int) (l : List (Nat × Int)) : Nat → List (Nat × Int)
  | 0 => l
  | k + 1 => (spread d l k).modify (k % l.length) fun e => (e.1, e.2 + d)

/-- Whether every amount is in the range of `int64_t`. -/
def fits (l : List (Nat × Int)) : Bool := l.all fun e => decide (-(2 ^ 63) ≤ e.2 ∧ e.2 < 2 ^ 63)

/-- price_setter.cpp:225-261: the transfers of one property. `demands` are the entries of
`orders_.find(property)->second` in iteration order, `sort` is `std::sort` by absolute allocation (232-236), which is not
stable, so that any sorting function has to be considered. Comparing has undefined behaviour if there is no absolute value, and so has a correction that leaves the range of
`int64_t`; corrections go in one direction, so that it is enough to look at the final amounts. -/
def transfersOf (sort : List (Nat × Int) → List (Nat × Int)) (demands : List (Nat × Rat)) : Outcome (List (Nat × Int)) :=
  allocate demands 0 >>= fun r =>
    if 1 < r.1.length ∧ r.1.any (fun e => e.2 == -(2 ^ 63)) then .ub
    else
      let t := if r.2 < 0 then spread 1 (sort r.1) r.2.natAbs else spread (-1) (sort r.1) r.2.natAbs
      if fits t then .ok t else .ub

/-- price_setter.cpp:213-267 `compute_transfers`: properties nobody expressed interest in are skipped. -/
def computeTransfers (sort : List (Nat × Int) → List (Nat × Int)) (demands : Nat → Option (List (Nat × Rat))) :
    List Quoted → Outcome (List (Nat × List (Nat × Int)))
  | [] => .ok []
  | q :: qs =>
    match demands q.id with
    | none => computeTransfers sort demands qs
    | some l =>
      transfersOf sort l >>= fun t => computeTransfers sort demands qs >>= fun r => .ok ((q.id, t) :: r)

/-! ## Settlement -/

/-- What is transferred: cash in US dollars, a traded property, or lending contracts on a property
(securities_lending_contract.hpp). Simplification: the identifiers of these are assumed to be different; a bundle
belongs to one participant, so the contract is determined by the property. -/
inductive Item
  | cash
  | asset (p : Nat)
  | short (p : Nat)
deriving DecidableEq, Repr

/-- `accounting::inventory_filter<law::property>`, by its lookup function. -/
abbrev Bag := Item → Option Nat

/-- The empty bundle. -/
def Bag.empty : Bag := fun _ => none

/-- inventory.hpp:187-195 `insert(item, quantity)`; `quantity +=` wraps. -/
def Bag.add (b : Bag) (k : Item) (q : Nat) : Bag := fun j =>
  if j = k then (match b k with | none => some q | some a => some (u64 (a + q))) else b j

/-- `map.emplace(p, empty).first->second.insert(k, q)` for the entry of one participant. -/
def addTo (e : Option Bag) (k : Item) (q : Nat) : Option Bag := some ((e.getD Bag.empty).add k q)

/-- A traded property during settlement: identifier, price before and after clearing, and lot size. -/
structure Traded where
  id : Nat
  old : Int
  price : Int
  lot : Nat
deriving DecidableEq, Repr

/-- price_setter.cpp:424-455: a participant with positive transfer `v`. `long`/`short` is its position, `send`/`recv` are its entries
in the maps of the same names. `money units price lot` is `usd_->amount(units * double(price) / lot)` (money.hpp:76-81), with whatever rounding.
The assertion in 426 is not modelled. -/
def settleBuy (money : Nat → Int → Nat → Nat) (t : Traded) (short : Nat) (v : Nat) (send recv : Option Bag) :
    Option Bag × Option Bag :=
  let cancel := if 0 < short then min v short else 0
  let recv1 :=
    if 0 < short then addTo (addTo recv (.short t.id) cancel) .cash (money cancel t.old t.lot) else recv
  let rest := v - cancel
  if 0 < rest then
    -- `send_.emplace(p, purchased_)` does nothing if there is an entry
    (some (send.getD (Bag.empty.add (.asset t.id) rest)), addTo recv1 .cash (money rest t.price t.lot))
  else (send, recv1)

/-- price_setter.cpp:456-485: a participant with negative transfer `-v`. -/
def settleSell (money : Nat → Int → Nat → Nat) (t : Traded) (long : Nat) (v : Nat) (send recv : Option Bag) :
    Option Bag × Option Bag :=
  let cancel := if 0 < long then min v long else 0
  let recv1 := if 0 < long then addTo recv (.asset t.id) cancel else recv
  let send1 := if 0 < long then addTo send .cash (money cancel t.price t.lot) else send
  let rest := v - cancel
  if 0 < rest then
    (addTo (addTo send1 .cash (money rest t.price t.lot)) (.short t.id) rest, recv1)
  else (send1, recv1)

/-- price_setter.cpp:410-485: the body of the inner loop, on the entries of the participant in `send_` and
`receive_`. `supply` is the participant's (long, short) position, (0, 0) if it is missing (414-420). -/
def settleEntry (money : Nat → Int → Nat → Nat) (t : Traded) (supply : Nat × Nat) (v : Int) (e : Option Bag × Option Bag) :
    Option Bag × Option Bag :=
  if v = 0 then e
  else if 0 < v then settleBuy money t supply.2 v.natAbs e.1 e.2
  else settleSell money t supply.1 v.natAbs e.1 e.2

/-- `send_` and `receive_`, by their lookup functions. -/
abbrev Parcels := Nat → Option Bag

/-- price_setter.cpp:409-486: the loop over the transfers of one property. -/
def settleProperty (money : Nat → Int → Nat → Nat) (supply : Nat → Nat → Nat × Nat) (t : Traded) :
    List (Nat × Int) → Parcels × Parcels → Parcels × Parcels
  | [], s => s
  | (p, v) :: l, s =>
    let e := settleEntry money t (supply p t.id) v (s.1 p, s.2 p)
    settleProperty money supply t l
      (fun q => if q = p then e.1 else s.1 q, fun q => if q = p then e.2 else s.2 q)

/-- price_setter.cpp:404-487: the loop over the traded properties. -/
def settle (money : Nat → Int → Nat → Nat) (supply : Nat → Nat → Nat × Nat) (transfers : Nat → Option (List (Nat × Int))) :
    List Traded → Parcels × Parcels → Parcels × Parcels
  | [], s => s
  | t :: ts, s =>
    match transfers t.id with
    | none => settle money supply transfers ts s
    | some l => settle money supply transfers ts (settleProperty money supply t l s)

/-! ## Netting -/

/-- price_setter.cpp:496-519: the body of the netting loop for one item: the bundle sent and the bundle received. -/
def netItem (k : Item) (b : Bag × Bag) : Bag × Bag :=
  match b.2 k with
  | none => b
  | some v =>
    if v = 0 then b
    else match b.1 k with
      | none => b
      | some s =>
        if v > s then (fun j => if j = k then none else b.1 j, fun j => if j = k then some (v - s) else b.2 j)
        else if v < s then (fun j => if j = k then some (s - v) else b.1 j, b.2)
        else (fun j => if j = k then none else b.1 j, b.2)

/-- price_setter.cpp:490-523: netting for one participant; `keys` are the items of the received bundle in iteration
order. The received bundle never becomes empty, so 520-522 have no effect. -/
def net (keys : List Item) (send recv : Option Bag) : Option Bag × Option Bag :=
  match send, recv with
  | some s, some r => let b := keys.foldl (fun b k => netItem k b) (s, r); (some b.1, some b.2)
  | _, _ => (send, recv)

end Esl.Walras
