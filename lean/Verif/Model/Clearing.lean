import Verif.Model.Walras
/-!
Model of `price_setter::clear_market` (`esl/economics/markets/walras/price_setter.cpp`) as a whole: the solution of the solver is applied to the
quotes, orders are turned into demanded units, units into transfers, transfers into bundles, bundles are netted and sent.

The steps themselves are those of `Model/Walras.lean`.
-/
namespace Esl.Clearing
open Esl.Walras

/-- price_setter.cpp:171-203 `apply_results`: the entry of a property in the solution it returns: the quote before clearing, and the multiplier. -/
abbrev Solution := Nat → Option (Quoted × Rat)

/-- differentiable_order_message.hpp:46-68: an order with its sender (price_setter.cpp:114). `excess` is `excess_demand`
(differentiable_demand_supply_function.hpp:52-76), the excess demand in money for every property the sender expresses interest in; `supply` are the long and
short positions. -/
structure Order where
  participant : Nat
  excess : Solution → List (Nat × Rat)
  supply : Nat → Option (Nat × Nat)

/-- quote.hpp:130-137, price.hpp:241-244: `double(quote)` of a quoted price, in a currency with `den` smallest units per unit. The lot is positive. -/
def real (fl : Rat → Rat) (den : Nat) (q : Quoted) : Rat := fl (fl (fl q.value / den) / q.lot)

/-- price_setter.cpp:176-180: the solution that `apply_results` returns. -/
def solutionOf (result : Nat → Option Rat) (traded : List Quoted) : Solution := fun id =>
  (traded.find? fun q => q.id = id).bind fun q => (result id).map fun x => (q, x)

/-- price_setter.cpp:364-366: the units one order demands of one property. A property that is not in the solution is dereferenced all the same, which is
undefined behaviour. A division by zero gives an infinity or NaN, which `compute_transfers` converts to an integer (226), undefined behaviour too. -/
def unitsOf (fl : Rat → Rat) (den : Nat) (sol : Solution) (property : Nat) (excess : Rat) : Outcome Rat :=
  match sol property with
  | none => .ub
  | some (q, scalar) =>
    let price := fl (real fl den q * scalar)
    if price = 0 then .ub else .ok (fl (excess / price))

/-- price_setter.cpp:362-391: the inner loop, for the order of one participant. -/
def demandsOfOrder (fl : Rat → Rat) (den : Nat) (sol : Solution) (participant : Nat) : List (Nat × Rat) → Outcome (List (Nat × Nat × Rat))
  | [] => .ok []
  | (property, excess) :: l =>
    unitsOf fl den sol property excess >>= fun u =>
      demandsOfOrder fl den sol participant l >>= fun r => .ok ((property, participant, u) :: r)

/-- price_setter.cpp:360-392: all demands, as triples of property, participant and units. Simplification: the orders are listed by participant, so that this is also
the order in `orders_`. The loop in 323-351 computes sums that are not used; it evaluates the same expressions. -/
def demandsOf (fl : Rat → Rat) (den : Nat) (sol : Solution) : List Order → Outcome (List (Nat × Nat × Rat))
  | [] => .ok []
  | o :: os =>
    demandsOfOrder fl den sol o.participant (o.excess sol) >>= fun d => demandsOf fl den sol os >>= fun r => .ok (d ++ r)

/-- price_setter.cpp:368-391: `orders_`, the demands for one property; no entry if nobody expressed interest. -/
def book (ds : List (Nat × Nat × Rat)) (property : Nat) : Option (List (Nat × Rat)) :=
  match ds.filter fun d => d.1 = property with
  | [] => none
  | l => some (l.map (·.2))

/-- price_setter.cpp:368-375: the entry of a property in `volumes_`. -/
def volume (fl : Rat → Rat) (ds : List (Nat × Nat × Rat)) (property : Nat) : Rat :=
  (ds.filter fun d => d.1 = property).foldl (fun v d => fl (v + if d.2.2 < 0 then -d.2.2 else d.2.2)) 0

/-- price_setter.cpp:395: the volume put into the output, that of the first entry of `volumes_`, which is ordered by property. Without entries, the iterator at the end is
dereferenced; both this and a volume outside the range of `uint64_t` are undefined behaviour. -/
def outputVolume (fl : Rat → Rat) (ds : List (Nat × Nat × Rat)) : Outcome Nat :=
  match (ds.map (·.1)).min? with
  | none => .ub
  | some property =>
    let v := Double.trunc (volume fl ds property)
    if v < 2 ^ 64 then .ok v.toNat else .ub

/-- price_setter.cpp:415-423: the position of a participant in a property, according to its order. -/
def supplyOf (orders : List Order) (participant property : Nat) : Nat × Nat :=
  ((orders.find? fun o => o.participant = participant).bind fun o => o.supply property).getD (0, 0)

/-- price_setter.cpp:285, 404-407: the traded properties with quotes before and after clearing. -/
def tradedOf (old new : List Quoted) : List Traded := List.zipWith (fun o n => ⟨o.id, o.value, n.value, o.lot⟩) old new

/-- The effects of one clearing: the quotes afterwards, the volume written to the output, if any, and the bundles in the transfer messages from the market to each participant
and from each participant to the market, if any. -/
structure Cleared where
  quotes : List Quoted
  volume : Option Nat
  sent : Parcels
  received : Parcels

/-- price_setter.cpp:279-549 `clear_market`. `result` is what the solver returned (tatonnement.hpp `compute_clearing_quotes`), `none` if it failed.
`money` is `usd_->amount(units * double(price) / lot)`, `sort` is `std::sort`, `keys` are all items in the order of the bundles; items a bundle lacks are skipped
in `netItem`. -/
def clearMarket (fl : Rat → Rat) (den : Nat) (money : Nat → Int → Nat → Nat) (sort : List (Nat × Int) → List (Nat × Int)) (keys : List Item)
    (traded : List Quoted) (orders : List Order) (result : Option (Nat → Option Rat)) : Outcome Cleared :=
  match result with
  | none => .ok ⟨traded, none, fun _ => none, fun _ => none⟩
  | some result =>
    applyResults fl result traded >>= fun new =>
    demandsOf fl den (solutionOf result traded) orders >>= fun ds =>
    computeTransfers sort (book ds) new >>= fun transfers =>
    outputVolume fl ds >>= fun v =>
      let s := settle money (supplyOf orders) (fun t => transfers.lookup t) (tradedOf traded new) (fun _ => none, fun _ => none)
      .ok ⟨new, some v, fun p => (net keys (s.1 p) (s.2 p)).1, fun p => (net keys (s.1 p) (s.2 p)).2⟩

end Esl.Clearing
