import Verif.Model.Double
import Verif.Model.BlockPool
import Verif.Model.OrderBook
/-!
Model of `esl/economics/markets/order_book/static_order_book.hpp`, on the level of pointers: a pointer to a block is its position in the pool
(`Model/BlockPool.lean`), a pointer to a price level is its position, which may be out of range.

Simplifications: a quote is the integer value of its price, all in the currency and lot size of the valid limits (orders with another lot are rejected, 438,
orders in another currency make the comparisons throw); quantities are not bounded by 2^32 (they are only decreased); the `assert`s (565-568, 631) are
compiled out; log output is not modelled. `resize` (262-275) throws always, `display` (680-740) only prints.
-/
namespace Esl.Static
open Esl.Book (Side Lifetime Order Status Report directOrder)
open Esl.Pool (Pool upd)
open Esl.Double

/-- The valid limits (`static_order_book.hpp:115`) as values of prices, the lot size and the currency's denominator they are quoted in, and the arithmetic of `double`. `defaultLimit` is the
value of a default-constructed quote, `none` if it has another lot or currency than the limits, so that comparing throws. -/
structure Config where
  lower : Int
  upper : Int
  lot : Nat
  denominator : Nat
  defaultLimit : Option Int
  fl : Rat → Rat

/-- `double(quote)`: `price::operator double` (`price.hpp:241-244`) divided by the lot (`quote.hpp:131-137`). -/
def Config.real (c : Config) (v : Int) : Rat := c.fl (c.fl ((v : Rat) / (c.denominator : Rat)) / (c.lot : Rat))

/-- `static_order_book.hpp:148-153` `span`, with `ticks` equal to the lot (222-223). -/
def Config.span (c : Config) : Nat :=
  (trunc (c.fl (c.fl (c.fl (c.fl (c.real c.upper - c.real c.lower) * c.lot) * c.lot) + 1))).toNat

/-- `static_order_book.hpp:171`: `limits.contains(q)`, closed on both ends. -/
def Config.contains (c : Config) (v : Int) : Bool := decide (c.lower ≤ v) && decide (v ≤ c.upper)

/-- `static_order_book.hpp:169-187` `default_encode`; `none` is the result `false`. -/
def Config.encode (c : Config) (v : Int) : Option Int :=
  if !c.contains v then none
  else some (cround (c.fl (c.fl (c.fl (c.real v - c.real c.lower) / c.fl (c.real c.upper - c.real c.lower)) * (c.span : Rat))))

/-- `static_order_book.hpp:194-203` `default_decode`, with `quote(double, similar)` (`quote.hpp:109-115`) and `price::approximate`
(`price.hpp:90-96`). -/
def Config.decode (c : Config) (l : Int) : Int :=
  let reverse : Int := cround (c.fl (c.fl (c.fl ((l : Rat) * c.fl (c.real c.upper - c.real c.lower)) * c.lot) * c.lot))
  let intercept := c.fl (c.fl (c.real c.lower * c.lot) * c.lot)
  let q := c.fl (c.fl (c.fl ((reverse : Rat) / ((c.span - 1 : Nat) : Rat)) + intercept) / c.lot)
  trunc (c.fl (q * (c.denominator : Rat)))

/-- `static_order_book.hpp:48-74` `record`. -/
structure Record where
  limit : Option Int
  quantity : Nat
  owner : Nat
  pred : Option Nat
  succ : Option Nat
deriving DecidableEq, Repr

/-- What the book needs to know of prices: the number of levels and the two translations (`encode`, `decode`, 137-143, are members that the
constructor sets to the defaults). -/
structure Coding where
  levels : Nat
  valid : Int → Bool
  encode : Int → Option Int
  decode : Int → Int
  defaultLimit : Option Int

/-- The default translations (`static_order_book.hpp:243-249`). -/
def Config.coding (c : Config) : Coding := ⟨c.span, c.contains, c.encode, c.decode, c.defaultLimit⟩

/-- `static_order_book.hpp:81-130`, and `reports` of `basic_book`: the pool, first and last block of each level, and the positions of the best bid
and ask. -/
structure SBook where
  pool : Pool Record
  levels : Nat → Option Nat × Option Nat
  bestBid : Int
  bestAsk : Int
  reports : List Report

/-- A default-constructed record. -/
def Coding.record (k : Coding) : Record := ⟨k.defaultLimit, 0, 0, none, none⟩

/-- `static_order_book.hpp:215-250` constructor, after the checks of the limits. -/
def make (k : Coding) (capacity : Nat) : Outcome SBook :=
  if k.levels = 0 then .ub
  else Pool.make k.record capacity >>= fun p => .ok ⟨p, fun _ => (none, none), 0, (k.levels : Int) - 1, []⟩

/-- The level behind a pointer; out of range is undefined. -/
def SBook.level (k : Coding) (b : SBook) (l : Int) : Outcome (Option Nat × Option Nat) :=
  if 0 ≤ l ∧ l < k.levels then .ok (b.levels l.toNat) else .ub

/-- `static_order_book.hpp:303-310` `bid`. -/
def SBook.bid (k : Coding) (b : SBook) : Outcome (Option Int) :=
  b.level k b.bestBid >>= fun lv => .ok (lv.1.map fun _ => k.decode b.bestBid)

/-- `static_order_book.hpp:316-324` `ask`. -/
def SBook.ask (k : Coding) (b : SBook) : Outcome (Option Int) :=
  b.level k b.bestAsk >>= fun lv => .ok (lv.1.map fun _ => k.decode b.bestAsk)

/-- Change the record in a block. -/
def SBook.modify (b : SBook) (s : Nat) (f : Record → Record) : SBook :=
  { b with pool := { b.pool with data := upd b.pool.data s (f (b.pool.data s)) } }

/-- Set the pointers of a level. -/
def SBook.setLevel (b : SBook) (l : Nat) (v : Option Nat × Option Nat) : SBook := { b with levels := upd b.levels l v }

/-- `static_order_book.hpp:410-414`: increase the best ask until there is an order or the last level is reached; `fuel` levels are left. The
loop also ends (without finding anything) when the pointer was already beyond the last level. -/
def SBook.raiseAsk (k : Coding) (levels : Nat → Option Nat × Option Nat) : Nat → Int → Int
  | 0, l => l
  | fuel + 1, l =>
    if l ≤ (k.levels : Int) - 1 then
      if (levels l.toNat).1.isSome ∨ l = (k.levels : Int) - 1 then l else SBook.raiseAsk k levels fuel (l + 1)
    else l

/-- `static_order_book.hpp:418-422`: decrease the best bid. -/
def SBook.lowerBid (levels : Nat → Option Nat × Option Nat) : Nat → Int → Int
  | 0, l => l
  | fuel + 1, l =>
    if l ≥ 0 then
      if (levels l.toNat).1.isSome ∨ l = 0 then l else SBook.lowerBid levels fuel (l - 1)
    else l

/-- `static_order_book.hpp:384-425`: after a resting order without successor was exhausted, the level is cleared and the best price moves. -/
def SBook.clearLevel (k : Coding) (o : Order) (l : Nat) (b : SBook) : SBook :=
  let b := b.setLevel l (none, none)
  match o.side with
  | .buy => { b with bestAsk := SBook.raiseAsk k b.levels (k.levels + 1) (b.bestAsk + 1) }
  | .sell => { b with bestBid := SBook.lowerBid b.levels (k.levels + 1) (b.bestBid - 1) }

/-- The two reports of an execution (`static_order_book.hpp:363-382`). -/
def execReports (o : Order) (quantity ident : Nat) (price : Int) (owner : Nat) : List Report :=
  [⟨.match_, o.side, quantity, directOrder, price, o.owner⟩,
   ⟨.match_, match o.side with | .sell => .buy | .buy => .sell, quantity, ident, price, owner⟩]

/-- `static_order_book.hpp:334-429` `match_at_level`: the loop, from the block `ao`. Returns the remainder. The list of blocks of a level is finite and shorter than the
pool, unless it was corrupted; running out of `fuel` stands for a loop that does not end and is given the outcome `ub`. -/
def matchAtLevel (k : Coding) (o : Order) (l : Nat) : (fuel : Nat) → (rem : Nat) → (ao : Nat) → SBook → Outcome (Nat × SBook)
  | 0, _, _, _ => .ub
  | fuel + 1, rem, ao, b =>
    if 0 < rem then
      let r := b.pool.data ao
      let exhausted := decide (r.quantity ≤ rem)
      let price := k.decode l
      if exhausted then
        let executed := r.quantity
        let b := b.modify ao fun r => { r with quantity := 0 }
        let b := match r.succ with
          | some s => b.modify s fun r => { r with pred := none }
          | none => b
        let b := b.setLevel l (r.succ, (b.levels l).2)
        let b := { b with reports := b.reports ++ execReports o executed (b.pool.index ao) price r.owner }
        let b := { b with pool := (b.pool.erase (b.pool.index ao)).2 }
        match r.succ with
        | some s => matchAtLevel k o l fuel (rem - executed) s b
        | none => .ok (rem - executed, b.clearLevel k o l)
      else
        let b := b.modify ao fun r => { r with quantity := r.quantity - rem }
        .ok (0, { b with reports := b.reports ++ execReports o rem (b.pool.index ao) price r.owner })
    else .ok (rem, b)

/-- `static_order_book.hpp:487-492` and `495-500`: the loop over `n` levels, upwards (`dir = 1`, buy) or downwards (`dir = -1`, sell) from `l`. -/
def matchLevels (k : Coding) (o : Order) (dir : Int) : (n : Nat) → (l : Int) → (rem : Nat) → SBook → Outcome (Nat × SBook)
  | 0, _, rem, b => .ok (rem, b)
  | n + 1, l, rem, b =>
    if 0 < rem then
      b.level k l >>= fun lv =>
        match lv.1 with
        | none => matchLevels k o dir n (l + dir) rem b
        | some ao =>
          matchAtLevel k o l.toNat (b.pool.capacity + 1) rem ao b >>= fun (rem, b) => matchLevels k o dir n (l + dir) rem b
    else .ok (rem, b)

/-- `static_order_book.hpp:534-581`: place the remainder on level `l`. -/
def SBook.place (o : Order) (l : Nat) (rem : Nat) (b : SBook) : Outcome SBook :=
  b.pool.emplace ⟨some o.limit, rem, o.owner, none, none⟩ >>= fun (i, s, p) =>
    let b : SBook := { b with pool := { p with index := upd p.index s i },
                              reports := b.reports ++ [⟨.placement, o.side, rem, i, o.limit, o.owner⟩] }
    let placed : Outcome SBook :=
      match (b.levels l).1 with
      | none => .ok (b.setLevel l (some s, some s))
      | some first =>
        match (b.levels l).2 with
        | none => .ub
        | some last =>
          let b := b.modify last fun r => { r with succ := some s }
          let b := b.modify s fun r => { r with pred := some last }
          .ok (b.setLevel l (some first, some s))
    placed >>= fun b =>
      match o.side with
      | .buy => .ok { b with bestBid := max b.bestBid l }
      | .sell => .ok { b with bestAsk := min b.bestAsk l }

/-- `static_order_book.hpp:516-581`: what happens to the remainder. -/
def SBook.rest (o : Order) (l : Nat) (rem : Nat) (b : SBook) : Outcome SBook :=
  if rem = 0 then .ok b
  else if o.lifetime = .immediateOrCancel then
    .ok { b with reports := b.reports ++ [⟨.cancel, o.side, rem, directOrder, o.limit, o.owner⟩] }
  else b.place o l rem

/-- `static_order_book.hpp:436-582` `insert`. -/
def SBook.insert (k : Coding) (b : SBook) (o : Order) : Outcome SBook :=
  if !k.valid o.limit ∨ o.quantity = 0 then
    .ok { b with reports := b.reports ++ [⟨.invalid, o.side, o.quantity, directOrder, o.limit, o.owner⟩] }
  else match k.encode o.limit with
    | none => .throws
    | some l =>
      if l < 0 then .throws
      else if (k.levels : Int) ≤ l then .throws
      else
        let crosses : Outcome Bool :=
          match o.side with
          | .buy => b.ask k >>= fun a => .ok (a.any fun p => decide (o.limit ≥ p))
          | .sell => b.bid k >>= fun a => .ok (a.any fun p => decide (o.limit ≤ p))
        crosses >>= fun x =>
          if x then
            match o.side with
            | .buy => matchLevels k o 1 (l + 1 - b.bestAsk).toNat b.bestAsk o.quantity b >>= fun (rem, b) => b.rest o l.toNat rem
            | .sell => matchLevels k o (-1) (b.bestBid + 1 - l).toNat b.bestBid o.quantity b >>= fun (rem, b) => b.rest o l.toNat rem
          else if o.lifetime = .immediateOrCancel ∨ o.lifetime = .fillOrKill then
            .ok { b with reports := b.reports ++ [⟨.cancel, o.side, o.quantity, directOrder, o.limit, o.owner⟩] }
          else b.rest o l.toNat o.quantity

/-- Set the successor or predecessor of a block, if there is one. -/
def SBook.relink (s : Option Nat) (f : Record → Record) (b : SBook) : SBook :=
  match s with
  | none => b
  | some s => b.modify s f

/-- `static_order_book.hpp:590-673` `cancel`. A record that has no valid limit (never used or reset by an earlier cancel) makes the comparison with the best bid or with
the valid limits throw. A level out of range is undefined. -/
def SBook.cancel (k : Coding) (b : SBook) (i : Nat) : Outcome SBook :=
  let s := i % b.pool.capacity
  let r := b.pool.data s
  match r.limit with
  | none => b.bid k >>= fun _ => .throws
  | some limit =>
    b.bid k >>= fun bid =>
      let side : Side := if bid.any (fun p => decide (¬ p < limit)) then .buy else .sell
      match k.encode limit with
      | none => .ub
      | some l =>
        b.level k l >>= fun lv =>
          match lv with
          | (some first, some last) =>
            let b := b.setLevel l.toNat
              (if b.pool.index first = i then (b.pool.data first).succ else some first,
               if b.pool.index last = i then (b.pool.data last).pred else some last)
            let (erased, p) := b.pool.erase i
            let b : SBook := { b with pool := p }
            if erased = 0 then .ok b
            else
              let b := { b with reports := b.reports ++ [(⟨.cancel, side, r.quantity, i, limit, r.owner⟩ : Report)] }
              let b := b.relink r.pred fun q => { q with succ := r.succ }
              let b := b.relink r.succ fun q => { q with pred := r.pred }
              .ok (b.modify s fun _ => k.record)
          | _ => .ok b

/-- The blocks of one level (`static_order_book.hpp:286-291`): follows the successors, and stops at a block that is its own successor. -/
def chase (b : SBook) : (fuel : Nat) → Option Nat → List Nat
  | 0, _ => []
  | _ + 1, none => []
  | fuel + 1, some s => b.pool.index s :: (if (b.pool.data s).succ = some s then [] else chase b fuel (b.pool.data s).succ)

/-- `static_order_book.hpp:280-295` `orders`. The list of a level that is not corrupted is shorter than the pool. -/
def SBook.orders (k : Coding) (b : SBook) : List Nat :=
  (List.range k.levels).flatMap fun l => chase b (b.pool.capacity + 1) (b.levels l).1

/-- The operations of a book. -/
inductive Op where
  | insert (o : Order)
  | cancel (i : Nat)
deriving DecidableEq, Repr

/-- One operation. -/
def SBook.apply (k : Coding) (b : SBook) : Op → Outcome SBook
  | .insert o => b.insert k o
  | .cancel i => b.cancel k i

/-- A history of operations. -/
def SBook.run (k : Coding) (b : SBook) : List Op → Outcome SBook
  | [] => .ok b
  | op :: ops => b.apply k op >>= fun b => b.run k ops

end Esl.Static
