import Verif.Model.Basic
/-!
Model of `esl/economics/markets/order_book/binary_tree_order_book.hpp`, with the types of `order.hpp`, `execution_report.hpp`,
`basic_book.hpp` and `matching_engine.hpp` in the same directory.

Simplification: a quote is an integer. All orders of one book are taken to be quoted in the same currency and lot size, in a range in
which the comparison of quotes is the comparison of their integer values (see C08, C09).
-/
namespace Esl.Book

/-- `order.hpp:56-59` `limit_order::side_t`. -/
inductive Side where
  | buy
  | sell
deriving DecidableEq, Repr

/-- `order.hpp:50-54` `limit_order::lifetime_t`. -/
inductive Lifetime where
  | goodUntilCancelled
  | fillOrKill
  | immediateOrCancel
deriving DecidableEq, Repr

/-- `order.hpp:45-67` `limit_order`. The ticker and the owner are numbers; the quantity is a `uint32_t` (it is only ever
decreased, so no overflow is possible). -/
structure Order where
  lifetime : Lifetime
  side : Side
  symbol : Nat
  owner : Nat
  limit : Int
  quantity : Nat
deriving DecidableEq, Repr

/-- `execution_report.hpp:38-43` `state_t`. -/
inductive Status where
  | cancel
  | match_
  | placement
  | invalid
deriving DecidableEq, Repr

/-- `execution_report.hpp:33-70` `execution_report`. -/
structure Report where
  state : Status
  side : Side
  quantity : Nat
  ident : Nat
  limit : Int
  owner : Nat
deriving DecidableEq, Repr

/-- `basic_book.hpp:51` `direct_order`. -/
def directOrder : Nat := 2 ^ 64 - 1

/-- An element of `bid_t` or `ask_t` (`binary_tree_order_book.hpp:67-75`): the key, the order identifier and the order. -/
structure Entry where
  key : Int
  id : Nat
  order : Order
deriving DecidableEq, Repr

/-- `std::multimap::emplace` with key comparison `before`: behind all elements that the new one does not come before. -/
def emplace (before : Int → Int → Bool) (e : Entry) : List Entry → List Entry
  | [] => [e]
  | x :: l => if before e.key x.key then e :: x :: l else x :: emplace before e l

/-- `std::map<order_identifier, quote>::emplace`: no effect if the key is present. -/
def mapEmplace (k : Nat) (v : Int) : List (Nat × Int) → List (Nat × Int)
  | [] => [(k, v)]
  | x :: l => if k < x.1 then (k, v) :: x :: l else if k = x.1 then x :: l else x :: mapEmplace k v l

/-- `binary_tree_order_book.hpp:56-85` and `basic_book.hpp:56`: `next_`, `limit_orders_`, `orders_bid`, `orders_ask`, `reports`. -/
structure Book where
  next : Nat
  limits : List (Nat × Int)
  bids : List Entry
  asks : List Entry
  reports : List Report
deriving DecidableEq, Repr

/-- `binary_tree_order_book.hpp:61-65`: constructor. -/
def empty : Book := ⟨0, [], [], [], []⟩

/-- `binary_tree_order_book.hpp:90-96`. -/
def Book.bid (b : Book) : Option Int := b.bids.head?.map (·.key)

/-- `binary_tree_order_book.hpp:99-105`. -/
def Book.ask (b : Book) : Option Int := b.asks.head?.map (·.key)

/-- The result of the matching loop. -/
structure Matched where
  remainder : Nat
  resting : List Entry
  reports : List Report
  erased : List Nat
deriving DecidableEq, Repr

/-- `binary_tree_order_book.hpp:118-161` (buy) and `184-227` (sell): the loop over the opposite side, in its order, while the limits cross
(`crosses`). The iterators in `erase_` are erased after the loop in the code, here when they are passed. `erased` are the
identifiers removed from `limit_orders_`. -/
def matchLoop (crosses : Int → Bool) (o : Order) : Nat → List Entry → Matched
  | rem, [] => ⟨rem, [], [], []⟩
  | rem, e :: l =>
    if !crosses e.key then ⟨rem, e :: l, [], []⟩
    else
      let executed := min rem e.order.quantity
      let rem := rem - executed
      if executed = 0 then ⟨rem, e :: l, [], []⟩
      else
        let left := e.order.quantity - executed
        let rs : List Report := [⟨.match_, o.side, executed, directOrder, e.order.limit, o.owner⟩,
                   ⟨.match_, e.order.side, executed, e.id, e.order.limit, e.order.owner⟩]
        let m := matchLoop crosses o rem l
        if left = 0 then ⟨m.remainder, m.resting, rs ++ m.reports, e.id :: m.erased⟩
        else ⟨m.remainder, { e with order := { e.order with quantity := left } } :: m.resting, rs ++ m.reports, m.erased⟩

/-- `limit_orders_.erase(id)` for all the given identifiers (`binary_tree_order_book.hpp:155`, `220`). -/
def eraseLimits (ids : List Nat) (limits : List (Nat × Int)) : List (Nat × Int) :=
  limits.filter fun e => !ids.contains e.1

/-- `binary_tree_order_book.hpp:111-246` `insert`. -/
def Book.insert (b : Book) (o : Order) : Book :=
  match o.side with
  | .buy =>
    let m := matchLoop (fun k => decide (o.limit ≥ k)) o o.quantity b.asks
    let limits := eraseLimits m.erased b.limits
    if m.remainder > 0 then
      { next := u64 (b.next + 1)
        limits := mapEmplace b.next o.limit limits
        bids := emplace (fun x y => decide (x > y)) ⟨o.limit, b.next, { o with quantity := m.remainder }⟩ b.bids
        asks := m.resting
        reports := b.reports ++ m.reports ++ [⟨.placement, o.side, m.remainder, b.next, o.limit, o.owner⟩] }
    else { b with limits := limits, asks := m.resting, reports := b.reports ++ m.reports }
  | .sell =>
    let m := matchLoop (fun k => decide (o.limit ≤ k)) o o.quantity b.bids
    let limits := eraseLimits m.erased b.limits
    if m.remainder > 0 then
      { next := u64 (b.next + 1)
        limits := mapEmplace b.next o.limit limits
        bids := m.resting
        asks := emplace (fun x y => decide (x < y)) ⟨o.limit, b.next, { o with quantity := m.remainder }⟩ b.asks
        reports := b.reports ++ m.reports ++ [⟨.placement, o.side, m.remainder, b.next, o.limit, o.owner⟩] }
    else { b with limits := limits, bids := m.resting, reports := b.reports ++ m.reports }

/-- `binary_tree_order_book.hpp:259-274`, `278-292`: search the elements with key `p` (`equal_range`) for the identifier,
report and erase the first one found. -/
def cancelIn (side : Side) (p : Int) (i : Nat) : List Entry → List Entry × List Report
  | [] => ([], [])
  | e :: l =>
    if e.key = p ∧ e.id = i then (l, [⟨.cancel, side, e.order.quantity, i, p, e.order.owner⟩])
    else (e :: (cancelIn side p i l).1, (cancelIn side p i l).2)

/-- `binary_tree_order_book.hpp:251-295` `cancel`. Note that `limit_orders_` is not changed. -/
def Book.cancel (b : Book) (i : Nat) : Book :=
  match b.limits.find? fun e => e.1 == i with
  | none => b
  | some (_, p) =>
    if b.bid.any fun q => decide (q ≥ p) then
      let (l, rs) := cancelIn .buy p i b.bids
      { b with bids := l, reports := b.reports ++ rs }
    else if b.ask.any fun q => decide (q ≤ p) then
      let (l, rs) := cancelIn .sell p i b.asks
      { b with asks := l, reports := b.reports ++ rs }
    else b

/-- `binary_tree_order_book.hpp:300-308` `orders`. -/
def Book.orders (b : Book) : List Nat := b.limits.map (·.1)

/-- The operations of a book. -/
inductive Op where
  | insert (o : Order)
  | cancel (i : Nat)
deriving DecidableEq, Repr

def Book.apply (b : Book) : Op → Book
  | .insert o => b.insert o
  | .cancel i => b.cancel i

/-- A history of operations on a new book. -/
def run (ops : List Op) : Book := ops.foldl Book.apply empty

end Esl.Book
