import Verif.Model.OrderBook
import Verif.Model.Price
/-!
# An order book with quotes

Model of `esl/economics/markets/order_book/binary_tree_order_book.hpp` in which limits are quotes, with a lot size and a price in a currency, as in the code. `Model/OrderBook.lean` has integers instead. Comparisons of quotes may throw
(`Model/Price.lean`), so that operations may end early: the model gives the book that is left behind together with the outcome.
-/
namespace Esl.QBook
open Esl.Price
export Esl.Book (Side Lifetime Status directOrder)

/-- `order.hpp:45-67` `limit_order`. -/
structure Order where
  lifetime : Lifetime
  side : Side
  symbol : Nat
  owner : Nat
  limit : Quote
  quantity : Nat
deriving DecidableEq, Repr

/-- `execution_report.hpp:33-70` `execution_report`. -/
structure Report where
  state : Status
  side : Side
  quantity : Nat
  ident : Nat
  limit : Quote
  owner : Nat
deriving DecidableEq, Repr

/-- An element of `bid_t` or `ask_t` (`binary_tree_order_book.hpp:67-75`): the key, the order identifier and the order. -/
structure Entry where
  key : Quote
  id : Nat
  order : Order
deriving DecidableEq, Repr

/-- `binary_tree_order_book.hpp:56-85` and `basic_book.hpp:56`: `next_`, `limit_orders_`, `orders_bid`, `orders_ask`, `reports`. -/
structure Book where
  next : Nat
  limits : List (Nat × Quote)
  bids : List Entry
  asks : List Entry
  reports : List Report
deriving DecidableEq, Repr

/-- `binary_tree_order_book.hpp:61-65`: constructor. -/
def empty : Book := ⟨0, [], [], [], []⟩

/-- `std::multimap::emplace` with key comparison `before`: behind all elements that the new one does not come before. Simplification: elements are compared from the first on, while the code compares with the elements on a path through a tree.
Whether a comparison throws is the same for all elements of one side (theorem `C188_comparable`). -/
def emplace (before : Quote → Quote → Outcome Bool) (e : Entry) : List Entry → Outcome (List Entry)
  | [] => .ok [e]
  | x :: l =>
    match before e.key x.key with
    | .throws => .throws
    | .ub => .ub
    | .ok true => .ok (e :: x :: l)
    | .ok false =>
      match emplace before e l with
      | .throws => .throws
      | .ub => .ub
      | .ok l' => .ok (x :: l')

/-- `std::map<order_identifier, quote>::emplace`: no effect if the key is present. -/
def mapEmplace (k : Nat) (v : Quote) : List (Nat × Quote) → List (Nat × Quote)
  | [] => [(k, v)]
  | x :: l => if k < x.1 then (k, v) :: x :: l else if k = x.1 then x :: l else x :: mapEmplace k v l

/-- The result of the matching loop: the remainder, the elements that were executed against (`passed`, with reduced quantities), the other elements, the reports, the identifiers erased from `limit_orders_`, and how the loop ended. -/
structure Matched where
  remainder : Nat
  passed : List Entry
  rest : List Entry
  reports : List Report
  erased : List Nat
  outcome : Outcome Unit
deriving DecidableEq

/-- `binary_tree_order_book.hpp:118-156` (buy) and `184-222` (sell): the loop over the opposite side. `crosses` compares the limit with a key. -/
def matchLoop (crosses : Quote → Outcome Bool) (o : Order) : Nat → List Entry → Matched
  | rem, [] => ⟨rem, [], [], [], [], .ok ()⟩
  | rem, e :: l =>
    match crosses e.key with
    | .throws => ⟨rem, [], e :: l, [], [], .throws⟩
    | .ub => ⟨rem, [], e :: l, [], [], .ub⟩
    | .ok false => ⟨rem, [], e :: l, [], [], .ok ()⟩
    | .ok true =>
      let executed := min rem e.order.quantity
      let rem := rem - executed
      if executed = 0 then ⟨rem, [], e :: l, [], [], .ok ()⟩
      else
        let left := e.order.quantity - executed
        let rs : List Report := [⟨.match_, o.side, executed, directOrder, e.order.limit, o.owner⟩,
                   ⟨.match_, e.order.side, executed, e.id, e.order.limit, e.order.owner⟩]
        let m := matchLoop crosses o rem l
        { m with
          passed := { e with order := { e.order with quantity := left } } :: m.passed
          reports := rs ++ m.reports
          erased := if left = 0 then e.id :: m.erased else m.erased }

/-- `limit_orders_.erase(id)` for all the given identifiers (`binary_tree_order_book.hpp:155`, `220`). -/
def eraseLimits (ids : List Nat) (limits : List (Nat × Quote)) : List (Nat × Quote) :=
  limits.filter fun e => !ids.contains e.1

/-- `binary_tree_order_book.hpp:159-161`, `225-227`: the elements after the loop. If the loop ends with an exception, elements without quantity are not erased. -/
def Matched.resting (m : Matched) : List Entry :=
  match m.outcome with
  | .ok _ => m.passed.filter (fun e => decide (e.order.quantity ≠ 0)) ++ m.rest
  | _ => m.passed ++ m.rest

/-- `binary_tree_order_book.hpp:163-177`, `229-244`: the entry for the remainder of an order, and its report. -/
def placed (b : Book) (o : Order) (n : Nat) : Entry × Report := (⟨o.limit, b.next, { o with quantity := n }⟩, ⟨.placement, o.side, n, b.next, o.limit, o.owner⟩)

/-- `binary_tree_order_book.hpp:111-246` `insert`, for an order on either side: the book that is left behind, and how the call ended. -/
def Book.insert (b : Book) (o : Order) : Book × Outcome Unit :=
  match o.side with
  | .buy =>
    let m := matchLoop (fun k => Quote.ge o.limit k) o o.quantity b.asks
    let b' := { b with limits := eraseLimits m.erased b.limits, asks := m.resting, reports := b.reports ++ m.reports }
    match m.outcome with
    | .throws => (b', .throws)
    | .ub => (b', .ub)
    | .ok _ =>
      if m.remainder > 0 then
        match emplace Quote.gt (placed b o m.remainder).1 b.bids with
        | .throws => (b', .throws)
        | .ub => (b', .ub)
        | .ok l => ({ b' with next := u64 (b.next + 1), limits := mapEmplace b.next o.limit b'.limits, bids := l, reports := b'.reports ++ [(placed b o m.remainder).2] }, .ok ())
      else (b', .ok ())
  | .sell =>
    let m := matchLoop (fun k => Quote.le o.limit k) o o.quantity b.bids
    let b' := { b with limits := eraseLimits m.erased b.limits, bids := m.resting, reports := b.reports ++ m.reports }
    match m.outcome with
    | .throws => (b', .throws)
    | .ub => (b', .ub)
    | .ok _ =>
      if m.remainder > 0 then
        match emplace Quote.lt (placed b o m.remainder).1 b.asks with
        | .throws => (b', .throws)
        | .ub => (b', .ub)
        | .ok l => ({ b' with next := u64 (b.next + 1), limits := mapEmplace b.next o.limit b'.limits, asks := l, reports := b'.reports ++ [(placed b o m.remainder).2] }, .ok ())
      else (b', .ok ())

/-- Whether a key belongs to `equal_range(p)`: neither comes before the other. -/
def same (before : Quote → Quote → Outcome Bool) (k p : Quote) : Outcome Bool :=
  match before k p with
  | .throws => .throws
  | .ub => .ub
  | .ok true => .ok false
  | .ok false =>
    match before p k with
    | .throws => .throws
    | .ub => .ub
    | .ok x => .ok (!x)

/-- `binary_tree_order_book.hpp:259-274`, `278-292`: search the elements of `equal_range(p)` for the identifier, report and erase the first one found. Simplification as for `emplace`. -/
def cancelIn (before : Quote → Quote → Outcome Bool) (side : Side) (p : Quote) (i : Nat) : List Entry → Outcome (List Entry × List Report)
  | [] => .ok ([], [])
  | e :: l =>
    match same before e.key p with
    | .throws => .throws
    | .ub => .ub
    | .ok k =>
      if k = true ∧ e.id = i then .ok (l, [⟨.cancel, side, e.order.quantity, i, p, e.order.owner⟩])
      else
        match cancelIn before side p i l with
        | .throws => .throws
        | .ub => .ub
        | .ok (l', rs) => .ok (e :: l', rs)

/-- A comparison with the best quote of a side, which may be empty (`binary_tree_order_book.hpp:257`, `276`). -/
def best (compare : Quote → Outcome Bool) : List Entry → Outcome Bool
  | [] => .ok false
  | e :: _ => compare e.key

/-- `binary_tree_order_book.hpp:251-295` `cancel`. Note that `limit_orders_` is not changed. -/
def Book.cancel (b : Book) (i : Nat) : Book × Outcome Unit :=
  match b.limits.find? fun e => e.1 == i with
  | none => (b, .ok ())
  | some (_, p) =>
    match best (fun q => Quote.ge q p) b.bids with
    | .throws => (b, .throws)
    | .ub => (b, .ub)
    | .ok true =>
      match cancelIn Quote.gt .buy p i b.bids with
      | .throws => (b, .throws)
      | .ub => (b, .ub)
      | .ok (l, rs) => ({ b with bids := l, reports := b.reports ++ rs }, .ok ())
    | .ok false =>
      match best (fun q => Quote.le q p) b.asks with
      | .throws => (b, .throws)
      | .ub => (b, .ub)
      | .ok true =>
        match cancelIn Quote.lt .sell p i b.asks with
        | .throws => (b, .throws)
        | .ub => (b, .ub)
        | .ok (l, rs) => ({ b with asks := l, reports := b.reports ++ rs }, .ok ())
      | .ok false => (b, .ok ())

/-- The operations of a book. -/
inductive Op where
  | insert (o : Order)
  | cancel (i : Nat)
deriving DecidableEq, Repr

def Book.apply (b : Book) : Op → Book × Outcome Unit
  | .insert o => b.insert o
  | .cancel i => b.cancel i

/-- A history of operations on a new book. Whoever calls the operations catches the exceptions. -/
def run (ops : List Op) : Book := ops.foldl (fun b op => (b.apply op).1) empty

end Esl.QBook
