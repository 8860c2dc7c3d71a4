import Verif.Lemmas.DirectOrders
import Verif.Props.Exchange

/-! # Orders that the modeller enters at an exchange without a message (C179) -/

namespace Esl.DirectOrders
open Esl.Book Esl.Exchange

/-! ## Specification -/

/-- The operations on the book of symbol `s`, in the order in which they happen, whether they come in messages or not. -/
def Spec.ops (s : Nat) (as : List (Nat × Act)) : List Op :=
  as.filterMap fun a => match a.2 with
    | .message (.order _ o) => if o.symbol = s then some (.insert o) else none
    | .message (.cancel symbol id) => if symbol = s then some (.cancel id) else none
    | .message _ => none
    | .insert o => if o.symbol = s then some (.insert o) else none

theorem ops_eq (s : Nat) (as : List (Nat × Act)) : Spec.ops s as = as.filterMap fun a => opOf s a.2 := by
  unfold Spec.ops
  congr 1
  funext a
  obtain ⟨t, a⟩ := a
  cases a with
  | message e => cases e <;> rfl
  | insert o => rfl

/-! ## C179 -/

/-- C179 (part): over any history of messages and of orders that are entered directly, the book of each symbol is what the orders and cancellations for it make of it in the order in which they happen,
and each report has been sent once and to its owner, or waits in the book. What is missing: the reports of orders that are entered directly wait for a message with another order (see the
counterexamples). -/
theorem C179_books_partial (latency : Nat → Nat → Nat) (traded : List Nat) (books : List (Nat × Book)) (as : List (Nat × Act)) (x : Exchange) (outs : List Out)
    (h : runActs latency (create traded books) as = .ok (x, outs)) (s : Nat) (b : Book) (hb : books.lookup s = some b) :
    ∃ b', x.books.lookup s = some b' ∧
      b'.bids = ((Spec.ops s as).foldl Book.apply b).bids ∧ b'.asks = ((Spec.ops s as).foldl Book.apply b).asks ∧
      b'.limits = ((Spec.ops s as).foldl Book.apply b).limits ∧ b'.next = ((Spec.ops s as).foldl Book.apply b).next ∧
      Exchange.Spec.sent s outs ++ Exchange.Spec.due b' = Exchange.Spec.due ((Spec.ops s as).foldl Book.apply b) := by
  obtain ⟨b', h1, h2, h3⟩ := runActs_book latency as (create traded books) x outs h s b hb
  rw [← ops_eq] at h2 h3
  rw [Exchange.sent_eq]
  generalize (Spec.ops s as).foldl Book.apply b = c at h2 h3 ⊢
  simp only [strip, Book.mk.injEq] at h2
  exact ⟨b', h1, h2.2.2.1, h2.2.2.2.1, h2.2.1, h2.1, h3⟩

/-- An order of agent 1 is entered directly, agent 3 sends one that matches it, and agent 2's is entered directly. -/
def demoActs : List (Nat × Act) :=
  [ (1, .message (.request 5 1 .snapshot [7])), (1, .message (.request 5 1 .stream [7]))
  , (2, .insert ⟨.goodUntilCancelled, .sell, 7, 1, 100, 5⟩)
  , (3, .message (.order 3 ⟨.goodUntilCancelled, .buy, 7, 3, 101, 2⟩))
  , (4, .insert ⟨.goodUntilCancelled, .sell, 7, 2, 99, 4⟩) ]

example : ∃ x outs b, runActs (fun _ _ => 0) (create [7] [(7, empty)]) demoActs = .ok (x, outs) ∧ x.books.lookup 7 = some b ∧ b.ask = some 99 ∧
    Exchange.Spec.sent 7 outs = [(1, ⟨.placement, .sell, 5, 0, 100, 1⟩), (3, ⟨.match_, .buy, 2, directOrder, 100, 3⟩), (1, ⟨.match_, .sell, 2, 0, 100, 1⟩)] ∧
    Exchange.Spec.due b = [(2, ⟨.placement, .sell, 4, 1, 99, 2⟩)] :=
  ⟨_, _, _, rfl, rfl, by decide +kernel, by decide +kernel, by decide +kernel⟩

/-- An order for a symbol without a book is an exception, as when it is sent in a message. -/
theorem C179_unknown_symbol_partial (latency : Nat → Nat) (x : Exchange) (t sender : Nat) (o : Order) :
    (x.books.lookup o.symbol = none ↔ act latency x t (.insert o) = .throws) ∧
    (x.books.lookup o.symbol = none ↔ act latency x t (.message (.order sender o)) = .throws) := by
  constructor
  · cases h : x.books.lookup o.symbol <;> simp [act, insertDirect, h] <;> rfl
  · cases h : x.books.lookup o.symbol <;> simp [act, handle, insertOrder, h]

example : (create [7] [(7, empty)]).books.lookup 8 = none ∧ (create [7] [(7, empty)]).books.lookup 7 = some empty := by decide +kernel

/-- C179 fails: no order that is entered directly makes the exchange send a message, in any state. There is a report for its owner when it is for at least one unit, which is left in the book. -/
theorem C179_counterexample_silent (latency : Nat → Nat) (x x' : Exchange) (t : Nat) (o : Order) (outs : List Out) (h : act latency x t (.insert o) = .ok (x', outs))
    (hq : 0 < o.quantity) :
    outs = [] ∧ ∃ b b' rs, x.books.lookup o.symbol = some b ∧ x'.books.lookup o.symbol = some b' ∧ b'.reports = b.reports ++ rs ∧ ∃ r ∈ rs, r.owner = o.owner := by
  simp only [act] at h
  cases hi : insertDirect x o with
  | throws => rw [hi] at h; cases h
  | ub => rw [hi] at h; cases h
  | ok x1 =>
    rw [hi] at h
    simp only [Outcome.bind_ok, Outcome.ok.injEq, Prod.mk.injEq] at h
    obtain ⟨rfl, rfl⟩ := h
    obtain ⟨b, hb, rfl⟩ := insertDirect_ok x x1 o hi
    refine ⟨rfl, b, b.insert o, ((strip b).insert o).reports, hb, by simp [lookup_assignKey, hb], ?_, insert_owner b o hq⟩
    exact apply_reports b (.insert o)

example : ∃ x' outs, act (fun _ => 0) (create [7] [(7, empty)]) 2 (.insert ⟨.goodUntilCancelled, .sell, 7, 1, 100, 5⟩) = .ok (x', outs) := ⟨_, _, rfl⟩

/-- C179 fails: when a message with another order for the symbol follows, the owner of the order that was entered directly is told about it then, in a message that names the other order. -/
theorem C179_counterexample_wrong_order (latency latency' : Nat → Nat) (x x1 x2 : Exchange) (t t' sender : Nat) (o o' : Order) (outs outs' : List Out)
    (h : act latency x t (.insert o) = .ok (x1, outs)) (h' : act latency' x1 t' (.message (.order sender o')) = .ok (x2, outs'))
    (hq : 0 < o.quantity) (hs : o'.symbol = o.symbol) :
    ∃ b b1 r, x.books.lookup o.symbol = some b ∧ x1.books.lookup o.symbol = some b1 ∧ r ∈ b1.reports.drop b.reports.length ∧ r.owner = o.owner ∧
      Out.report o.owner (u64 (t' + latency' sender)) o' r ∈ outs' := by
  obtain ⟨rfl, b, b1, rs, hb, hb1, hr, r, hm, ho⟩ := C179_counterexample_silent latency x x1 t o outs h hq
  refine ⟨b, b1, r, hb, hb1, by rw [hr, List.drop_left]; exact hm, ho, ?_⟩
  simp only [act, handle, insertOrder, hs, hb1, Outcome.ok.injEq, Prod.mk.injEq] at h'
  obtain ⟨_, rfl⟩ := h'
  rw [← ho]
  apply reportLoop_mem
  have := apply_reports b1 (.insert o')
  simp only [Book.apply] at this
  rw [this, hr]
  exact List.mem_append_left _ (List.mem_append_right _ hm)

/-- Agent 1 hears of their order at 100 when agent 2 sends one at 105, with the details of the latter. -/
example : ∃ x1 x2 outs', act (fun _ => 0) (create [7] [(7, empty)]) 2 (.insert ⟨.goodUntilCancelled, .sell, 7, 1, 100, 5⟩) = .ok (x1, []) ∧
    act (fun _ => 0) x1 9 (.message (.order 2 ⟨.goodUntilCancelled, .sell, 7, 2, 105, 1⟩)) = .ok (x2, outs') ∧
    Out.report 1 9 ⟨.goodUntilCancelled, .sell, 7, 2, 105, 1⟩ ⟨.placement, .sell, 5, 0, 100, 1⟩ ∈ outs' := ⟨_, _, _, rfl, rfl, by decide +kernel⟩

/-- C179 fails: subscribers to market data get nothing when an order is entered directly, and nothing when a message with an order follows that changes no best price and does not match: a best price that the
first order made is not announced. -/
theorem C179_counterexample_data (latency latency' : Nat → Nat) (x x1 x2 : Exchange) (t t' sender : Nat) (o o' : Order) (outs outs' : List Out)
    (h : act latency x t (.insert o) = .ok (x1, outs)) (h' : act latency' x1 t' (.message (.order sender o')) = .ok (x2, outs'))
    (hs : o'.symbol = o.symbol) (b1 b2 : Book) (hb1 : x1.books.lookup o.symbol = some b1) (hb2 : x2.books.lookup o.symbol = some b2)
    (hask : b2.ask = b1.ask) (hbid : b2.bid = b1.bid) (hr : ∀ recipient arrival r, Out.report recipient arrival o' r ∈ outs' → r.state = .match_ → recipient ≠ sender) (a : Nat) :
    Exchange.Spec.data a o.symbol (outs ++ outs') = [] := by
  have ho : outs = [] := by
    simp only [act] at h
    cases hi : insertDirect x o with
    | throws => rw [hi] at h; cases h
    | ub => rw [hi] at h; cases h
    | ok x1 =>
      rw [hi] at h
      simp only [Outcome.bind_ok, Outcome.ok.injEq, Prod.mk.injEq] at h
      exact h.2.symm
  subst ho
  rw [List.nil_append, Exchange.data_eq]
  simp only [act, handle, insertOrder, hs, hb1, Outcome.ok.injEq, Prod.mk.injEq] at h'
  obtain ⟨rfl, rfl⟩ := h'
  simp only [lookup_assignKey, hb1, if_true, Option.map_some, Option.some.injEq] at hb2
  subst hb2
  have e1 : b1.ask = (b1.insert o').ask := hask.symm
  have e2 : b1.bid = (b1.insert o').bid := hbid.symm
  have hc : (decide (b1.ask ≠ (b1.insert o').ask) || decide (b1.bid ≠ (b1.insert o').bid)) = false := by
    rw [← e1, ← e2]; simp
  rw [hc] at hr ⊢
  apply reportLoop_quiet
  intro r hm hst
  exact hr _ _ r (reportLoop_mem latency' t' sender o' (b1.insert o') false _ _ r hm) hst

/-- Agent 5 streams symbol 7. The best ask of 100 that is entered directly is not announced, nor when agent 2 sends an order at 105. Sent in messages, it is announced. -/
theorem C179_counterexample_stream :
    (∃ x outs, runActs (fun _ _ => 0) (create [7] [(7, empty)])
      [ (1, .message (.request 5 1 .snapshot [7])), (1, .message (.request 5 1 .stream [7])), (2, .insert ⟨.goodUntilCancelled, .sell, 7, 1, 100, 5⟩)
      , (3, .message (.order 2 ⟨.goodUntilCancelled, .sell, 7, 2, 105, 1⟩)) ] = .ok (x, outs) ∧ Exchange.Spec.data 5 7 outs = []) ∧
    (∃ x outs, runActs (fun _ _ => 0) (create [7] [(7, empty)])
      [ (1, .message (.request 5 1 .snapshot [7])), (1, .message (.request 5 1 .stream [7])), (2, .message (.order 1 ⟨.goodUntilCancelled, .sell, 7, 1, 100, 5⟩))
      , (3, .message (.order 2 ⟨.goodUntilCancelled, .sell, 7, 2, 105, 1⟩)) ] = .ok (x, outs) ∧ Exchange.Spec.data 5 7 outs = [.data 5 2 7 [] (some 100) none]) :=
  ⟨⟨_, _, rfl, by decide +kernel⟩, _, _, rfl, by decide +kernel⟩

end Esl.DirectOrders
