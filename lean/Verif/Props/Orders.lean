import Verif.Model.Orders
import Verif.Lemmas.Identity
import Verif.Props.Price
import Verif.Props.Ticker
import Verif.Props.OrderBook
import Verif.Props.Exchange
/-! C165: orders are what they are made of. C166: positions state what was traded. -/
namespace Esl.Orders
open Esl.Price (Quote P)
open Esl.Ticker (Ticker)
open Esl.Identity (Ident)

/-! ## C165 -/

/-- **C165 (partial).** An order that Python makes with a quantity below `2 ^ 32` has all the properties that it was given; it is closed exactly if the quantity is zero. Missing: larger quantities, see the counterexamples. -/
theorem C165_create_partial (symbol : Ticker) (owner : Ident) (side : Side) (limit : Quote) (n : Nat) (lifetime : Lifetime) (h : n < 2 ^ 32) :
    ∃ o, pythonOrder symbol owner side limit n lifetime = .ok o ∧ o.symbol = symbol ∧ o.owner = owner ∧ o.side = side ∧ o.limit = limit ∧ o.quantity = n ∧ o.lifetime = lifetime ∧ (o.closed = true ↔ n = 0) := by
  refine ⟨⟨lifetime, side, symbol, owner, limit, n⟩, ?_, rfl, rfl, rfl, rfl, rfl, rfl, ?_⟩
  · rw [pythonOrder, toUnsigned, if_pos ⟨by omega, by omega⟩, Outcome.bind_ok, Int.toNat_natCast, Nat.mod_eq_of_lt h]
    rfl
  · simp only [Order.closed, decide_eq_true_eq]
    omega

example : ∃ o, pythonOrder ⟨[1, 2], [3]⟩ [4] .sell ⟨100, ⟨250, ⟨85, 83, 68, 100⟩⟩⟩ 7 .fillOrKill = .ok o ∧ o.quantity = 7 ∧ o.closed = false := ⟨_, rfl, by decide, by decide⟩

/-- **C165 fails for larger quantities:** a quantity from `2 ^ 32` up to `2 ^ 64` is accepted, and the order is for another, smaller quantity; it is an order for nothing if the quantity is a multiple of `2 ^ 32`. Assigning the same quantity to
the attribute of an order raises an exception. -/
theorem C165_counterexample_quantity (symbol : Ticker) (owner : Ident) (side : Side) (limit : Quote) (n : Nat) (lifetime : Lifetime) (h1 : 2 ^ 32 ≤ n) (h2 : n < 2 ^ 64) :
    ∃ o, pythonOrder symbol owner side limit n lifetime = .ok o ∧ o.quantity < n ∧ (o.closed = true ↔ 2 ^ 32 ∣ n) ∧ ∀ o', pythonAssign o' n = .throws := by
  refine ⟨⟨lifetime, side, symbol, owner, limit, n % 2 ^ 32⟩, ?_, ?_, ?_, ?_⟩
  · rw [pythonOrder, toUnsigned, if_pos ⟨by omega, by omega⟩, Outcome.bind_ok, Int.toNat_natCast]
    rfl
  · have := Nat.mod_lt n (show 0 < 2 ^ 32 by decide)
    show n % 2 ^ 32 < n
    omega
  · simp only [Order.closed, decide_eq_true_eq, Nat.dvd_iff_mod_eq_zero]
    exact eq_comm
  · intro o'
    rw [pythonAssign, toUnsigned, if_neg (by omega)]
    rfl

/-- **C165 fails in a book:** after any history of a book, what is executed for such an order and what rests of it is less than the quantity that was asked for. -/
theorem C165_counterexample_book (symbol : Ticker) (owner : Ident) (side : Side) (limit : Quote) (n : Nat) (lifetime : Lifetime) (h1 : 2 ^ 32 ≤ n) (h2 : n < 2 ^ 64) (symbolNumber : Ticker → Nat) (ownerNumber : Ident → Nat)
    (ops : List Book.Op) (hn : Book.inserts ops < Book.directOrder) :
    ∃ o, pythonOrder symbol owner side limit n lifetime = .ok o ∧
      (let b := Book.run ops
       let b' := b.insert (o.booked symbolNumber ownerNumber)
       Book.Spec.executed (Book.Spec.newReports b b') Book.directOrder + Book.Spec.resting b' b.next < n) := by
  obtain ⟨o, ho, hq, -⟩ := C165_counterexample_quantity symbol owner side limit n lifetime h1 h2
  refine ⟨o, ho, ?_⟩
  obtain ⟨hc, -⟩ := Book.C26_conserves ops hn (o.booked symbolNumber ownerNumber)
  intro b b'
  have : (o.booked symbolNumber ownerNumber).quantity = o.quantity := rfl
  rw [this] at hc
  exact hc ▸ hq

example : 2 ^ 32 ≤ 5000000000 ∧ 5000000000 < 2 ^ 64 := by decide

/-- **C165, assignment.** Assigning a quantity succeeds exactly if it fits 32 bits; then the order has this quantity, and is otherwise unchanged. -/
theorem C165_assign (o : Order) (z : Int) : (∀ o', pythonAssign o z = .ok o' ↔ (0 ≤ z ∧ z < 2 ^ 32 ∧ o' = { o with quantity := z.toNat })) ∧ (¬ (0 ≤ z ∧ z < 2 ^ 32) → pythonAssign o z = .throws) := by
  by_cases h : 0 ≤ z ∧ z < 2 ^ 32
  · refine ⟨fun o' => ?_, fun h' => absurd h h'⟩
    rw [pythonAssign, toUnsigned, if_pos h, Outcome.bind_ok]
    constructor
    · intro h3; exact ⟨h.1, h.2, (Outcome.ok.inj h3).symm⟩
    · intro h3; rw [h3.2.2]
  · have h3 : pythonAssign o z = .throws := by rw [pythonAssign, toUnsigned, if_neg h]; rfl
    refine ⟨fun o' => ?_, fun _ => h3⟩
    rw [h3]
    exact ⟨fun h4 => (by cases h4), fun h4 => absurd ⟨h4.1, h4.2.1⟩ h⟩

/-- **C165, cancellation.** A cancelled order is closed, and otherwise unchanged. -/
theorem C165_cancel (o : Order) : o.cancel.closed = true ∧ o.cancel.lifetime = o.lifetime ∧ o.cancel.side = o.side ∧ o.cancel.symbol = o.symbol ∧ o.cancel.owner = o.owner ∧ o.cancel.limit = o.limit := by
  simp [Order.cancel, Order.closed]

/-- The value of the limit times the lot fits 64 bits. -/
def Spec.Fits (o : Order) : Prop := 0 < o.limit.lot ∧ InI64 (o.limit.price.value * o.limit.lot)

theorem quote_eq (a b : Quote) (hl : a.lot = b.lot) (hp : 0 < a.lot) (ha : InI64 (a.price.value * a.lot)) (hb : InI64 (b.price.value * b.lot)) : Quote.eq a b = .ok (decide (a = b)) := by
  obtain ⟨n, v, c⟩ := a
  obtain ⟨m, w, d⟩ := b
  simp only at hl hp ha hb
  subst hl
  have hn : (0 : Int) < n := by omega
  simp only [Quote.eq, Quote.cmp, P.scaleSigned, P.scaleWrap, if_pos hb, wrapI64_of_in ha, ne_eq, not_true_eq_false, if_false, Outcome.bind_ok, Outcome.ok.injEq]
  rw [Bool.eq_iff_iff, Price.P.eq_iff, decide_eq_true_eq]
  simp only [Quote.mk.injEq, P.mk.injEq, true_and, Price.mul_eq_iff n hn v w]

/-- **C165, equality (partial).** Two orders with the same lot are equal exactly if they agree in everything. Missing: different lots, see the counterexample. -/
theorem C165_equal_partial (a b : Order) (hl : a.limit.lot = b.limit.lot) (ha : Spec.Fits a) (hb : Spec.Fits b) : a.eq b = .ok (decide (a = b)) := by
  have hq := quote_eq a.limit b.limit hl ha.1 ha.2 hb.2
  unfold Order.eq andThen
  rw [hq, Outcome.bind_ok]
  have hs : Ticker.eq a.symbol b.symbol = decide (a.symbol = b.symbol) := by rw [Bool.eq_iff_iff, Ticker.eq_iff, decide_eq_true_eq]
  have ho : Identity.eq a.owner b.owner = decide (a.owner = b.owner) := by rw [Bool.eq_iff_iff, Identity.eq_iff, decide_eq_true_eq]
  rw [hs, ho]
  obtain ⟨l1, s1, y1, o1, q1, n1⟩ := a
  obtain ⟨l2, s2, y2, o2, q2, n2⟩ := b
  simp only [Order.mk.injEq]
  by_cases h1 : l1 = l2 <;> by_cases h2 : s1 = s2 <;> by_cases h3 : y1 = y2 <;> by_cases h4 : o1 = o2 <;> by_cases h5 : q1 = q2 <;> by_cases h6 : n1 = n2 <;>
    simp [h1, h2, h3, h4, h5, h6]

example : Spec.Fits ⟨.goodUntilCancelled, .buy, ⟨[1], [2]⟩, [3], ⟨100, ⟨250, ⟨85, 83, 68, 100⟩⟩⟩, 7⟩ := ⟨by decide, by decide⟩

/-- **C165, equality fails for other lots:** comparing two orders that agree in their lifetime, side, symbol and owner raises an exception if the lots differ. If they differ in one of these, the orders are different, whatever the lots are. -/
theorem C165_counterexample_equal (a b : Order) (h : a.limit.lot ≠ b.limit.lot) :
    a.eq b = if a.lifetime = b.lifetime ∧ a.side = b.side ∧ a.symbol = b.symbol ∧ a.owner = b.owner then .throws else .ok false := by
  have hq := (Price.C09_different_lots_partial a.limit b.limit h).2.2.2.1
  unfold Order.eq andThen
  rw [hq]
  have hs : Ticker.eq a.symbol b.symbol = decide (a.symbol = b.symbol) := by rw [Bool.eq_iff_iff, Ticker.eq_iff, decide_eq_true_eq]
  have ho : Identity.eq a.owner b.owner = decide (a.owner = b.owner) := by rw [Bool.eq_iff_iff, Identity.eq_iff, decide_eq_true_eq]
  rw [hs, ho]
  by_cases h1 : a.lifetime = b.lifetime <;> by_cases h2 : a.side = b.side <;> by_cases h3 : a.symbol = b.symbol <;> by_cases h4 : a.owner = b.owner <;> simp [h1, h2, h3, h4] <;> rfl

/-- **C165, lists (partial).** In a list of orders with the same lot, `in` tells whether an order is among them. -/
theorem C165_contains_partial (x : Order) (l : List Order) (hx : Spec.Fits x) (hl : ∀ o ∈ l, o.limit.lot = x.limit.lot ∧ Spec.Fits o) : contains x l = .ok (decide (x ∈ l)) := by
  induction l with
  | nil => simp [contains]
  | cons o l ih =>
    have h1 := hl o List.mem_cons_self
    rw [contains, C165_equal_partial o x h1.1 h1.2 hx, Outcome.bind_ok, ih fun o ho => hl o (List.mem_cons_of_mem _ ho)]
    by_cases h : o = x
    · subst h; simp
    · have h' : ¬ x = o := fun e => h e.symm
      simp [h, h']

/-- **C165 fails for lists with several lots:** an order that is in the list is not found, but an exception is raised, if an order by the same owner with another lot comes first. -/
theorem C165_counterexample_contains (x : Order) (lot : Nat) (h : lot ≠ x.limit.lot) (l : List Order) : contains x ({ x with limit := { x.limit with lot := lot } } :: x :: l) = .throws := by
  rw [contains, C165_counterexample_equal _ x (by simpa using h)]
  simp

/-! ## C166 -/

/-- **C166, liquidity.** What was bought and sold is twice what was provided, and what was taken; what was taken is the change of the position. -/
theorem C166_liquidity (p : Exchange.Position) (h1 : p.bought < 2 ^ 64) (h2 : p.sold < 2 ^ 64) :
    p.bought + p.sold = 2 * liquidityProvided p + liquidityTaken p ∧ liquidityTaken p = ((p.bought : Int) - p.sold).natAbs ∧ liquidityProvided p ≤ p.bought ∧ liquidityProvided p ≤ p.sold := by
  unfold liquidityTaken liquidityProvided u64
  by_cases h : p.bought ≥ p.sold
  · rw [if_pos h, Nat.min_eq_right h]
    have : (p.bought + (2 ^ 64 - p.sold)) % 2 ^ 64 = p.bought - p.sold := by omega
    rw [this]
    omega
  · rw [if_neg h, Nat.min_eq_left (by omega)]
    have : (p.sold + (2 ^ 64 - p.bought)) % 2 ^ 64 = p.sold - p.bought := by omega
    rw [this]
    omega

example : liquidityProvided ⟨5, 10, 4⟩ = 4 ∧ liquidityTaken ⟨5, 10, 4⟩ = 6 := by decide

theorem split_digits (l1 l2 : List Char) (c1 c2 : Char) (r1 r2 : List Char) (h1 : ∀ c ∈ l1, c.isDigit = true) (h2 : ∀ c ∈ l2, c.isDigit = true) (hc1 : c1.isDigit = false) (hc2 : c2.isDigit = false)
    (h : l1 ++ c1 :: r1 = l2 ++ c2 :: r2) : l1 = l2 ∧ r1 = r2 := by
  induction l1 generalizing l2 with
  | nil =>
    cases l2 with
    | nil => simp only [List.nil_append, List.cons.injEq] at h; exact ⟨rfl, h.2⟩
    | cons x l2 =>
      simp only [List.nil_append, List.cons_append, List.cons.injEq] at h
      have := h2 x List.mem_cons_self
      rw [← h.1, hc1] at this; cases this
  | cons x l1 ih =>
    cases l2 with
    | nil =>
      simp only [List.nil_append, List.cons_append, List.cons.injEq] at h
      have := h1 x List.mem_cons_self
      rw [h.1, hc2] at this; cases this
    | cons y l2 =>
      simp only [List.cons_append, List.cons.injEq] at h
      obtain ⟨h3, h4⟩ := ih l2 (fun c hc => h1 c (List.mem_cons_of_mem _ hc)) (fun c hc => h2 c (List.mem_cons_of_mem _ hc)) h.2
      exact ⟨by rw [h.1, h3], h4⟩

theorem toDigits_inj (a b : Nat) (h : Nat.toDigits 10 a = Nat.toDigits 10 b) : a = b := by
  rw [← Nat.ofDigitChars_ten_toDigits (n := a), h, Nat.ofDigitChars_ten_toDigits]

/-- **C166, printing.** Positions that print alike are the same, in whatever text they occur. -/
theorem C166_print (p q : Exchange.Position) (r1 r2 : List Char) (h : printPosition p ++ r1 = printPosition q ++ r2) : p = q ∧ r1 = r2 := by
  have hd : ∀ n, ∀ c ∈ Nat.toDigits 10 n, c.isDigit = true := fun n c hc => Nat.isDigit_of_mem_toDigits (by decide) (by decide) hc
  simp only [printPosition, List.append_assoc, List.cons_append, List.nil_append] at h
  obtain ⟨h1, g1⟩ := split_digits _ _ _ _ _ _ (hd _) (hd _) (by decide) (by decide) h
  obtain ⟨h2, g2⟩ := split_digits _ _ _ _ _ _ (hd _) (hd _) (by decide) (by decide) g1
  obtain ⟨h3, g3⟩ := split_digits _ _ _ _ _ _ (hd _) (hd _) (by decide) (by decide) g2
  have h1' := toDigits_inj _ _ h1
  have h2' := toDigits_inj _ _ h2
  have h3' := toDigits_inj _ _ h3
  refine ⟨?_, g3⟩
  cases p; cases q
  simp_all

example : printPosition ⟨5, 10, 4⟩ = ['5', '+', '1', '0', '-', '4', '\n'] := by decide

/-- **C166, warnings (partial).** The exchange warns exactly if more was sold than supplied and bought, if these add up to less than `2 ^ 64`. -/
theorem C166_warned_partial (p : Exchange.Position) (h : p.supply + p.bought < 2 ^ 64) : warned p = true ↔ p.supply + p.bought < p.sold := by
  unfold warned u64
  rw [Nat.mod_eq_of_lt h, decide_eq_true_eq]

/-- **C166 fails for large numbers:** if the sum does not fit 64 bits, then all trades clear, and the exchange warns if more was sold than is left of the sum. -/
theorem C166_counterexample_warned (p : Exchange.Position) (h1 : p.supply < 2 ^ 64) (h2 : p.bought < 2 ^ 64) (h3 : p.sold < 2 ^ 64) (h : 2 ^ 64 ≤ p.supply + p.bought) :
    p.sold < p.supply + p.bought ∧ (warned p = true ↔ p.supply + p.bought < p.sold + 2 ^ 64) := by
  unfold warned u64
  refine ⟨by omega, ?_⟩
  rw [decide_eq_true_eq]
  omega

example : warned ⟨2 ^ 64 - 1, 1, 1⟩ = true := by decide

/-- **C166 fails for trades:** whatever orders an exchange handles, and whatever is executed, positions stay as they are. -/
theorem C166_counterexample_trades (latency : Nat → Nat → Nat) (x x' : Exchange.Exchange) (es : List (Nat × Exchange.Event)) (outs : List Exchange.Out)
    (hes : ∀ e ∈ es, (∃ s o, e.2 = .order s o) ∨ ∃ s i, e.2 = .cancel s i) (h : Exchange.runEvents latency x es = .ok (x', outs)) : x'.positions = x.positions := by
  induction es generalizing latency x outs with
  | nil =>
    simp only [Exchange.runEvents] at h
    injection h with h; injection h with h _; rw [h]
  | cons e es ih =>
    obtain ⟨t, e⟩ := e
    simp only [Exchange.runEvents] at h
    rw [Outcome.bind_eq_ok] at h
    obtain ⟨r, hr, h⟩ := h
    rw [Outcome.bind_eq_ok] at h
    obtain ⟨r', hr', h⟩ := h
    injection h with h; injection h with h _
    have := ih _ r.1 r'.2 (fun e he => hes e (List.mem_cons_of_mem _ he)) (by rw [hr', ← h])
    rw [this]
    rcases hes _ List.mem_cons_self with ⟨s, o, he⟩ | ⟨s, i, he⟩
    · simp only at he; subst he
      simp only [Exchange.handle, Exchange.insertOrder] at hr
      split at hr
      · cases hr
      · injection hr with hr; rw [← hr]
    · simp only at he; subst he
      simp only [Exchange.handle, Exchange.cancelOrder] at hr
      injection hr with hr; rw [← hr]
      dsimp only
      split <;> rfl

/-- A participant that is registered sells three to another. -/
example : ∃ x outs, Exchange.runEvents (fun _ _ => 0) ⟨[0], [(0, Book.empty)], [(0, [(1, ⟨5, 0, 0⟩)])], []⟩ [(0, .order 1 ⟨.goodUntilCancelled, .sell, 0, 1, 100, 3⟩), (0, .order 2 ⟨.goodUntilCancelled, .buy, 0, 2, 100, 3⟩)] = .ok (x, outs) ∧
    (.report 1 0 ⟨.goodUntilCancelled, .buy, 0, 2, 100, 3⟩ ⟨.match_, .sell, 3, 0, 100, 1⟩) ∈ outs ∧ x.positions = [(0, [(1, ⟨5, 0, 0⟩)])] := ⟨_, _, rfl, by decide, by decide⟩

end Esl.Orders
