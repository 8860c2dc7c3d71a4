import Verif.Model.QuotedBook
import Verif.Props.Price
import Mathlib.Data.List.Induction
/-!
# C148: an order book compares quotes as prices if they are quoted alike

`Model/OrderBook.lean` takes limits to be integers. Here limits are quotes: a lot size and a price in a currency.
-/
namespace Esl.QBook
open Esl.Price

/-! ## Specification -/

/-- A quote for `lot` units in currency `c`. -/
def Spec.quote (lot : Nat) (c : Currency) (v : Int) : Quote := ⟨lot, ⟨v, c⟩⟩

/-- An order with its limit quoted for `lot` units in currency `c`. -/
def Spec.order (lot : Nat) (c : Currency) (o : Esl.Book.Order) : Order := ⟨o.lifetime, o.side, o.symbol, o.owner, Spec.quote lot c o.limit, o.quantity⟩

/-- A report with its limit quoted for `lot` units in currency `c`. -/
def Spec.report (lot : Nat) (c : Currency) (r : Esl.Book.Report) : Report := ⟨r.state, r.side, r.quantity, r.ident, Spec.quote lot c r.limit, r.owner⟩

/-- An entry with its limit quoted for `lot` units in currency `c`. -/
def Spec.entry (lot : Nat) (c : Currency) (e : Esl.Book.Entry) : Entry := ⟨Spec.quote lot c e.key, e.id, Spec.order lot c e.order⟩

/-- A book in which everything is quoted for `lot` units in currency `c`. -/
def Spec.book (lot : Nat) (c : Currency) (b : Esl.Book.Book) : Book :=
  ⟨b.next, b.limits.map fun x => (x.1, Spec.quote lot c x.2), b.bids.map (Spec.entry lot c), b.asks.map (Spec.entry lot c), b.reports.map (Spec.report lot c)⟩

/-- An operation with its limit quoted for `lot` units in currency `c`. -/
def Spec.op (lot : Nat) (c : Currency) : Esl.Book.Op → Op
  | .insert o => .insert (Spec.order lot c o)
  | .cancel i => .cancel i

/-- A quote for `lot` units, whose product with the lot fits into 64 bits. -/
def Spec.Fits (lot : Nat) (q : Quote) : Prop := q.lot = lot ∧ InI64 (q.price.value * lot)

/-- A history in which all orders are quoted for `lot` units, in any currencies. -/
def Spec.OneLot (lot : Nat) (ops : List Op) : Prop := ∀ o, Op.insert o ∈ ops → Spec.Fits lot o.limit

/-! ## Comparisons -/

theorem compare_quote (lot : Nat) (hl : 0 < lot) (c : Currency) (v w : Int) (hv : InI64 (v * lot)) (hw : InI64 (w * lot)) :
    Quote.lt (Spec.quote lot c v) (Spec.quote lot c w) = .ok (decide (v < w)) ∧ Quote.le (Spec.quote lot c v) (Spec.quote lot c w) = .ok (decide (v ≤ w)) ∧
    Quote.gt (Spec.quote lot c v) (Spec.quote lot c w) = .ok (decide (v > w)) ∧ Quote.ge (Spec.quote lot c v) (Spec.quote lot c w) = .ok (decide (v ≥ w)) := by
  obtain ⟨h1, h2, h3, h4, -, -⟩ := C09_equal_lots_partial (Spec.quote lot c v) (Spec.quote lot c w) rfl hl rfl hv hw
  exact ⟨h1, h2, h3, h4⟩

theorem currency_ne {c d : Currency} (h : c ≠ d) : c.ne d = true := by
  obtain ⟨a0, a1, a2, an⟩ := c
  obtain ⟨b0, b1, b2, bn⟩ := d
  unfold Currency.ne
  simp only [bne_iff_ne, ne_eq, Bool.or_eq_true]
  simp only [ne_eq, Currency.mk.injEq, not_and] at h
  by_cases h0 : a0 = b0
  · by_cases h1 : a1 = b1
    · by_cases h2 : a2 = b2
      · exact .inr (h h0 h1 h2)
      · exact .inl (.inr h2)
    · exact .inl (.inl (.inr h1))
  · exact .inl (.inl (.inl h0))

/-- Quotes in different currencies cannot be compared. -/
theorem compare_currencies (lot : Nat) (p q : Quote) (hp : Spec.Fits lot p) (hq : Spec.Fits lot q) (h : p.price.valuation ≠ q.price.valuation) :
    Quote.lt p q = .throws ∧ Quote.le p q = .throws ∧ Quote.gt p q = .throws ∧ Quote.ge p q = .throws := by
  have hn := currency_ne h
  have hl : p.lot = q.lot := by rw [hp.1, hq.1]
  have h2 : InI64 (q.price.value * q.lot) := by rw [hq.1]; exact hq.2
  unfold Quote.lt Quote.le Quote.gt Quote.ge Quote.cmp P.scaleSigned P.scaleWrap P.lt P.le P.gt P.ge P.lt P.gt
  simp only [hl, ne_eq, not_true_eq_false, if_false, if_pos h2, Outcome.bind_ok, hn, if_true, Outcome.bind_throws, and_self]

/-- Quotes alike are compared without failure. -/
theorem compare_alike (lot : Nat) (hl : 0 < lot) (p q : Quote) (hp : Spec.Fits lot p) (hq : Spec.Fits lot q) (h : p.price.valuation = q.price.valuation) :
    (∃ x, Quote.lt p q = .ok x) ∧ (∃ x, Quote.le p q = .ok x) ∧ (∃ x, Quote.gt p q = .ok x) ∧ ∃ x, Quote.ge p q = .ok x := by
  obtain ⟨h1, h2, h3, h4, -, -⟩ := C09_equal_lots_partial p q (by rw [hp.1, hq.1]) (by rw [hp.1]; exact hl) h (by rw [hp.1]; exact hp.2) (by rw [hq.1]; exact hq.2)
  exact ⟨⟨_, h1⟩, ⟨_, h2⟩, ⟨_, h3⟩, ⟨_, h4⟩⟩

/-! ## Refinement -/

section
variable {lot : Nat} (hl : 0 < lot) (c : Currency)

theorem matchLoop_quoted (crosses : Int → Bool) (f : Quote → Outcome Bool) (o : Esl.Book.Order) (rem : Nat) (l : List Esl.Book.Entry) (hf : ∀ e ∈ l, f (Spec.quote lot c e.key) = .ok (crosses e.key)) :
    (matchLoop f (Spec.order lot c o) rem (l.map (Spec.entry lot c))).outcome = .ok () ∧
    (matchLoop f (Spec.order lot c o) rem (l.map (Spec.entry lot c))).remainder = (Esl.Book.matchLoop crosses o rem l).remainder ∧
    (matchLoop f (Spec.order lot c o) rem (l.map (Spec.entry lot c))).resting = (Esl.Book.matchLoop crosses o rem l).resting.map (Spec.entry lot c) ∧
    (matchLoop f (Spec.order lot c o) rem (l.map (Spec.entry lot c))).reports = (Esl.Book.matchLoop crosses o rem l).reports.map (Spec.report lot c) ∧
    (matchLoop f (Spec.order lot c o) rem (l.map (Spec.entry lot c))).erased = (Esl.Book.matchLoop crosses o rem l).erased := by
  induction l generalizing rem with
  | nil => exact ⟨rfl, rfl, rfl, rfl, rfl⟩
  | cons e l ih =>
    have he := hf e (List.mem_cons_self ..)
    have hk : (Spec.entry lot c e).key = Spec.quote lot c e.key := rfl
    have hq : (Spec.entry lot c e).order.quantity = e.order.quantity := rfl
    rw [List.map_cons]
    unfold matchLoop Esl.Book.matchLoop
    rw [hk, he]
    by_cases hc : crosses e.key = true
    · simp only [hc, Bool.not_true, Bool.false_eq_true, if_false, hq]
      by_cases h0 : min rem e.order.quantity = 0
      · rw [if_pos h0, if_pos h0]
        exact ⟨rfl, rfl, rfl, rfl, rfl⟩
      · rw [if_neg h0, if_neg h0]
        obtain ⟨i1, i2, i3, i4, i5⟩ := ih (rem - min rem e.order.quantity) fun x hx => hf x (List.mem_cons_of_mem _ hx)
        unfold Matched.resting at i3 ⊢
        simp only [i1] at i3 ⊢
        simp only [List.filter_cons]
        by_cases hz : e.order.quantity - min rem e.order.quantity = 0
        · simp only [hz, if_true, ne_eq, not_true_eq_false, decide_false, Bool.false_eq_true, if_false, true_and]
          refine ⟨i2, i3, ?_, ?_⟩
          · rw [i4]; rfl
          · rw [i5]; rfl
        · simp only [hz, if_false, ne_eq, not_false_eq_true, decide_true, if_true, true_and]
          refine ⟨i2, ?_, ?_, i5⟩
          · rw [List.cons_append, i3]; rfl
          · rw [i4]; rfl
    · simp only [hc, Bool.not_false, if_true]
      exact ⟨trivial, trivial, rfl, rfl, trivial⟩

theorem emplace_quoted (before : Int → Int → Bool) (f : Quote → Quote → Outcome Bool) (e : Esl.Book.Entry) (l : List Esl.Book.Entry) (hf : ∀ x ∈ l, f (Spec.quote lot c e.key) (Spec.quote lot c x.key) = .ok (before e.key x.key)) :
    emplace f (Spec.entry lot c e) (l.map (Spec.entry lot c)) = .ok ((Esl.Book.emplace before e l).map (Spec.entry lot c)) := by
  induction l with
  | nil => rfl
  | cons x l ih =>
    have h := hf x (List.mem_cons_self ..)
    have hk : ∀ e, (Spec.entry lot c e).key = Spec.quote lot c e.key := fun _ => rfl
    rw [List.map_cons]
    unfold emplace Esl.Book.emplace
    rw [hk, hk, h]
    by_cases hb : before e.key x.key = true
    · simp only [hb, if_true]
      rfl
    · simp only [hb, Bool.false_eq_true, if_false]
      rw [ih fun y hy => hf y (List.mem_cons_of_mem _ hy)]
      rfl

theorem mapEmplace_quoted (k : Nat) (v : Int) (l : List (Nat × Int)) :
    mapEmplace k (Spec.quote lot c v) (l.map fun x => (x.1, Spec.quote lot c x.2)) = (Esl.Book.mapEmplace k v l).map fun x => (x.1, Spec.quote lot c x.2) := by
  induction l with
  | nil => rfl
  | cons x l ih =>
    rw [List.map_cons]
    unfold mapEmplace Esl.Book.mapEmplace
    simp only
    by_cases h1 : k < x.1
    · rw [if_pos h1, if_pos h1]; rfl
    · rw [if_neg h1, if_neg h1]
      by_cases h2 : k = x.1
      · rw [if_pos h2, if_pos h2]; rfl
      · rw [if_neg h2, if_neg h2, ih]; rfl

theorem eraseLimits_quoted (ids : List Nat) (l : List (Nat × Int)) :
    eraseLimits ids (l.map fun x => (x.1, Spec.quote lot c x.2)) = (Esl.Book.eraseLimits ids l).map fun x => (x.1, Spec.quote lot c x.2) := by
  unfold eraseLimits Esl.Book.eraseLimits
  rw [List.filter_map]
  rfl

/-- Everything in a book with integers fits. -/
def Within (lot : Nat) (b : Esl.Book.Book) : Prop :=
  (∀ x ∈ b.limits, InI64 (x.2 * lot)) ∧ (∀ e ∈ b.bids, InI64 (e.key * lot)) ∧ ∀ e ∈ b.asks, InI64 (e.key * lot)

include hl in
theorem insert_quoted (b : Esl.Book.Book) (o : Esl.Book.Order) (hb : Within lot b) (ho : InI64 (o.limit * lot)) :
    (Spec.book lot c b).insert (Spec.order lot c o) = (Spec.book lot c (b.insert o), .ok ()) := by
  obtain ⟨-, hbids, hasks⟩ := hb
  unfold Book.insert Esl.Book.Book.insert
  have hs : (Spec.order lot c o).side = o.side := rfl
  have hql : (Spec.order lot c o).quantity = o.quantity := rfl
  have hlim : (Spec.order lot c o).limit = Spec.quote lot c o.limit := rfl
  have ha : (Spec.book lot c b).asks = b.asks.map (Spec.entry lot c) := rfl
  have hbd : (Spec.book lot c b).bids = b.bids.map (Spec.entry lot c) := rfl
  rw [hs]
  cases hside : o.side with
  | buy =>
    obtain ⟨i1, i2, i3, i4, i5⟩ := matchLoop_quoted c (fun k => decide (o.limit ≥ k)) (fun k => Quote.ge (Spec.order lot c o).limit k) o o.quantity b.asks
      (fun e he => (compare_quote lot hl c o.limit e.key ho (hasks e he)).2.2.2)
    simp only [hql, ha, i1, i2, i3, i4, i5]
    by_cases hr : (Esl.Book.matchLoop (fun k => decide (o.limit ≥ k)) o o.quantity b.asks).remainder > 0
    · rw [if_pos hr, if_pos hr]
      have he := emplace_quoted c (fun x y => decide (x > y)) Quote.gt ⟨o.limit, b.next, { o with quantity := (Esl.Book.matchLoop (fun k => decide (o.limit ≥ k)) o o.quantity b.asks).remainder }⟩ b.bids
        (fun e he => (compare_quote lot hl c o.limit e.key ho (hbids e he)).2.2.1)
      have hp : (placed (Spec.book lot c b) (Spec.order lot c o) (Esl.Book.matchLoop (fun k => decide (o.limit ≥ k)) o o.quantity b.asks).remainder).1 =
          Spec.entry lot c ⟨o.limit, b.next, { o with quantity := (Esl.Book.matchLoop (fun k => decide (o.limit ≥ k)) o o.quantity b.asks).remainder }⟩ := rfl
      rw [hbd, hp, he]
      simp only [Spec.book, hlim, eraseLimits_quoted, mapEmplace_quoted, List.map_append, placed, List.map_cons, List.map_nil, Spec.report, Spec.order, hside]
    · rw [if_neg hr, if_neg hr]
      simp only [Spec.book, eraseLimits_quoted, List.map_append]
  | sell =>
    obtain ⟨i1, i2, i3, i4, i5⟩ := matchLoop_quoted c (fun k => decide (o.limit ≤ k)) (fun k => Quote.le (Spec.order lot c o).limit k) o o.quantity b.bids
      (fun e he => (compare_quote lot hl c o.limit e.key ho (hbids e he)).2.1)
    simp only [hql, hbd, i1, i2, i3, i4, i5]
    by_cases hr : (Esl.Book.matchLoop (fun k => decide (o.limit ≤ k)) o o.quantity b.bids).remainder > 0
    · rw [if_pos hr, if_pos hr]
      have he := emplace_quoted c (fun x y => decide (x < y)) Quote.lt ⟨o.limit, b.next, { o with quantity := (Esl.Book.matchLoop (fun k => decide (o.limit ≤ k)) o o.quantity b.bids).remainder }⟩ b.asks
        (fun e he => (compare_quote lot hl c o.limit e.key ho (hasks e he)).1)
      have hp : (placed (Spec.book lot c b) (Spec.order lot c o) (Esl.Book.matchLoop (fun k => decide (o.limit ≤ k)) o o.quantity b.bids).remainder).1 =
          Spec.entry lot c ⟨o.limit, b.next, { o with quantity := (Esl.Book.matchLoop (fun k => decide (o.limit ≤ k)) o o.quantity b.bids).remainder }⟩ := rfl
      rw [ha, hp, he]
      simp only [Spec.book, hlim, eraseLimits_quoted, mapEmplace_quoted, List.map_append, placed, List.map_cons, List.map_nil, Spec.report, Spec.order, hside]
    · rw [if_neg hr, if_neg hr]
      simp only [Spec.book, eraseLimits_quoted, List.map_append]

theorem cancelIn_quoted (f : Quote → Quote → Outcome Bool) (side : Side) (p : Int) (i : Nat) (l : List Esl.Book.Entry) (hf : ∀ e ∈ l, same f (Spec.quote lot c e.key) (Spec.quote lot c p) = .ok (decide (e.key = p))) :
    cancelIn f side (Spec.quote lot c p) i (l.map (Spec.entry lot c)) = .ok ((Esl.Book.cancelIn side p i l).1.map (Spec.entry lot c), (Esl.Book.cancelIn side p i l).2.map (Spec.report lot c)) := by
  induction l with
  | nil => rfl
  | cons e l ih =>
    have h := hf e (List.mem_cons_self ..)
    have hk : (Spec.entry lot c e).key = Spec.quote lot c e.key := rfl
    have hi : (Spec.entry lot c e).id = e.id := rfl
    rw [List.map_cons]
    unfold cancelIn Esl.Book.cancelIn
    rw [hk, h]
    simp only [decide_eq_true_eq, hi]
    by_cases hc : e.key = p ∧ e.id = i
    · rw [if_pos hc, if_pos hc]; rfl
    · rw [if_neg hc, if_neg hc, ih fun y hy => hf y (List.mem_cons_of_mem _ hy)]
      rfl

include hl in
theorem cancel_quoted (b : Esl.Book.Book) (i : Nat) (hb : Within lot b) : (Spec.book lot c b).cancel i = (Spec.book lot c (b.cancel i), .ok ()) := by
  obtain ⟨hlims, hbids, hasks⟩ := hb
  unfold Book.cancel Esl.Book.Book.cancel
  have hfind : (Spec.book lot c b).limits.find? (fun e => e.1 == i) = (b.limits.find? (fun e => e.1 == i)).map fun x => (x.1, Spec.quote lot c x.2) := by
    show (b.limits.map fun x => (x.1, Spec.quote lot c x.2)).find? _ = _
    rw [List.find?_map]
    rfl
  have ha : (Spec.book lot c b).asks = b.asks.map (Spec.entry lot c) := rfl
  have hbd : (Spec.book lot c b).bids = b.bids.map (Spec.entry lot c) := rfl
  rw [hfind]
  cases hx : b.limits.find? (fun e => e.1 == i) with
  | none => rfl
  | some x =>
    obtain ⟨n, p⟩ := x
    have hp : InI64 (p * lot) := hlims _ (List.mem_of_find?_eq_some hx)
    simp only [Option.map_some]
    have hsb : ∀ e ∈ b.bids, same Quote.gt (Spec.quote lot c e.key) (Spec.quote lot c p) = .ok (decide (e.key = p)) := by
      intro e he
      unfold same
      rw [(compare_quote lot hl c e.key p (hbids e he) hp).2.2.1, (compare_quote lot hl c p e.key hp (hbids e he)).2.2.1]
      by_cases h1 : e.key > p
      · have : ¬ e.key = p := by omega
        simp [h1, this]
      · by_cases h2 : p > e.key
        · have : ¬ e.key = p := by omega
          simp [h1, h2, this]
        · have : e.key = p := by omega
          simp [this]
    have hsa : ∀ e ∈ b.asks, same Quote.lt (Spec.quote lot c e.key) (Spec.quote lot c p) = .ok (decide (e.key = p)) := by
      intro e he
      unfold same
      rw [(compare_quote lot hl c e.key p (hasks e he) hp).1, (compare_quote lot hl c p e.key hp (hasks e he)).1]
      by_cases h1 : e.key < p
      · have : ¬ e.key = p := by omega
        simp [h1, this]
      · by_cases h2 : p < e.key
        · have : ¬ e.key = p := by omega
          simp [h1, h2, this]
        · have : e.key = p := by omega
          simp [this]
    have hbb : best (fun q => Quote.ge q (Spec.quote lot c p)) (Spec.book lot c b).bids = .ok (b.bid.any fun q => decide (q ≥ p)) := by
      rw [hbd]
      unfold Esl.Book.Book.bid
      cases hB : b.bids with
      | nil => rfl
      | cons e l =>
        rw [List.map_cons]
        unfold best
        exact (compare_quote lot hl c e.key p (hbids e (by rw [hB]; exact List.mem_cons_self ..)) hp).2.2.2
    have haa : best (fun q => Quote.le q (Spec.quote lot c p)) (Spec.book lot c b).asks = .ok (b.ask.any fun q => decide (q ≤ p)) := by
      rw [ha]
      unfold Esl.Book.Book.ask
      cases hB : b.asks with
      | nil => rfl
      | cons e l =>
        rw [List.map_cons]
        unfold best
        exact (compare_quote lot hl c e.key p (hasks e (by rw [hB]; exact List.mem_cons_self ..)) hp).2.1
    rw [hbb, haa, ha, hbd, cancelIn_quoted c Quote.gt .buy p i b.bids hsb, cancelIn_quoted c Quote.lt .sell p i b.asks hsa]
    by_cases h1 : (b.bid.any fun q => decide (q ≥ p)) = true
    · simp only [h1, if_true]
      simp only [Spec.book, List.map_append]
    · simp only [h1, Bool.false_eq_true, if_false]
      by_cases h2 : (b.ask.any fun q => decide (q ≤ p)) = true
      · simp only [h2, if_true]
        simp only [Spec.book, List.map_append]
      · simp only [h2, Bool.false_eq_true, if_false]

end

theorem matchLoop_keys (crosses : Int → Bool) (o : Esl.Book.Order) (rem : Nat) (l : List Esl.Book.Entry) : ∀ e ∈ (Esl.Book.matchLoop crosses o rem l).resting, ∃ x ∈ l, x.key = e.key := by
  induction l generalizing rem with
  | nil => intro e he; cases he
  | cons a l ih =>
    intro e he
    unfold Esl.Book.matchLoop at he
    split at he
    · exact ⟨e, he, rfl⟩
    · simp only at he
      split at he
      · exact ⟨e, he, rfl⟩
      · split at he
        · obtain ⟨x, hx, h⟩ := ih _ e he
          exact ⟨x, List.mem_cons_of_mem _ hx, h⟩
        · rcases List.mem_cons.mp he with rfl | he
          · exact ⟨a, List.mem_cons_self .., rfl⟩
          · obtain ⟨x, hx, h⟩ := ih _ e he
            exact ⟨x, List.mem_cons_of_mem _ hx, h⟩

theorem emplace_mem (before : Int → Int → Bool) (e : Esl.Book.Entry) (l : List Esl.Book.Entry) : ∀ x ∈ Esl.Book.emplace before e l, x = e ∨ x ∈ l := by
  induction l with
  | nil => intro x hx; exact .inl (by simpa [Esl.Book.emplace] using hx)
  | cons a l ih =>
    intro x hx
    unfold Esl.Book.emplace at hx
    split at hx
    · rcases List.mem_cons.mp hx with rfl | hx
      · exact .inl rfl
      · exact .inr hx
    · rcases List.mem_cons.mp hx with rfl | hx
      · exact .inr (List.mem_cons_self ..)
      · exact (ih x hx).imp id (List.mem_cons_of_mem _)

theorem mapEmplace_mem (k : Nat) (v : Int) (l : List (Nat × Int)) : ∀ x ∈ Esl.Book.mapEmplace k v l, x = (k, v) ∨ x ∈ l := by
  induction l with
  | nil => intro x hx; exact .inl (by simpa [Esl.Book.mapEmplace] using hx)
  | cons a l ih =>
    intro x hx
    unfold Esl.Book.mapEmplace at hx
    split at hx
    · rcases List.mem_cons.mp hx with rfl | hx
      · exact .inl rfl
      · exact .inr hx
    · split at hx
      · exact .inr hx
      · rcases List.mem_cons.mp hx with rfl | hx
        · exact .inr (List.mem_cons_self ..)
        · exact (ih x hx).imp id (List.mem_cons_of_mem _)

theorem within_insert {lot : Nat} (b : Esl.Book.Book) (o : Esl.Book.Order) (hb : Within lot b) (ho : InI64 (o.limit * lot)) : Within lot (b.insert o) := by
  obtain ⟨h1, h2, h3⟩ := hb
  have hlim : ∀ ids, ∀ x ∈ Esl.Book.eraseLimits ids b.limits, InI64 (x.2 * lot) := fun ids x hx => h1 x (List.mem_filter.mp hx).1
  have hlim' : ∀ ids, ∀ x ∈ Esl.Book.mapEmplace b.next o.limit (Esl.Book.eraseLimits ids b.limits), InI64 (x.2 * lot) := by
    intro ids x hx
    rcases mapEmplace_mem _ _ _ x hx with rfl | hx
    · exact ho
    · exact hlim ids x hx
  have hm : ∀ crosses rem (l : List Esl.Book.Entry), (∀ e ∈ l, InI64 (e.key * lot)) → ∀ e ∈ (Esl.Book.matchLoop crosses o rem l).resting, InI64 (e.key * lot) := by
    intro crosses rem l hl e he
    obtain ⟨x, hx, h⟩ := matchLoop_keys crosses o rem l e he
    rw [← h]
    exact hl x hx
  have hp : ∀ before n (l : List Esl.Book.Entry), (∀ e ∈ l, InI64 (e.key * lot)) → ∀ e ∈ Esl.Book.emplace before ⟨o.limit, b.next, { o with quantity := n }⟩ l, InI64 (e.key * lot) := by
    intro before n l hl e he
    rcases emplace_mem before _ l e he with rfl | he
    · exact ho
    · exact hl e he
  unfold Esl.Book.Book.insert
  split
  · simp only
    split
    · exact ⟨hlim' _, hp _ _ _ h2, hm _ _ _ h3⟩
    · exact ⟨hlim _, h2, hm _ _ _ h3⟩
  · simp only
    split
    · exact ⟨hlim' _, hm _ _ _ h2, hp _ _ _ h3⟩
    · exact ⟨hlim _, hm _ _ _ h2, h3⟩

theorem cancelIn_sub (side : Side) (p : Int) (i : Nat) (l : List Esl.Book.Entry) : ∀ e ∈ (Esl.Book.cancelIn side p i l).1, e ∈ l := by
  induction l with
  | nil => intro e he; cases he
  | cons a l ih =>
    intro e he
    unfold Esl.Book.cancelIn at he
    split at he
    · exact List.mem_cons_of_mem _ he
    · rcases List.mem_cons.mp he with rfl | he
      · exact List.mem_cons_self ..
      · exact List.mem_cons_of_mem _ (ih e he)

theorem within_cancel {lot : Nat} (b : Esl.Book.Book) (i : Nat) (hb : Within lot b) : Within lot (b.cancel i) := by
  obtain ⟨h1, h2, h3⟩ := hb
  unfold Esl.Book.Book.cancel
  split
  · exact ⟨h1, h2, h3⟩
  · split
    · exact ⟨h1, fun e he => h2 e (cancelIn_sub _ _ _ _ e he), h3⟩
    · split
      · exact ⟨h1, h2, fun e he => h3 e (cancelIn_sub _ _ _ _ e he)⟩
      · exact ⟨h1, h2, h3⟩

theorem run_snoc (ops : List Op) (op : Op) : run (ops ++ [op]) = ((run ops).apply op).1 := by
  unfold run
  rw [List.foldl_append]
  rfl

theorem run_quoted {lot : Nat} (hl : 0 < lot) (c : Currency) (ops : List Esl.Book.Op) (hin : ∀ o, Esl.Book.Op.insert o ∈ ops → InI64 (o.limit * lot)) :
    run (ops.map (Spec.op lot c)) = Spec.book lot c (Esl.Book.run ops) ∧ Within lot (Esl.Book.run ops) := by
  induction ops using List.reverseRecOn with
  | nil => exact ⟨rfl, by simp [Within, Esl.Book.run, Esl.Book.empty]⟩
  | append_singleton ops op ih =>
    obtain ⟨i1, i2⟩ := ih fun o ho => hin o (List.mem_append_left _ ho)
    have hr : Esl.Book.run (ops ++ [op]) = (Esl.Book.run ops).apply op := by
      unfold Esl.Book.run
      rw [List.foldl_append]
      rfl
    rw [List.map_append, List.map_singleton, run_snoc, i1, hr]
    cases op with
    | insert o =>
      have ho := hin o (List.mem_append_right _ (List.mem_singleton_self _))
      exact ⟨congrArg Prod.fst (insert_quoted hl c _ o i2 ho), within_insert _ o i2 ho⟩
    | cancel i => exact ⟨congrArg Prod.fst (cancel_quoted hl c _ i i2), within_cancel _ i i2⟩

/-- **C148 for orders that are quoted alike (partial: one lot).** In every history of orders whose limits are quoted for the same number of units in the same currency, and fit into 64 bits, no operation throws, and the book is the same as if prices were compared as integers: the same orders rest,
in the same order, and the same reports are made, with the quotes of these prices. Hence C25 to C31 hold for quotes. -/
theorem C148_alike_partial (lot : Nat) (hl : 0 < lot) (c : Currency) (ops : List Esl.Book.Op) (hin : ∀ o, Esl.Book.Op.insert o ∈ ops → InI64 (o.limit * lot)) :
    run (ops.map (Spec.op lot c)) = Spec.book lot c (Esl.Book.run ops) ∧
    ∀ pre op post, ops = pre ++ op :: post → ((run (pre.map (Spec.op lot c))).apply (Spec.op lot c op)).2 = .ok () := by
  refine ⟨(run_quoted hl c ops hin).1, ?_⟩
  rintro pre op post rfl
  obtain ⟨i1, i2⟩ := run_quoted hl c pre fun o ho => hin o (List.mem_append_left _ ho)
  rw [i1]
  cases op with
  | insert o =>
    have ho := hin o (List.mem_append_right _ (List.mem_cons_self ..))
    exact congrArg Prod.snd (insert_quoted hl c _ o i2 ho)
  | cancel i => exact congrArg Prod.snd (cancel_quoted hl c _ i i2)

/-! ## Currencies -/

/-- All entries are quoted for `lot` units in currency `c`. -/
def AllIn (lot : Nat) (c : Currency) (l : List Entry) : Prop := ∀ e ∈ l, e.key = e.order.limit ∧ Spec.Fits lot e.key ∧ e.key.price.valuation = c

/-- What holds of a book in which all orders were quoted for `lot` units. -/
def Uniform (lot : Nat) (b : Book) : Prop := (∃ c, AllIn lot c b.bids ∧ AllIn lot c b.asks) ∧ ∀ x ∈ b.limits, Spec.Fits lot x.2

theorem matchLoop_outcome (f : Quote → Outcome Bool) (o : Order) (rem : Nat) (l : List Entry) (hf : ∀ e ∈ l, ∃ x, f e.key = .ok x) : (matchLoop f o rem l).outcome = .ok () := by
  induction l generalizing rem with
  | nil => rfl
  | cons e l ih =>
    obtain ⟨x, hx⟩ := hf e (List.mem_cons_self ..)
    unfold matchLoop
    rw [hx]
    cases x with
    | false => rfl
    | true =>
      simp only
      split
      · rfl
      · exact ih _ fun y hy => hf y (List.mem_cons_of_mem _ hy)

theorem matchLoop_mem (f : Quote → Outcome Bool) (o : Order) (rem : Nat) (l : List Entry) :
    ∀ e ∈ (matchLoop f o rem l).passed ++ (matchLoop f o rem l).rest, ∃ x ∈ l, x.key = e.key ∧ x.order.limit = e.order.limit := by
  induction l generalizing rem with
  | nil => intro e he; cases he
  | cons a l ih =>
    intro e he
    unfold matchLoop at he
    split at he
    · exact ⟨e, he, rfl, rfl⟩
    · exact ⟨e, he, rfl, rfl⟩
    · exact ⟨e, he, rfl, rfl⟩
    · simp only at he
      split at he
      · exact ⟨e, he, rfl, rfl⟩
      · simp only [List.cons_append] at he
        rcases List.mem_cons.mp he with rfl | he
        · exact ⟨a, List.mem_cons_self .., rfl, rfl⟩
        · obtain ⟨x, hx, h⟩ := ih _ e he
          exact ⟨x, List.mem_cons_of_mem _ hx, h⟩

theorem resting_mem (m : Matched) : ∀ e ∈ m.resting, e ∈ m.passed ++ m.rest := by
  intro e he
  unfold Matched.resting at he
  split at he
  · rcases List.mem_append.mp he with he | he
    · exact List.mem_append_left _ (List.mem_filter.mp he).1
    · exact List.mem_append_right _ he
  · exact he

theorem resting_in {lot : Nat} {c : Currency} (f : Quote → Outcome Bool) (o : Order) (rem : Nat) (l : List Entry) (hl : AllIn lot c l) : AllIn lot c (matchLoop f o rem l).resting := by
  intro e he
  obtain ⟨x, hx, h1, h2⟩ := matchLoop_mem f o rem l e (resting_mem _ e he)
  rw [← h1, ← h2]
  exact hl x hx

theorem emplace_ok (f : Quote → Quote → Outcome Bool) (e : Entry) (l : List Entry) (hf : ∀ x ∈ l, ∃ y, f e.key x.key = .ok y) : ∃ l', emplace f e l = .ok l' ∧ ∀ z ∈ l', z = e ∨ z ∈ l := by
  induction l with
  | nil => exact ⟨[e], rfl, fun z hz => .inl (List.mem_singleton.mp hz)⟩
  | cons x l ih =>
    obtain ⟨y, hy⟩ := hf x (List.mem_cons_self ..)
    unfold emplace
    rw [hy]
    cases y with
    | true => exact ⟨_, rfl, fun z hz => List.mem_cons.mp hz⟩
    | false =>
      obtain ⟨l', h1, h2⟩ := ih fun z hz => hf z (List.mem_cons_of_mem _ hz)
      rw [h1]
      refine ⟨_, rfl, fun z hz => ?_⟩
      rcases List.mem_cons.mp hz with rfl | hz
      · exact .inr (List.mem_cons_self ..)
      · exact (h2 z hz).imp id (List.mem_cons_of_mem _)

theorem mapEmplace_mem' (k : Nat) (v : Quote) (l : List (Nat × Quote)) : ∀ x ∈ mapEmplace k v l, x = (k, v) ∨ x ∈ l := by
  induction l with
  | nil => intro x hx; exact .inl (by simpa [mapEmplace] using hx)
  | cons a l ih =>
    intro x hx
    unfold mapEmplace at hx
    split at hx
    · rcases List.mem_cons.mp hx with rfl | hx
      · exact .inl rfl
      · exact .inr hx
    · split at hx
      · exact .inr hx
      · rcases List.mem_cons.mp hx with rfl | hx
        · exact .inr (List.mem_cons_self ..)
        · exact (ih x hx).imp id (List.mem_cons_of_mem _)

/-- An order in the currency of the book is accepted. -/
theorem insert_accepted {lot : Nat} (hl : 0 < lot) {c : Currency} (b : Book) (o : Order) (hb : AllIn lot c b.bids) (ha : AllIn lot c b.asks) (hlim : ∀ x ∈ b.limits, Spec.Fits lot x.2) (ho : Spec.Fits lot o.limit)
    (hc : o.limit.price.valuation = c) :
    (b.insert o).2 = .ok () ∧ AllIn lot c (b.insert o).1.bids ∧ AllIn lot c (b.insert o).1.asks ∧ ∀ x ∈ (b.insert o).1.limits, Spec.Fits lot x.2 := by
  have hcmp : ∀ l : List Entry, AllIn lot c l → ∀ e ∈ l, (∃ x, Quote.lt o.limit e.key = .ok x) ∧ (∃ x, Quote.le o.limit e.key = .ok x) ∧ (∃ x, Quote.gt o.limit e.key = .ok x) ∧ ∃ x, Quote.ge o.limit e.key = .ok x :=
    fun l h e he => compare_alike lot hl o.limit e.key ho (h e he).2.1 (by rw [hc, (h e he).2.2])
  have her : ∀ ids, ∀ x ∈ eraseLimits ids b.limits, Spec.Fits lot x.2 := fun ids x hx => hlim x (List.mem_filter.mp hx).1
  have hme : ∀ ids, ∀ x ∈ mapEmplace b.next o.limit (eraseLimits ids b.limits), Spec.Fits lot x.2 := by
    intro ids x hx
    rcases mapEmplace_mem' _ _ _ x hx with rfl | hx
    · exact ho
    · exact her ids x hx
  have hpl : ∀ n (l l' : List Entry), AllIn lot c l → (∀ z ∈ l', z = (placed b o n).1 ∨ z ∈ l) → AllIn lot c l' := by
    intro n l l' h1 h2 z hz
    rcases h2 z hz with rfl | hz
    · exact ⟨rfl, ho, hc⟩
    · exact h1 z hz
  unfold Book.insert
  cases o.side with
  | buy =>
    have h1 := matchLoop_outcome (fun k => Quote.ge o.limit k) o o.quantity b.asks fun e he => (hcmp b.asks ha e he).2.2.2
    simp only [h1]
    split
    · obtain ⟨l', h2, h3⟩ := emplace_ok Quote.gt (placed b o (matchLoop (fun k => Quote.ge o.limit k) o o.quantity b.asks).remainder).1 b.bids fun e he => (hcmp b.bids hb e he).2.2.1
      rw [h2]
      exact ⟨rfl, hpl _ _ _ hb h3, resting_in _ _ _ _ ha, hme _⟩
    · exact ⟨rfl, hb, resting_in _ _ _ _ ha, her _⟩
  | sell =>
    have h1 := matchLoop_outcome (fun k => Quote.le o.limit k) o o.quantity b.bids fun e he => (hcmp b.bids hb e he).2.1
    simp only [h1]
    split
    · obtain ⟨l', h2, h3⟩ := emplace_ok Quote.lt (placed b o (matchLoop (fun k => Quote.le o.limit k) o o.quantity b.bids).remainder).1 b.asks fun e he => (hcmp b.asks ha e he).1
      rw [h2]
      exact ⟨rfl, resting_in _ _ _ _ hb, hpl _ _ _ ha h3, hme _⟩
    · exact ⟨rfl, resting_in _ _ _ _ hb, ha, her _⟩

/-- An order in another currency than that of the book is refused, and changes nothing. -/
theorem insert_refused {lot : Nat} {c : Currency} (b : Book) (o : Order) (hb : AllIn lot c b.bids) (ha : AllIn lot c b.asks) (hne : b.bids ≠ [] ∨ b.asks ≠ []) (ho : Spec.Fits lot o.limit) (hc : o.limit.price.valuation ≠ c) :
    (b.insert o).1 = b ∧ (0 < o.quantity → (b.insert o).2 = .throws) ∧ (b.insert o).2 ≠ .ub := by
  have hcmp : ∀ l : List Entry, AllIn lot c l → ∀ e ∈ l, Quote.lt o.limit e.key = .throws ∧ Quote.le o.limit e.key = .throws ∧ Quote.gt o.limit e.key = .throws ∧ Quote.ge o.limit e.key = .throws :=
    fun l h e he => compare_currencies lot o.limit e.key ho (h e he).2.1 (by rw [(h e he).2.2]; exact hc)
  have her : eraseLimits [] b.limits = b.limits := by
    unfold eraseLimits
    rw [List.filter_eq_self]
    intro x _
    rfl
  obtain ⟨next, limits, bids, asks, reports⟩ := b
  simp only at hb ha hne her hcmp
  unfold Book.insert
  cases o.side with
  | buy =>
    cases asks with
    | cons e l =>
      simp only [matchLoop, (hcmp _ ha e (List.mem_cons_self ..)).2.2.2, Matched.resting, List.nil_append, List.append_nil, her]
      exact ⟨trivial, fun _ => trivial, by simp⟩
    | nil =>
      simp only [matchLoop, Matched.resting, List.filter_nil, List.append_nil, her]
      cases bids with
      | nil => simp at hne
      | cons e l =>
        split
        · have := (hcmp _ hb e (List.mem_cons_self ..)).2.2.1
          simp only [emplace, placed, this]
          exact ⟨trivial, fun _ => trivial, by simp⟩
        · exact ⟨rfl, fun h => absurd h (by omega), by simp⟩
  | sell =>
    cases bids with
    | cons e l =>
      simp only [matchLoop, (hcmp _ hb e (List.mem_cons_self ..)).2.1, Matched.resting, List.nil_append, List.append_nil, her]
      exact ⟨trivial, fun _ => trivial, by simp⟩
    | nil =>
      simp only [matchLoop, Matched.resting, List.filter_nil, List.append_nil, her]
      cases asks with
      | nil => simp at hne
      | cons e l =>
        split
        · have := (hcmp _ ha e (List.mem_cons_self ..)).1
          simp only [emplace, placed, this]
          exact ⟨trivial, fun _ => trivial, by simp⟩
        · exact ⟨rfl, fun h => absurd h (by omega), by simp⟩

theorem cancelIn_mem (f : Quote → Quote → Outcome Bool) (side : Side) (p : Quote) (i : Nat) (l l' : List Entry) (rs : List Report) (h : cancelIn f side p i l = .ok (l', rs)) : ∀ e ∈ l', e ∈ l := by
  induction l generalizing l' rs with
  | nil => cases h; intro e he; exact he
  | cons a l ih =>
    unfold cancelIn at h
    split at h
    · cases h
    · cases h
    · split at h
      · cases h
        intro e he
        exact List.mem_cons_of_mem _ he
      · split at h
        · cases h
        · cases h
        · rename_i l'' rs' heq
          cases h
          intro e he
          rcases List.mem_cons.mp he with rfl | he
          · exact List.mem_cons_self ..
          · exact List.mem_cons_of_mem _ (ih _ _ heq e he)

theorem cancel_mem (b : Book) (i : Nat) : (∀ e ∈ (b.cancel i).1.bids, e ∈ b.bids) ∧ (∀ e ∈ (b.cancel i).1.asks, e ∈ b.asks) ∧ (b.cancel i).1.limits = b.limits := by
  unfold Book.cancel
  split
  · exact ⟨fun _ h => h, fun _ h => h, rfl⟩
  · split
    · exact ⟨fun _ h => h, fun _ h => h, rfl⟩
    · exact ⟨fun _ h => h, fun _ h => h, rfl⟩
    · split
      · exact ⟨fun _ h => h, fun _ h => h, rfl⟩
      · exact ⟨fun _ h => h, fun _ h => h, rfl⟩
      · rename_i heq
        exact ⟨cancelIn_mem _ _ _ _ _ _ _ heq, fun _ h => h, rfl⟩
    · split
      · exact ⟨fun _ h => h, fun _ h => h, rfl⟩
      · exact ⟨fun _ h => h, fun _ h => h, rfl⟩
      · split
        · exact ⟨fun _ h => h, fun _ h => h, rfl⟩
        · exact ⟨fun _ h => h, fun _ h => h, rfl⟩
        · rename_i heq
          exact ⟨fun _ h => h, cancelIn_mem _ _ _ _ _ _ _ heq, rfl⟩
      · exact ⟨fun _ h => h, fun _ h => h, rfl⟩

theorem uniform_insert {lot : Nat} (hl : 0 < lot) (b : Book) (o : Order) (hb : Uniform lot b) (ho : Spec.Fits lot o.limit) : Uniform lot (b.insert o).1 := by
  obtain ⟨⟨c, h1, h2⟩, h3⟩ := hb
  by_cases hne : b.bids ≠ [] ∨ b.asks ≠ []
  · by_cases hc : o.limit.price.valuation = c
    · obtain ⟨-, i1, i2, i3⟩ := insert_accepted hl b o h1 h2 h3 ho hc
      exact ⟨⟨c, i1, i2⟩, i3⟩
    · rw [(insert_refused b o h1 h2 hne ho hc).1]
      exact ⟨⟨c, h1, h2⟩, h3⟩
  · have hb : b.bids = [] := Classical.not_not.mp fun h => hne (.inl h)
    have ha : b.asks = [] := Classical.not_not.mp fun h => hne (.inr h)
    have e1 : AllIn lot o.limit.price.valuation b.bids := by rw [hb]; intro e he; cases he
    have e2 : AllIn lot o.limit.price.valuation b.asks := by rw [ha]; intro e he; cases he
    obtain ⟨-, i1, i2, i3⟩ := insert_accepted hl b o e1 e2 h3 ho rfl
    exact ⟨⟨_, i1, i2⟩, i3⟩

theorem uniform_run {lot : Nat} (hl : 0 < lot) (ops : List Op) (hops : Spec.OneLot lot ops) : Uniform lot (run ops) := by
  induction ops using List.reverseRecOn with
  | nil => exact ⟨⟨⟨0, 0, 0, 0⟩, (fun e (he : e ∈ []) => by cases he), (fun e (he : e ∈ []) => by cases he)⟩, (fun x (hx : x ∈ []) => by cases hx)⟩
  | append_singleton ops op ih =>
    have hu := ih fun o ho => hops o (List.mem_append_left _ ho)
    rw [run_snoc]
    cases op with
    | insert o => exact uniform_insert hl _ o hu (hops o (List.mem_append_right _ (List.mem_singleton_self _)))
    | cancel i =>
      obtain ⟨⟨c, h1, h2⟩, h3⟩ := hu
      obtain ⟨i1, i2, i3⟩ := cancel_mem (run ops) i
      refine ⟨⟨c, fun e he => h1 e (i1 e he), fun e he => h2 e (i2 e he)⟩, ?_⟩
      show ∀ x ∈ ((run ops).cancel i).1.limits, _
      rw [i3]
      exact h3

/-- **C148, one currency (partial: one lot).** In every history of orders that are quoted for the same number of units, in any currencies, with cancellations, the orders that rest are all in one currency. -/
theorem C148_one_currency_partial (lot : Nat) (hl : 0 < lot) (ops : List Op) (hops : Spec.OneLot lot ops) : ∃ c, ∀ e ∈ (run ops).bids ++ (run ops).asks, e.order.limit.price.valuation = c := by
  obtain ⟨⟨c, h1, h2⟩, -⟩ := uniform_run hl ops hops
  refine ⟨c, fun e he => ?_⟩
  rcases List.mem_append.mp he with he | he
  · rw [← (h1 e he).1]; exact (h1 e he).2.2
  · rw [← (h2 e he).1]; exact (h2 e he).2.2

/-- **C148, refusal (partial: one lot).** After every such history, an order in another currency than that of an order that rests is refused with an exception, and changes nothing. -/
theorem C148_refused_partial (lot : Nat) (hl : 0 < lot) (ops : List Op) (hops : Spec.OneLot lot ops) (o : Order) (ho : Spec.Fits lot o.limit) (hq : 0 < o.quantity) (e : Entry) (he : e ∈ (run ops).bids ++ (run ops).asks)
    (hc : o.limit.price.valuation ≠ e.order.limit.price.valuation) : (run ops).insert o = (run ops, .throws) := by
  obtain ⟨⟨c, h1, h2⟩, -⟩ := uniform_run hl ops hops
  have hec : e.order.limit.price.valuation = c ∧ ((run ops).bids ≠ [] ∨ (run ops).asks ≠ []) := by
    rcases List.mem_append.mp he with he | he
    · exact ⟨by rw [← (h1 e he).1]; exact (h1 e he).2.2, .inl (List.ne_nil_of_mem he)⟩
    · exact ⟨by rw [← (h2 e he).1]; exact (h2 e he).2.2, .inr (List.ne_nil_of_mem he)⟩
  obtain ⟨i1, i2, -⟩ := insert_refused (run ops) o h1 h2 hec.2 ho (by rw [← hec.1]; exact hc)
  exact Prod.ext i1 (i2 hq)

/-- **C148, acceptance (partial: one lot).** After every such history, an order in the currency of all orders that rest is accepted. -/
theorem C148_accepted_partial (lot : Nat) (hl : 0 < lot) (ops : List Op) (hops : Spec.OneLot lot ops) (o : Order) (ho : Spec.Fits lot o.limit)
    (hc : ∀ e ∈ (run ops).bids ++ (run ops).asks, e.order.limit.price.valuation = o.limit.price.valuation) : ((run ops).insert o).2 = .ok () := by
  obtain ⟨⟨c, h1, h2⟩, h3⟩ := uniform_run hl ops hops
  refine (insert_accepted hl (run ops) o (c := o.limit.price.valuation) (fun e he => ?_) (fun e he => ?_) h3 ho rfl).1
  · exact ⟨(h1 e he).1, (h1 e he).2.1, by rw [(h1 e he).1]; exact hc e (List.mem_append_left _ he)⟩
  · exact ⟨(h2 e he).1, (h2 e he).2.1, by rw [(h2 e he).1]; exact hc e (List.mem_append_right _ he)⟩

/-- **C148, exceptions of cancellations.** A cancellation that does not succeed changes nothing, in any book. -/
theorem C148_cancel (b : Book) (i : Nat) (h : (b.cancel i).2 ≠ .ok ()) : (b.cancel i).1 = b := by
  unfold Book.cancel at *
  split
  · rfl
  · rename_i heq
    rw [heq] at h
    simp only at h ⊢
    repeat' split
    all_goals first
      | rfl
      | (exfalso; apply h; simp_all)

/-! ## Different lots -/

/-- An order of agent `owner`. -/
def order (side : Side) (owner lot : Nat) (value : Int) (quantity : Nat) : Order := ⟨.goodUntilCancelled, side, 1, owner, ⟨lot, ⟨value, usd⟩⟩, quantity⟩

/-- **C148 (negation).** With different lots, an order can be refused after a part of it has been executed: of `n + k` units `n` are sold, and the other `k` neither rest nor are reported. -/
theorem C148_counterexample_lots (n k : Nat) (hn : 0 < n) (hk : 0 < k) :
    let b := run [.insert (order .sell 1 10 1000 5), .insert (order .buy 2 1 100 n)]
    (b.insert (order .sell 3 1 100 (n + k))).2 = .throws ∧
    (b.insert (order .sell 3 1 100 (n + k))).1.reports = b.reports ++ [⟨.match_, .sell, n, directOrder, ⟨1, ⟨100, usd⟩⟩, 3⟩, ⟨.match_, .buy, n, 1, ⟨1, ⟨100, usd⟩⟩, 2⟩] ∧
    ∀ e ∈ (b.insert (order .sell 3 1 100 (n + k))).1.bids ++ (b.insert (order .sell 3 1 100 (n + k))).1.asks, e.order.owner ≠ 3 := by
  have hb : run [.insert (order .sell 1 10 1000 5), .insert (order .buy 2 1 100 n)] =
      ⟨2, [(0, ⟨10, ⟨1000, usd⟩⟩), (1, ⟨1, ⟨100, usd⟩⟩)], [⟨⟨1, ⟨100, usd⟩⟩, 1, order .buy 2 1 100 n⟩], [⟨⟨10, ⟨1000, usd⟩⟩, 0, order .sell 1 10 1000 5⟩],
        [⟨.placement, .sell, 5, 0, ⟨10, ⟨1000, usd⟩⟩, 1⟩, ⟨.placement, .buy, n, 1, ⟨1, ⟨100, usd⟩⟩, 2⟩]⟩ := by
    have h1 : (empty.apply (.insert (order .sell 1 10 1000 5))).1 = ⟨1, [(0, ⟨10, ⟨1000, usd⟩⟩)], [], [⟨⟨10, ⟨1000, usd⟩⟩, 0, order .sell 1 10 1000 5⟩], [⟨.placement, .sell, 5, 0, ⟨10, ⟨1000, usd⟩⟩, 1⟩]⟩ := by decide
    have hge : Quote.ge ⟨1, ⟨100, usd⟩⟩ ⟨10, ⟨1000, usd⟩⟩ = .ok false := by decide
    unfold run
    rw [List.foldl_cons, List.foldl_cons, List.foldl_nil, h1]
    simp only [Book.apply, Book.insert, order, matchLoop, hge, Matched.resting, List.filter_nil, List.nil_append, eraseLimits, gt_iff_lt, hn, if_true, emplace, placed]
    rfl
  intro b
  have hb' : b = _ := hb
  rw [hb']
  have hle : Quote.le ⟨1, ⟨100, usd⟩⟩ ⟨1, ⟨100, usd⟩⟩ = .ok true := by decide
  have hlt : Quote.lt ⟨1, ⟨100, usd⟩⟩ ⟨10, ⟨1000, usd⟩⟩ = .throws := by decide
  have hmin : min (n + k) n = n := by omega
  have hsub : n + k - n = k := by omega
  have hn0 : ¬ n = 0 := by omega
  simp only [Book.insert, order, matchLoop, hle, hmin, hsub, hn0, if_false, Nat.sub_self, if_true, Matched.resting, gt_iff_lt, hk, emplace, placed, hlt]
  refine ⟨trivial, rfl, ?_⟩
  intro e he
  simp at he
  rw [he]
  decide

/-- **C148 (negation).** With different lots, quotes are not compared per unit: an order to buy at 10.00 per unit does not match an order to sell 10 units at 2.00, which is 0.20 per unit. Both rest, and the book is crossed. -/
theorem C148_counterexample_units (n k : Nat) (hn : 0 < n) (hk : 0 < k) :
    let b := run [.insert (order .sell 1 10 200 n), .insert (order .buy 2 1 1000 k)]
    b.bids.map (·.order) = [order .buy 2 1 1000 k] ∧ b.asks.map (·.order) = [order .sell 1 10 200 n] := by
  have hge : Quote.ge ⟨1, ⟨1000, usd⟩⟩ ⟨10, ⟨200, usd⟩⟩ = .ok false := by decide
  unfold run
  simp only [List.foldl_cons, List.foldl_nil, Book.apply, Book.insert, empty, order, matchLoop, Matched.resting, List.filter_nil, List.nil_append, gt_iff_lt, hn, hk, if_true, emplace, placed, hge]
  exact ⟨rfl, rfl⟩

/-- **C148 (negation).** Cancelling an order that was cancelled before is harmless (C29), but throws if the orders that rest by then are in another currency: the book still knows the limit of the cancelled order. -/
theorem C148_counterexample_cancel (n k : Nat) (hn : 0 < n) (hk : 0 < k) :
    ((run [.insert (order .buy 1 1 100 n), .cancel 0, .insert { order .buy 2 1 100 k with limit := ⟨1, ⟨100, eur⟩⟩ }]).cancel 0).2 = .throws := by
  have hge : Quote.ge ⟨1, ⟨100, usd⟩⟩ ⟨1, ⟨100, usd⟩⟩ = .ok true := by decide
  have hgt : Quote.gt ⟨1, ⟨100, usd⟩⟩ ⟨1, ⟨100, usd⟩⟩ = .ok false := by decide
  unfold run
  simp only [List.foldl_cons, List.foldl_nil, Book.apply, Book.insert, Book.cancel, empty, order, matchLoop, Matched.resting, List.filter_nil, List.nil_append, gt_iff_lt, hn, hk, if_true, emplace, placed, eraseLimits, mapEmplace,
    List.find?_cons, best, hge, cancelIn, same, hgt, beq_self_eq_true, Bool.not_false, and_self]
  rfl

/-- **C148 (negation).** A limit that does not fit into 64 bits when multiplied by its lot is accepted in an empty book, where it is compared with nothing; but then cancelling the order is undefined, and so is every order on the other side. -/
theorem C148_counterexample_overflow (lot : Nat) (v : Int) (h : ¬InI64 (v * lot)) (n : Nat) (hn : 0 < n) :
    (empty.insert (order .buy 1 lot v n)).2 = .ok () ∧ ((empty.insert (order .buy 1 lot v n)).1.cancel 0).2 = .ub ∧
    ∀ (limit : Quote), limit.lot = lot → ∀ k : Nat, ((empty.insert (order .buy 1 lot v n)).1.insert { order .sell 2 lot v k with limit := limit }).2 = .ub := by
  have hs : (⟨v, usd⟩ : P).scaleSigned lot = .ub := by unfold P.scaleSigned; rw [if_neg h]
  have hge : ∀ q : Quote, Quote.ge q ⟨lot, ⟨v, usd⟩⟩ = .ub := by
    intro q
    simp only [Quote.ge, Quote.cmp, hs]
    rfl
  have hle : ∀ q : Quote, q.lot = lot → Quote.le q ⟨lot, ⟨v, usd⟩⟩ = .ub := by
    intro q hq
    simp only [Quote.le, Quote.cmp, hs, hq, ne_eq, not_true_eq_false, if_false]
    rfl
  refine ⟨?_, ?_, ?_⟩
  · simp only [Book.insert, empty, order, matchLoop, Matched.resting, List.filter_nil, List.nil_append, gt_iff_lt, hn, if_true, emplace, placed]
  · simp only [Book.insert, Book.cancel, empty, order, matchLoop, Matched.resting, List.filter_nil, List.nil_append, gt_iff_lt, hn, if_true, emplace, placed, eraseLimits, mapEmplace,
      List.find?_cons, beq_self_eq_true, best, hge]
  · intro limit hl k
    simp only [Book.insert, empty, order, matchLoop, Matched.resting, List.filter_nil, List.nil_append, gt_iff_lt, hn, if_true, emplace, placed, hle limit hl]

/-! ## Examples -/

/-- A history of orders for 10 units each, with a match and a cancellation, that fits. -/
example : run ([Esl.Book.Op.insert ⟨.goodUntilCancelled, .sell, 1, 1, 101, 5⟩, .insert ⟨.goodUntilCancelled, .sell, 1, 2, 100, 3⟩, .insert ⟨.goodUntilCancelled, .buy, 1, 3, 100, 4⟩, .cancel 0].map (Spec.op 10 usd)) =
    ⟨3, [(0, ⟨10, ⟨101, usd⟩⟩), (2, ⟨10, ⟨100, usd⟩⟩)], [⟨⟨10, ⟨100, usd⟩⟩, 2, order .buy 3 10 100 1⟩], [],
      [⟨.placement, .sell, 5, 0, ⟨10, ⟨101, usd⟩⟩, 1⟩, ⟨.placement, .sell, 3, 1, ⟨10, ⟨100, usd⟩⟩, 2⟩, ⟨.match_, .buy, 3, directOrder, ⟨10, ⟨100, usd⟩⟩, 3⟩, ⟨.match_, .sell, 3, 1, ⟨10, ⟨100, usd⟩⟩, 2⟩,
        ⟨.placement, .buy, 1, 2, ⟨10, ⟨100, usd⟩⟩, 3⟩, ⟨.cancel, .sell, 5, 0, ⟨10, ⟨101, usd⟩⟩, 1⟩]⟩ := by decide +kernel

example : InI64 ((101 : Int) * (10 : Nat)) ∧ ¬InI64 ((2 ^ 40 : Int) * (2 ^ 31 : Nat)) := by decide

/-- Orders in dollars rest, an order in euros is refused. -/
example : Spec.OneLot 10 [.insert (order .sell 1 10 101 5), .insert (order .buy 2 10 99 5)] ∧ Spec.Fits 10 ⟨10, ⟨100, eur⟩⟩ ∧
    ((run [.insert (order .sell 1 10 101 5), .insert (order .buy 2 10 99 5)]).insert { order .buy 2 10 99 5 with limit := ⟨10, ⟨200, eur⟩⟩ }).2 = .throws := by
  refine ⟨?_, ⟨rfl, by decide⟩, by decide⟩
  intro o ho
  simp only [List.mem_cons, Op.insert.injEq, List.not_mem_nil, or_false] at ho
  rcases ho with rfl | rfl
  · exact ⟨rfl, by decide⟩
  · exact ⟨rfl, by decide⟩

/-- An order in dollars is accepted in the same book, and a second cancellation, among orders in euros, does not succeed. -/
example : (∀ e ∈ (run [.insert (order .sell 1 10 101 5), .insert (order .buy 2 10 99 5)]).bids ++ (run [.insert (order .sell 1 10 101 5), .insert (order .buy 2 10 99 5)]).asks, e.order.limit.price.valuation = usd) ∧
    ((run [.insert (order .buy 1 1 100 5), .cancel 0, .insert { order .buy 2 1 100 6 with limit := ⟨1, ⟨100, eur⟩⟩ }]).cancel 0).2 ≠ .ok () := by decide +kernel

end Esl.QBook
