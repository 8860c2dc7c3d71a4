import Verif.Props.QuotedSides
import Verif.Props.QuotedUnits
/-! # C190, C191: which offers face each other in a book of quotes, and what an exception leaves behind -/
namespace Esl.QCrossing
open Esl.Price Esl.QBook
open Esl.QSides (Line Lines)
open Esl.QSides.Spec (Fine AllFine Alike limits)

/-! ## Specification -/

/-- The orders that rest, of both sides. -/
def Spec.resting (b : Book) : List Order := (b.bids ++ b.asks).map (·.order)

/-! ## Comparisons -/

/-- `>=` compares the products of price and lot. -/
theorem ge_product {p q : Quote} (hp : Fine p) (hq : Fine q) :
    Quote.ge p q = if p.price.valuation = q.price.valuation then .ok (decide (p.price.value * p.lot ≥ q.price.value * q.lot)) else .throws := by
  unfold Quote.ge Quote.cmp P.scaleSigned P.scaleWrap
  rw [if_pos hq.2, wrapI64_of_in hp.2, Outcome.bind_ok]
  by_cases hc : p.price.valuation = q.price.valuation
  · have hne : p.price.valuation.ne q.price.valuation = false := by
      rw [hc]
      rcases h : Currency.ne q.price.valuation q.price.valuation with _ | _
      · rfl
      · exact absurd rfl ((Currency.ne_iff _ _).1 h)
    have heq : p.price.valuation.eq q.price.valuation = true := (Currency.eq_iff _ _).2 hc
    rw [if_pos hc]
    simp only [P.ge, P.gt, P.eq, hne, heq, Bool.false_eq_true, if_false, Outcome.bind_ok, Bool.and_true]
    show Outcome.ok _ = Outcome.ok _
    congr 1
    generalize p.price.value * (p.lot : Int) = x
    generalize q.price.value * (q.lot : Int) = y
    by_cases hxy : x > y
    · have : x ≥ y := by omega
      simp [hxy, this]
    · by_cases h2 : x = y
      · simp [h2]
      · have : ¬ x ≥ y := by omega
        have h3 : ¬ y ≤ x := this
        have h4 : ¬ y < x := hxy
        simp [h2, h3, h4]
  · rw [if_neg hc]
    simp only [P.ge, P.gt, currency_ne hc, if_true, Outcome.bind_throws]

/-- `<=` compares prices, if the quotes are alike. -/
theorem le_product {p q : Quote} (hp : Fine p) (hq : Fine q) : (Alike p q ∧ Quote.le p q = .ok (decide (p.price.value ≤ q.price.value))) ∨ (¬ Alike p q ∧ Quote.le p q = .throws) := by
  by_cases hl : p.lot = q.lot
  · by_cases hc : p.price.valuation = q.price.valuation
    · exact .inl ⟨⟨hl, hc⟩, (C09_equal_lots_partial p q hl hp.1 hc hp.2 hq.2).2.1⟩
    · exact .inr ⟨fun h => hc h.2, (compare_currencies p.lot p q ⟨rfl, hp.2⟩ ⟨hl.symm, by rw [hl]; exact hq.2⟩ hc).2.1⟩
  · exact .inr ⟨fun h => hl h.1, (C09_different_lots_partial p q hl).2.1⟩

/-! ## The matching loop -/

theorem loop_throws (f : Quote → Outcome Bool) (o : Order) (rem : Nat) (l : List Entry) (hne : l ≠ []) (h : ∀ e ∈ l, f e.key = .throws) : matchLoop f o rem l = ⟨rem, [], l, [], [], .throws⟩ := by
  cases l with
  | nil => exact absurd rfl hne
  | cons e l => rw [matchLoop, h e (List.mem_cons_self ..)]

/-- If all comparisons give results, and orders that do not match come last. -/
theorem loop_ok (f : Quote → Outcome Bool) (o : Order) (rem : Nat) (l : List Entry) (h : ∀ e ∈ l, ∃ x, f e.key = .ok x) (hq : ∀ e ∈ l, 0 < e.order.quantity)
    (hs : l.Pairwise fun x y => f x.key = .ok false → f y.key = .ok false) :
    (matchLoop f o rem l).outcome = .ok () ∧ (∀ e ∈ (matchLoop f o rem l).resting, 0 < e.order.quantity) ∧ (0 < (matchLoop f o rem l).remainder → ∀ e ∈ (matchLoop f o rem l).resting, f e.key = .ok false) := by
  induction l generalizing rem with
  | nil => simp [matchLoop, Matched.resting]
  | cons e l ih =>
    rw [List.pairwise_cons] at hs
    obtain ⟨x, hx⟩ := h e (List.mem_cons_self ..)
    rw [matchLoop, hx]
    cases x with
    | false =>
      simp only [Matched.resting, List.filter_nil, List.nil_append]
      refine ⟨trivial, hq, fun _ y hy => ?_⟩
      rcases List.mem_cons.1 hy with rfl | hy
      · exact hx
      · exact hs.1 y hy hx
    | true =>
      have hqe := hq e (List.mem_cons_self ..)
      simp only
      by_cases h0 : min rem e.order.quantity = 0
      · rw [if_pos h0]
        simp only [Matched.resting, List.filter_nil, List.nil_append]
        exact ⟨trivial, hq, fun h1 => by omega⟩
      · rw [if_neg h0]
        obtain ⟨i1, i2, i3⟩ := ih (rem - min rem e.order.quantity) (fun y hy => h y (List.mem_cons_of_mem _ hy)) (fun y hy => hq y (List.mem_cons_of_mem _ hy)) hs.2
        have hmono : (matchLoop f o (rem - min rem e.order.quantity) l).remainder ≤ rem - min rem e.order.quantity := by
          clear i1 i2 i3 ih hs h hq hqe h0 hx
          generalize rem - min rem e.order.quantity = r
          induction l generalizing r with
          | nil => simp [matchLoop]
          | cons e l ih =>
            rw [matchLoop]
            rcases f e.key with (_ | _) | _ | _
            · exact Nat.le_refl _
            · simp only
              split
              · exact Nat.sub_le ..
              · exact Nat.le_trans (ih _) (Nat.sub_le ..)
            · exact Nat.le_refl _
            · exact Nat.le_refl _
        generalize matchLoop f o (rem - min rem e.order.quantity) l = m at *
        unfold Matched.resting at *
        simp only [i1] at *
        refine ⟨trivial, fun y hy => ?_, fun h1 y hy => ?_⟩
        · rw [List.filter_cons] at hy
          split at hy
          · rename_i hd
            rcases List.mem_cons.1 hy with rfl | hy
            · have := of_decide_eq_true hd
              omega
            · exact i2 y hy
          · exact i2 y hy
        · have hz : e.order.quantity - min rem e.order.quantity = 0 := by omega
          rw [List.filter_cons, if_neg (by simp [hz])] at hy
          exact i3 h1 y hy

/-! ## The book -/

structure Inv (b : Book) : Prop where
  lines : Lines b
  bids : ∀ e ∈ b.bids, 0 < e.order.quantity
  asks : ∀ e ∈ b.asks, 0 < e.order.quantity
  apart : ∀ x ∈ b.bids, ∀ y ∈ b.asks, x.key.price.valuation = y.key.price.valuation ∧ x.key.price.value * x.key.lot < y.key.price.value * y.key.lot

theorem resting_keys (f : Quote → Outcome Bool) (o : Order) (rem : Nat) (l : List Entry) : ∀ e ∈ (matchLoop f o rem l).resting, ∃ x ∈ l, x.key = e.key := by
  intro e he
  have h := QSides.resting_sublist (matchLoop f o rem l)
  rw [QSides.matchLoop_keys] at h
  obtain ⟨x, hx, hxe⟩ := List.mem_map.1 (h.subset (List.mem_map.2 ⟨e, he, rfl⟩))
  exact ⟨x, hx, (Prod.mk.inj hxe).1⟩

/-- The comparisons of an order to buy with the orders to sell: all fail, or none. -/
theorem asks_cases {l : List Entry} (hl : Line (fun x y => x ≤ y) l) (q : Quote) (hq : Fine q) :
    (∀ e ∈ l, Quote.ge q e.key = .throws) ∨ ((∀ e ∈ l, q.price.valuation = e.key.price.valuation ∧ Quote.ge q e.key = .ok (decide (q.price.value * q.lot ≥ e.key.price.value * e.key.lot))) ∧
      l.Pairwise fun x y => Quote.ge q x.key = .ok false → Quote.ge q y.key = .ok false) := by
  cases l with
  | nil => exact .inl (by simp)
  | cons a l =>
    have ho := hl.order
    rw [List.pairwise_map] at ho
    have hal : ∀ e ∈ a :: l, a.key.price.valuation = e.key.price.valuation := by
      intro e he
      rcases List.mem_cons.1 he with rfl | he
      · rfl
      · exact ((List.pairwise_cons.1 ho).1 e he).1.2
    by_cases hc : q.price.valuation = a.key.price.valuation
    · have hge : ∀ e ∈ a :: l, Quote.ge q e.key = .ok (decide (q.price.value * q.lot ≥ e.key.price.value * e.key.lot)) := by
        intro e he
        rw [ge_product hq (hl.fine e he), if_pos (hc.trans (hal e he))]
      refine .inr ⟨fun e he => ⟨hc.trans (hal e he), hge e he⟩, ?_⟩
      refine ho.imp_of_mem fun {x y} hx hy h hf => ?_
      rw [hge x hx] at hf
      rw [hge y hy]
      have h1 := of_decide_eq_false (Outcome.ok.inj hf)
      have h2 : x.key.price.value * (x.key.lot : Int) ≤ y.key.price.value * (y.key.lot : Int) := by
        rw [h.1.1]
        exact Int.mul_le_mul_of_nonneg_right h.2 (by omega)
      congr 1
      refine decide_eq_false ?_
      omega
    · refine .inl fun e he => ?_
      rw [ge_product hq (hl.fine e he), if_neg fun h => hc (h.trans (hal e he).symm)]

/-- The comparisons of an order to sell with the orders to buy. -/
theorem bids_cases {l : List Entry} (hl : Line (fun x y => y ≤ x) l) (q : Quote) (hq : Fine q) :
    (∀ e ∈ l, Quote.le q e.key = .throws) ∨ ((∀ e ∈ l, Alike q e.key ∧ Quote.le q e.key = .ok (decide (q.price.value ≤ e.key.price.value))) ∧
      l.Pairwise fun x y => Quote.le q x.key = .ok false → Quote.le q y.key = .ok false) := by
  cases l with
  | nil => exact .inl (by simp)
  | cons a l =>
    have ho := hl.order
    rw [List.pairwise_map] at ho
    have hal : ∀ e ∈ a :: l, Alike a.key e.key := by
      intro e he
      rcases List.mem_cons.1 he with rfl | he
      · exact ⟨rfl, rfl⟩
      · exact ((List.pairwise_cons.1 ho).1 e he).1
    by_cases hc : Alike q a.key
    · have hle : ∀ e ∈ a :: l, Alike q e.key ∧ Quote.le q e.key = .ok (decide (q.price.value ≤ e.key.price.value)) := by
        intro e he
        have h1 : Alike q e.key := ⟨hc.1.trans (hal e he).1, hc.2.trans (hal e he).2⟩
        rcases le_product hq (hl.fine e he) with h | h
        · exact h
        · exact absurd h1 h.1
      refine .inr ⟨hle, ?_⟩
      refine ho.imp_of_mem fun {x y} hx hy h hf => ?_
      rw [(hle x hx).2] at hf
      rw [(hle y hy).2]
      have h1 := of_decide_eq_false (Outcome.ok.inj hf)
      have h2 := h.2
      congr 1
      refine decide_eq_false ?_
      omega
    · refine .inl fun e he => ?_
      rcases le_product hq (hl.fine e he) with h | h
      · exact absurd ⟨h.1.1.trans (hal e he).1.symm, h.1.2.trans (hal e he).2.symm⟩ hc
      · exact h.2

theorem loop_cases (f : Quote → Outcome Bool) (o : Order) (rem : Nat) (l : List Entry) (hq : ∀ e ∈ l, 0 < e.order.quantity)
    (h : (∀ e ∈ l, f e.key = .throws) ∨ ((∀ e ∈ l, ∃ x, f e.key = .ok x) ∧ l.Pairwise fun x y => f x.key = .ok false → f y.key = .ok false)) :
    matchLoop f o rem l = ⟨rem, [], l, [], [], .throws⟩ ∨
    ((matchLoop f o rem l).outcome = .ok () ∧ (∀ e ∈ (matchLoop f o rem l).resting, 0 < e.order.quantity) ∧ (0 < (matchLoop f o rem l).remainder → ∀ e ∈ (matchLoop f o rem l).resting, f e.key = .ok false)) := by
  rcases h with h | ⟨h, hs⟩
  · by_cases hne : l = []
    · subst hne
      exact .inr (loop_ok f o rem [] (by simp) hq (by simp))
    · exact .inl (loop_throws f o rem l hne h)
  · exact .inr (loop_ok f o rem l h hq hs)

/-- A strict comparison gives a result if and only if the quotes are alike. -/
def Total (f : Quote → Quote → Outcome Bool) : Prop := ∀ p q, Fine p → Fine q → (Alike p q ∧ ∃ x, f p q = .ok x) ∨ (¬ Alike p q ∧ f p q = .throws)

theorem total_gt : Total Quote.gt := by
  intro p q hp hq
  by_cases hl : p.lot = q.lot
  · by_cases hc : p.price.valuation = q.price.valuation
    · exact .inl ⟨⟨hl, hc⟩, _, (C09_equal_lots_partial p q hl hp.1 hc hp.2 hq.2).2.2.1⟩
    · exact .inr ⟨fun h => hc h.2, (compare_currencies p.lot p q ⟨rfl, hp.2⟩ ⟨hl.symm, by rw [hl]; exact hq.2⟩ hc).2.2.1⟩
  · exact .inr ⟨fun h => hl h.1, (C09_different_lots_partial p q hl).2.2.1⟩

theorem total_lt : Total Quote.lt := by
  intro p q hp hq
  by_cases hl : p.lot = q.lot
  · by_cases hc : p.price.valuation = q.price.valuation
    · exact .inl ⟨⟨hl, hc⟩, _, (C09_equal_lots_partial p q hl hp.1 hc hp.2 hq.2).1⟩
    · exact .inr ⟨fun h => hc h.2, (compare_currencies p.lot p q ⟨rfl, hp.2⟩ ⟨hl.symm, by rw [hl]; exact hq.2⟩ hc).1⟩
  · exact .inr ⟨fun h => hl h.1, (C09_different_lots_partial p q hl).1⟩

theorem emplace_cases (f : Quote → Quote → Outcome Bool) (ht : Total f) (e : Entry) (he : Fine e.key) (l : List Entry) (hl : ∀ x ∈ l, Fine x.key) :
    (∃ l', emplace f e l = .ok l' ∧ ∀ y, y ∈ l' → y = e ∨ y ∈ l) ∨ (emplace f e l = .throws ∧ ∃ x ∈ l, ¬ Alike e.key x.key) := by
  induction l with
  | nil => exact .inl ⟨_, rfl, by simp⟩
  | cons x l ih =>
    rw [emplace]
    rcases ht e.key x.key he (hl x (List.mem_cons_self ..)) with ⟨-, c, hc⟩ | ⟨h1, h2⟩
    · rw [hc]
      cases c with
      | true => exact .inl ⟨_, rfl, by simp⟩
      | false =>
        rcases ih fun y hy => hl y (List.mem_cons_of_mem _ hy) with ⟨l', h1, h2⟩ | ⟨h1, y, hy, h2⟩
        · rw [h1]
          refine .inl ⟨_, rfl, fun y hy => ?_⟩
          rcases List.mem_cons.1 hy with rfl | hy
          · exact .inr (List.mem_cons_self ..)
          · rcases h2 y hy with h | h
            · exact .inl h
            · exact .inr (List.mem_cons_of_mem _ h)
        · rw [h1]
          exact .inr ⟨rfl, y, List.mem_cons_of_mem _ hy, h2⟩
    · rw [h2]
      exact .inr ⟨rfl, x, List.mem_cons_self .., h1⟩

/-- The side on which an order would rest. -/
def own (o : Order) (b : Book) : List Entry :=
  match o.side with
  | .buy => b.bids
  | .sell => b.asks

theorem eraseLimits_nil (l : List (Nat × Quote)) : eraseLimits [] l = l := by
  unfold eraseLimits
  exact List.filter_eq_self.2 (by simp)

theorem insert_parts (b : Book) (o : Order) (hb : Inv b) (ho : Fine o.limit) :
    (∀ e ∈ (b.insert o).1.bids, 0 < e.order.quantity) ∧ (∀ e ∈ (b.insert o).1.asks, 0 < e.order.quantity) ∧
    (∀ x ∈ (b.insert o).1.bids, ∀ y ∈ (b.insert o).1.asks, x.key.price.valuation = y.key.price.valuation ∧ x.key.price.value * x.key.lot < y.key.price.value * y.key.lot) ∧
    (b.insert o).2 ≠ .ub ∧ ((b.insert o).2 = .throws → (b.insert o).1 = b ∨ ∃ x ∈ own o b, ¬ Alike o.limit x.key) := by
  unfold Book.insert own
  cases hside : o.side with
  | buy =>
    have hcases := asks_cases hb.lines.2 o.limit ho
    have hm := loop_cases (fun k => Quote.ge o.limit k) o o.quantity b.asks hb.asks (hcases.imp id fun h => ⟨fun e he => ⟨_, (h.1 e he).2⟩, h.2⟩)
    have hkeys := resting_keys (fun k => Quote.ge o.limit k) o o.quantity b.asks
    simp only
    generalize matchLoop (fun k => Quote.ge o.limit k) o o.quantity b.asks = m at *
    have happ : ∀ x ∈ b.bids, ∀ y ∈ m.resting, x.key.price.valuation = y.key.price.valuation ∧ x.key.price.value * x.key.lot < y.key.price.value * y.key.lot := by
      intro x hx y hy
      obtain ⟨z, hz, hzy⟩ := hkeys y hy
      rw [← hzy]
      exact hb.apart x hx z hz
    rcases hm with rfl | ⟨h1, h2, h3⟩
    · simp only [Matched.resting, List.nil_append, List.append_nil, eraseLimits_nil]
      exact ⟨hb.bids, hb.asks, hb.apart, by simp, fun _ => .inl trivial⟩
    · rw [h1]
      simp only
      by_cases hpos : m.remainder > 0
      · rw [if_pos hpos]
        rcases emplace_cases Quote.gt total_gt (placed b o m.remainder).1 ho b.bids hb.lines.1.fine with ⟨l', i1, i2⟩ | ⟨i1, i2⟩
        · rw [i1]
          simp only
          refine ⟨fun e he => ?_, h2, fun x hx y hy => ?_, by simp, by simp⟩
          · rcases i2 e he with rfl | he
            · exact hpos
            · exact hb.bids e he
          · rcases i2 x hx with rfl | hx
            · show o.limit.price.valuation = _ ∧ o.limit.price.value * o.limit.lot < _
              have hy2 := h3 hpos y hy
              obtain ⟨z, hz, hzy⟩ := hkeys y hy
              rcases hcases with hc | ⟨hc, -⟩
              · have := hc z hz
                rw [hzy, hy2] at this
                cases this
              · obtain ⟨j1, j2⟩ := hc z hz
                rw [hzy] at j1 j2
                rw [hy2] at j2
                have j3 := of_decide_eq_false (Outcome.ok.inj j2).symm
                exact ⟨j1, by omega⟩
            · exact happ x hx y hy
        · rw [i1]
          exact ⟨hb.bids, h2, happ, by simp, fun _ => .inr i2⟩
      · rw [if_neg hpos]
        exact ⟨hb.bids, h2, happ, by simp, by simp⟩
  | sell =>
    have hcases := bids_cases hb.lines.1 o.limit ho
    have hm := loop_cases (fun k => Quote.le o.limit k) o o.quantity b.bids hb.bids (hcases.imp id fun h => ⟨fun e he => ⟨_, (h.1 e he).2⟩, h.2⟩)
    have hkeys := resting_keys (fun k => Quote.le o.limit k) o o.quantity b.bids
    simp only
    generalize matchLoop (fun k => Quote.le o.limit k) o o.quantity b.bids = m at *
    have happ : ∀ x ∈ m.resting, ∀ y ∈ b.asks, x.key.price.valuation = y.key.price.valuation ∧ x.key.price.value * x.key.lot < y.key.price.value * y.key.lot := by
      intro x hx y hy
      obtain ⟨z, hz, hzx⟩ := hkeys x hx
      rw [← hzx]
      exact hb.apart z hz y hy
    rcases hm with rfl | ⟨h1, h2, h3⟩
    · simp only [Matched.resting, List.nil_append, List.append_nil, eraseLimits_nil]
      exact ⟨hb.bids, hb.asks, hb.apart, by simp, fun _ => .inl trivial⟩
    · rw [h1]
      simp only
      by_cases hpos : m.remainder > 0
      · rw [if_pos hpos]
        rcases emplace_cases Quote.lt total_lt (placed b o m.remainder).1 ho b.asks hb.lines.2.fine with ⟨l', i1, i2⟩ | ⟨i1, i2⟩
        · rw [i1]
          simp only
          refine ⟨h2, fun e he => ?_, fun x hx y hy => ?_, by simp, by simp⟩
          · rcases i2 e he with rfl | he
            · exact hpos
            · exact hb.asks e he
          · rcases i2 y hy with rfl | hy
            · show _ = o.limit.price.valuation ∧ _ < o.limit.price.value * o.limit.lot
              have hx2 := h3 hpos x hx
              obtain ⟨z, hz, hzx⟩ := hkeys x hx
              rcases hcases with hc | ⟨hc, -⟩
              · have := hc z hz
                rw [hzx, hx2] at this
                cases this
              · obtain ⟨j1, j2⟩ := hc z hz
                rw [hzx] at j1 j2
                rw [hx2] at j2
                have j3 := of_decide_eq_false (Outcome.ok.inj j2).symm
                refine ⟨j1.2.symm, ?_⟩
                rw [j1.1]
                have := (hb.lines.1.fine z hz).1
                rw [hzx] at this
                exact Int.mul_lt_mul_of_pos_right (by omega) (by omega)
            · exact happ x hx y hy
        · rw [i1]
          exact ⟨h2, hb.asks, happ, by simp, fun _ => .inr i2⟩
      · rw [if_neg hpos]
        exact ⟨h2, hb.asks, happ, by simp, by simp⟩

theorem insert_inv (b : Book) (o : Order) (hb : Inv b) (ho : Fine o.limit) : Inv (b.insert o).1 := by
  obtain ⟨h1, h2, h3, -, -⟩ := insert_parts b o hb ho
  exact ⟨QSides.lines_insert b o hb.lines ho, h1, h2, h3⟩

theorem cancel_parts (b : Book) (i : Nat) : ((b.cancel i).1.bids.Sublist b.bids) ∧ ((b.cancel i).1.asks.Sublist b.asks) := by
  unfold Book.cancel
  split
  · exact ⟨List.Sublist.refl _, List.Sublist.refl _⟩
  · split
    · exact ⟨List.Sublist.refl _, List.Sublist.refl _⟩
    · exact ⟨List.Sublist.refl _, List.Sublist.refl _⟩
    · split
      · exact ⟨List.Sublist.refl _, List.Sublist.refl _⟩
      · exact ⟨List.Sublist.refl _, List.Sublist.refl _⟩
      · rename_i h
        exact ⟨QSides.cancelIn_sublist _ _ _ _ _ _ _ h, List.Sublist.refl _⟩
    · split
      · exact ⟨List.Sublist.refl _, List.Sublist.refl _⟩
      · exact ⟨List.Sublist.refl _, List.Sublist.refl _⟩
      · split
        · exact ⟨List.Sublist.refl _, List.Sublist.refl _⟩
        · exact ⟨List.Sublist.refl _, List.Sublist.refl _⟩
        · rename_i h
          exact ⟨List.Sublist.refl _, QSides.cancelIn_sublist _ _ _ _ _ _ _ h⟩
      · exact ⟨List.Sublist.refl _, List.Sublist.refl _⟩

theorem cancel_inv (b : Book) (i : Nat) (hb : Inv b) : Inv (b.cancel i).1 := by
  obtain ⟨h1, h2⟩ := cancel_parts b i
  exact ⟨QSides.lines_cancel b i hb.lines, fun e he => hb.bids e (h1.subset he), fun e he => hb.asks e (h2.subset he), fun x hx y hy => hb.apart x (h1.subset hx) y (h2.subset hy)⟩

theorem run_inv (ops : List Op) (h : AllFine ops) : Inv (run ops) := by
  induction ops using List.reverseRecOn with
  | nil => exact ⟨QSides.lines_run [] h, by simp [run, empty], by simp [run, empty], by simp [run, empty]⟩
  | append_singleton ops op ih =>
    have ih := ih fun o ho => h o (List.mem_append_left _ ho)
    rw [run_snoc]
    cases op with
    | insert o => exact insert_inv _ o ih (h o (List.mem_append_right _ (List.mem_singleton.2 rfl)))
    | cancel i => exact cancel_inv _ i ih

/-! ## Theorems -/

/-- **C190 (partial: offers for the same number of units).** After every history, also with different numbers of units and currencies and with exceptions: offers that face each other for the same number of units are in the same currency, and to buy at less than to sell. -/
theorem C190_uncrossed_partial (ops : List Op) (h : AllFine ops) (p q : Quote) (hp : p ∈ limits .buy (run ops)) (hq : q ∈ limits .sell (run ops)) (hl : p.lot = q.lot) :
    p.price.valuation = q.price.valuation ∧ p.price.value < q.price.value := by
  obtain ⟨x, hx, rfl⟩ := List.mem_map.1 hp
  obtain ⟨y, hy, rfl⟩ := List.mem_map.1 hq
  have hi := run_inv ops h
  obtain ⟨h1, h2⟩ := hi.apart x hx y hy
  simp only [← hi.lines.1.keys x hx, ← hi.lines.2.keys y hy] at hl ⊢
  refine ⟨h1, ?_⟩
  rw [hl] at h2
  exact Int.lt_of_mul_lt_mul_right h2 (by omega)

/-- **C190, currencies.** All orders that rest in a book, on whichever side, are in one currency. -/
theorem C190_currency (ops : List Op) (h : AllFine ops) (o o' : Order) (ho : o ∈ Spec.resting (run ops)) (ho' : o' ∈ Spec.resting (run ops)) : o.limit.price.valuation = o'.limit.price.valuation := by
  have hi := run_inv ops h
  have hkey : ∀ e ∈ (run ops).bids ++ (run ops).asks, e.key = e.order.limit := by
    intro e he
    rcases List.mem_append.1 he with he | he
    · exact hi.lines.1.keys e he
    · exact hi.lines.2.keys e he
  obtain ⟨x, hx, rfl⟩ := List.mem_map.1 ho
  obtain ⟨y, hy, rfl⟩ := List.mem_map.1 ho'
  rw [← hkey x hx, ← hkey y hy]
  have hside : ∀ (w : Int → Int → Prop) (l : List Entry), Line w l → ∀ a ∈ l, ∀ c ∈ l, a.key.price.valuation = c.key.price.valuation := by
    intro w l hl a ha c hc
    have ho := hl.order
    rw [List.pairwise_map] at ho
    cases l with
    | nil => cases ha
    | cons e l =>
      have h1 : ∀ z ∈ e :: l, e.key.price.valuation = z.key.price.valuation := by
        intro z hz
        rcases List.mem_cons.1 hz with rfl | hz
        · rfl
        · exact ((List.pairwise_cons.1 ho).1 z hz).1.2
      exact (h1 a ha).symm.trans (h1 c hc)
  rcases List.mem_append.1 hx with hx | hx <;> rcases List.mem_append.1 hy with hy | hy
  · exact hside _ _ hi.lines.1 x hx y hy
  · exact (hi.apart x hx y hy).1
  · exact (hi.apart y hy x hx).1.symm
  · exact hside _ _ hi.lines.2 x hx y hy

/-- The history of `QSides.mixed`: four orders rest. -/
example : AllFine QSides.mixed ∧ (Spec.resting (run QSides.mixed)).length = 4 := by
  refine ⟨?_, by decide +kernel⟩
  intro o ho
  simp only [QSides.mixed, List.mem_cons, Op.insert.injEq, reduceCtorEq, List.not_mem_nil, or_false] at ho
  rcases ho with rfl | rfl | rfl | rfl | rfl | rfl | rfl <;> (unfold Fine InI64; decide +kernel)

/-- **C190 (negation).** With different numbers of units offers can face each other although they should be executed: an offer to buy one unit for `v` and an offer to sell `k` units for less than `k * v` both rest. -/
theorem C190_counterexample_lots (k n m : Nat) (v w : Int) (hk : 0 < k) (hn : 0 < n) (hm : 0 < m) (hv : v < w * k) (_hw : w < v * k) (hfv : InI64 v) (hfw : InI64 (w * k)) :
    limits .buy (run [.insert (order .sell 1 k w m), .insert (order .buy 2 1 v n)]) = [⟨1, ⟨v, usd⟩⟩] ∧ limits .sell (run [.insert (order .sell 1 k w m), .insert (order .buy 2 1 v n)]) = [⟨k, ⟨w, usd⟩⟩] := by
  have hge : Quote.ge ⟨1, ⟨v, usd⟩⟩ ⟨k, ⟨w, usd⟩⟩ = .ok false := by
    have h1 : Fine ⟨1, ⟨v, usd⟩⟩ := ⟨by simp, by show InI64 (v * (1 : Nat)); simpa using hfv⟩
    have h2 : Fine ⟨k, ⟨w, usd⟩⟩ := ⟨hk, hfw⟩
    rw [ge_product h1 h2, if_pos rfl]
    congr 1
    refine decide_eq_false ?_
    show ¬ v * (1 : Nat) ≥ w * k
    omega
  have h0 : run [.insert (order .sell 1 k w m)] = ⟨1, [(0, ⟨k, ⟨w, usd⟩⟩)], [], [⟨⟨k, ⟨w, usd⟩⟩, 0, order .sell 1 k w m⟩], [⟨.placement, .sell, m, 0, ⟨k, ⟨w, usd⟩⟩, 1⟩]⟩ := by
    simp only [run, List.foldl_cons, List.foldl_nil, Book.apply, Book.insert, empty, order, matchLoop, Matched.resting, List.filter_nil, List.nil_append, gt_iff_lt, hm, if_true, emplace, placed]
    rfl
  rw [show [Op.insert (order .sell 1 k w m), .insert (order .buy 2 1 v n)] = [.insert (order .sell 1 k w m)] ++ [.insert (order .buy 2 1 v n)] from rfl, run_snoc, h0]
  simp only [Book.apply, Book.insert, order, matchLoop, hge, gt_iff_lt, hn, if_true, emplace, placed, Matched.resting, List.filter_nil, List.nil_append, limits, List.map_cons, List.map_nil, and_self]

/-- Offered to buy at 500 per unit, and to sell at 400 per unit. -/
example : (500 : Int) < 4000 * (10 : Nat) ∧ (4000 : Int) < 500 * (10 : Nat) := by decide

/-- **C191 (partial: the order could rest).** If an order that fits to those that rest on its own side ends with an exception, the book is as before. -/
theorem C191_unchanged_partial (ops : List Op) (h : AllFine ops) (o : Order) (ho : Fine o.limit) (hrest : ∀ q ∈ limits o.side (run ops), Alike o.limit q) (ht : ((run ops).insert o).2 = .throws) :
    run (ops ++ [.insert o]) = run ops := by
  have hi := run_inv ops h
  rw [run_snoc]
  rcases (insert_parts _ o hi ho).2.2.2.2 ht with h1 | ⟨x, hx, h1⟩
  · exact h1
  · exfalso
    refine h1 ?_
    unfold own at hx
    cases hs : o.side with
    | buy =>
      rw [hs] at hx hrest
      rw [hi.lines.1.keys x hx]
      exact hrest _ (List.mem_map.2 ⟨x, hx, rfl⟩)
    | sell =>
      rw [hs] at hx hrest
      rw [hi.lines.2.keys x hx]
      exact hrest _ (List.mem_map.2 ⟨x, hx, rfl⟩)

/-- One order to buy one unit rests. An order to sell ten units could rest, but cannot be compared. -/
example : let b := run [.insert (order .buy 1 1 100 1)]
    limits .sell b = [] ∧ (b.insert (order .sell 2 10 500 3)).2 = .throws ∧ Fine (order .sell 2 10 500 3).limit := by
  refine ⟨by decide +kernel, by decide +kernel, ?_⟩
  unfold Fine InI64
  decide +kernel

/-- **C191 (negation).** An order that ends with an exception can change the book: any number `n` of its units is executed before. -/
theorem C191_counterexample_executed (n k : Nat) (hn : 0 < n) (hk : 0 < k) :
    let ops : List Op := [.insert (order .sell 1 10 1000 5), .insert (order .buy 2 1 100 n)]
    ((run ops).insert (order .sell 3 1 100 (n + k))).2 = .throws ∧ run (ops ++ [.insert (order .sell 3 1 100 (n + k))]) ≠ run ops := by
  obtain ⟨h1, h2, -⟩ := C148_counterexample_lots n k hn hk
  refine ⟨h1, fun h => ?_⟩
  · rw [run_snoc] at h
    have h3 := congrArg (fun b => b.reports.length) h
    simp only [Book.apply, h2, List.length_append, List.length_cons, List.length_nil] at h3
    omega

/-- **C191, what rests.** After every history, also with exceptions, no order rests of which nothing is left. -/
theorem C191_positive (ops : List Op) (h : AllFine ops) (o : Order) (ho : o ∈ Spec.resting (run ops)) : 0 < o.quantity := by
  have hi := run_inv ops h
  obtain ⟨x, hx, rfl⟩ := List.mem_map.1 ho
  rcases List.mem_append.1 hx with hx | hx
  · exact hi.bids x hx
  · exact hi.asks x hx

/-- **C191, defined.** After every history an order is accepted or ends with an exception: arithmetic does not overflow. -/
theorem C191_defined (ops : List Op) (h : AllFine ops) (o : Order) (ho : Fine o.limit) : ((run ops).insert o).2 ≠ .ub := (insert_parts _ o (run_inv ops h) ho).2.2.2.1

end Esl.QCrossing
