import Verif.Props.QuotedBook
/-! # C188, C189: what rests in a book of quotes, and at which quotes orders are executed -/
namespace Esl.QSides
open Esl.Price Esl.QBook

/-! ## Specification -/

/-- A quote for a positive number of units whose product fits into 64 bits. -/
def Spec.Fine (q : Quote) : Prop := 0 < q.lot ∧ InI64 (q.price.value * q.lot)

/-- All orders of a history have such quotes. They may be for different numbers of units and in different currencies. -/
def Spec.AllFine (ops : List Op) : Prop := ∀ o, Op.insert o ∈ ops → Spec.Fine o.limit

/-- Two quotes for the same number of units in the same currency. -/
def Spec.Alike (p q : Quote) : Prop := p.lot = q.lot ∧ p.price.valuation = q.price.valuation

/-- The limits of the orders that rest on a side, in the order in which they are executed. -/
def Spec.limits (s : Side) (b : Book) : List Quote :=
  match s with
  | .buy => b.bids.map (·.order.limit)
  | .sell => b.asks.map (·.order.limit)

/-- The side against which an order is executed. -/
def Spec.opposite : Side → Side
  | .buy => .sell
  | .sell => .buy

/-- The reports that an operation adds after a history. -/
def Spec.new (ops : List Op) (op : Op) : List Report := (run (ops ++ [op])).reports.drop (run ops).reports.length

/-! ## Comparisons -/

theorem compare_ok {p q : Quote} (hp : Spec.Fine p) (hq : Spec.Fine q) (hl : p.lot = q.lot) :
    (∀ x, Quote.gt p q = .ok x → p.price.valuation = q.price.valuation ∧ x = decide (p.price.value > q.price.value)) ∧
    (∀ x, Quote.lt p q = .ok x → p.price.valuation = q.price.valuation ∧ x = decide (p.price.value < q.price.value)) ∧
    (∀ x, Quote.le p q = .ok x → p.price.valuation = q.price.valuation ∧ x = decide (p.price.value ≤ q.price.value)) ∧
    (∀ x, Quote.ge p q = .ok x → p.price.valuation = q.price.valuation ∧ x = decide (p.price.value ≥ q.price.value)) := by
  by_cases hc : p.price.valuation = q.price.valuation
  · obtain ⟨h1, h2, h3, h4, -, -⟩ := C09_equal_lots_partial p q hl hp.1 hc hp.2 hq.2
    rw [h1, h2, h3, h4]
    refine ⟨fun x h => ⟨hc, ?_⟩, fun x h => ⟨hc, ?_⟩, fun x h => ⟨hc, ?_⟩, fun x h => ⟨hc, ?_⟩⟩ <;> exact (Outcome.ok.inj h).symm
  · obtain ⟨h1, h2, h3, h4⟩ := compare_currencies p.lot p q ⟨rfl, hp.2⟩ ⟨hl.symm, by rw [hl]; exact hq.2⟩ hc
    rw [h1, h2, h3, h4]
    refine ⟨fun x h => ?_, fun x h => ?_, fun x h => ?_, fun x h => ?_⟩ <;> cases h

theorem gt_ok {p q : Quote} (hp : Spec.Fine p) (hq : Spec.Fine q) (x : Bool) (h : Quote.gt p q = .ok x) : Spec.Alike p q ∧ x = decide (p.price.value > q.price.value) := by
  have hl : p.lot = q.lot := Classical.byContradiction fun hl => by rw [(C09_different_lots_partial p q hl).2.2.1] at h; cases h
  obtain ⟨h1, h2⟩ := (compare_ok hp hq hl).1 x h
  exact ⟨⟨hl, h1⟩, h2⟩

theorem lt_ok {p q : Quote} (hp : Spec.Fine p) (hq : Spec.Fine q) (x : Bool) (h : Quote.lt p q = .ok x) : Spec.Alike p q ∧ x = decide (p.price.value < q.price.value) := by
  have hl : p.lot = q.lot := Classical.byContradiction fun hl => by rw [(C09_different_lots_partial p q hl).1] at h; cases h
  obtain ⟨h1, h2⟩ := (compare_ok hp hq hl).2.1 x h
  exact ⟨⟨hl, h1⟩, h2⟩

theorem le_ok {p q : Quote} (hp : Spec.Fine p) (hq : Spec.Fine q) (x : Bool) (h : Quote.le p q = .ok x) : Spec.Alike p q ∧ x = decide (p.price.value ≤ q.price.value) := by
  have hl : p.lot = q.lot := Classical.byContradiction fun hl => by rw [(C09_different_lots_partial p q hl).2.1] at h; cases h
  obtain ⟨h1, h2⟩ := (compare_ok hp hq hl).2.2.1 x h
  exact ⟨⟨hl, h1⟩, h2⟩

/-! ## The sides of a book -/

/-- A side whose keys are those of the orders, fine, alike and in the order of prices. -/
structure Line (w : Int → Int → Prop) (l : List Entry) : Prop where
  keys : ∀ e ∈ l, e.key = e.order.limit
  fine : ∀ e ∈ l, Spec.Fine e.key
  order : (l.map (·.key)).Pairwise fun p q => Spec.Alike p q ∧ w p.price.value q.price.value

theorem line_emplace {w : Int → Int → Prop} (ht : ∀ x y z, w x y → w y z → w x z) (f : Quote → Quote → Outcome Bool)
    (hf : ∀ p q x, Spec.Fine p → Spec.Fine q → f p q = .ok x → Spec.Alike p q ∧ (if x then w p.price.value q.price.value else w q.price.value p.price.value)) (e : Entry) (hk : e.key = e.order.limit) (he : Spec.Fine e.key)
    (l l' : List Entry) (hl : Line w l) (h : emplace f e l = .ok l') : Line w l' ∧ ∀ x, x ∈ l' → x = e ∨ x ∈ l := by
  induction l generalizing l' with
  | nil =>
    simp only [emplace, Outcome.ok.injEq] at h
    subst h
    exact ⟨⟨by simpa using hk, by simpa using he, by simp⟩, by simp⟩
  | cons x l ih =>
    have hx := hl.fine x (List.mem_cons_self ..)
    have hord := hl.order
    rw [List.map_cons, List.pairwise_cons] at hord
    have hl2 : Line w l := ⟨fun y hy => hl.keys y (List.mem_cons_of_mem _ hy), fun y hy => hl.fine y (List.mem_cons_of_mem _ hy), hord.2⟩
    rw [emplace] at h
    cases hb : f e.key x.key with
    | throws => rw [hb] at h; cases h
    | ub => rw [hb] at h; cases h
    | ok c =>
      rw [hb] at h
      obtain ⟨ha, hw⟩ := hf _ _ _ he hx hb
      cases c with
      | true =>
        simp only [Outcome.ok.injEq] at h
        subst h
        refine ⟨⟨fun y hy => ?_, fun y hy => ?_, ?_⟩, fun y hy => List.mem_cons.1 hy⟩
        · rcases List.mem_cons.1 hy with rfl | hy
          · exact hk
          · exact hl.keys y hy
        · rcases List.mem_cons.1 hy with rfl | hy
          · exact he
          · exact hl.fine y hy
        · rw [List.map_cons, List.pairwise_cons]
          refine ⟨fun q hq => ?_, hl.order⟩
          simp only [if_true] at hw
          rcases List.mem_cons.1 hq with rfl | hq
          · exact ⟨ha, hw⟩
          · obtain ⟨i1, i2⟩ := hord.1 q hq
            exact ⟨⟨ha.1.trans i1.1, ha.2.trans i1.2⟩, ht _ _ _ hw i2⟩
      | false =>
        simp only at h
        cases hr : emplace f e l with
        | throws => rw [hr] at h; cases h
        | ub => rw [hr] at h; cases h
        | ok l2 =>
          rw [hr] at h
          simp only [Outcome.ok.injEq] at h
          subst h
          obtain ⟨j1, j2⟩ := ih l2 hl2 hr
          simp only [Bool.false_eq_true, if_false] at hw
          refine ⟨⟨fun y hy => ?_, fun y hy => ?_, ?_⟩, fun y hy => ?_⟩
          · rcases List.mem_cons.1 hy with rfl | hy
            · exact hl.keys y (List.mem_cons_self ..)
            · exact j1.keys y hy
          · rcases List.mem_cons.1 hy with rfl | hy
            · exact hx
            · exact j1.fine y hy
          · rw [List.map_cons, List.pairwise_cons]
            refine ⟨fun q hq => ?_, j1.order⟩
            obtain ⟨y, hy, rfl⟩ := List.mem_map.1 hq
            rcases j2 y hy with rfl | hy
            · exact ⟨⟨ha.1.symm, ha.2.symm⟩, hw⟩
            · exact hord.1 _ (List.mem_map.2 ⟨y, hy, rfl⟩)
          · rcases List.mem_cons.1 hy with rfl | hy
            · exact .inr (List.mem_cons_self ..)
            · rcases j2 y hy with rfl | hy
              · exact .inl rfl
              · exact .inr (List.mem_cons_of_mem _ hy)

/-- Keys after matching are keys from before, in the same order. -/
theorem matchLoop_keys (f : Quote → Outcome Bool) (o : Order) (rem : Nat) (l : List Entry) :
    ((matchLoop f o rem l).passed ++ (matchLoop f o rem l).rest).map (fun e => (e.key, e.order.limit)) = l.map fun e => (e.key, e.order.limit) := by
  induction l generalizing rem with
  | nil => rfl
  | cons e l ih =>
    rw [matchLoop]
    rcases f e.key with (_ | _) | _ | _
    · rfl
    · simp only
      split
      · rfl
      · simp only [List.cons_append, List.map_cons, ih]
    · rfl
    · rfl

theorem resting_sublist (m : Matched) : (m.resting.map fun e : Entry => (e.key, e.order.limit)).Sublist ((m.passed ++ m.rest).map fun e => (e.key, e.order.limit)) := by
  unfold Matched.resting
  split
  · exact ((List.filter_sublist).append (List.Sublist.refl _)).map _
  · exact List.Sublist.refl _

theorem line_sublist {w : Int → Int → Prop} {l l' : List Entry} (hl : Line w l) (h : (l'.map fun e : Entry => (e.key, e.order.limit)).Sublist (l.map fun e => (e.key, e.order.limit))) : Line w l' := by
  have hmem : ∀ e ∈ l', ∃ x ∈ l, x.key = e.key ∧ x.order.limit = e.order.limit := by
    intro e he
    obtain ⟨x, hx, hxe⟩ := List.mem_map.1 (h.subset (List.mem_map.2 ⟨e, he, rfl⟩))
    exact ⟨x, hx, (Prod.mk.inj hxe).1, (Prod.mk.inj hxe).2⟩
  refine ⟨fun e he => ?_, fun e he => ?_, ?_⟩
  · obtain ⟨x, hx, h1, h2⟩ := hmem e he
    rw [← h1, ← h2]; exact hl.keys x hx
  · obtain ⟨x, hx, h1, -⟩ := hmem e he
    rw [← h1]; exact hl.fine x hx
  · have h2 := h.map Prod.fst
    rw [List.map_map, List.map_map] at h2
    exact hl.order.sublist h2

theorem line_matched {w : Int → Int → Prop} (f : Quote → Outcome Bool) (o : Order) (rem : Nat) {l : List Entry} (hl : Line w l) : Line w (matchLoop f o rem l).resting := by
  refine line_sublist hl ?_
  rw [← matchLoop_keys f o rem l]
  exact resting_sublist _

theorem cancelIn_sublist (f : Quote → Quote → Outcome Bool) (side : Side) (p : Quote) (i : Nat) (l l' : List Entry) (rs : List Report) (h : cancelIn f side p i l = .ok (l', rs)) : l'.Sublist l := by
  induction l generalizing l' rs with
  | nil =>
    simp only [cancelIn, Outcome.ok.injEq, Prod.mk.injEq] at h
    obtain ⟨rfl, -⟩ := h
    exact List.Sublist.refl _
  | cons e l ih =>
    rw [cancelIn] at h
    split at h
    · cases h
    · cases h
    · split at h
      · simp only [Outcome.ok.injEq, Prod.mk.injEq] at h
        obtain ⟨rfl, -⟩ := h
        exact List.sublist_cons_self ..
      · split at h
        · cases h
        · cases h
        · rename_i h2
          simp only [Outcome.ok.injEq, Prod.mk.injEq] at h
          obtain ⟨rfl, -⟩ := h
          exact (ih _ _ h2).cons_cons e

/-- Both sides. -/
def Lines (b : Book) : Prop := Line (fun x y => y ≤ x) b.bids ∧ Line (fun x y => x ≤ y) b.asks

theorem lines_insert (b : Book) (o : Order) (hb : Lines b) (ho : Spec.Fine o.limit) : Lines (b.insert o).1 := by
  unfold Book.insert
  cases o.side with
  | buy =>
    have hm := line_matched (fun k => Quote.ge o.limit k) o o.quantity hb.2
    simp only
    generalize matchLoop (fun k => Quote.ge o.limit k) o o.quantity b.asks = m at *
    rcases m.outcome with _ | _ | _
    rotate_left
    · exact ⟨hb.1, hm⟩
    · exact ⟨hb.1, hm⟩
    · simp only
      split
      · rcases hl : emplace Quote.gt (placed b o m.remainder).1 b.bids with l | _ | _
        rotate_left
        · exact ⟨hb.1, hm⟩
        · exact ⟨hb.1, hm⟩
        · refine ⟨(line_emplace (w := fun x y => y ≤ x) (fun x y z h1 h2 => Int.le_trans h2 h1) Quote.gt (fun p q x hp hq h => ?_) (placed b o m.remainder).1 rfl ho _ _ hb.1 hl).1, hm⟩
          obtain ⟨h1, h2⟩ := gt_ok hp hq x h
          refine ⟨h1, ?_⟩
          subst h2
          split <;> rename_i h3 <;> simp only [gt_iff_lt, decide_eq_true_eq] at h3 <;> omega
      · exact ⟨hb.1, hm⟩
  | sell =>
    have hm := line_matched (fun k => Quote.le o.limit k) o o.quantity hb.1
    simp only
    generalize matchLoop (fun k => Quote.le o.limit k) o o.quantity b.bids = m at *
    rcases m.outcome with _ | _ | _
    rotate_left
    · exact ⟨hm, hb.2⟩
    · exact ⟨hm, hb.2⟩
    · simp only
      split
      · rcases hl : emplace Quote.lt (placed b o m.remainder).1 b.asks with l | _ | _
        rotate_left
        · exact ⟨hm, hb.2⟩
        · exact ⟨hm, hb.2⟩
        · refine ⟨hm, (line_emplace (w := fun x y => x ≤ y) (fun x y z h1 h2 => Int.le_trans h1 h2) Quote.lt (fun p q x hp hq h => ?_) (placed b o m.remainder).1 rfl ho _ _ hb.2 hl).1⟩
          obtain ⟨h1, h2⟩ := lt_ok hp hq x h
          refine ⟨h1, ?_⟩
          subst h2
          split <;> rename_i h3 <;> simp only [decide_eq_true_eq] at h3 <;> omega
      · exact ⟨hm, hb.2⟩

theorem lines_cancel (b : Book) (i : Nat) (hb : Lines b) : Lines (b.cancel i).1 := by
  unfold Book.cancel
  split
  · exact hb
  · split
    · exact hb
    · exact hb
    · split
      · exact hb
      · exact hb
      · rename_i h
        exact ⟨line_sublist hb.1 ((cancelIn_sublist _ _ _ _ _ _ _ h).map _), hb.2⟩
    · split
      · exact hb
      · exact hb
      · split
        · exact hb
        · exact hb
        · rename_i h
          exact ⟨hb.1, line_sublist hb.2 ((cancelIn_sublist _ _ _ _ _ _ _ h).map _)⟩
      · exact hb

theorem lines_run (ops : List Op) (h : Spec.AllFine ops) : Lines (run ops) := by
  induction ops using List.reverseRecOn with
  | nil => exact ⟨⟨by simp [run, empty], by simp [run, empty], by simp [run, empty]⟩, ⟨by simp [run, empty], by simp [run, empty], by simp [run, empty]⟩⟩
  | append_singleton ops op ih =>
    have ih := ih fun o ho => h o (List.mem_append_left _ ho)
    rw [run_snoc]
    cases op with
    | insert o => exact lines_insert _ o ih (h o (List.mem_append_right _ (List.mem_singleton.2 rfl)))
    | cancel i => exact lines_cancel _ i ih

theorem limits_pairwise {w : Int → Int → Prop} {l : List Entry} (h : Line w l) : (l.map (·.order.limit)).Pairwise fun p q => Spec.Alike p q ∧ w p.price.value q.price.value := by
  have : l.map (·.order.limit) = l.map (·.key) := List.map_congr_left fun e he => (h.keys e he).symm
  rw [this]
  exact h.order

/-- **C188.** After every history of orders and cancellations, also if orders are quoted for different numbers of units and in different currencies, and operations end with exceptions: all orders that rest on the same side are quoted for the same number of units in the same currency, and are in the order of
their prices, best first. -/
theorem C188_sides (ops : List Op) (h : Spec.AllFine ops) :
    (Spec.limits .buy (run ops)).Pairwise (fun p q => Spec.Alike p q ∧ p.price.value ≥ q.price.value) ∧
    (Spec.limits .sell (run ops)).Pairwise (fun p q => Spec.Alike p q ∧ p.price.value ≤ q.price.value) :=
  ⟨limits_pairwise (lines_run ops h).1, limits_pairwise (lines_run ops h).2⟩

theorem all_or_none {w : Int → Int → Prop} {l : List Entry} (hl : Line w l) (q : Quote) (hq : Spec.Fine q) :
    (∀ p ∈ l.map (·.order.limit), Quote.gt q p = .throws ∧ Quote.gt p q = .throws ∧ Quote.lt q p = .throws ∧ Quote.lt p q = .throws) ∨
    (∀ p ∈ l.map (·.order.limit), Spec.Alike q p ∧ Quote.gt q p = .ok (decide (q.price.value > p.price.value)) ∧ Quote.gt p q = .ok (decide (p.price.value > q.price.value)) ∧
      Quote.lt q p = .ok (decide (q.price.value < p.price.value)) ∧ Quote.lt p q = .ok (decide (p.price.value < q.price.value))) := by
  cases l with
  | nil => exact .inl (by simp)
  | cons e l =>
    have ho := limits_pairwise hl
    have hfine : ∀ p ∈ (e :: l).map (·.order.limit), Spec.Fine p := by
      intro p hp
      obtain ⟨x, hx, rfl⟩ := List.mem_map.1 hp
      show Spec.Fine x.order.limit
      rw [← hl.keys x hx]
      exact hl.fine x hx
    have hal : ∀ p ∈ (e :: l).map (·.order.limit), Spec.Alike e.order.limit p := by
      intro p hp
      rw [List.map_cons, List.pairwise_cons] at ho
      rcases List.mem_cons.1 hp with rfl | hp
      · exact ⟨rfl, rfl⟩
      · exact (ho.1 p hp).1
    by_cases hlot : q.lot = e.order.limit.lot
    · by_cases hc : q.price.valuation = e.order.limit.price.valuation
      · refine .inr fun p hp => ?_
        have h1 : Spec.Alike q p := ⟨hlot.trans (hal p hp).1, hc.trans (hal p hp).2⟩
        obtain ⟨i1, i2, i3, i4, -, -⟩ := C09_equal_lots_partial q p h1.1 hq.1 h1.2 hq.2 (hfine p hp).2
        obtain ⟨j1, j2, j3, j4, -, -⟩ := C09_equal_lots_partial p q h1.1.symm (hfine p hp).1 h1.2.symm (hfine p hp).2 hq.2
        exact ⟨h1, by assumption, by assumption, by assumption, by assumption⟩
      · refine .inl fun p hp => ?_
        have h1 : q.lot = p.lot := hlot.trans (hal p hp).1
        have h2 : ¬ q.price.valuation = p.price.valuation := fun h => hc (h.trans (hal p hp).2.symm)
        have hp2 := hfine p hp
        obtain ⟨i1, i2, i3, i4⟩ := compare_currencies q.lot q p ⟨rfl, hq.2⟩ ⟨h1.symm, by rw [h1]; exact hp2.2⟩ h2
        obtain ⟨j1, j2, j3, j4⟩ := compare_currencies q.lot p q ⟨h1.symm, by rw [h1]; exact hp2.2⟩ ⟨rfl, hq.2⟩ (fun h => h2 h.symm)
        exact ⟨by assumption, by assumption, by assumption, by assumption⟩
    · refine .inl fun p hp => ?_
      have h1 : q.lot ≠ p.lot := fun h => hlot (h.trans (hal p hp).1.symm)
      exact ⟨(C09_different_lots_partial q p h1).2.2.1, (C09_different_lots_partial p q h1.symm).2.2.1, (C09_different_lots_partial q p h1).1, (C09_different_lots_partial p q h1.symm).1⟩

/-- **C188, comparisons.** Whatever a side holds after a history, a quote either cannot be compared to any order that rests there, or to all of them, and then by price. Which elements of a side an insertion or a search compares, and in which order, is thus without effect on whether it ends with an
exception. -/
theorem C188_comparable (ops : List Op) (h : Spec.AllFine ops) (s : Side) (q : Quote) (hq : Spec.Fine q) :
    (∀ p ∈ Spec.limits s (run ops), Quote.gt q p = .throws ∧ Quote.gt p q = .throws ∧ Quote.lt q p = .throws ∧ Quote.lt p q = .throws) ∨
    (∀ p ∈ Spec.limits s (run ops), Spec.Alike q p ∧ Quote.gt q p = .ok (decide (q.price.value > p.price.value)) ∧ Quote.gt p q = .ok (decide (p.price.value > q.price.value)) ∧
      Quote.lt q p = .ok (decide (q.price.value < p.price.value)) ∧ Quote.lt p q = .ok (decide (p.price.value < q.price.value))) := by
  cases s with
  | buy => exact all_or_none (lines_run ops h).1 q hq
  | sell => exact all_or_none (lines_run ops h).2 q hq

/-- Orders for one unit, for seven and for ten. The order to buy seven units and the order to sell ten end with exceptions, and the order to buy at 300 is cancelled. -/
def mixed : List Op := [.insert (order .buy 1 1 100 1), .insert (order .buy 2 1 300 1), .insert (order .buy 3 1 200 1), .insert (order .buy 3 7 10 1), .insert (order .sell 4 1 900 1), .insert (order .sell 5 1 800 1), .insert (order .sell 5 10 950 1), .cancel 1]

example : Spec.AllFine mixed := by
  intro o ho
  simp only [mixed, List.mem_cons, Op.insert.injEq, reduceCtorEq, List.not_mem_nil, or_false] at ho
  rcases ho with rfl | rfl | rfl | rfl | rfl | rfl | rfl <;> (unfold Spec.Fine InI64; decide +kernel)

example : Spec.limits .buy (run mixed) = [⟨1, ⟨200, usd⟩⟩, ⟨1, ⟨100, usd⟩⟩] ∧ Spec.limits .sell (run mixed) = [⟨1, ⟨800, usd⟩⟩, ⟨1, ⟨900, usd⟩⟩] := by decide +kernel

/-! ## Executions -/

theorem matchLoop_crosses (f : Quote → Outcome Bool) (o : Order) (rem : Nat) (l : List Entry) : ∀ r ∈ (matchLoop f o rem l).reports, ∃ e ∈ l, r.limit = e.order.limit ∧ f e.key = .ok true := by
  induction l generalizing rem with
  | nil => simp [matchLoop]
  | cons e l ih =>
    rw [matchLoop]
    rcases hf : f e.key with (_ | _) | _ | _
    · simp
    · simp only
      split
      · simp
      · intro r hr
        simp only [List.cons_append, List.nil_append, List.mem_cons] at hr
        rcases hr with rfl | rfl | hr
        · exact ⟨e, List.mem_cons_self .., rfl, hf⟩
        · exact ⟨e, List.mem_cons_self .., rfl, hf⟩
        · obtain ⟨x, hx, h1, h2⟩ := ih _ r hr
          exact ⟨x, List.mem_cons_of_mem _ hx, h1, h2⟩
    · simp
    · simp

/-- The reports that an insertion adds. -/
theorem insert_reports (b : Book) (o : Order) : ∃ new, (b.insert o).1.reports = b.reports ++ new ∧ ∀ r ∈ new, r.state = .match_ →
    match o.side with
    | .buy => ∃ e ∈ b.asks, r.limit = e.order.limit ∧ Quote.ge o.limit e.key = .ok true
    | .sell => ∃ e ∈ b.bids, r.limit = e.order.limit ∧ Quote.le o.limit e.key = .ok true := by
  unfold Book.insert
  cases o.side with
  | buy =>
    have hm := matchLoop_crosses (fun k => Quote.ge o.limit k) o o.quantity b.asks
    simp only
    generalize matchLoop (fun k => Quote.ge o.limit k) o o.quantity b.asks = m at *
    rcases m.outcome with _ | _ | _
    rotate_left
    · exact ⟨m.reports, rfl, fun r hr _ => hm r hr⟩
    · exact ⟨m.reports, rfl, fun r hr _ => hm r hr⟩
    · simp only
      split
      · rcases hl : emplace Quote.gt (placed b o m.remainder).1 b.bids with l | _ | _
        rotate_left
        · exact ⟨m.reports, rfl, fun r hr _ => hm r hr⟩
        · exact ⟨m.reports, rfl, fun r hr _ => hm r hr⟩
        · refine ⟨m.reports ++ [(placed b o m.remainder).2], List.append_assoc .., fun r hr hs => ?_⟩
          rcases List.mem_append.1 hr with hr | hr
          · exact hm r hr
          · rw [List.mem_singleton.1 hr] at hs; cases hs
      · exact ⟨m.reports, rfl, fun r hr _ => hm r hr⟩
  | sell =>
    have hm := matchLoop_crosses (fun k => Quote.le o.limit k) o o.quantity b.bids
    simp only
    generalize matchLoop (fun k => Quote.le o.limit k) o o.quantity b.bids = m at *
    rcases m.outcome with _ | _ | _
    rotate_left
    · exact ⟨m.reports, rfl, fun r hr _ => hm r hr⟩
    · exact ⟨m.reports, rfl, fun r hr _ => hm r hr⟩
    · simp only
      split
      · rcases hl : emplace Quote.lt (placed b o m.remainder).1 b.asks with l | _ | _
        rotate_left
        · exact ⟨m.reports, rfl, fun r hr _ => hm r hr⟩
        · exact ⟨m.reports, rfl, fun r hr _ => hm r hr⟩
        · refine ⟨m.reports ++ [(placed b o m.remainder).2], List.append_assoc .., fun r hr hs => ?_⟩
          rcases List.mem_append.1 hr with hr | hr
          · exact hm r hr
          · rw [List.mem_singleton.1 hr] at hs; cases hs
      · exact ⟨m.reports, rfl, fun r hr _ => hm r hr⟩

theorem new_insert (ops : List Op) (o : Order) : ∀ r ∈ Spec.new ops (.insert o), r.state = .match_ →
    match o.side with
    | .buy => ∃ e ∈ (run ops).asks, r.limit = e.order.limit ∧ Quote.ge o.limit e.key = .ok true
    | .sell => ∃ e ∈ (run ops).bids, r.limit = e.order.limit ∧ Quote.le o.limit e.key = .ok true := by
  obtain ⟨new, h1, h2⟩ := insert_reports (run ops) o
  intro r hr
  unfold Spec.new at hr
  rw [run_snoc] at hr
  simp only [Book.apply] at hr
  rw [h1, List.drop_left] at hr
  exact h2 r hr

/-- **C189.** Whatever the quotes and exceptions: an order is executed only at the limits of orders that rest on the other side. -/
theorem C189_limits (ops : List Op) (o : Order) (r : Report) (hr : r ∈ Spec.new ops (.insert o)) (hs : r.state = .match_) : r.limit ∈ Spec.limits (Spec.opposite o.side) (run ops) := by
  have h := new_insert ops o r hr hs
  cases ho : o.side with
  | buy =>
    rw [ho] at h
    obtain ⟨e, he, h1, -⟩ := h
    exact List.mem_map.2 ⟨e, he, h1.symm⟩
  | sell =>
    rw [ho] at h
    obtain ⟨e, he, h1, -⟩ := h
    exact List.mem_map.2 ⟨e, he, h1.symm⟩

/-- **C189, orders to sell.** Whatever the quotes of the orders before: an order to sell is executed only at quotes for the same number of units, in the same currency, at its limit or above. -/
theorem C189_sell (ops : List Op) (h : Spec.AllFine ops) (o : Order) (ho : Spec.Fine o.limit) (hside : o.side = .sell) (r : Report) (hr : r ∈ Spec.new ops (.insert o)) (hs : r.state = .match_) :
    Spec.Alike r.limit o.limit ∧ r.limit.price.value ≥ o.limit.price.value := by
  have h1 := new_insert ops o r hr hs
  rw [hside] at h1
  obtain ⟨e, he, h2, h3⟩ := h1
  have hl := (lines_run ops h).1
  obtain ⟨h4, h5⟩ := le_ok ho (hl.fine e he) _ h3
  rw [h2, ← hl.keys e he]
  have h6 := of_decide_eq_true h5.symm
  exact ⟨⟨h4.1.symm, h4.2.symm⟩, h6⟩

/-- An order to sell for at least 150 is executed at 200 and no more. -/
example : (Spec.new mixed (.insert (order .sell 6 1 150 2))).filter (fun r => r.state = .match_) = [⟨.match_, .sell, 1, directOrder, ⟨1, ⟨200, usd⟩⟩, 6⟩, ⟨.match_, .buy, 1, 2, ⟨1, ⟨200, usd⟩⟩, 3⟩] := by decide +kernel

/-- **C189, orders to buy (partial: against orders for the same number of units).** Whatever the quotes of the orders before: an order to buy is executed at a quote for the same number of units only if this is in the same currency, at its limit or below. -/
theorem C189_buy_partial (ops : List Op) (h : Spec.AllFine ops) (o : Order) (ho : Spec.Fine o.limit) (hside : o.side = .buy) (r : Report) (hr : r ∈ Spec.new ops (.insert o)) (hs : r.state = .match_) (hl : r.limit.lot = o.limit.lot) :
    Spec.Alike r.limit o.limit ∧ r.limit.price.value ≤ o.limit.price.value := by
  have h1 := new_insert ops o r hr hs
  rw [hside] at h1
  obtain ⟨e, he, h2, h3⟩ := h1
  have hln := (lines_run ops h).2
  have hk := hln.keys e he
  have hlot : o.limit.lot = e.key.lot := by rw [hk, ← h2]; exact hl.symm
  obtain ⟨h4, h5⟩ := (compare_ok ho (hln.fine e he) hlot).2.2.2 _ h3
  rw [h2, ← hk]
  have h6 := of_decide_eq_true h5.symm
  exact ⟨⟨hlot.symm, h4.symm⟩, h6⟩

/-- An order to buy for at most 850 is executed at 800 and no more. -/
example : (Spec.new mixed (.insert (order .buy 6 1 850 2))).filter (fun r => r.state = .match_) = [⟨.match_, .buy, 1, directOrder, ⟨1, ⟨800, usd⟩⟩, 6⟩, ⟨.match_, .sell, 1, 4, ⟨1, ⟨800, usd⟩⟩, 5⟩] := by decide +kernel

/-- **C189 (negation).** An order to buy can cost any number of times its limit: an order that offers `v` for `k` units is executed against an order that asks `v` for one unit, `k` times the price per unit. -/
theorem C189_counterexample_buy (k n : Nat) (v : Int) (hk : 0 < k) (hn : 0 < n) (hv : 0 ≤ v) (hf : InI64 (v * k)) :
    ⟨.match_, .buy, n, directOrder, ⟨1, ⟨v, usd⟩⟩, 2⟩ ∈ Spec.new [.insert (order .sell 1 1 v n)] (.insert (order .buy 2 k v n)) := by
  have hf1 : InI64 (v * (1 : Nat)) := by
    unfold InI64 at hf ⊢
    have : v * 1 ≤ v * k := Int.mul_le_mul_of_nonneg_left (by omega) hv
    omega
  have hge : Quote.ge ⟨k, ⟨v, usd⟩⟩ ⟨1, ⟨v, usd⟩⟩ = .ok true := by
    have hw : (⟨v, usd⟩ : P).scaleWrap k = ⟨v * k, usd⟩ := by
      unfold P.scaleWrap
      rw [wrapI64_of_in hf]
    have hle : v ≤ v * k := by
      have : v * 1 ≤ v * k := Int.mul_le_mul_of_nonneg_left (by omega) hv
      omega
    unfold Quote.ge Quote.cmp P.scaleSigned
    rw [if_pos hf1, hw, Outcome.bind_ok]
    have hne : Currency.ne usd usd = false := by decide
    have heq : Currency.eq usd usd = true := by decide
    simp only [P.ge, P.gt, P.eq, hne, heq, Bool.false_eq_true, if_false, Outcome.bind_ok, Bool.and_true]
    congr 1
    rcases Int.lt_or_eq_of_le hle with h | h
    · simp [h]
    · simp [← h]
  have h0 : run [.insert (order .sell 1 1 v n)] = ⟨1, [(0, ⟨1, ⟨v, usd⟩⟩)], [], [⟨⟨1, ⟨v, usd⟩⟩, 0, order .sell 1 1 v n⟩], [⟨.placement, .sell, n, 0, ⟨1, ⟨v, usd⟩⟩, 1⟩]⟩ := by
    simp only [run, List.foldl_cons, List.foldl_nil, Book.apply, Book.insert, empty, order, matchLoop, Matched.resting, List.filter_nil, List.nil_append, gt_iff_lt, hn, if_true, emplace, placed]
    rfl
  unfold Spec.new
  rw [run_snoc, h0]
  have hn0 : ¬ n = 0 := by omega
  simp only [Book.apply, Book.insert, order, matchLoop, hge, Nat.min_self, hn0, if_false, Nat.sub_self]
  simp [Matched.resting]

end Esl.QSides
