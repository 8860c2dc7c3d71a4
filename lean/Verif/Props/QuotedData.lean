import Verif.Props.QuotedCrossing
/-! # C192: what an exchange tells about quotes of any kind -/
namespace Esl.QData
open Esl.Price Esl.QBook Esl.QExchange
open Esl.QSides.Spec (Fine Alike)
open Esl.QCrossing (Inv)

/-! ## Specification -/

/-- All orders sent to the exchange are for a positive number of units, and price times units fits into 64 bits. They may be for different numbers of units and in different currencies. -/
def Spec.AllFine (es : List (Nat × Event)) : Prop := ∀ t s o, (t, Event.order s o) ∈ es → Fine o.limit

/-! ## Messages -/

/-- Where the messages of one order come from. -/
theorem reportLoop_outs (latency : Nat → Nat) (lower sender : Nat) (o : Order) (b : Book) (ask₀ bid₀ : Option Quote) (rs : List Report) (subs : Option (List (Nat × Exchange.Subscription))) (r : Option (List (Nat × Exchange.Subscription)) × List Out)
    (h : reportLoop latency lower sender o b ask₀ bid₀ rs subs = .ok r) (m : Out) (hm : m ∈ r.2) :
    (∃ a t q, q ∈ rs ∧ m = .report a t o q) ∨ ∃ a t tr, m = .data a t o.symbol tr (ask b) (bid b) ∧ ∀ p n, (p, n) ∈ tr → ∃ q ∈ rs, q.state = .match_ ∧ q.limit = p ∧ q.quantity = n := by
  induction rs generalizing subs r with
  | nil =>
    simp only [reportLoop, Outcome.ok.injEq] at h
    subst h
    cases hm
  | cons q rs ih =>
    have up : ((∃ a t q, q ∈ rs ∧ m = .report a t o q) ∨ ∃ a t tr, m = .data a t o.symbol tr (ask b) (bid b) ∧ ∀ p n, (p, n) ∈ tr → ∃ q ∈ rs, q.state = .match_ ∧ q.limit = p ∧ q.quantity = n) →
        (∃ a t q', q' ∈ q :: rs ∧ m = .report a t o q') ∨ ∃ a t tr, m = .data a t o.symbol tr (ask b) (bid b) ∧ ∀ p n, (p, n) ∈ tr → ∃ q' ∈ q :: rs, q'.state = .match_ ∧ q'.limit = p ∧ q'.quantity = n := by
      rintro (⟨a, t, q', h1, h2⟩ | ⟨a, t, tr, h1, h2⟩)
      · exact .inl ⟨a, t, q', List.mem_cons_of_mem _ h1, h2⟩
      · refine .inr ⟨a, t, tr, h1, fun p n hp => ?_⟩
        obtain ⟨q', h3, h4⟩ := h2 p n hp
        exact ⟨q', List.mem_cons_of_mem _ h3, h4⟩
    cases subs with
    | none =>
      simp only [reportLoop] at h
      cases hr : reportLoop latency lower sender o b ask₀ bid₀ rs none with
      | throws => rw [hr] at h; cases h
      | ub => rw [hr] at h; cases h
      | ok rest =>
        rw [hr] at h
        simp only [Outcome.bind_ok, Outcome.ok.injEq] at h
        subst h
        rcases List.mem_cons.1 hm with rfl | hm
        · exact .inl ⟨_, _, q, List.mem_cons_self .., rfl⟩
        · exact up (ih _ _ hr hm)
    | some l =>
      simp only [reportLoop] at h
      cases hc : changed ask₀ bid₀ b with
      | throws => rw [hc] at h; cases h
      | ub => rw [hc] at h; cases h
      | ok c =>
        rw [hc] at h
        simp only [Outcome.bind_ok] at h
        split at h
        · generalize hr : reportLoop latency lower sender o b ask₀ bid₀ rs _ = res at h
          cases res with
          | throws => cases h
          | ub => cases h
          | ok rest =>
            simp only [Outcome.bind_ok, Outcome.ok.injEq] at h
            subst h
            rcases List.mem_cons.1 hm with rfl | hm
            · exact .inl ⟨_, _, q, List.mem_cons_self .., rfl⟩
            · rcases List.mem_append.1 hm with hm | hm
              · obtain ⟨f, hf, hm⟩ := List.mem_flatMap.1 hm
                obtain ⟨s, -, rfl⟩ := List.mem_map.1 hf
                unfold feedOne at hm
                split at hm
                · cases hm
                · refine .inr ⟨_, _, _, List.mem_singleton.1 hm, fun p n hp => ?_⟩
                  split at hp
                  · rename_i ht
                    obtain ⟨rfl, rfl⟩ := Prod.mk.inj (List.mem_singleton.1 hp)
                    exact ⟨q, List.mem_cons_self .., of_decide_eq_true ht, rfl, rfl⟩
                  · cases hp
              · exact up (ih _ _ hr hm)
        · cases hr : reportLoop latency lower sender o b ask₀ bid₀ rs (some l) with
          | throws => rw [hr] at h; cases h
          | ub => rw [hr] at h; cases h
          | ok rest =>
            rw [hr] at h
            simp only [Outcome.bind_ok, Outcome.ok.injEq] at h
            subst h
            rcases List.mem_cons.1 hm with rfl | hm
            · exact .inl ⟨_, _, q, List.mem_cons_self .., rfl⟩
            · exact up (ih _ _ hr hm)

/-! ## Histories -/

/-- The books are as in C188 to C191, and nothing but cancellations waits to be reported. -/
def Good (x : Venue) : Prop := ∀ t b, x.books.lookup t = some b → Inv b ∧ ∀ r ∈ b.reports, r.state ≠ .match_

/-- What holds of a message. -/
def Fair : Out → Prop
  | .report _ _ o r => r.state = .match_ → (o.side = .sell → Alike r.limit o.limit ∧ r.limit.price.value ≥ o.limit.price.value) ∧
      (o.side = .buy → r.limit.price.valuation = o.limit.price.valuation ∧ r.limit.price.value * r.limit.lot ≤ o.limit.price.value * o.limit.lot)
  | .data _ _ _ _ ask bid => ∀ p q, ask = some p → bid = some q → q.price.valuation = p.price.valuation ∧ q.price.value * q.lot < p.price.value * p.lot

theorem inv_reports {b : Book} (h : Inv b) (rs : List Report) : Inv { b with reports := rs } := ⟨h.lines, h.bids, h.asks, h.apart⟩

theorem cancel_states (b : Book) (i : Nat) (h : ∀ r ∈ b.reports, r.state ≠ .match_) : ∀ r ∈ (b.cancel i).1.reports, r.state ≠ .match_ := by
  have hin : ∀ (f : Quote → Quote → Outcome Bool) (side : Side) (p : Quote) (l l' : List Entry) (rs : List Report), cancelIn f side p i l = .ok (l', rs) → ∀ r ∈ rs, r.state ≠ .match_ := by
    intro f side p l
    induction l with
    | nil =>
      intro l' rs hc
      simp only [cancelIn, Outcome.ok.injEq, Prod.mk.injEq] at hc
      obtain ⟨-, rfl⟩ := hc
      simp
    | cons e l ih =>
      intro l' rs hc
      rw [cancelIn] at hc
      split at hc
      · cases hc
      · cases hc
      · split at hc
        · simp only [Outcome.ok.injEq, Prod.mk.injEq] at hc
          obtain ⟨-, rfl⟩ := hc
          simp
        · split at hc
          · cases hc
          · cases hc
          · rename_i h2
            simp only [Outcome.ok.injEq, Prod.mk.injEq] at hc
            obtain ⟨-, rfl⟩ := hc
            exact ih _ _ h2
  have happ : ∀ rs : List Report, (∀ r ∈ rs, r.state ≠ .match_) → ∀ r ∈ b.reports ++ rs, r.state ≠ .match_ := by
    intro rs hrs r hr
    rcases List.mem_append.1 hr with hr | hr
    · exact h r hr
    · exact hrs r hr
  unfold Book.cancel
  split
  · exact h
  · split
    · exact h
    · exact h
    · split
      · exact h
      · exact h
      · rename_i hc
        exact happ _ (hin _ _ _ _ _ _ hc)
    · split
      · exact h
      · exact h
      · split
        · exact h
        · exact h
        · rename_i hc
          exact happ _ (hin _ _ _ _ _ _ hc)
      · exact h

theorem good_assign {x : Venue} (hx : Good x) (s : Nat) (b : Book) (hb : Inv b ∧ ∀ r ∈ b.reports, r.state ≠ .match_) (subs : List (Nat × List (Nat × Exchange.Subscription))) :
    Good { x with books := Exchange.assignKey s b x.books, subscriptions := subs } := by
  intro t b' ht
  simp only [Exchange.lookup_assignKey] at ht
  split at ht
  · rename_i h
    cases hl : x.books.lookup s with
    | none => simp only [h, hl, Option.map_none] at ht; cases ht
    | some b0 =>
      simp only [h, hl, Option.map_some, Option.some.injEq] at ht
      rw [← ht]
      exact hb
  · exact hx t b' ht

theorem best_fair (b : Book) (hb : Inv b) (p q : Quote) (hp : ask b = some p) (hq : bid b = some q) : q.price.valuation = p.price.valuation ∧ q.price.value * q.lot < p.price.value * p.lot := by
  unfold ask at hp
  unfold bid at hq
  cases ha : b.asks with
  | nil => rw [ha] at hp; cases hp
  | cons e l =>
    cases hd : b.bids with
    | nil => rw [hd] at hq; cases hq
    | cons e' l' =>
      rw [ha] at hp
      rw [hd] at hq
      simp only [List.head?_cons, Option.map_some, Option.some.injEq] at hp hq
      subst hp hq
      exact hb.apart e' (by rw [hd]; exact List.mem_cons_self ..) e (by rw [ha]; exact List.mem_cons_self ..)

theorem handle_fair (latency : Nat → Nat) (x : Venue) (lower : Nat) (e : Event) (x' : Venue) (outs : List Out) (h : handle latency x lower e = .ok (x', outs)) (hg : Good x) (he : ∀ s o, e = .order s o → Fine o.limit) :
    Good x' ∧ ∀ m ∈ outs, Fair m := by
  cases e with
  | logon a sup =>
    simp only [handle, Outcome.ok.injEq, Prod.mk.injEq] at h
    obtain ⟨rfl, rfl⟩ := h
    exact ⟨hg, by simp⟩
  | logout a =>
    simp only [handle, Outcome.ok.injEq, Prod.mk.injEq] at h
    obtain ⟨rfl, rfl⟩ := h
    exact ⟨hg, by simp⟩
  | request a d ty is =>
    simp only [handle] at h
    cases hr : Exchange.requestAll a d lower ty is x.subscriptions with
    | throws => rw [hr] at h; cases h
    | ub => rw [hr] at h; cases h
    | ok subs =>
      rw [hr] at h
      simp only [Outcome.bind_ok, Outcome.ok.injEq, Prod.mk.injEq] at h
      obtain ⟨rfl, rfl⟩ := h
      exact ⟨hg, by simp⟩
  | cancel symbol id =>
    simp only [handle, cancelOrder] at h
    cases hb : x.books.lookup symbol with
    | none =>
      rw [hb] at h
      simp only [Outcome.bind_ok, Outcome.ok.injEq, Prod.mk.injEq] at h
      obtain ⟨rfl, rfl⟩ := h
      exact ⟨hg, by simp⟩
    | some b =>
      rw [hb] at h
      simp only at h
      cases hc : (b.cancel id).2 with
      | throws => rw [hc] at h; cases h
      | ub => rw [hc] at h; cases h
      | ok u =>
        rw [hc] at h
        simp only [Outcome.bind_ok, Outcome.ok.injEq, Prod.mk.injEq] at h
        obtain ⟨rfl, rfl⟩ := h
        obtain ⟨h1, h2⟩ := hg symbol b hb
        exact ⟨good_assign hg symbol _ ⟨QCrossing.cancel_inv b id h1, cancel_states b id h2⟩ x.subscriptions, by simp⟩
  | order s o =>
    have ho := he s o rfl
    simp only [handle, insertOrder] at h
    cases hb : x.books.lookup o.symbol with
    | none => rw [hb] at h; cases h
    | some b =>
      rw [hb] at h
      simp only at h
      cases hc : (b.insert o).2 with
      | throws => rw [hc] at h; cases h
      | ub => rw [hc] at h; cases h
      | ok u =>
        rw [hc, Outcome.bind_ok] at h
        generalize hr : reportLoop latency lower s o (b.insert o).1 _ _ (b.insert o).1.reports _ = res at h
        cases res with
        | throws => cases h
        | ub => cases h
        | ok r =>
          simp only [Outcome.bind_ok, Outcome.ok.injEq, Prod.mk.injEq] at h
          obtain ⟨rfl, rfl⟩ := h
          obtain ⟨h1, h2⟩ := hg o.symbol b hb
          have h3 := QCrossing.insert_inv b o h1 ho
          refine ⟨good_assign hg o.symbol _ ⟨inv_reports h3 [], by simp⟩ _, fun m hm => ?_⟩
          rcases reportLoop_outs _ _ _ _ _ _ _ _ _ _ hr m hm with ⟨a, t, q, hq, rfl⟩ | ⟨a, t, tr, rfl, -⟩
          · intro hmatch
            obtain ⟨new, i1, i2⟩ := QSides.insert_reports b o
            rw [i1] at hq
            rcases List.mem_append.1 hq with hq | hq
            · exact absurd hmatch (h2 q hq)
            · have i3 := i2 q hq hmatch
              refine ⟨fun hs => ?_, fun hs => ?_⟩
              · rw [hs] at i3
                obtain ⟨e, he, j1, j2⟩ := i3
                obtain ⟨k1, k2⟩ := QSides.le_ok ho (h1.lines.1.fine e he) _ j2
                rw [j1, ← h1.lines.1.keys e he]
                have k3 := of_decide_eq_true k2.symm
                exact ⟨⟨k1.1.symm, k1.2.symm⟩, k3⟩
              · rw [hs] at i3
                obtain ⟨e, he, j1, j2⟩ := i3
                rw [QCrossing.ge_product ho (h1.lines.2.fine e he)] at j2
                split at j2
                · rename_i hcur
                  have k3 := of_decide_eq_true (Outcome.ok.inj j2)
                  rw [j1, ← h1.lines.2.keys e he]
                  exact ⟨hcur.symm, k3⟩
                · cases j2
          · exact fun p q hp hq => best_fair _ h3 p q hp hq

theorem runEvents_fair (latency : Nat → Nat → Nat) (x : Venue) (es : List (Nat × Event)) (x' : Venue) (outs : List Out) (h : runEvents latency x es = .ok (x', outs)) (hg : Good x) (he : Spec.AllFine es) :
    ∀ m ∈ outs, Fair m := by
  induction es generalizing latency x x' outs with
  | nil =>
    simp only [runEvents, Outcome.ok.injEq, Prod.mk.injEq] at h
    obtain ⟨-, rfl⟩ := h
    simp
  | cons e es ih =>
    obtain ⟨t, e⟩ := e
    rw [runEvents] at h
    cases hh : handle (latency 0) x t e with
    | throws => rw [hh] at h; cases h
    | ub => rw [hh] at h; cases h
    | ok r =>
      rw [hh, Outcome.bind_ok] at h
      cases hr : runEvents (fun i => latency (i + 1)) r.1 es with
      | throws => rw [hr] at h; cases h
      | ub => rw [hr] at h; cases h
      | ok r' =>
        rw [hr] at h
        simp only [Outcome.bind_ok, Outcome.ok.injEq, Prod.mk.injEq] at h
        obtain ⟨-, rfl⟩ := h
        obtain ⟨h1, h2⟩ := handle_fair (latency 0) x t e r.1 r.2 hh hg fun s o ho => he t s o (by rw [ho]; exact List.mem_cons_self ..)
        intro m hm
        rcases List.mem_append.1 hm with hm | hm
        · exact h2 m hm
        · exact ih _ _ _ _ hr h1 (fun t s o ho => he t s o (List.mem_cons_of_mem _ ho)) m hm

theorem good_create (traded : List Nat) : Good (create traded) := by
  intro t b h
  have hb : b = QBook.empty := by
    unfold create at h
    simp only at h
    induction traded with
    | nil => cases h
    | cons a l ih =>
      rw [List.map_cons, List.lookup_cons] at h
      split at h
      · exact (Option.some.inj h).symm
      · exact ih h
  subst hb
  exact ⟨QCrossing.run_inv [] (by intro o ho; cases ho), by simp [QBook.empty]⟩

/-! ## Theorems -/

/-- **C192, market data.** Whatever quotes are sent to an exchange: in every message with market data the best quotes are in the same currency, and if they are for the same number of units, the best quote to buy is below the best quote to sell. -/
theorem C192_data_partial (latency : Nat → Nat → Nat) (traded : List Nat) (es : List (Nat × Event)) (x : Venue) (outs : List Out) (h : runEvents latency (create traded) es = .ok (x, outs)) (he : Spec.AllFine es)
    (a t s : Nat) (trades : List (Quote × Nat)) (p q : Quote) (hm : Out.data a t s trades (some p) (some q) ∈ outs) :
    q.price.valuation = p.price.valuation ∧ (q.lot = p.lot → q.price.value < p.price.value) := by
  obtain ⟨h1, h2⟩ := runEvents_fair latency _ es x outs h (good_create traded) he _ hm p q rfl rfl
  refine ⟨h1, fun hl => ?_⟩
  rw [hl] at h2
  exact Int.lt_of_mul_lt_mul_right h2 (by omega)

/-- **C192, orders to sell.** Whatever quotes are sent to an exchange: an execution reported for an order to sell is for the same number of units, in the same currency, at its limit or above. -/
theorem C192_sell (latency : Nat → Nat → Nat) (traded : List Nat) (es : List (Nat × Event)) (x : Venue) (outs : List Out) (h : runEvents latency (create traded) es = .ok (x, outs)) (he : Spec.AllFine es)
    (a t : Nat) (o : Order) (r : Report) (hm : Out.report a t o r ∈ outs) (hs : r.state = .match_) (ho : o.side = .sell) : Alike r.limit o.limit ∧ r.limit.price.value ≥ o.limit.price.value :=
  (runEvents_fair latency _ es x outs h (good_create traded) he _ hm hs).1 ho

/-- **C192, orders to buy (partial: at quotes for the same number of units).** An execution reported for an order to buy is in the same currency, and if it is for the same number of units, at its limit or below. -/
theorem C192_buy_partial (latency : Nat → Nat → Nat) (traded : List Nat) (es : List (Nat × Event)) (x : Venue) (outs : List Out) (h : runEvents latency (create traded) es = .ok (x, outs)) (he : Spec.AllFine es)
    (a t : Nat) (o : Order) (r : Report) (hm : Out.report a t o r ∈ outs) (hs : r.state = .match_) (ho : o.side = .buy) :
    r.limit.price.valuation = o.limit.price.valuation ∧ (r.limit.lot = o.limit.lot → 0 < o.limit.lot → r.limit.price.value ≤ o.limit.price.value) := by
  obtain ⟨h1, h2⟩ := (runEvents_fair latency _ es x outs h (good_create traded) he _ hm hs).2 ho
  refine ⟨h1, fun hl hpos => ?_⟩
  rw [hl] at h2
  exact Int.le_of_mul_le_mul_right h2 (by omega)

/-- Agent 9 subscribes to market data. Agent 1 sells ten units for 300, agent 2 offers 2000 for one unit, and agent 4 buys ten units for at most 350. -/
def mixedEvents : List (Nat × Event) :=
  [(0, .request 9 1 .snapshot [1]), (0, .request 9 1 .stream [1]), (1, .order 1 (order .sell 1 10 300 5)), (2, .order 2 (order .buy 2 1 2000 3)), (3, .order 4 (order .buy 4 10 350 5))]

theorem mixedEvents_fine : Spec.AllFine mixedEvents := by
  intro t s o h
  simp only [mixedEvents, List.mem_cons, Prod.mk.injEq, reduceCtorEq, and_false, false_or, Event.order.injEq, List.not_mem_nil, or_false] at h
  rcases h with ⟨-, -, rfl⟩ | ⟨-, -, rfl⟩ | ⟨-, -, rfl⟩ <;> (unfold Fine InI64; decide +kernel)

/-- The order to buy is executed at 300, below its limit. -/
example : ∃ x outs, runEvents (fun _ _ => 1) (create [1]) mixedEvents = .ok (x, outs) ∧ Out.report 4 4 (order .buy 4 10 350 5) ⟨.match_, .buy, 5, directOrder, ⟨10, ⟨300, usd⟩⟩, 4⟩ ∈ outs := by
  refine ⟨_, _, rfl, ?_⟩ <;> decide +kernel

/-- An order to sell is executed at 120, above its limit. -/
example : ∃ x outs, runEvents (fun _ _ => 1) (create [1]) [(1, .order 1 (order .buy 1 10 120 5)), (2, .order 2 (order .sell 2 10 100 5))] = .ok (x, outs) ∧
    Out.report 2 3 (order .sell 2 10 100 5) ⟨.match_, .sell, 5, directOrder, ⟨10, ⟨120, usd⟩⟩, 2⟩ ∈ outs := by
  refine ⟨_, _, rfl, ?_⟩ <;> decide +kernel

/-- **C192 (negation), market data.** An exchange publishes that one unit can be sold for 2000, and that ten units can be bought for 300. -/
theorem C192_counterexample_data : ∃ es x outs, runEvents (fun _ _ => 1) (create [1]) es = .ok (x, outs) ∧ Spec.AllFine es ∧ Out.data 9 3 1 [] (some ⟨10, ⟨300, usd⟩⟩) (some ⟨1, ⟨2000, usd⟩⟩) ∈ outs := by
  refine ⟨mixedEvents, _, _, rfl, mixedEvents_fine, ?_⟩
  decide +kernel

/-- **C192 (negation), orders to buy.** Agent 2 offers 1000 for ten units, and is told that they bought one unit for 5000. -/
theorem C192_counterexample_buy : ∃ es x outs, runEvents (fun _ _ => 1) (create [1]) es = .ok (x, outs) ∧ Spec.AllFine es ∧
    Out.report 2 3 (order .buy 2 10 1000 4) ⟨.match_, .buy, 4, directOrder, ⟨1, ⟨5000, usd⟩⟩, 2⟩ ∈ outs := by
  refine ⟨[(1, .order 1 (order .sell 1 1 5000 4)), (2, .order 2 (order .buy 2 10 1000 4))], _, _, rfl, ?_, ?_⟩
  · intro t s o h
    simp only [List.mem_cons, Prod.mk.injEq, Event.order.injEq, List.not_mem_nil, or_false] at h
    rcases h with ⟨-, -, rfl⟩ | ⟨-, -, rfl⟩ <;> (unfold Fine InI64; decide +kernel)
  · decide +kernel

end Esl.QData
