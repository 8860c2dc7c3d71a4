import Verif.Model.QuotedExchange
import Verif.Props.QuotedBook
import Verif.Props.Feed
/-! # C186: an exchange that trades quotes -/
namespace Esl.QExchange
open Esl.Price Esl.Exchange

/-! ## Specification: integers as quotes

Each symbol `s` is quoted for `lot s` units in currency `cur s`. -/

/-- An exchange that trades integers, with these integers as quotes. -/
def Spec.venue (lot : Nat → Nat) (cur : Nat → Currency) (x : Exchange.Exchange) : Venue :=
  ⟨x.traded, x.books.map fun e => (e.1, QBook.Spec.book (lot e.1) (cur e.1) e.2), x.positions, x.subscriptions⟩

/-- An order for a symbol is quoted as all orders for this symbol. -/
def Spec.order (lot : Nat → Nat) (cur : Nat → Currency) (o : Esl.Book.Order) : QBook.Order := QBook.Spec.order (lot o.symbol) (cur o.symbol) o

/-- A message to the exchange. -/
def Spec.event (lot : Nat → Nat) (cur : Nat → Currency) : Exchange.Event → Event
  | .logon s supply => .logon s supply
  | .logout s => .logout s
  | .request s depth type is => .request s depth type is
  | .order s o => .order s (Spec.order lot cur o)
  | .cancel symbol id => .cancel symbol id

/-- A message from the exchange. -/
def Spec.out (lot : Nat → Nat) (cur : Nat → Currency) : Exchange.Out → Out
  | .report a t o r => .report a t (Spec.order lot cur o) (QBook.Spec.report (lot o.symbol) (cur o.symbol) r)
  | .data a t s trades ask bid => .data a t s (trades.map fun e => (QBook.Spec.quote (lot s) (cur s) e.1, e.2)) (ask.map (QBook.Spec.quote (lot s) (cur s))) (bid.map (QBook.Spec.quote (lot s) (cur s)))

/-- A history. -/
def Spec.events (lot : Nat → Nat) (cur : Nat → Currency) (es : List (Nat × Exchange.Event)) : List (Nat × Event) := es.map fun e => (e.1, Spec.event lot cur e.2)

/-- The limits of all orders, times the lot, fit into 64 bits. -/
def Spec.Fit (lot : Nat → Nat) (es : List (Nat × Exchange.Event)) : Prop := ∀ t s o, (t, Exchange.Event.order s o) ∈ es → InI64 (o.limit * lot o.symbol)

/-- New books for all tickers. -/
def Spec.fresh (traded : List Nat) : Exchange.Exchange := Exchange.create traded (traded.map fun t => (t, Esl.Book.empty))

/-! ## Refinement -/

variable {lot : Nat → Nat} (hl : ∀ s, 0 < lot s) (cur : Nat → Currency)

/-- All limits in all books fit. -/
def Well (lot : Nat → Nat) (x : Exchange.Exchange) : Prop := ∀ t b, x.books.lookup t = some b → QBook.Within (lot t) b

theorem lookup_mapped {α β : Type} (f : Nat → α → β) (k : Nat) (l : List (Nat × α)) : (l.map fun e => (e.1, f e.1 e.2)).lookup k = (l.lookup k).map (f k) := by
  induction l with
  | nil => rfl
  | cons e l ih =>
    obtain ⟨i, v⟩ := e
    simp only [List.map_cons, List.lookup_cons]
    by_cases h : k = i
    · subst h; simp
    · have : (k == i) = false := by simp [h]
      rw [this]
      exact ih

theorem assign_mapped {α β : Type} (f : Nat → α → β) (k : Nat) (v : α) (l : List (Nat × α)) :
    assignKey k (f k v) (l.map fun e => (e.1, f e.1 e.2)) = (assignKey k v l).map fun e => (e.1, f e.1 e.2) := by
  unfold assignKey
  rw [List.map_map, List.map_map]
  refine List.map_congr_left fun e _ => ?_
  simp only [Function.comp]
  by_cases h : e.1 = k
  · subst h; simp
  · simp [h]

theorem ask_quoted (l : Nat) (c : Currency) (b : Esl.Book.Book) : ask (QBook.Spec.book l c b) = b.ask.map (QBook.Spec.quote l c) := by
  unfold ask Esl.Book.Book.ask
  show (b.asks.map _).head?.map _ = _
  cases b.asks <;> rfl

theorem bid_quoted (l : Nat) (c : Currency) (b : Esl.Book.Book) : bid (QBook.Spec.book l c b) = b.bid.map (QBook.Spec.quote l c) := by
  unfold bid Esl.Book.Book.bid
  show (b.bids.map _).head?.map _ = _
  cases b.bids <;> rfl

theorem ask_within {l : Nat} {b : Esl.Book.Book} (h : QBook.Within l b) (v : Int) (hv : b.ask = some v) : InI64 (v * l) := by
  unfold Esl.Book.Book.ask at hv
  obtain ⟨e, he, rfl⟩ := Option.map_eq_some_iff.1 hv
  exact h.2.2 e (List.mem_of_head? he)

theorem bid_within {l : Nat} {b : Esl.Book.Book} (h : QBook.Within l b) (v : Int) (hv : b.bid = some v) : InI64 (v * l) := by
  unfold Esl.Book.Book.bid at hv
  obtain ⟨e, he, rfl⟩ := Option.map_eq_some_iff.1 hv
  exact h.2.1 e (List.mem_of_head? he)

theorem differs_quoted {l : Nat} (hl : 0 < l) (c : Currency) (a b : Option Int) (ha : ∀ v, a = some v → InI64 (v * l)) (hb : ∀ v, b = some v → InI64 (v * l)) :
    differs (a.map (QBook.Spec.quote l c)) (b.map (QBook.Spec.quote l c)) = .ok (decide (a ≠ b)) := by
  cases a with
  | none => cases b <;> simp [differs]
  | some v =>
    cases b with
    | none => simp [differs]
    | some w =>
      obtain ⟨-, -, -, -, -, h⟩ := C09_equal_lots_partial (QBook.Spec.quote l c v) (QBook.Spec.quote l c w) rfl hl rfl (ha v rfl) (hb w rfl)
      rw [Option.map_some, Option.map_some, differs, h]
      by_cases hvw : v = w <;> simp [QBook.Spec.quote, hvw]

theorem changed_quoted {l : Nat} (hl : 0 < l) (c : Currency) (b b' : Esl.Book.Book) (h : QBook.Within l b) (h' : QBook.Within l b') :
    changed (ask (QBook.Spec.book l c b)) (bid (QBook.Spec.book l c b)) (QBook.Spec.book l c b') = .ok (decide (b.ask ≠ b'.ask) || decide (b.bid ≠ b'.bid)) := by
  unfold changed
  rw [ask_quoted, ask_quoted, bid_quoted, bid_quoted, differs_quoted hl c _ _ (ask_within h) (ask_within h'), differs_quoted hl c _ _ (bid_within h) (bid_within h'), Outcome.bind_ok]
  by_cases h : b.ask = b'.ask <;> simp [h]

theorem feedOne_quoted (latency : Nat → Nat) (lower symbol : Nat) (b : Esl.Book.Book) (trade : Bool) (r : Esl.Book.Report) (s : Nat × Subscription) :
    feedOne latency lower symbol (QBook.Spec.book (lot symbol) (cur symbol) b) trade (QBook.Spec.report (lot symbol) (cur symbol) r) s =
      ((Exchange.feedOne latency lower symbol b trade r s).1, (Exchange.feedOne latency lower symbol b trade r s).2.map (Spec.out lot cur)) := by
  unfold feedOne Exchange.feedOne
  rw [ask_quoted, bid_quoted]
  split
  · rfl
  · cases trade <;> rfl

theorem reportLoop_quoted (latency : Nat → Nat) (lower sender : Nat) (o : Esl.Book.Order) (b : Esl.Book.Book) (ask₀ bid₀ : Option Quote) (c : Bool)
    (hc : changed ask₀ bid₀ (QBook.Spec.book (lot o.symbol) (cur o.symbol) b) = .ok c) (rs : List Esl.Book.Report) (subs : Option (List (Nat × Subscription))) :
    reportLoop latency lower sender (Spec.order lot cur o) (QBook.Spec.book (lot o.symbol) (cur o.symbol) b) ask₀ bid₀ (rs.map (QBook.Spec.report (lot o.symbol) (cur o.symbol))) subs =
      .ok ((Exchange.reportLoop latency lower sender o b c rs subs).1, (Exchange.reportLoop latency lower sender o b c rs subs).2.map (Spec.out lot cur)) := by
  induction rs generalizing subs with
  | nil => rfl
  | cons r rs ih =>
    rw [List.map_cons]
    cases subs with
    | none =>
      simp only [reportLoop, Exchange.reportLoop, ih none, Outcome.bind_ok]
      rfl
    | some l =>
      have hf : l.map (feedOne latency lower (Spec.order lot cur o).symbol (QBook.Spec.book (lot o.symbol) (cur o.symbol) b) (decide ((QBook.Spec.report (lot o.symbol) (cur o.symbol) r).state = .match_)) (QBook.Spec.report (lot o.symbol) (cur o.symbol) r)) =
          l.map fun s => ((Exchange.feedOne latency lower o.symbol b (decide (r.state = .match_)) r s).1, (Exchange.feedOne latency lower o.symbol b (decide (r.state = .match_)) r s).2.map (Spec.out lot cur)) :=
        List.map_congr_left fun s _ => feedOne_quoted cur latency lower o.symbol b _ r s
      have h1 : (QBook.Spec.report (lot o.symbol) (cur o.symbol) r).state = r.state := rfl
      have h2 : (QBook.Spec.report (lot o.symbol) (cur o.symbol) r).owner = r.owner := rfl
      simp only [reportLoop, Exchange.reportLoop, hc, Outcome.bind_ok, hf, h2]
      simp only [h1]
      split
      · rw [List.map_map]
        have e1 : l.map ((fun x : (Nat × Subscription) × List Out => x.1) ∘ fun s => ((Exchange.feedOne latency lower o.symbol b (decide (r.state = .match_)) r s).1, (Exchange.feedOne latency lower o.symbol b (decide (r.state = .match_)) r s).2.map (Spec.out lot cur))) =
            (l.map (Exchange.feedOne latency lower o.symbol b (decide (r.state = .match_)) r)).map (·.1) := by rw [List.map_map]; rfl
        rw [e1, ih, Outcome.bind_ok]
        simp only [Outcome.ok.injEq, Prod.mk.injEq, true_and, List.map_cons, List.map_append, List.cons.injEq, List.append_cancel_right_eq]
        refine ⟨rfl, ?_⟩
        rw [List.map_flatMap, List.flatMap_map, List.flatMap_map]
      · rw [ih, Outcome.bind_ok]
        rfl

theorem strip_quoted (l : Nat) (c : Currency) (b : Esl.Book.Book) : { QBook.Spec.book l c b with reports := [] } = QBook.Spec.book l c { b with reports := [] } := rfl

theorem well_assign {x : Exchange.Exchange} (hx : Well lot x) (s : Nat) (b : Esl.Book.Book) (hb : QBook.Within (lot s) b) : ∀ t b', (assignKey s b x.books).lookup t = some b' → QBook.Within (lot t) b' := by
  intro t b' h
  rw [lookup_assignKey] at h
  split at h
  · rename_i ht
    subst ht
    cases hlk : x.books.lookup t with
    | none => rw [hlk] at h; cases h
    | some b0 =>
      rw [hlk] at h
      simp only [Option.map_some, Option.some.injEq] at h
      rw [← h]
      exact hb
  · exact hx t b' h

include hl in
/-- One event. -/
theorem handle_quoted (latency : Nat → Nat) (x : Exchange.Exchange) (lower : Nat) (e : Exchange.Event) (hx : Well lot x) (he : ∀ s o, e = .order s o → InI64 (o.limit * lot o.symbol)) :
    handle latency (Spec.venue lot cur x) lower (Spec.event lot cur e) = (Exchange.handle latency x lower e >>= fun r => .ok (Spec.venue lot cur r.1, r.2.map (Spec.out lot cur))) ∧
    ∀ x' outs, Exchange.handle latency x lower e = .ok (x', outs) → Well lot x' ∧ ∀ a arrival symbol trades ask bid, Exchange.Out.data a arrival symbol trades ask bid ∈ outs →
      (∀ v, ask = some v → InI64 (v * lot symbol)) ∧ ∀ v, bid = some v → InI64 (v * lot symbol) := by
  cases e with
  | logon a sup =>
    refine ⟨rfl, fun x' outs h => ?_⟩
    simp only [Exchange.handle, Outcome.ok.injEq, Prod.mk.injEq] at h
    obtain ⟨rfl, rfl⟩ := h
    exact ⟨hx, by simp⟩
  | logout a =>
    refine ⟨rfl, fun x' outs h => ?_⟩
    simp only [Exchange.handle, Outcome.ok.injEq, Prod.mk.injEq] at h
    obtain ⟨rfl, rfl⟩ := h
    exact ⟨hx, by simp⟩
  | request a d ty is =>
    simp only [handle, Exchange.handle, Spec.event]
    show (requestAll a d lower ty is x.subscriptions >>= _) = _ ∧ _
    cases requestAll a d lower ty is x.subscriptions with
    | ok subs =>
      refine ⟨rfl, fun x' outs h => ?_⟩
      simp only [Outcome.bind_ok, Outcome.ok.injEq, Prod.mk.injEq] at h
      obtain ⟨rfl, rfl⟩ := h
      exact ⟨hx, by simp⟩
    | throws => exact ⟨rfl, fun x' outs h => by cases h⟩
    | ub => exact ⟨rfl, fun x' outs h => by cases h⟩
  | order s o =>
    have ho := he s o rfl
    simp only [handle, Exchange.handle, Spec.event, insertOrder, Exchange.insertOrder]
    have hlk : (Spec.venue lot cur x).books.lookup (Spec.order lot cur o).symbol = (x.books.lookup o.symbol).map (QBook.Spec.book (lot o.symbol) (cur o.symbol)) :=
      lookup_mapped (fun t b => QBook.Spec.book (lot t) (cur t) b) o.symbol x.books
    rw [hlk]
    cases hb : x.books.lookup o.symbol with
    | none => exact ⟨rfl, fun x' outs h => by cases h⟩
    | some b =>
      have hw := hx _ _ hb
      have hw' := QBook.within_insert b o hw ho
      have hin : (QBook.Spec.book (lot o.symbol) (cur o.symbol) b).insert (Spec.order lot cur o) = (QBook.Spec.book (lot o.symbol) (cur o.symbol) (b.insert o), .ok ()) :=
        QBook.insert_quoted (hl o.symbol) (cur o.symbol) b o hw ho
      have hrep : (QBook.Spec.book (lot o.symbol) (cur o.symbol) (b.insert o)).reports = (b.insert o).reports.map (QBook.Spec.report (lot o.symbol) (cur o.symbol)) := rfl
      refine ⟨?_, fun x' outs h => ?_⟩
      · simp only [Option.map_some, hin, Outcome.bind_ok, hrep]
        have hsub : (Spec.venue lot cur x).subscriptions.lookup (Spec.order lot cur o).symbol = x.subscriptions.lookup o.symbol := rfl
        rw [hsub, reportLoop_quoted cur _ _ _ _ _ _ _ _ (changed_quoted (hl o.symbol) (cur o.symbol) b (b.insert o) hw hw'), Outcome.bind_ok]
        rw [strip_quoted]
        have hasg := assign_mapped (fun t b => QBook.Spec.book (lot t) (cur t) b) o.symbol { b.insert o with reports := [] } x.books
        have hasg' : assignKey (Spec.order lot cur o).symbol (QBook.Spec.book (lot o.symbol) (cur o.symbol) { b.insert o with reports := [] }) (Spec.venue lot cur x).books = _ := hasg
        rw [hasg']
        rfl
      · simp only [Outcome.ok.injEq, Prod.mk.injEq] at h
        obtain ⟨rfl, rfl⟩ := h
        refine ⟨fun t b' hb' => ?_, fun a arrival symbol trades ask bid hm => ?_⟩
        · exact well_assign hx o.symbol { b.insert o with reports := [] } hw' t b' hb'
        · obtain ⟨rfl, -, rfl, rfl⟩ := reportLoop_current _ _ _ _ _ _ _ _ _ _ _ _ _ _ hm
          exact ⟨ask_within hw', bid_within hw'⟩
  | cancel symbol id =>
    simp only [handle, Exchange.handle, Spec.event, cancelOrder, Exchange.cancelOrder]
    have hlk : (Spec.venue lot cur x).books.lookup symbol = (x.books.lookup symbol).map (QBook.Spec.book (lot symbol) (cur symbol)) :=
      lookup_mapped (fun t b => QBook.Spec.book (lot t) (cur t) b) symbol x.books
    rw [hlk]
    cases hb : x.books.lookup symbol with
    | none =>
      refine ⟨rfl, fun x' outs h => ?_⟩
      simp only [Outcome.ok.injEq, Prod.mk.injEq] at h
      obtain ⟨rfl, rfl⟩ := h
      exact ⟨hx, by simp⟩
    | some b =>
      have hw := hx _ _ hb
      have hw' := QBook.within_cancel b id hw
      refine ⟨?_, fun x' outs h => ?_⟩
      · simp only [Option.map_some, QBook.cancel_quoted (hl symbol) (cur symbol) b id hw, Outcome.bind_ok]
        have hasg := assign_mapped (fun t b => QBook.Spec.book (lot t) (cur t) b) symbol (b.cancel id) x.books
        have hasg' : assignKey symbol (QBook.Spec.book (lot symbol) (cur symbol) (b.cancel id)) (Spec.venue lot cur x).books = _ := hasg
        rw [hasg']
        rfl
      · simp only [Outcome.ok.injEq, Prod.mk.injEq] at h
        obtain ⟨rfl, rfl⟩ := h
        exact ⟨fun t b' hb' => well_assign hx symbol _ hw' t b' hb', by simp⟩

include hl in
theorem runEvents_quoted (latency : Nat → Nat → Nat) (x : Exchange.Exchange) (es : List (Nat × Exchange.Event)) (hx : Well lot x) (he : Spec.Fit lot es) :
    runEvents latency (Spec.venue lot cur x) (Spec.events lot cur es) = (Exchange.runEvents latency x es >>= fun r => .ok (Spec.venue lot cur r.1, r.2.map (Spec.out lot cur))) ∧
    ∀ x' outs, Exchange.runEvents latency x es = .ok (x', outs) → Well lot x' ∧ ∀ a arrival symbol trades ask bid, Exchange.Out.data a arrival symbol trades ask bid ∈ outs →
      (∀ v, ask = some v → InI64 (v * lot symbol)) ∧ ∀ v, bid = some v → InI64 (v * lot symbol) := by
  induction es generalizing latency x with
  | nil =>
    refine ⟨rfl, fun x' outs h => ?_⟩
    simp only [Exchange.runEvents, Outcome.ok.injEq, Prod.mk.injEq] at h
    obtain ⟨rfl, rfl⟩ := h
    exact ⟨hx, by simp⟩
  | cons e es ih =>
    obtain ⟨t, e⟩ := e
    obtain ⟨h1, h2⟩ := handle_quoted hl cur (latency 0) x t e hx (fun s o h => he t s o (by rw [h]; exact List.mem_cons_self ..))
    have he' : Spec.Fit lot es := fun t s o h => he t s o (List.mem_cons_of_mem _ h)
    show (handle (latency 0) (Spec.venue lot cur x) t (Spec.event lot cur e) >>= fun r => runEvents (fun i => latency (i + 1)) r.1 (Spec.events lot cur es) >>= fun r' => .ok (r'.1, r.2 ++ r'.2)) = _ ∧ _
    rw [h1]
    simp only [Exchange.runEvents]
    cases hh : Exchange.handle (latency 0) x t e with
    | throws => exact ⟨rfl, fun x' outs h => by cases h⟩
    | ub => exact ⟨rfl, fun x' outs h => by cases h⟩
    | ok r =>
      obtain ⟨x1, o1⟩ := r
      obtain ⟨hx1, hd1⟩ := h2 x1 o1 hh
      obtain ⟨i1, i2⟩ := ih (fun i => latency (i + 1)) x1 hx1 he'
      simp only [Outcome.bind_ok]
      rw [i1]
      cases hr : Exchange.runEvents (fun i => latency (i + 1)) x1 es with
      | throws => exact ⟨rfl, fun x' outs h => by cases h⟩
      | ub => exact ⟨rfl, fun x' outs h => by cases h⟩
      | ok r2 =>
        obtain ⟨x2, o2⟩ := r2
        obtain ⟨hx2, hd2⟩ := i2 x2 o2 hr
        refine ⟨?_, fun x' outs h => ?_⟩
        · simp only [Outcome.bind_ok, List.map_append]
        · simp only [Outcome.bind_ok, Outcome.ok.injEq, Prod.mk.injEq] at h
          obtain ⟨rfl, rfl⟩ := h
          refine ⟨hx2, fun a arrival symbol trades ask bid hm => ?_⟩
          rcases List.mem_append.1 hm with hm | hm
          · exact hd1 _ _ _ _ _ _ hm
          · exact hd2 _ _ _ _ _ _ hm

theorem lookup_fresh (traded : List Nat) (t : Nat) (b : Esl.Book.Book) (h : (Spec.fresh traded).books.lookup t = some b) : b = Esl.Book.empty := by
  have h' : (traded.map fun t => (t, Esl.Book.empty)).lookup t = some b := h
  clear h
  induction traded with
  | nil => cases h'
  | cons i l ih =>
    rw [List.map_cons, List.lookup_cons] at h'
    split at h'
    · exact (Option.some.inj h').symm
    · exact ih h'

theorem well_fresh (lot : Nat → Nat) (traded : List Nat) : Well lot (Spec.fresh traded) := by
  intro t b h
  rw [lookup_fresh traded t b h]
  exact ⟨by simp [Esl.Book.empty], by simp [Esl.Book.empty], by simp [Esl.Book.empty]⟩

theorem venue_fresh (lot : Nat → Nat) (cur : Nat → Currency) (traded : List Nat) : Spec.venue lot cur (Spec.fresh traded) = create traded := by
  unfold Spec.venue Spec.fresh Exchange.create create
  simp only [List.map_map]
  rfl

/-- **C186 for orders that are quoted alike (partial: one lot and currency per symbol).** If all orders for a symbol are quoted for the same number of units in the same currency, and limits fit into 64 bits, then in every history of an exchange the books, participants, subscriptions, reports and market data
are the same as if prices were compared as integers, with the quotes of these prices, and the exchange refuses a message exactly if it does so for integers. Hence C32 to C37, C147 and C175 hold for quotes. -/
theorem C186_alike_partial (lot : Nat → Nat) (hl : ∀ s, 0 < lot s) (cur : Nat → Currency) (traded : List Nat) (latency : Nat → Nat → Nat) (es : List (Nat × Exchange.Event)) (he : Spec.Fit lot es) :
    runEvents latency (create traded) (Spec.events lot cur es) = (Exchange.runEvents latency (Spec.fresh traded) es >>= fun r => .ok (Spec.venue lot cur r.1, r.2.map (Spec.out lot cur))) := by
  rw [← venue_fresh lot cur traded]
  exact (runEvents_quoted hl cur latency _ es (well_fresh lot traded) he).1

theorem runEvents_fair (latency : Nat → Nat → Nat) (x : Exchange.Exchange) (es : List (Nat × Exchange.Event)) (x' : Exchange.Exchange) (outs : List Exchange.Out) (h : Exchange.runEvents latency x es = .ok (x', outs)) (hf : Feed.Fairs x) :
    Feed.Fairs x' ∧ ∀ a arrival symbol trades ask bid, Exchange.Out.data a arrival symbol trades ask bid ∈ outs → Feed.Spec.Sensible ⟨trades, ask, bid, symbol⟩ := by
  induction es generalizing latency x x' outs with
  | nil =>
    simp only [Exchange.runEvents, Outcome.ok.injEq, Prod.mk.injEq] at h
    obtain ⟨rfl, rfl⟩ := h
    exact ⟨hf, by simp⟩
  | cons e es ih =>
    obtain ⟨t, e⟩ := e
    simp only [Exchange.runEvents] at h
    cases hh : Exchange.handle (latency 0) x t e with
    | throws => rw [hh] at h; cases h
    | ub => rw [hh] at h; cases h
    | ok r =>
      obtain ⟨x1, o1⟩ := r
      rw [hh, Outcome.bind_ok] at h
      obtain ⟨f1, f2⟩ := Feed.handle_fair (latency 0) x t e x1 o1 hh hf
      simp only at h
      cases hr : Exchange.runEvents (fun i => latency (i + 1)) x1 es with
      | throws => rw [hr] at h; cases h
      | ub => rw [hr] at h; cases h
      | ok r2 =>
        obtain ⟨x2, o2⟩ := r2
        rw [hr, Outcome.bind_ok] at h
        simp only [Outcome.ok.injEq, Prod.mk.injEq] at h
        obtain ⟨rfl, rfl⟩ := h
        obtain ⟨i1, i2⟩ := ih _ x1 x2 o2 hr f1
        refine ⟨i1, fun a arrival symbol trades ask bid hm => ?_⟩
        rcases List.mem_append.1 hm with hm | hm
        · exact f2 _ _ _ _ _ _ hm
        · exact i2 _ _ _ _ _ _ hm

/-- **C186, market data (partial: one lot and currency per symbol).** In every such history, market data show a best bid below the best ask, by the comparison of quotes, both for the number of units and in the currency of the symbol; and at most one trade, of a positive quantity. -/
theorem C186_data_partial (lot : Nat → Nat) (hl : ∀ s, 0 < lot s) (cur : Nat → Currency) (traded : List Nat) (latency : Nat → Nat → Nat) (es : List (Nat × Exchange.Event)) (he : Spec.Fit lot es) (x : Venue) (outs : List Out)
    (h : runEvents latency (create traded) (Spec.events lot cur es) = .ok (x, outs)) (a arrival symbol : Nat) (trades : List (Quote × Nat)) (ask bid : Option Quote) (hm : Out.data a arrival symbol trades ask bid ∈ outs) :
    (∀ q ∈ ask.toList ++ bid.toList ++ trades.map (·.1), q.lot = lot symbol ∧ q.price.valuation = cur symbol) ∧
    (∀ p q, ask = some p → bid = some q → Quote.lt q p = .ok true) ∧ trades.length ≤ 1 ∧ ∀ t ∈ trades, 0 < t.2 := by
  rw [C186_alike_partial lot hl cur traded latency es he] at h
  cases hr : Exchange.runEvents latency (Spec.fresh traded) es with
  | throws => rw [hr] at h; cases h
  | ub => rw [hr] at h; cases h
  | ok r =>
    obtain ⟨x1, o1⟩ := r
    rw [hr, Outcome.bind_ok] at h
    simp only [Outcome.ok.injEq, Prod.mk.injEq] at h
    obtain ⟨-, rfl⟩ := h
    obtain ⟨m, hm1, hm2⟩ := List.mem_map.1 hm
    have hw := (runEvents_quoted hl cur latency _ es (well_fresh lot traded) he).2 x1 o1 hr
    have hs := (runEvents_fair latency _ es x1 o1 hr (fun t b hb => by rw [lookup_fresh traded t b hb]; exact Esl.Book.fair_empty)).2
    cases m with
    | report => cases hm2
    | data a' t' s' trades' ask' bid' =>
      simp only [Spec.out, Out.data.injEq] at hm2
      obtain ⟨rfl, rfl, rfl, rfl, rfl, rfl⟩ := hm2
      obtain ⟨w1, w2⟩ := hw.2 _ _ _ _ _ _ hm1
      obtain ⟨s1, s2, s3⟩ := hs _ _ _ _ _ _ hm1
      refine ⟨fun q hq => ?_, fun p q hp hq => ?_, by simpa using s2, fun t ht => ?_⟩
      · have : ∃ v, q = QBook.Spec.quote (lot s') (cur s') v := by
          simp only [List.mem_append, Option.mem_toList, Option.map_eq_some_iff, List.mem_map, Prod.exists] at hq
          rcases hq with (⟨v, -, rfl⟩ | ⟨v, -, rfl⟩) | ⟨a, b, ⟨v, c, -, h⟩, rfl⟩
          · exact ⟨v, rfl⟩
          · exact ⟨v, rfl⟩
          · simp only [Prod.mk.injEq] at h
            exact ⟨v, h.1.symm⟩
        obtain ⟨v, rfl⟩ := this
        exact ⟨rfl, rfl⟩
      · obtain ⟨v, hv, rfl⟩ := Option.map_eq_some_iff.1 hp
        obtain ⟨w, hw, rfl⟩ := Option.map_eq_some_iff.1 hq
        rw [(QBook.compare_quote (lot s') (hl s') (cur s') w v (w2 w hw) (w1 v hv)).1, decide_eq_true (s1 v w hv hw)]
      · obtain ⟨u, hu, rfl⟩ := List.mem_map.1 ht
        exact s3 u hu

/-! ## Other quotes -/

theorem runEvents_append (latency : Nat → Nat → Nat) (x : Venue) (es es' : List (Nat × Event)) :
    runEvents latency x (es ++ es') = (runEvents latency x es >>= fun r => runEvents (fun i => latency (i + es.length)) r.1 es' >>= fun r' => .ok (r'.1, r.2 ++ r'.2)) := by
  induction es generalizing latency x with
  | nil =>
    simp only [List.nil_append, runEvents, Outcome.bind_ok, List.length_nil, Nat.add_zero]
    cases runEvents latency x es' <;> rfl
  | cons e es ih =>
    obtain ⟨t, e⟩ := e
    simp only [List.cons_append, runEvents]
    cases handle (latency 0) x t e with
    | throws => rfl
    | ub => rfl
    | ok r =>
      simp only [Outcome.bind_ok]
      rw [ih]
      have hlat : (fun i => latency (i + es.length + 1)) = fun i => latency (i + ((t, e) :: es).length) := rfl
      simp only [hlat]
      cases runEvents (fun i => latency (i + 1)) r.1 es with
      | throws => rfl
      | ub => rfl
      | ok r2 =>
        simp only [Outcome.bind_ok]
        cases runEvents (fun i => latency (i + ((t, e) :: es).length)) r2.1 es' with
        | throws => rfl
        | ub => rfl
        | ok r3 => simp only [Outcome.bind_ok, List.append_assoc]

/-- **C186 (negation).** Any agent can end the simulation: after every history of an exchange in which orders are quoted alike, if an order for a symbol rests, then an order of any agent for this symbol, on any side, of any positive quantity and at any price, in another currency, is an exception in the exchange. -/
theorem C186_counterexample_currency (lot : Nat → Nat) (hl : ∀ s, 0 < lot s) (cur : Nat → Currency) (traded : List Nat) (latency : Nat → Nat → Nat) (es : List (Nat × Exchange.Event)) (he : Spec.Fit lot es) (x : Venue) (outs : List Out)
    (h : runEvents latency (create traded) (Spec.events lot cur es) = .ok (x, outs)) (symbol : Nat) (b : QBook.Book) (hb : x.books.lookup symbol = some b) (hne : b.bids ≠ [] ∨ b.asks ≠ [])
    (t sender owner quantity : Nat) (hq : 0 < quantity) (side : QBook.Side) (life : QBook.Lifetime) (c : Currency) (hc : c ≠ cur symbol) (v : Int) (hv : InI64 (v * lot symbol)) (rest : List (Nat × Event)) :
    runEvents latency (create traded) (Spec.events lot cur es ++ (t, .order sender ⟨life, side, symbol, owner, ⟨lot symbol, ⟨v, c⟩⟩, quantity⟩) :: rest) = .throws := by
  rw [runEvents_append, h, Outcome.bind_ok]
  rw [C186_alike_partial lot hl cur traded latency es he] at h
  cases hr : Exchange.runEvents latency (Spec.fresh traded) es with
  | throws => rw [hr] at h; cases h
  | ub => rw [hr] at h; cases h
  | ok r =>
    obtain ⟨x1, o1⟩ := r
    rw [hr, Outcome.bind_ok] at h
    simp only [Outcome.ok.injEq, Prod.mk.injEq] at h
    obtain ⟨rfl, -⟩ := h
    have hlk := hb
    rw [show (Spec.venue lot cur x1).books.lookup symbol = (x1.books.lookup symbol).map (QBook.Spec.book (lot symbol) (cur symbol)) from lookup_mapped (fun t b => QBook.Spec.book (lot t) (cur t) b) symbol x1.books] at hlk
    obtain ⟨b0, hb0, rfl⟩ := Option.map_eq_some_iff.1 hlk
    have hw := ((runEvents_quoted hl cur latency _ es (well_fresh lot traded) he).2 x1 o1 hr).1 symbol b0 hb0
    have hfair := (runEvents_fair latency _ es x1 o1 hr (fun t b hb => by rw [lookup_fresh traded t b hb]; exact Esl.Book.fair_empty)).1 symbol b0 hb0
    have h1 : QBook.AllIn (lot symbol) (cur symbol) (QBook.Spec.book (lot symbol) (cur symbol) b0).bids := by
      intro e hm
      obtain ⟨e0, hm0, rfl⟩ := List.mem_map.1 hm
      exact ⟨congrArg (QBook.Spec.quote (lot symbol) (cur symbol)) (hfair.buys e0 hm0).1, ⟨rfl, hw.2.1 e0 hm0⟩, rfl⟩
    have h2 : QBook.AllIn (lot symbol) (cur symbol) (QBook.Spec.book (lot symbol) (cur symbol) b0).asks := by
      intro e hm
      obtain ⟨e0, hm0, rfl⟩ := List.mem_map.1 hm
      exact ⟨congrArg (QBook.Spec.quote (lot symbol) (cur symbol)) (hfair.sells e0 hm0).1, ⟨rfl, hw.2.2 e0 hm0⟩, rfl⟩
    have h3 := (QBook.insert_refused _ ⟨life, side, symbol, owner, ⟨lot symbol, ⟨v, c⟩⟩, quantity⟩ h1 h2 hne ⟨rfl, hv⟩ hc).2.1 hq
    simp only [runEvents, handle, insertOrder, hb, h3]
    rfl

/-! ## Examples -/

/-- Two agents trade symbol 7 in lots of ten: agent 3 subscribes to market data, agent 1 sells 5 at 101 and at 100, agent 2 buys 4 at 100; an order that is not known is cancelled. -/
def history : List (Nat × Exchange.Event) :=
  [(1, .logon 1 fun _ => none), (1, .request 3 1 .snapshot [7]), (1, .request 3 1 .stream [7]), (2, .order 1 ⟨.goodUntilCancelled, .sell, 7, 1, 101, 5⟩), (3, .order 1 ⟨.goodUntilCancelled, .sell, 7, 1, 100, 3⟩),
    (4, .order 2 ⟨.goodUntilCancelled, .buy, 7, 2, 100, 4⟩), (5, .cancel 7 99)]

example : Spec.Fit (fun _ => 10) history := by
  intro t s o h
  simp only [history, List.mem_cons, Prod.mk.injEq, reduceCtorEq, and_false, false_or, Exchange.Event.order.injEq, List.not_mem_nil, or_false] at h
  rcases h with ⟨-, -, rfl⟩ | ⟨-, -, rfl⟩ | ⟨-, -, rfl⟩ <;> decide

/-- The exchange reports and publishes quotes for ten units, and an order for symbol 7 rests at the end. -/
example : ∃ x outs, runEvents (fun _ _ => 0) (create [7]) (Spec.events (fun _ => 10) (fun _ => usd) history) = .ok (x, outs) ∧
    Out.data 3 4 7 [(⟨10, ⟨100, usd⟩⟩, 3)] (some ⟨10, ⟨101, usd⟩⟩) (some ⟨10, ⟨100, usd⟩⟩) ∈ outs ∧ ∃ b, x.books.lookup 7 = some b ∧ b.asks ≠ [] := by
  refine ⟨_, _, rfl, ?_, _, rfl, ?_⟩ <;> decide +kernel

/-- Euros are another currency. -/
example : eur ≠ usd := by decide

end Esl.QExchange
