import Verif.Model.OrderLog
import Verif.Lemmas.OrderBook
import Verif.Props.Exchange

/-! # C170: the log of orders of an exchange -/

namespace Esl.OrderLog
open Esl.Book Esl.Exchange

/-! ## Specification -/

/-- What the log should say about a message that the exchange sends at time `t` in answer to an order of `sender`: nothing unless it is an execution report to `sender` that is not a rejection. -/
def Spec.entry (t sender : Nat) : Out → Option Logged
  | .report recipient _ o r => if recipient = sender ∧ r.state ≠ .invalid then some ⟨t, o.symbol, r.limit, r.owner, r.side, r.quantity, r.state⟩ else none
  | .data .. => none

/-- The units that the log records as executed or placed for a symbol. -/
def Spec.recorded (s : Nat) (log : List Logged) : Nat := ((log.filter fun e => decide (e.symbol = s ∧ e.state ≠ .cancel)).map (·.quantity)).sum

/-- The orders for a symbol in a history. -/
def Spec.orders (s : Nat) (es : List (Nat × Event)) : List Order :=
  es.filterMap fun e => match e.2 with
    | .order _ o => if o.symbol = s then some o else none
    | _ => none

/-- Everybody sends their own orders. -/
def Spec.own (es : List (Nat × Event)) : Prop := ∀ e ∈ es, ∀ sender o, e.2 = .order sender o → o.owner = sender

/-- Nobody is on both sides of the market for a symbol. -/
def Spec.oneSided (s : Nat) (es : List (Nat × Event)) : Prop := ∀ o ∈ Spec.orders s es, ∀ o' ∈ Spec.orders s es, o.side = .buy → o'.side = .sell → o.owner ≠ o'.owner

/-! ## The log does not change the exchange -/

theorem runLogged_cons (latency : Nat → Nat → Nat) (x : Exchange) (t : Nat) (e : Event) (es : List (Nat × Event)) (x' : Exchange) (outs : List Out) (log : List Logged)
    (h : runLogged latency x ((t, e) :: es) = .ok (x', outs, log)) :
    ∃ x1 o1 o2 l2, handle (latency 0) x t e = .ok (x1, o1) ∧ runLogged (fun i => latency (i + 1)) x1 es = .ok (x', o2, l2) ∧ outs = o1 ++ o2 ∧ log = logEvent x t e ++ l2 := by
  rw [runLogged, Outcome.bind_eq_ok] at h
  obtain ⟨r, h1, h⟩ := h
  rw [Outcome.bind_eq_ok] at h
  obtain ⟨r', h2, h⟩ := h
  simp only [Outcome.ok.injEq, Prod.mk.injEq] at h
  exact ⟨r.1, r.2, r'.2.1, r'.2.2, h1, by rw [h2, ← h.1], h.2.1.symm, h.2.2.symm⟩

/-- C170: keeping a log changes nothing: a history with a log ends in the same state and sends the same messages as without. -/
theorem C170_transparent (latency : Nat → Nat → Nat) (x x' : Exchange) (es : List (Nat × Event)) (outs : List Out) :
    runEvents latency x es = .ok (x', outs) ↔ ∃ log, runLogged latency x es = .ok (x', outs, log) := by
  induction es generalizing latency x outs with
  | nil => simp [runEvents, runLogged]
  | cons e es ih =>
    obtain ⟨t, e⟩ := e
    constructor
    · intro h
      obtain ⟨x1, o1, o2, h1, h2, rfl⟩ := runEvents_cons latency x t e es x' outs h
      obtain ⟨l2, h3⟩ := (ih _ x1 o2).1 h2
      exact ⟨logEvent x t e ++ l2, by rw [runLogged, h1]; simp only [Outcome.bind_ok, h3]⟩
    · rintro ⟨log, h⟩
      obtain ⟨x1, o1, o2, l2, h1, h2, rfl, rfl⟩ := runLogged_cons latency x t e es x' outs log h
      rw [runEvents, h1]
      simp only [Outcome.bind_ok, (ih _ x1 o2).2 ⟨l2, h2⟩]

/-! ## Entries and messages -/

theorem feed_entries (latency : Nat → Nat) (lower symbol : Nat) (b : Book) (trade : Bool) (r : Report) (l : List (Nat × Subscription)) (t sender : Nat) :
    ((l.map (feedOne latency lower symbol b trade r)).flatMap (·.2)).filterMap (Spec.entry t sender) = [] := by
  rw [List.filterMap_eq_nil_iff]
  intro m hm
  rw [List.mem_flatMap] at hm
  obtain ⟨q, hq, hm⟩ := hm
  obtain ⟨a, _, rfl⟩ := List.mem_map.1 hq
  unfold feedOne at hm
  split at hm
  · cases hm
  · rw [List.mem_singleton] at hm
    subst hm
    rfl

theorem reportLoop_entries (latency : Nat → Nat) (lower sender : Nat) (o : Order) (b : Book) (changed : Bool) (rs : List Report) (subs : Option (List (Nat × Subscription))) (t : Nat) :
    (reportLoop latency lower sender o b changed rs subs).2.filterMap (Spec.entry t sender) = logReports t sender o.symbol rs := by
  induction rs generalizing subs with
  | nil => rfl
  | cons r rs ih =>
    have key : ∀ tail : List Out, tail.filterMap (Spec.entry t sender) = logReports t sender o.symbol rs →
        (Out.report r.owner (u64 (lower + latency sender)) o r :: tail).filterMap (Spec.entry t sender) = logReports t sender o.symbol (r :: rs) := by
      intro tail ht
      rw [List.filterMap_cons, ht, logReports]
      by_cases h : r.owner = sender ∧ r.state ≠ .invalid
      · rw [if_pos ⟨h.2, h.1⟩]; simp only [Spec.entry, if_pos h]
      · rw [if_neg fun h' => h ⟨h'.2, h'.1⟩]; simp only [Spec.entry, if_neg h]
    unfold reportLoop
    cases subs with
    | none => exact key _ (ih none)
    | some l =>
      simp only
      split
      · apply key
        rw [List.filterMap_append, feed_entries, ih]
        rfl
      · exact key _ (ih _)

/-- C170: whatever the exchange handles, it logs exactly the execution reports that it sends to the sender of the order and that are not rejections, in the order in which they are sent, with the current time. -/
theorem C170_messages (latency : Nat → Nat) (x x' : Exchange) (t : Nat) (e : Event) (outs : List Out) (h : handle latency x t e = .ok (x', outs)) :
    logEvent x t e = match e with
      | .order sender _ => outs.filterMap (Spec.entry t sender)
      | _ => [] := by
  cases e with
  | order sender o =>
    simp only [handle, insertOrder] at h
    simp only [logEvent]
    cases hb : x.books.lookup o.symbol with
    | none => rw [hb] at h; cases h
    | some b =>
      rw [hb] at h
      simp only [Outcome.ok.injEq, Prod.mk.injEq] at h
      obtain ⟨-, rfl⟩ := h
      exact (reportLoop_entries _ _ _ _ _ _ _ _ _).symm
  | _ => rfl

theorem mem_logReports (t sender s : Nat) (rs : List Report) (e : Logged) (h : e ∈ logReports t sender s rs) :
    e.time = t ∧ e.symbol = s ∧ e.owner = sender ∧ e.state ≠ .invalid ∧ ∃ r ∈ rs, r.owner = sender ∧ r.state = e.state := by
  induction rs with
  | nil => cases h
  | cons r rs ih =>
    rw [logReports] at h
    by_cases hr : r.state ≠ .invalid ∧ r.owner = sender
    · rw [if_pos hr] at h
      rcases List.mem_cons.1 h with rfl | h
      · exact ⟨rfl, rfl, hr.2, hr.1, r, List.mem_cons_self, hr.2, rfl⟩
      · obtain ⟨a, b, c, d, r', hr', g⟩ := ih h
        exact ⟨a, b, c, d, r', List.mem_cons_of_mem _ hr', g⟩
    · rw [if_neg hr] at h
      obtain ⟨a, b, c, d, r', hr', g⟩ := ih h
      exact ⟨a, b, c, d, r', List.mem_cons_of_mem _ hr', g⟩

/-- C170: no rejection is logged, and each entry names the symbol, the sender and the time of an order that was handled. -/
theorem C170_entries (latency : Nat → Nat → Nat) (x x' : Exchange) (es : List (Nat × Event)) (outs : List Out) (log : List Logged) (h : runLogged latency x es = .ok (x', outs, log))
    (e : Logged) (he : e ∈ log) : e.state ≠ .invalid ∧ ∃ o, (e.time, Event.order e.owner o) ∈ es ∧ o.symbol = e.symbol := by
  induction es generalizing latency x outs log with
  | nil =>
    simp only [runLogged, Outcome.ok.injEq, Prod.mk.injEq] at h
    rw [← h.2.2] at he
    cases he
  | cons f es ih =>
    obtain ⟨t, f⟩ := f
    obtain ⟨x1, o1, o2, l2, h1, h2, rfl, rfl⟩ := runLogged_cons latency x t f es x' outs log h
    rcases List.mem_append.1 he with he | he
    · cases f with
      | order sender o =>
        simp only [logEvent] at he
        cases hb : x.books.lookup o.symbol with
        | none => rw [hb] at he; cases he
        | some b =>
          rw [hb] at he
          obtain ⟨a, b', c, d, -⟩ := mem_logReports _ _ _ _ e he
          exact ⟨d, o, by rw [a, c]; exact List.mem_cons_self, b'.symm⟩
      | _ => cases he
    · obtain ⟨a, o, b, c⟩ := ih _ x1 o2 l2 h2 he
      exact ⟨a, o, List.mem_cons_of_mem _ b, c⟩

/-! ## Who owns what is in the books -/

theorem matchLoop_owners (c : Int → Bool) (o : Order) (rem : Nat) (l : List Entry) :
    (∀ e ∈ (matchLoop c o rem l).resting, ∃ e' ∈ l, e'.order.owner = e.order.owner) ∧
    ∀ r ∈ (matchLoop c o rem l).reports, r.state = .match_ ∧ (r.owner = o.owner ∨ ∃ e' ∈ l, e'.order.owner = r.owner) := by
  induction l generalizing rem with
  | nil => exact ⟨fun e he => (by cases he), fun e he => (by cases he)⟩
  | cons a l ih =>
    have stop : (∀ e ∈ a :: l, ∃ e' ∈ a :: l, e'.order.owner = e.order.owner) ∧ ∀ r ∈ ([] : List Report), r.state = .match_ ∧ (r.owner = o.owner ∨ ∃ e' ∈ a :: l, e'.order.owner = r.owner) :=
      ⟨fun e he => ⟨e, he, rfl⟩, fun e he => (by cases he)⟩
    rw [matchLoop]
    by_cases h1 : (!c a.key) = true
    · rw [if_pos h1]; exact stop
    · rw [if_neg h1]
      by_cases h2 : min rem a.order.quantity = 0
      · simp only [if_pos h2]; exact stop
      · simp only [if_neg h2]
        have ih := ih (rem - min rem a.order.quantity)
        have reps : ∀ r ∈ [(⟨.match_, o.side, min rem a.order.quantity, directOrder, a.order.limit, o.owner⟩ : Report), ⟨.match_, a.order.side, min rem a.order.quantity, a.id, a.order.limit, a.order.owner⟩] ++
            (matchLoop c o (rem - min rem a.order.quantity) l).reports, r.state = .match_ ∧ (r.owner = o.owner ∨ ∃ e' ∈ a :: l, e'.order.owner = r.owner) := by
          intro r hr
          rcases List.mem_append.1 hr with hr | hr
          · rcases List.mem_cons.1 hr with rfl | hr
            · exact ⟨rfl, .inl rfl⟩
            · rw [List.mem_singleton] at hr
              subst hr
              exact ⟨rfl, .inr ⟨a, List.mem_cons_self, rfl⟩⟩
          · obtain ⟨g1, g2⟩ := ih.2 r hr
            refine ⟨g1, g2.imp id ?_⟩
            rintro ⟨e', he', g⟩
            exact ⟨e', List.mem_cons_of_mem _ he', g⟩
        have rest : ∀ e ∈ (matchLoop c o (rem - min rem a.order.quantity) l).resting, ∃ e' ∈ a :: l, e'.order.owner = e.order.owner := by
          intro e he
          obtain ⟨e', he', g⟩ := ih.1 e he
          exact ⟨e', List.mem_cons_of_mem _ he', g⟩
        by_cases h3 : a.order.quantity - min rem a.order.quantity = 0
        · rw [if_pos h3]
          exact ⟨rest, reps⟩
        · rw [if_neg h3]
          refine ⟨fun e he => ?_, reps⟩
          rcases List.mem_cons.1 he with rfl | he
          · exact ⟨a, List.mem_cons_self, rfl⟩
          · exact rest e he

theorem cancelIn_owners (σ : Side) (p : Int) (i : Nat) (l : List Entry) :
    (∀ e ∈ (cancelIn σ p i l).1, e ∈ l) ∧ ∀ r ∈ (cancelIn σ p i l).2, r.state = .cancel ∧ ∃ e ∈ l, e.order.owner = r.owner := by
  induction l with
  | nil => exact ⟨fun e he => he, fun e he => by cases he⟩
  | cons a l ih =>
    rw [cancelIn]
    by_cases h : a.key = p ∧ a.id = i
    · rw [if_pos h]
      refine ⟨fun e he => List.mem_cons_of_mem _ he, fun r hr => ?_⟩
      rw [List.mem_singleton] at hr
      subst hr
      exact ⟨rfl, a, List.mem_cons_self, rfl⟩
    · rw [if_neg h]
      refine ⟨fun e he => ?_, fun r hr => ?_⟩
      · rcases List.mem_cons.1 he with rfl | he
        · exact List.mem_cons_self
        · exact List.mem_cons_of_mem _ (ih.1 e he)
      · obtain ⟨g, e, he, g'⟩ := ih.2 r hr
        exact ⟨g, e, List.mem_cons_of_mem _ he, g'⟩

/-- Orders in a book belong to agents that may be on that side, and the reports that wait are about cancellations. -/
def Owners (P : Side → Nat → Prop) (b : Book) : Prop := (∀ σ, ∀ e ∈ b.half σ, P σ e.order.owner) ∧ ∀ r ∈ b.reports, r.state = .cancel ∧ ∃ σ, P σ r.owner

theorem owners_insert (P : Side → Nat → Prop) (b : Book) (o : Order) (h : Owners P b) (ho : P o.side o.owner) : Owners P { b.insert o with reports := [] } := by
  refine ⟨fun σ e he => ?_, fun r hr => by cases hr⟩
  have he : e ∈ (b.insert o).half σ := by cases σ <;> exact he
  have hi := insert_inserted b o
  rcases side_cases o.side σ with rfl | rfl
  · rw [hi.own] at he
    split at he
    · rw [mem_emplace] at he
      rcases he with rfl | he
      · exact ho
      · exact h.1 _ e he
    · exact h.1 _ e he
  · rw [hi.opp] at he
    obtain ⟨e', he', g⟩ := (matchLoop_owners _ _ _ _).1 e he
    rw [← g]
    exact h.1 _ e' he'

theorem owners_cancel (P : Side → Nat → Prop) (b : Book) (i : Nat) (h : Owners P b) : Owners P (b.cancel i) := by
  unfold Book.cancel
  split
  · exact h
  · rename_i p _
    by_cases h1 : (b.bid.any fun q => decide (q ≥ p)) = true
    · rw [if_pos h1]
      refine ⟨fun σ e he => ?_, fun r hr => ?_⟩
      · cases σ
        · exact h.1 .buy e ((cancelIn_owners _ _ _ _).1 e he)
        · exact h.1 .sell e he
      · rcases List.mem_append.1 hr with hr | hr
        · exact h.2 r hr
        · obtain ⟨g, e, he, g'⟩ := (cancelIn_owners _ _ _ _).2 r hr
          exact ⟨g, .buy, by rw [← g']; exact h.1 .buy e he⟩
    · rw [if_neg h1]
      by_cases h2 : (b.ask.any fun q => decide (q ≤ p)) = true
      · rw [if_pos h2]
        refine ⟨fun σ e he => ?_, fun r hr => ?_⟩
        · cases σ
          · exact h.1 .buy e he
          · exact h.1 .sell e ((cancelIn_owners _ _ _ _).1 e he)
        · rcases List.mem_append.1 hr with hr | hr
          · exact h.2 r hr
          · obtain ⟨g, e, he, g'⟩ := (cancelIn_owners _ _ _ _).2 r hr
            exact ⟨g, .sell, by rw [← g']; exact h.1 .sell e he⟩
      · rw [if_neg h2]; exact h

theorem handle_owners (latency : Nat → Nat) (x x' : Exchange) (t : Nat) (e : Event) (outs : List Out) (h : handle latency x t e = .ok (x', outs)) (s : Nat) (P : Side → Nat → Prop)
    (hx : ∀ b, x.books.lookup s = some b → Owners P b) (he : ∀ sender o, e = .order sender o → o.symbol = s → P o.side o.owner) : ∀ b, x'.books.lookup s = some b → Owners P b := by
  cases e with
  | logon a sup =>
    simp only [handle, Outcome.ok.injEq, Prod.mk.injEq] at h
    obtain ⟨rfl, -⟩ := h
    exact hx
  | logout a =>
    simp only [handle, Outcome.ok.injEq, Prod.mk.injEq] at h
    obtain ⟨rfl, -⟩ := h
    exact hx
  | request a d ty is =>
    simp only [handle] at h
    rw [Outcome.bind_eq_ok] at h
    obtain ⟨subs, -, h⟩ := h
    simp only [Outcome.ok.injEq, Prod.mk.injEq] at h
    obtain ⟨rfl, -⟩ := h
    exact hx
  | order sender o =>
    simp only [handle, insertOrder] at h
    cases hb : x.books.lookup o.symbol with
    | none => rw [hb] at h; cases h
    | some b =>
      rw [hb] at h
      simp only [Outcome.ok.injEq, Prod.mk.injEq] at h
      obtain ⟨rfl, -⟩ := h
      intro b' hb'
      simp only [lookup_assignKey] at hb'
      by_cases hs : s = o.symbol
      · subst hs
        rw [if_pos rfl, hb] at hb'
        simp only [Option.map_some, Option.some.injEq] at hb'
        subst hb'
        exact owners_insert P b o (hx b hb) (he sender o rfl rfl)
      · rw [if_neg hs] at hb'
        exact hx b' hb'
  | cancel symbol id =>
    simp only [handle, Outcome.ok.injEq, Prod.mk.injEq] at h
    obtain ⟨rfl, -⟩ := h
    unfold cancelOrder
    intro b' hb'
    cases hb : x.books.lookup symbol with
    | none => rw [hb] at hb'; exact hx b' hb'
    | some b =>
      rw [hb] at hb'
      simp only [lookup_assignKey] at hb'
      by_cases hs : s = symbol
      · subst hs
        rw [if_pos rfl, hb] at hb'
        simp only [Option.map_some, Option.some.injEq] at hb'
        subst hb'
        exact owners_cancel P b id (hx b hb)
      · rw [if_neg hs] at hb'
        exact hx b' hb'

/-! ## The log accounts for all orders -/

/-- The units in reports to one agent, except for cancellations. -/
def units (sender : Nat) (rs : List Report) : Nat := ((rs.filter fun r => decide (r.owner = sender ∧ r.state ≠ .cancel)).map (·.quantity)).sum

theorem units_append (a : Nat) (l m : List Report) : units a (l ++ m) = units a l + units a m := by simp [units]

theorem recorded_append (s : Nat) (l m : List Logged) : Spec.recorded s (l ++ m) = Spec.recorded s l + Spec.recorded s m := by simp [Spec.recorded]

theorem recorded_reports (t sender s : Nat) (rs : List Report) (h : ∀ r ∈ rs, r.state ≠ .invalid) : Spec.recorded s (logReports t sender s rs) = units sender rs := by
  induction rs with
  | nil => rfl
  | cons r rs ih =>
    have ih := ih fun r hr => h r (List.mem_cons_of_mem _ hr)
    have h0 := h r List.mem_cons_self
    unfold Spec.recorded units at ih ⊢
    rw [logReports]
    by_cases h1 : r.owner = sender
    · rw [if_pos ⟨h0, h1⟩, List.filter_cons, List.filter_cons]
      by_cases h2 : r.state = .cancel
      · simp only [h1, h2, ne_eq, not_true_eq_false, and_false, decide_false, Bool.false_eq_true, if_false]
        exact ih
      · simp only [h1, h2, ne_eq, not_false_eq_true, and_self, decide_true, if_true, List.map_cons, List.sum_cons, ih]
    · rw [if_neg fun h => h1 h.2, List.filter_cons]
      simp only [h1, false_and, decide_false, Bool.false_eq_true, if_false]
      exact ih

theorem recorded_other (t sender s s' : Nat) (hs : s' ≠ s) (rs : List Report) : Spec.recorded s (logReports t sender s' rs) = 0 := by
  unfold Spec.recorded
  rw [List.filter_eq_nil_iff.2]
  · rfl
  · intro e he
    have := (mem_logReports _ _ _ _ e he).2.1
    simp [this, hs]

theorem matchLoop_units (c : Int → Bool) (o : Order) (rem : Nat) (l : List Entry) (hl : ∀ e ∈ l, e.order.owner ≠ o.owner) :
    units o.owner (matchLoop c o rem l).reports + (matchLoop c o rem l).remainder = rem := by
  induction l generalizing rem with
  | nil => simp [matchLoop, units]
  | cons a l ih =>
    have hother : a.order.owner ≠ o.owner := hl a List.mem_cons_self
    rw [matchLoop]
    by_cases h1 : (!c a.key) = true
    · rw [if_pos h1]; simp [units]
    · rw [if_neg h1]
      by_cases h2 : min rem a.order.quantity = 0
      · simp only [if_pos h2]; simp [units]; omega
      · simp only [if_neg h2]
        have ih := ih (rem - min rem a.order.quantity) fun e he => hl e (List.mem_cons_of_mem _ he)
        have pair : units o.owner [(⟨.match_, o.side, min rem a.order.quantity, directOrder, a.order.limit, o.owner⟩ : Report), ⟨.match_, a.order.side, min rem a.order.quantity, a.id, a.order.limit, a.order.owner⟩] =
            min rem a.order.quantity := by
          simp [units, List.filter_cons, hother]
        by_cases h3 : a.order.quantity - min rem a.order.quantity = 0
        · rw [if_pos h3]
          simp only [units_append, pair]
          omega
        · rw [if_neg h3]
          simp only [units_append, pair]
          omega

theorem insert_states (P : Side → Nat → Prop) (b : Book) (o : Order) (h : Owners P b) : ∀ r ∈ (b.insert o).reports, r.state ≠ .invalid := by
  intro r hr
  rw [(insert_inserted b o).reports] at hr
  rcases List.mem_append.1 hr with hr | hr
  · rcases List.mem_append.1 hr with hr | hr
    · rw [(h.2 r hr).1]; intro h; cases h
    · rw [((matchLoop_owners _ _ _ _).2 r hr).1]; intro h; cases h
  · split at hr
    · rw [List.mem_singleton] at hr
      subst hr
      intro h; cases h
    · cases hr

theorem insert_units (P : Side → Nat → Prop) (hP : ∀ a, P .buy a → P .sell a → False) (b : Book) (o : Order) (h : Owners P b) (ho : P o.side o.owner) : units o.owner (b.insert o).reports = o.quantity := by
  rw [(insert_inserted b o).reports, units_append, units_append]
  have h0 : units o.owner b.reports = 0 := by
    unfold units
    rw [List.filter_eq_nil_iff.2]
    · rfl
    · intro r hr
      simp [(h.2 r hr).1]
  have h1 := matchLoop_units (crossing o) o o.quantity (b.half o.side.other) (by
    intro e he g
    have := h.1 _ e he
    rw [g] at this
    cases hs : o.side with
    | buy => rw [hs] at this ho; exact hP _ ho this
    | sell => rw [hs] at this ho; exact hP _ this ho)
  rw [h0]
  change units o.owner (matched b o).reports + (matched b o).remainder = o.quantity at h1
  by_cases hr : (matched b o).remainder > 0
  · rw [if_pos hr]
    have : units o.owner [(⟨.placement, o.side, (matched b o).remainder, b.next, o.limit, o.owner⟩ : Report)] = (matched b o).remainder := by simp [units]
    rw [this]
    omega
  · rw [if_neg hr]
    have : units o.owner [] = 0 := rfl
    rw [this]
    omega

theorem accounts (latency : Nat → Nat → Nat) (x x' : Exchange) (es : List (Nat × Event)) (outs : List Out) (log : List Logged) (h : runLogged latency x es = .ok (x', outs, log)) (s : Nat)
    (P : Side → Nat → Prop) (hP : ∀ a, P .buy a → P .sell a → False) (hx : ∀ b, x.books.lookup s = some b → Owners P b) (hown : Spec.own es)
    (hes : ∀ o ∈ Spec.orders s es, P o.side o.owner) : Spec.recorded s log = ((Spec.orders s es).map (·.quantity)).sum := by
  induction es generalizing latency x outs log with
  | nil =>
    simp only [runLogged, Outcome.ok.injEq, Prod.mk.injEq] at h
    rw [← h.2.2]
    rfl
  | cons f es ih =>
    obtain ⟨t, f⟩ := f
    obtain ⟨x1, o1, o2, l2, h1, h2, rfl, rfl⟩ := runLogged_cons latency x t f es x' outs log h
    have hmem : ∀ sender o, f = .order sender o → o.symbol = s → P o.side o.owner := by
      intro sender o hf hs
      apply hes
      unfold Spec.orders
      rw [List.mem_filterMap]
      exact ⟨(t, f), List.mem_cons_self, by simp [hf, hs]⟩
    have hsub : ∀ o ∈ Spec.orders s es, o ∈ Spec.orders s ((t, f) :: es) := by
      intro o ho
      unfold Spec.orders at ho ⊢
      rw [List.mem_filterMap] at ho ⊢
      obtain ⟨e, he, g⟩ := ho
      exact ⟨e, List.mem_cons_of_mem _ he, g⟩
    have ih := ih _ x1 o2 l2 h2 (handle_owners _ x x1 t f o1 h1 s P hx hmem) (fun e he => hown e (List.mem_cons_of_mem _ he)) fun o ho => hes o (hsub o ho)
    rw [recorded_append, ih]
    have other : Spec.recorded s (logEvent x t f) = 0 → Spec.orders s ((t, f) :: es) = Spec.orders s es →
        Spec.recorded s (logEvent x t f) + ((Spec.orders s es).map (·.quantity)).sum = ((Spec.orders s ((t, f) :: es)).map (·.quantity)).sum := by
      intro g1 g2
      rw [g1, g2, Nat.zero_add]
    cases f with
    | order sender o =>
      by_cases hs : o.symbol = s
      · have hg : Spec.orders s ((t, Event.order sender o) :: es) = o :: Spec.orders s es := by simp [Spec.orders, hs]
        rw [hg, List.map_cons, List.sum_cons]
        congr 1
        simp only [logEvent]
        cases hb : x.books.lookup o.symbol with
        | none =>
          simp only [handle, insertOrder, hb] at h1
          cases h1
        | some b =>
          simp only
          have hob := hx b (by rw [← hs]; exact hb)
          have hsend : o.owner = sender := hown (t, Event.order sender o) List.mem_cons_self sender o rfl
          rw [hs, recorded_reports _ _ _ _ (insert_states P b o hob), ← hsend]
          exact insert_units P hP b o hob (hmem sender o rfl hs)
      · apply other
        · simp only [logEvent]
          cases hb : x.books.lookup o.symbol with
          | none => rfl
          | some b => exact recorded_other _ _ _ _ hs _
        · simp [Spec.orders, hs]
    | _ => exact other rfl rfl

theorem lookup_empty {P : Side → Nat → Prop} (traded : List Nat) (books : List (Nat × Book)) (hempty : ∀ e ∈ books, e.2 = empty) (s : Nat) : ∀ b, (create traded books).books.lookup s = some b → Owners P b := by
  intro b hb
  have := hempty _ (mem_of_lookup s books b hb)
  simp only at this
  subst this
  exact ⟨fun σ e he => (by cases σ <;> cases he), fun r hr => by cases hr⟩

/-- C170 (part): over any history that starts with empty books, if everybody sends their own orders and nobody both buys and sells the symbol, the log accounts for all the units of the orders for it: each is recorded
exactly once, when it is executed on arrival or when it is placed. What is missing: agents on both sides, agents that send orders for others, and when cancellations are recorded (see the counterexamples). -/
theorem C170_accounts_partial (latency : Nat → Nat → Nat) (traded : List Nat) (books : List (Nat × Book)) (hempty : ∀ e ∈ books, e.2 = empty) (es : List (Nat × Event)) (x : Exchange) (outs : List Out)
    (log : List Logged) (h : runLogged latency (create traded books) es = .ok (x, outs, log)) (hown : Spec.own es) (s : Nat) (hsides : Spec.oneSided s es) :
    Spec.recorded s log = ((Spec.orders s es).map (·.quantity)).sum := by
  refine accounts latency _ x es outs log h s (fun σ a => ∃ o ∈ Spec.orders s es, o.side = σ ∧ o.owner = a) ?_ (lookup_empty traded books hempty s) hown fun o ho => ⟨o, ho, rfl, rfl⟩
  rintro a ⟨o, ho, h1, h2⟩ ⟨o', ho', h3, h4⟩
  exact hsides o ho o' ho' h1 h3 (by rw [h2, h4])

/-- The demonstration history meets the hypotheses: two symbols, three orders and a cancellation. Agent 3 buys two of the five units that agent 1 offers; the fill of agent 1 and the cancellation are not logged. -/
example : Spec.own demoEvents ∧ Spec.oneSided 7 demoEvents ∧ (∀ e ∈ demoBooks, e.2 = empty) ∧
    (match runLogged (fun _ _ => 0) (create [7, 8] demoBooks) demoEvents with
    | .ok (_, _, log) => log
    | _ => []) =
    [⟨1, 7, 100, 1, .sell, 5, .placement⟩, ⟨2, 8, 90, 2, .sell, 3, .placement⟩, ⟨4, 7, 100, 3, .buy, 2, .match_⟩] := by
  refine ⟨?_, ?_, ?_, by decide +kernel⟩
  · intro e he sender o ho
    simp only [demoEvents, List.mem_cons, List.not_mem_nil, or_false] at he
    rcases he with rfl | rfl | rfl | rfl <;> cases ho <;> rfl
  · have : ∀ o ∈ Spec.orders 7 demoEvents, ∀ o' ∈ Spec.orders 7 demoEvents, o.side = .buy → o'.side = .sell → o.owner ≠ o'.owner := by decide +kernel
    exact this
  · decide +kernel

/-! ## Where the log is wrong -/

/-- C170 fails for orders sent for somebody else: if no sender of an order owns any of the orders, nothing is ever logged. -/
theorem C170_counterexample_brokers (latency : Nat → Nat → Nat) (traded : List Nat) (books : List (Nat × Book)) (hempty : ∀ e ∈ books, e.2 = empty) (es : List (Nat × Event)) (x : Exchange) (outs : List Out)
    (log : List Logged) (h : runLogged latency (create traded books) es = .ok (x, outs, log))
    (hbroker : ∀ e ∈ es, ∀ sender o, e.2 = .order sender o → ∀ f ∈ es, ∀ sender' o', f.2 = .order sender' o' → o'.owner ≠ sender) : log = [] := by
  let P : Side → Nat → Prop := fun _ a => ∃ f ∈ es, ∃ sender o, f.2 = .order sender o ∧ o.owner = a
  have main : ∀ (fs : List (Nat × Event)) (latency : Nat → Nat → Nat) (y : Exchange) (outs : List Out) (log : List Logged), (∀ f ∈ fs, f ∈ es) → (∀ s b, y.books.lookup s = some b → Owners P b) →
      runLogged latency y fs = .ok (x, outs, log) → log = [] := by
    intro fs
    induction fs with
    | nil =>
      intro latency y outs log _ _ h
      simp only [runLogged, Outcome.ok.injEq, Prod.mk.injEq] at h
      exact h.2.2.symm
    | cons f fs ih =>
      obtain ⟨t, f⟩ := f
      intro latency y outs log hsub hy h
      obtain ⟨x1, o1, o2, l2, h1, h2, rfl, rfl⟩ := runLogged_cons latency y t f fs x outs log h
      have hmem : ∀ s sender o, f = .order sender o → o.symbol = s → P o.side o.owner := fun s sender o hf _ => ⟨(t, f), hsub _ List.mem_cons_self, sender, o, hf, rfl⟩
      have hl2 := ih _ x1 o2 l2 (fun g hg => hsub g (List.mem_cons_of_mem _ hg)) (fun s => handle_owners _ y x1 t f o1 h1 s P (hy s) (hmem s)) h2
      rw [hl2, List.append_nil]
      cases f with
      | order sender o =>
        simp only [logEvent]
        cases hb : y.books.lookup o.symbol with
        | none => rfl
        | some b =>
          simp only
          rw [List.eq_nil_iff_forall_not_mem]
          intro e he
          obtain ⟨-, -, -, -, r, hr, hro, -⟩ := mem_logReports _ _ _ _ e he
          have howned : P .buy r.owner := by
            rw [(insert_inserted b o).reports] at hr
            rcases List.mem_append.1 hr with hr | hr
            · rcases List.mem_append.1 hr with hr | hr
              · obtain ⟨-, σ, g⟩ := (hy _ b hb).2 r hr
                exact g
              · rcases ((matchLoop_owners _ _ _ _).2 r hr).2 with g | ⟨e', he', g⟩
                · rw [g]; exact hmem _ sender o rfl rfl
                · rw [← g]; exact (hy _ b hb).1 _ e' he'
            · split at hr
              · rw [List.mem_singleton] at hr
                rw [hr]
                exact hmem _ sender o rfl rfl
              · cases hr
          obtain ⟨f', hf', sender', o', g1, g2⟩ := howned
          exact hbroker _ (hsub _ List.mem_cons_self) sender o rfl f' hf' sender' o' g1 (by rw [g2, hro])
      | _ => rfl
  exact main es latency _ outs log (fun f hf => hf) (fun s => lookup_empty traded books hempty s) h

/-- Agent 9 sends orders for agents 1 and 2, who trade. Nothing is logged. -/
example : (match runLogged (fun _ _ => 0) (create [7] [(7, empty)]) [(1, .order 9 ⟨.goodUntilCancelled, .sell, 7, 1, 100, 5⟩), (2, .order 9 ⟨.goodUntilCancelled, .buy, 7, 2, 100, 5⟩)] with
    | .ok (_, outs, log) => (outs.length, log)
    | _ => (0, [⟨0, 0, 0, 0, .buy, 0, .match_⟩])) = (3, []) := by decide +kernel

/-- C170 fails for an agent that trades with itself: its execution is logged twice, so that the log records more units than were ordered. -/
theorem C170_counterexample_self (latency : Nat → Nat → Nat) (t t' a s : Nat) (p : Int) (q : Nat) (hq : 0 < q) : ∃ x outs log,
    runLogged latency (create [s] [(s, empty)]) [(t, .order a ⟨.goodUntilCancelled, .sell, s, a, p, q⟩), (t', .order a ⟨.goodUntilCancelled, .buy, s, a, p, q⟩)] = .ok (x, outs, log) ∧
    log = [⟨t, s, p, a, .sell, q, .placement⟩, ⟨t', s, p, a, .buy, q, .match_⟩, ⟨t', s, p, a, .sell, q, .match_⟩] ∧ Spec.recorded s log = 3 * q := by
  have h0 : q ≠ 0 := by omega
  refine ⟨_, _, _, by simp [runLogged, handle, insertOrder, create, List.lookup, Book.insert, matchLoop, empty, assignKey, emplace, hq, h0, Outcome.bind_ok, logEvent, logReports]; exact ⟨rfl, rfl, rfl⟩, ?_, ?_⟩
  · simp
  · simp [Spec.recorded, List.filter_cons]; omega

/-- C170 fails for cancellations: none is logged when it is handled. -/
theorem C170_counterexample_cancel (x : Exchange) (t symbol id : Nat) : logEvent x t (.cancel symbol id) = [] := rfl

/-- A cancellation is logged, if ever, with the time of the next order for the symbol, and only if that order is sent by the owner of the order that was cancelled. -/
theorem C170_counterexample_late (latency : Nat → Nat → Nat) (t t' t'' a c s : Nat) (p : Int) (q : Nat) (hq : 0 < q) : ∃ x outs log,
    runLogged latency (create [s] [(s, empty)]) [(t, .order a ⟨.goodUntilCancelled, .sell, s, a, p, q⟩), (t', .cancel s 0), (t'', .order c ⟨.goodUntilCancelled, .sell, s, c, p, q⟩)] = .ok (x, outs, log) ∧
    log.filter (fun e => decide (e.state = .cancel)) = if a = c then [⟨t'', s, p, a, .sell, q, .cancel⟩] else [] := by
  have h0 : q ≠ 0 := by omega
  by_cases hac : a = c
  · subst hac
    refine ⟨_, _, _, by simp [runLogged, handle, insertOrder, create, List.lookup, Book.insert, matchLoop, empty, assignKey, emplace, hq, h0, Outcome.bind_ok, logEvent, logReports, cancelOrder, Book.cancel, cancelIn, mapEmplace, eraseLimits, Book.bid, Book.ask]; exact ⟨rfl, rfl, rfl⟩, ?_⟩
    simp [List.filter_cons]
  · refine ⟨_, _, _, by simp [runLogged, handle, insertOrder, create, List.lookup, Book.insert, matchLoop, empty, assignKey, emplace, hq, h0, Outcome.bind_ok, logEvent, logReports, cancelOrder, Book.cancel, cancelIn, mapEmplace, eraseLimits, Book.bid, Book.ask, hac]; exact ⟨rfl, rfl, rfl⟩, ?_⟩
    simp [List.filter_cons, hac]

end Esl.OrderLog
