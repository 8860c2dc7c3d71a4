import Verif.Model.Exchange

/-! Lemmas about the exchange model. -/

namespace Esl.Exchange
open Esl.Book

section Maps
variable {α : Type}

theorem lookup_assignKey (k j : Nat) (v : α) (l : List (Nat × α)) :
    (assignKey j v l).lookup k = if k = j then (l.lookup k).map (fun _ => v) else l.lookup k := by
  induction l with
  | nil => simp [assignKey]
  | cons e l ih =>
    obtain ⟨i, u⟩ := e
    unfold assignKey at ih ⊢
    rw [List.map_cons]
    by_cases hi : i = j
    · subst hi
      simp only [if_true]
      rw [List.lookup, List.lookup]
      by_cases hk : k = i
      · subst hk; simp
      · have : (k == i) = false := by simpa using hk
        rw [this]
        simp only [hk, if_false] at ih ⊢
        exact ih
    · rw [if_neg hi, List.lookup, List.lookup]
      by_cases hk : k = i
      · subst hk
        have : ¬ k = j := hi
        simp [this]
      · have : (k == i) = false := by simpa using hk
        rw [this]
        exact ih

theorem lookup_none_iff (k : Nat) (l : List (Nat × α)) : l.lookup k = none ↔ (l.any fun e => e.1 == k) = false := by
  induction l with
  | nil => simp
  | cons e l ih =>
    obtain ⟨i, u⟩ := e
    rw [List.lookup, List.any_cons]
    by_cases hk : k = i
    · subst hk; simp
    · have h1 : (k == i) = false := by simpa using hk
      have h2 : (i == k) = false := by simpa using fun h => hk h.symm
      rw [h1]
      simp only [h2, Bool.false_or]
      exact ih

theorem lookup_append_single (k j : Nat) (v : α) (l : List (Nat × α)) :
    (l ++ [(j, v)]).lookup k = (l.lookup k).or (if k = j then some v else none) := by
  induction l with
  | nil =>
    simp only [List.nil_append, List.lookup]
    by_cases hk : k = j
    · subst hk; simp
    · have : (k == j) = false := by simpa using hk
      simp [this, hk]
  | cons e l ih =>
    obtain ⟨i, u⟩ := e
    rw [List.cons_append, List.lookup, List.lookup]
    by_cases hk : k = i
    · subst hk; simp
    · have : (k == i) = false := by simpa using hk
      rw [this]
      exact ih

theorem lookup_emplaceKey (k j : Nat) (v : α) (l : List (Nat × α)) :
    (emplaceKey j v l).lookup k = (l.lookup k).or (if k = j then some v else none) := by
  unfold emplaceKey
  split
  · rename_i h
    by_cases hk : k = j
    · subst hk
      cases hl : l.lookup k with
      | none => rw [lookup_none_iff] at hl; rw [hl] at h; simp at h
      | some w => simp
    · simp [hk]
  · exact lookup_append_single k j v l

theorem lookup_eraseKey (k j : Nat) (l : List (Nat × α)) : (eraseKey j l).lookup k = if k = j then none else l.lookup k := by
  induction l with
  | nil => simp [eraseKey]
  | cons e l ih =>
    obtain ⟨i, u⟩ := e
    unfold eraseKey at ih ⊢
    rw [List.filter_cons]
    by_cases hi : i = j
    · subst hi
      simp only [beq_self_eq_true, Bool.not_true, Bool.false_eq_true, if_false]
      rw [ih, List.lookup]
      by_cases hk : k = i
      · simp [hk]
      · have : (k == i) = false := by simpa using hk
        rw [this]
    · have : (i == j) = false := by simpa using hi
      simp only [this, Bool.not_false, if_true]
      rw [List.lookup, List.lookup]
      by_cases hk : k = i
      · subst hk; simp [hi]
      · have : (k == i) = false := by simpa using hk
        rw [this]
        exact ih

end Maps

/-! ## Reports are only appended -/

/-- A book without its reports. -/
def strip (b : Book) : Book := { b with reports := [] }

/-- Puts reports in front of those of a book. -/
def app (rs : List Report) (b : Book) : Book := { b with reports := rs ++ b.reports }

theorem insert_with (b : Book) (o : Order) (rs : List Report) : ({ b with reports := rs } : Book).insert o = app rs ((strip b).insert o) := by
  obtain ⟨n, ls, bi, as, r0⟩ := b
  show Book.insert ⟨n, ls, bi, as, rs⟩ o = app rs (Book.insert ⟨n, ls, bi, as, []⟩ o)
  unfold Book.insert
  cases o.side with
  | buy =>
    show ite _ _ _ = app rs (ite _ _ _)
    rw [apply_ite (app rs)]
    simp only [app, List.append_assoc, List.nil_append]
  | sell =>
    show ite _ _ _ = app rs (ite _ _ _)
    rw [apply_ite (app rs)]
    simp only [app, List.append_assoc, List.nil_append]

theorem cancel_with (b : Book) (i : Nat) (rs : List Report) : ({ b with reports := rs } : Book).cancel i = app rs ((strip b).cancel i) := by
  unfold Book.cancel
  have h1 : ∀ rs, ({ b with reports := rs } : Book).bid = b.bid := fun _ => rfl
  have h2 : ∀ rs, ({ b with reports := rs } : Book).ask = b.ask := fun _ => rfl
  simp only [strip, h1, h2]
  cases h : b.limits.find? fun e => e.1 == i with
  | none => simp [app]
  | some e =>
    obtain ⟨k, p⟩ := e
    simp only
    rw [apply_ite (app rs), apply_ite (app rs)]
    simp only [app, List.nil_append, List.append_nil]

theorem apply_with (b : Book) (op : Op) (rs : List Report) :
    ({ b with reports := rs } : Book).apply op = { (strip b).apply op with reports := rs ++ ((strip b).apply op).reports } := by
  cases op with
  | insert o => exact insert_with b o rs
  | cancel i => exact cancel_with b i rs

theorem apply_reports (b : Book) (op : Op) : (b.apply op).reports = b.reports ++ ((strip b).apply op).reports := by
  have := apply_with b op b.reports
  rw [show ({ b with reports := b.reports } : Book) = b from rfl] at this
  rw [this]

theorem strip_apply (b : Book) (op : Op) : strip (b.apply op) = strip ((strip b).apply op) := by
  have := apply_with b op b.reports
  rw [show ({ b with reports := b.reports } : Book) = b from rfl] at this
  rw [this]
  rfl

theorem foldl_reports (ops : List Op) (b : Book) :
    (ops.foldl Book.apply b).reports = b.reports ++ (ops.foldl Book.apply (strip b)).reports ∧
    strip (ops.foldl Book.apply b) = strip (ops.foldl Book.apply (strip b)) := by
  induction ops generalizing b with
  | nil => simp [strip]
  | cons op ops ih =>
    simp only [List.foldl_cons]
    obtain ⟨h1, h2⟩ := ih (b.apply op)
    obtain ⟨h3, h4⟩ := ih ((strip b).apply op)
    constructor
    · rw [h1, h3, apply_reports b op, strip_apply b op, List.append_assoc]
    · rw [h2, h4, strip_apply b op]

theorem matchLoop_silent (crosses : Int → Bool) (o : Order) (l : List Entry) (rem : Nat) (h : (matchLoop crosses o rem l).reports = []) :
    (matchLoop crosses o rem l).resting = l := by
  cases l with
  | nil => simp [matchLoop]
  | cons e l =>
    rw [matchLoop] at h ⊢
    split
    · rfl
    · rename_i hc
      rw [if_neg hc] at h
      simp only at h ⊢
      split
      · rfl
      · rename_i hne
        rw [if_neg hne] at h
        split at h <;> simp at h

/-- An order that changes the best bid or ask gives a report. -/
theorem insert_silent (b : Book) (o : Order) (h : (b.insert o).reports = []) : (b.insert o).ask = b.ask ∧ (b.insert o).bid = b.bid := by
  unfold Book.insert at h ⊢
  cases hs : o.side with
  | buy =>
    rw [hs] at h
    simp only at h ⊢
    split at h
    · simp at h
    · rename_i hr
      rw [if_neg hr]
      simp only [List.append_eq_nil_iff] at h
      unfold Book.ask Book.bid
      simp only
      rw [matchLoop_silent _ _ _ _ h.2]
      simp
  | sell =>
    rw [hs] at h
    simp only at h ⊢
    split at h
    · simp at h
    · rename_i hr
      rw [if_neg hr]
      simp only [List.append_eq_nil_iff] at h
      unfold Book.ask Book.bid
      simp only
      rw [matchLoop_silent _ _ _ _ h.2]
      simp

/-! ## Messages -/

/-- The reports for a symbol among messages, with their recipients. -/
def sentReports (s : Nat) (outs : List Out) : List (Nat × Report) :=
  outs.filterMap fun m => match m with
    | .report recipient _ o r => if o.symbol = s then some (recipient, r) else none
    | _ => none

/-- The market data messages to an agent. -/
def sentData (a s : Nat) (outs : List Out) : List Out :=
  outs.filter fun m => match m with
    | .data recipient _ symbol _ _ _ => decide (recipient = a ∧ symbol = s)
    | _ => false

theorem sentReports_append (s : Nat) (l m : List Out) : sentReports s (l ++ m) = sentReports s l ++ sentReports s m := by
  simp [sentReports]

theorem sentData_append (a s : Nat) (l m : List Out) : sentData a s (l ++ m) = sentData a s l ++ sentData a s m := by
  simp [sentData]

theorem feedOne_reports (latency : Nat → Nat) (lower symbol : Nat) (b : Book) (trade : Bool) (r : Report) (q : Nat × Subscription) (s : Nat) :
    sentReports s (feedOne latency lower symbol b trade r q).2 = [] := by
  unfold feedOne
  split <;> simp [sentReports]

theorem feed_reports (latency : Nat → Nat) (lower symbol : Nat) (b : Book) (trade : Bool) (r : Report) (l : List (Nat × Subscription)) (s : Nat) :
    sentReports s ((l.map (feedOne latency lower symbol b trade r)).flatMap (·.2)) = [] := by
  induction l with
  | nil => rfl
  | cons q l ih => rw [List.map_cons, List.flatMap_cons, sentReports_append, feedOne_reports, ih]; rfl

theorem reportLoop_sent (latency : Nat → Nat) (lower sender : Nat) (o : Order) (b : Book) (changed : Bool) (rs : List Report)
    (subs : Option (List (Nat × Subscription))) (s : Nat) :
    sentReports s (reportLoop latency lower sender o b changed rs subs).2 = if o.symbol = s then rs.map (fun r => (r.owner, r)) else [] := by
  induction rs generalizing subs with
  | nil => cases subs <;> simp [reportLoop, sentReports]
  | cons r rs ih =>
    have h1 : ∀ l, sentReports s (Out.report r.owner (u64 (lower + latency sender)) o r :: l) = (if o.symbol = s then [(r.owner, r)] else []) ++ sentReports s l := by
      intro l
      by_cases h : o.symbol = s <;> simp [sentReports, h]
    cases subs with
    | none =>
      simp only [reportLoop, h1, ih]
      split <;> simp
    | some l =>
      simp only [reportLoop]
      split
      · simp only [h1, sentReports_append, feed_reports, ih]
        split <;> simp
      · simp only [h1, ih]
        split <;> simp

/-! ## Histories and one symbol -/

/-- The operation on the book of a symbol that an event causes. -/
def opOf (s : Nat) : Event → Option Op
  | .order _ o => if o.symbol = s then some (.insert o) else none
  | .cancel symbol id => if symbol = s then some (.cancel id) else none
  | _ => none

def owned (r : Report) : Nat × Report := (r.owner, r)

theorem handle_book (latency : Nat → Nat) (x : Exchange) (t : Nat) (e : Event) (x' : Exchange) (outs : List Out) (h : handle latency x t e = .ok (x', outs))
    (s : Nat) (b : Book) (hb : x.books.lookup s = some b) :
    ∃ b', x'.books.lookup s = some b' ∧ strip b' = strip ((opOf s e).toList.foldl Book.apply b) ∧
      sentReports s outs ++ b'.reports.map owned = ((opOf s e).toList.foldl Book.apply b).reports.map owned ∧
      (∀ q o, e = .order q o → o.symbol = s → b'.reports = []) := by
  cases e with
  | logon a sup =>
    simp only [handle, Outcome.ok.injEq, Prod.mk.injEq] at h
    obtain ⟨rfl, rfl⟩ := h
    exact ⟨b, hb, rfl, rfl, fun q o h => by cases h⟩
  | logout a =>
    simp only [handle, Outcome.ok.injEq, Prod.mk.injEq] at h
    obtain ⟨rfl, rfl⟩ := h
    exact ⟨b, hb, rfl, rfl, fun q o h => by cases h⟩
  | request a d ty is =>
    simp only [handle] at h
    cases hr : requestAll a d t ty is x.subscriptions with
    | ok subs =>
      rw [hr] at h
      simp only [Outcome.bind_ok, Outcome.ok.injEq, Prod.mk.injEq] at h
      obtain ⟨rfl, rfl⟩ := h
      exact ⟨b, hb, rfl, rfl, fun q o h => by cases h⟩
    | throws => rw [hr] at h; cases h
    | ub => rw [hr] at h; cases h
  | order q o =>
    simp only [handle, insertOrder] at h
    cases hl : x.books.lookup o.symbol with
    | none => rw [hl] at h; cases h
    | some b0 =>
      rw [hl] at h
      simp only [Outcome.ok.injEq, Prod.mk.injEq] at h
      obtain ⟨rfl, rfl⟩ := h
      simp only [reportLoop_sent, lookup_assignKey]
      by_cases hs : o.symbol = s
      · subst hs
        rw [hb] at hl
        cases hl
        refine ⟨strip (b.insert o), by simp [hb, strip], ?_, ?_, ?_⟩
        · simp [opOf, Book.apply, strip]
        · simp [opOf, Book.apply, strip, owned]
        · intro _ _ _ _; rfl
      · refine ⟨b, ?_, ?_, ?_, ?_⟩
        · rw [if_neg fun h => hs h.symm]; exact hb
        · simp [opOf, hs]
        · simp [opOf, hs]
        · intro q' o' he hs'
          cases he
          exact absurd hs' hs
  | cancel symbol id =>
    simp only [handle, Outcome.ok.injEq, Prod.mk.injEq] at h
    obtain ⟨rfl, rfl⟩ := h
    unfold cancelOrder
    by_cases hs : symbol = s
    · subst hs
      rw [hb]
      refine ⟨b.cancel id, by simp [lookup_assignKey, hb], ?_, ?_, fun q o h => by cases h⟩
      · simp [opOf, Book.apply]
      · simp [opOf, Book.apply, sentReports]
    · have : ∀ y : Exchange, y.books.lookup s = some b → ∃ b', y.books.lookup s = some b' ∧ strip b' = strip ((opOf s (.cancel symbol id)).toList.foldl Book.apply b) ∧
          sentReports s [] ++ b'.reports.map owned = ((opOf s (.cancel symbol id)).toList.foldl Book.apply b).reports.map owned ∧
          (∀ q o, Event.cancel symbol id = .order q o → o.symbol = s → b'.reports = []) := by
        intro y hy
        refine ⟨b, hy, ?_, ?_, fun q o h => by cases h⟩ <;> simp [opOf, hs, sentReports]
      apply this
      cases hl : x.books.lookup symbol with
      | none => exact hb
      | some b0 =>
        simp only [lookup_assignKey]
        rw [if_neg fun h => hs h.symm]
        exact hb

theorem runEvents_cons (latency : Nat → Nat → Nat) (x : Exchange) (t : Nat) (e : Event) (es : List (Nat × Event)) (x' : Exchange) (outs : List Out)
    (h : runEvents latency x ((t, e) :: es) = .ok (x', outs)) :
    ∃ x1 o1 o2, handle (latency 0) x t e = .ok (x1, o1) ∧ runEvents (fun i => latency (i + 1)) x1 es = .ok (x', o2) ∧ outs = o1 ++ o2 := by
  rw [runEvents] at h
  cases h1 : handle (latency 0) x t e with
  | ok r =>
    rw [h1] at h
    simp only [Outcome.bind_ok] at h
    cases h2 : runEvents (fun i => latency (i + 1)) r.1 es with
    | ok r' =>
      rw [h2] at h
      simp only [Outcome.bind_ok, Outcome.ok.injEq, Prod.mk.injEq] at h
      exact ⟨r.1, r.2, r'.2, rfl, by rw [h2, ← h.1], h.2.symm⟩
    | throws => rw [h2] at h; cases h
    | ub => rw [h2] at h; cases h
  | throws => rw [h1] at h; cases h
  | ub => rw [h1] at h; cases h

theorem runEvents_append (latency : Nat → Nat → Nat) (es fs : List (Nat × Event)) (x x' : Exchange) (outs : List Out)
    (h : runEvents latency x (es ++ fs) = .ok (x', outs)) :
    ∃ x1 o1 o2, runEvents latency x es = .ok (x1, o1) ∧ runEvents (fun i => latency (i + es.length)) x1 fs = .ok (x', o2) ∧ outs = o1 ++ o2 := by
  induction es generalizing latency x outs with
  | nil => exact ⟨x, [], outs, rfl, h, rfl⟩
  | cons e es ih =>
    obtain ⟨t, e⟩ := e
    obtain ⟨x1, o1, o2, h1, h2, rfl⟩ := runEvents_cons latency x t e (es ++ fs) x' outs h
    obtain ⟨x2, p1, p2, h3, h4, rfl⟩ := ih _ x1 o2 h2
    refine ⟨x2, o1 ++ p1, p2, ?_, h4, by rw [List.append_assoc]⟩
    rw [runEvents, h1]
    simp only [Outcome.bind_ok, h3]

theorem runEvents_book (latency : Nat → Nat → Nat) (es : List (Nat × Event)) (x x' : Exchange) (outs : List Out) (h : runEvents latency x es = .ok (x', outs))
    (s : Nat) (b : Book) (hb : x.books.lookup s = some b) :
    ∃ b', x'.books.lookup s = some b' ∧ strip b' = strip ((es.filterMap fun e => opOf s e.2).foldl Book.apply b) ∧
      sentReports s outs ++ b'.reports.map owned = ((es.filterMap fun e => opOf s e.2).foldl Book.apply b).reports.map owned := by
  induction es generalizing latency x b outs with
  | nil =>
    simp only [runEvents, Outcome.ok.injEq, Prod.mk.injEq] at h
    obtain ⟨rfl, rfl⟩ := h
    exact ⟨b, hb, rfl, rfl⟩
  | cons e es ih =>
    obtain ⟨t, e⟩ := e
    obtain ⟨x1, o1, o2, h1, h2, rfl⟩ := runEvents_cons latency x t e es x' outs h
    obtain ⟨b1, hb1, g1, g2, _⟩ := handle_book (latency 0) x t e x1 o1 h1 s b hb
    obtain ⟨b', hb', g3, g4⟩ := ih _ x1 o2 h2 b1 hb1
    have hcons : (((t, e) :: es).filterMap fun e => opOf s e.2).foldl Book.apply b =
        (es.filterMap fun e => opOf s e.2).foldl Book.apply ((opOf s e).toList.foldl Book.apply b) := by
      rw [List.filterMap_cons]
      cases opOf s e <;> rfl
    generalize hc : (opOf s e).toList.foldl Book.apply b = c at g1 g2 hcons
    generalize (es.filterMap fun e => opOf s e.2) = ops at g3 g4 hcons
    refine ⟨b', hb', ?_, ?_⟩
    · rw [hcons, g3, (foldl_reports ops c).2, (foldl_reports ops b1).2, g1]
    · rw [sentReports_append, List.append_assoc, g4, hcons, (foldl_reports ops c).1, (foldl_reports ops b1).1, List.map_append, ← List.append_assoc, g2, g1,
        List.map_append]

/-! ## Matches come in pairs -/

theorem matchLoop_pairs (crosses : Int → Bool) (o : Order) (sender : Nat) (ho : o.owner = sender) (l : List Entry) (hl : ∀ e ∈ l, e.order.owner ≠ sender) (rem : Nat) :
    ((matchLoop crosses o rem l).reports.filter fun r => decide (r.state = .match_) && decide (r.owner = sender)).map (fun r => (r.limit, r.quantity)) =
    ((matchLoop crosses o rem l).reports.filter fun r => decide (r.state = .match_ ∧ r.owner ≠ sender)).map (fun r => (r.limit, r.quantity)) := by
  induction l generalizing rem with
  | nil => rfl
  | cons e l ih =>
    have ih' := fun rem => ih (fun e he => hl e (List.mem_cons_of_mem _ he)) rem
    have he := hl e List.mem_cons_self
    rw [matchLoop]
    split
    · rfl
    · simp only
      split
      · rfl
      · split
        · simp [ho, he, ih']
        · simp [ho, he, ih']

/-! ## Subscriptions -/

theorem lookup_mapVal {α : Type} (g : α → α) (k : Nat) (l : List (Nat × α)) : (l.map fun e => (e.1, g e.2)).lookup k = (l.lookup k).map g := by
  induction l with
  | nil => rfl
  | cons e l ih =>
    obtain ⟨i, u⟩ := e
    rw [List.map_cons, List.lookup, List.lookup]
    cases k == i with
    | true => rfl
    | false => exact ih

/-- What serving a subscriber does with the subscription. -/
def upd (lower : Nat) (q : Subscription) : Subscription := if u64 (q.start + q.periodicity) > lower then q else { q with start := lower }

theorem upd_upd (lower : Nat) (q : Subscription) : upd lower (upd lower q) = upd lower q := by
  by_cases h : u64 (q.start + q.periodicity) > lower
  · have e : upd lower q = q := if_pos h
    rw [e, e]
  · have e : upd lower q = { q with start := lower } := if_neg h
    rw [e]
    unfold upd
    split <;> rfl

theorem feedOne_fst (latency : Nat → Nat) (lower symbol : Nat) (b : Book) (trade : Bool) (r : Report) (e : Nat × Subscription) :
    (feedOne latency lower symbol b trade r e).1 = (e.1, upd lower e.2) := by
  unfold feedOne upd
  split <;> rfl

theorem fed_fst (latency : Nat → Nat) (lower symbol : Nat) (b : Book) (trade : Bool) (r : Report) (l : List (Nat × Subscription)) :
    (l.map (feedOne latency lower symbol b trade r)).map (·.1) = l.map fun e => (e.1, upd lower e.2) := by
  rw [List.map_map]
  apply List.map_congr_left
  intro e _
  exact feedOne_fst ..

theorem reportLoop_subs (latency : Nat → Nat) (lower sender : Nat) (o : Order) (b : Book) (changed : Bool) (rs : List Report)
    (subs : Option (List (Nat × Subscription))) :
    (reportLoop latency lower sender o b changed rs subs).1 = subs ∨
    (reportLoop latency lower sender o b changed rs subs).1 = subs.map fun l => l.map fun e => (e.1, upd lower e.2) := by
  induction rs generalizing subs with
  | nil => left; cases subs <;> rfl
  | cons r rs ih =>
    cases subs with
    | none => simp only [reportLoop]; exact ih none
    | some l =>
      simp only [reportLoop]
      split
      · simp only [fed_fst]
        right
        rcases ih (some (l.map fun e => (e.1, upd lower e.2))) with h | h
        · rw [h]; rfl
        · rw [h]
          simp only [Option.map_some, List.map_map]
          congr 1
          apply List.map_congr_left
          intro e _
          simp [upd_upd]
      · exact ih (some l)

/-- The subscription of an agent for a symbol. -/
def subOf (subs : List (Nat × List (Nat × Subscription))) (s a : Nat) : Option Subscription := (subs.lookup s).bind fun l => l.lookup a

/-- No entry of a flat map has two elements with the same key. -/
def Distinct (subs : List (Nat × List (Nat × Subscription))) : Prop := ∀ e ∈ subs, (e.2.map (·.1)).Nodup

theorem nodup_emplaceKey {α : Type} (k : Nat) (v : α) (l : List (Nat × α)) (h : (l.map (·.1)).Nodup) : ((emplaceKey k v l).map (·.1)).Nodup := by
  unfold emplaceKey
  split
  · exact h
  · rename_i hk
    rw [List.map_append, List.nodup_append]
    refine ⟨h, by simp, ?_⟩
    intro x hx y hy
    simp only [List.map_cons, List.map_nil, List.mem_singleton] at hy
    subst hy
    intro he
    subst he
    apply hk
    obtain ⟨e, he, hex⟩ := List.mem_map.mp hx
    exact List.any_eq_true.mpr ⟨e, he, by simp [hex]⟩

theorem keys_assignKey {α : Type} (k : Nat) (v : α) (l : List (Nat × α)) : (assignKey k v l).map (·.1) = l.map (·.1) := by
  unfold assignKey
  rw [List.map_map]
  apply List.map_congr_left
  intro e _
  simp only [Function.comp]
  split <;> rfl

theorem nodup_eraseKey {α : Type} (k : Nat) (l : List (Nat × α)) (h : (l.map (·.1)).Nodup) : ((eraseKey k l).map (·.1)).Nodup :=
  List.Nodup.sublist (List.Sublist.map _ List.filter_sublist) h

theorem mem_of_lookup {α : Type} (k : Nat) (l : List (Nat × α)) (v : α) (h : l.lookup k = some v) : (k, v) ∈ l := by
  induction l with
  | nil => cases h
  | cons e l ih =>
    obtain ⟨i, u⟩ := e
    rw [List.lookup] at h
    cases hk : k == i with
    | true =>
      rw [hk] at h
      have : k = i := by simpa using hk
      subst this
      cases h
      exact List.mem_cons_self
    | false => rw [hk] at h; exact List.mem_cons_of_mem _ (ih h)

theorem distinct_assign (subs : List (Nat × List (Nat × Subscription))) (i : Nat) (l : List (Nat × Subscription)) (h : Distinct subs) (hl : (l.map (·.1)).Nodup) :
    Distinct (assignKey i l subs) := by
  intro e he
  unfold assignKey at he
  obtain ⟨e0, h0, rfl⟩ := List.mem_map.mp he
  split
  · exact hl
  · exact h e0 h0

theorem distinct_emplace (subs : List (Nat × List (Nat × Subscription))) (i : Nat) (h : Distinct subs) : Distinct (emplaceKey i [] subs) := by
  unfold emplaceKey
  split
  · exact h
  · intro e he
    rcases List.mem_append.mp he with he | he
    · exact h e he
    · simp only [List.mem_singleton] at he
      subst he
      simp

/-- The entry after a subscription is stored. -/
def store (sender : Nat) (q : Subscription) (l : List (Nat × Subscription)) : List (Nat × Subscription) :=
  if l.any fun e => e.1 == sender then assignKey sender q l else emplaceKey sender q l

theorem nodup_store (sender : Nat) (q : Subscription) (l : List (Nat × Subscription)) (h : (l.map (·.1)).Nodup) : ((store sender q l).map (·.1)).Nodup := by
  unfold store
  split
  · rw [keys_assignKey]; exact h
  · exact nodup_emplaceKey _ _ _ h

theorem lookup_store (sender : Nat) (q : Subscription) (l : List (Nat × Subscription)) (a : Nat) :
    (store sender q l).lookup a = if a = sender then some q else l.lookup a := by
  unfold store
  split
  · rename_i h
    rw [lookup_assignKey]
    split
    · rename_i ha
      subst ha
      cases hl : l.lookup a with
      | none => rw [lookup_none_iff] at hl; rw [hl] at h; cases h
      | some _ => rfl
    · rfl
  · rename_i h
    rw [lookup_emplaceKey]
    split
    · rename_i ha
      subst ha
      have : l.lookup a = none := (lookup_none_iff a l).mpr (Bool.not_eq_true _ ▸ h)
      rw [this]
      rfl
    · simp

theorem requestOne_cases (sender depth lower : Nat) (type : Request) (subs subs' : List (Nat × List (Nat × Subscription))) (i : Nat)
    (h : requestOne sender depth lower type subs i = .ok subs') :
    (type = .snapshot ∧ subs' = assignKey i (store sender ⟨depth, lower, maxTime⟩ ((subs.lookup i).getD [])) (emplaceKey i [] subs)) ∨
    (type = .cancel ∧ subs.lookup i = none ∧ subs' = subs) ∨
    (type = .cancel ∧ ∃ l, subs.lookup i = some l ∧ subs' = assignKey i (eraseKey sender l) subs) ∨
    (type = .stream ∧ subs.lookup i = none ∧ subs' = subs) ∨
    (type = .stream ∧ ∃ l, subs.lookup i = some l ∧ subs' = assignKey i (store sender ⟨depth, lower, 0⟩ l) subs) := by
  cases type with
  | snapshot =>
    left
    simp only [requestOne, Outcome.ok.injEq] at h
    refine ⟨rfl, ?_⟩
    rw [← h]
    have e : ((emplaceKey i [] subs).lookup i).getD [] = (subs.lookup i).getD [] := by
      rw [lookup_emplaceKey]
      cases subs.lookup i <;> simp
    rw [e]
    rfl
  | cancel =>
    simp only [requestOne] at h
    cases hl : subs.lookup i with
    | none => rw [hl] at h; simp only [Outcome.ok.injEq] at h; exact .inr (.inl ⟨rfl, rfl, h.symm⟩)
    | some l =>
      rw [hl] at h
      simp only at h
      split at h
      · simp only [Outcome.ok.injEq] at h; exact .inr (.inr (.inl ⟨rfl, l, rfl, h.symm⟩))
      · cases h
  | stream =>
    simp only [requestOne] at h
    cases hl : subs.lookup i with
    | none => rw [hl] at h; simp only [Outcome.ok.injEq] at h; exact .inr (.inr (.inr (.inl ⟨rfl, rfl, h.symm⟩)))
    | some l =>
      rw [hl] at h
      simp only [Outcome.ok.injEq] at h
      exact .inr (.inr (.inr (.inr ⟨rfl, l, rfl, h.symm⟩)))

theorem requestOne_distinct (sender depth lower : Nat) (type : Request) (subs subs' : List (Nat × List (Nat × Subscription))) (i : Nat)
    (h : requestOne sender depth lower type subs i = .ok subs') (hd : Distinct subs) : Distinct subs' := by
  rcases requestOne_cases sender depth lower type subs subs' i h with ⟨_, rfl⟩ | ⟨_, _, rfl⟩ | ⟨_, l, hl, rfl⟩ | ⟨_, _, rfl⟩ | ⟨_, l, hl, rfl⟩
  · apply distinct_assign _ _ _ (distinct_emplace subs i hd)
    apply nodup_store
    cases hl : subs.lookup i with
    | none => simp
    | some l => exact hd _ (mem_of_lookup i subs l hl)
  · exact hd
  · exact distinct_assign _ _ _ hd (nodup_eraseKey _ _ (hd _ (mem_of_lookup i subs l hl)))
  · exact hd
  · exact distinct_assign _ _ _ hd (nodup_store _ _ _ (hd _ (mem_of_lookup i subs l hl)))

theorem requestOne_other (sender depth lower : Nat) (type : Request) (subs subs' : List (Nat × List (Nat × Subscription))) (i s a : Nat)
    (h : requestOne sender depth lower type subs i = .ok subs') (hne : a ≠ sender ∨ s ≠ i) : subOf subs' s a = subOf subs s a := by
  unfold subOf
  rcases requestOne_cases sender depth lower type subs subs' i h with ⟨_, rfl⟩ | ⟨_, _, rfl⟩ | ⟨_, l, hl, rfl⟩ | ⟨_, _, rfl⟩ | ⟨_, l, hl, rfl⟩
  · rw [lookup_assignKey, lookup_emplaceKey]
    by_cases hs : s = i
    · subst hs
      have ha : a ≠ sender := hne.resolve_right (by simp)
      cases hl : subs.lookup s with
      | none => simp [lookup_store, ha]
      | some l => simp [lookup_store, ha]
    · simp [hs]
  · rfl
  · rw [lookup_assignKey]
    by_cases hs : s = i
    · subst hs
      have ha : a ≠ sender := hne.resolve_right (by simp)
      simp [hl, lookup_eraseKey, ha]
    · simp [hs]
  · rfl
  · rw [lookup_assignKey]
    by_cases hs : s = i
    · subst hs
      have ha : a ≠ sender := hne.resolve_right (by simp)
      simp [hl, lookup_store, ha]
    · simp [hs]

theorem requestOne_isSome (sender depth lower : Nat) (type : Request) (subs subs' : List (Nat × List (Nat × Subscription))) (i s : Nat)
    (h : requestOne sender depth lower type subs i = .ok subs') (hs : (subs.lookup s).isSome) : (subs'.lookup s).isSome := by
  obtain ⟨l0, hl0⟩ := Option.isSome_iff_exists.mp hs
  rcases requestOne_cases sender depth lower type subs subs' i h with ⟨_, rfl⟩ | ⟨_, _, rfl⟩ | ⟨_, l, hl, rfl⟩ | ⟨_, _, rfl⟩ | ⟨_, l, hl, rfl⟩
  · rw [lookup_assignKey, lookup_emplaceKey, hl0]; split <;> simp
  · exact hs
  · rw [lookup_assignKey, hl0]; split <;> simp
  · exact hs
  · rw [lookup_assignKey, hl0]; split <;> simp

theorem requestOne_stream (sender depth lower : Nat) (subs subs' : List (Nat × List (Nat × Subscription))) (s : Nat)
    (h : requestOne sender depth lower .stream subs s = .ok subs') (hs : (subs.lookup s).isSome) : subOf subs' s sender = some ⟨depth, lower, 0⟩ := by
  obtain ⟨l0, hl0⟩ := Option.isSome_iff_exists.mp hs
  rcases requestOne_cases sender depth lower .stream subs subs' s h with ⟨h0, _⟩ | ⟨h0, _⟩ | ⟨h0, _⟩ | ⟨_, h1, _⟩ | ⟨_, l, hl, rfl⟩
  · cases h0
  · cases h0
  · cases h0
  · rw [hl0] at h1; cases h1
  · simp [subOf, lookup_assignKey, hl, lookup_store]

theorem requestOne_cancel (sender depth lower : Nat) (subs subs' : List (Nat × List (Nat × Subscription))) (s : Nat)
    (h : requestOne sender depth lower .cancel subs s = .ok subs') : subOf subs' s sender = none := by
  rcases requestOne_cases sender depth lower .cancel subs subs' s h with ⟨h0, _⟩ | ⟨_, h1, rfl⟩ | ⟨_, l, hl, rfl⟩ | ⟨h0, _⟩ | ⟨h0, _⟩
  · cases h0
  · simp [subOf, h1]
  · simp [subOf, lookup_assignKey, hl, lookup_eraseKey]
  · cases h0
  · cases h0

theorem requestAll_cons (sender depth lower : Nat) (type : Request) (i : Nat) (is : List Nat) (subs subs' : List (Nat × List (Nat × Subscription)))
    (h : requestAll sender depth lower type (i :: is) subs = .ok subs') :
    ∃ s1, requestOne sender depth lower type subs i = .ok s1 ∧ requestAll sender depth lower type is s1 = .ok subs' := by
  rw [requestAll] at h
  cases h1 : requestOne sender depth lower type subs i with
  | ok s1 => rw [h1] at h; exact ⟨s1, rfl, h⟩
  | throws => rw [h1] at h; cases h
  | ub => rw [h1] at h; cases h

/-- A property of the subscriptions that each request keeps is kept by a list of requests. -/
theorem requestAll_induct (P : List (Nat × List (Nat × Subscription)) → Prop) (sender depth lower : Nat) (type : Request) (is : List Nat)
    (step : ∀ i ∈ is, ∀ s s', requestOne sender depth lower type s i = .ok s' → P s → P s') (subs subs' : List (Nat × List (Nat × Subscription)))
    (h : requestAll sender depth lower type is subs = .ok subs') (hp : P subs) : P subs' := by
  induction is generalizing subs with
  | nil => simp only [requestAll, Outcome.ok.injEq] at h; exact h ▸ hp
  | cons i is ih =>
    obtain ⟨s1, h1, h2⟩ := requestAll_cons sender depth lower type i is subs subs' h
    exact ih (fun i hi => step i (List.mem_cons_of_mem _ hi)) s1 h2 (step i List.mem_cons_self _ _ h1 hp)

theorem requestAll_stream (sender depth lower : Nat) (is : List Nat) (s : Nat) (hs : s ∈ is) (subs subs' : List (Nat × List (Nat × Subscription)))
    (h : requestAll sender depth lower .stream is subs = .ok subs') (hp : (subs.lookup s).isSome) : subOf subs' s sender = some ⟨depth, lower, 0⟩ := by
  induction is generalizing subs with
  | nil => simp at hs
  | cons i is ih =>
    obtain ⟨s1, h1, h2⟩ := requestAll_cons sender depth lower .stream i is subs subs' h
    have hp1 := requestOne_isSome _ _ _ _ _ _ _ _ h1 hp
    by_cases hm : s ∈ is
    · exact ih hm s1 h2 hp1
    · have hi : s = i := by simpa [hm] using hs
      subst hi
      have h3 := requestOne_stream _ _ _ _ _ _ h1 hp
      exact requestAll_induct (fun q => subOf q s sender = some ⟨depth, lower, 0⟩) sender depth lower .stream is
        (fun i hi q q' hq hh => by
          rw [requestOne_other _ _ _ _ _ _ i s sender hq (.inr fun e => hm (e ▸ hi))]; exact hh) s1 subs' h2 h3

theorem requestAll_cancel (sender depth lower : Nat) (is : List Nat) (s : Nat) (hs : s ∈ is) (subs subs' : List (Nat × List (Nat × Subscription)))
    (h : requestAll sender depth lower .cancel is subs = .ok subs') : subOf subs' s sender = none := by
  induction is generalizing subs with
  | nil => simp at hs
  | cons i is ih =>
    obtain ⟨s1, h1, h2⟩ := requestAll_cons sender depth lower .cancel i is subs subs' h
    by_cases hm : s ∈ is
    · exact ih hm s1 h2
    · have hi : s = i := by simpa [hm] using hs
      subst hi
      have h3 := requestOne_cancel _ _ _ _ _ _ h1
      exact requestAll_induct (fun q => subOf q s sender = none) sender depth lower .cancel is
        (fun i hi q q' hq hh => by
          rw [requestOne_other _ _ _ _ _ _ i s sender hq (.inr fun e => hm (e ▸ hi))]; exact hh) s1 subs' h2 h3

/-! ## What an order does with subscriptions -/

theorem insertOrder_subs (latency : Nat → Nat) (x : Exchange) (t sender : Nat) (o : Order) (x' : Exchange) (outs : List Out)
    (h : insertOrder latency x t sender o = .ok (x', outs)) :
    x'.subscriptions = x.subscriptions ∨
    ∃ l, x.subscriptions.lookup o.symbol = some l ∧
      (x'.subscriptions = assignKey o.symbol l x.subscriptions ∨ x'.subscriptions = assignKey o.symbol (l.map fun e => (e.1, upd t e.2)) x.subscriptions) := by
  unfold insertOrder at h
  cases hb : x.books.lookup o.symbol with
  | none => rw [hb] at h; cases h
  | some b =>
    rw [hb] at h
    simp only [Outcome.ok.injEq, Prod.mk.injEq] at h
    obtain ⟨rfl, _⟩ := h
    simp only
    cases hl : x.subscriptions.lookup o.symbol with
    | none =>
      left
      rcases reportLoop_subs latency t sender o (b.insert o) (decide (b.ask ≠ (b.insert o).ask) || decide (b.bid ≠ (b.insert o).bid)) (b.insert o).reports none
        with h | h <;> rw [h] <;> rfl
    | some l =>
      right
      refine ⟨l, rfl, ?_⟩
      rcases reportLoop_subs latency t sender o (b.insert o) (decide (b.ask ≠ (b.insert o).ask) || decide (b.bid ≠ (b.insert o).bid)) (b.insert o).reports (some l)
        with h | h <;> rw [h]
      · left; rfl
      · right; rfl

theorem insertOrder_subOf (latency : Nat → Nat) (x : Exchange) (t sender : Nat) (o : Order) (x' : Exchange) (outs : List Out)
    (h : insertOrder latency x t sender o = .ok (x', outs)) (s a : Nat) :
    subOf x'.subscriptions s a = subOf x.subscriptions s a ∨ subOf x'.subscriptions s a = (subOf x.subscriptions s a).map (upd t) := by
  rcases insertOrder_subs latency x t sender o x' outs h with h | ⟨l, hl, h | h⟩ <;> rw [h]
  · exact .inl rfl
  · left
    unfold subOf
    rw [lookup_assignKey]
    split
    · rename_i hs; subst hs; rw [hl]; rfl
    · rfl
  · unfold subOf
    rw [lookup_assignKey]
    split
    · right
      rename_i hs
      subst hs
      rw [hl]
      simp [lookup_mapVal]
    · left; rfl

theorem insertOrder_distinct (latency : Nat → Nat) (x : Exchange) (t sender : Nat) (o : Order) (x' : Exchange) (outs : List Out)
    (h : insertOrder latency x t sender o = .ok (x', outs)) (hd : Distinct x.subscriptions) : Distinct x'.subscriptions := by
  rcases insertOrder_subs latency x t sender o x' outs h with h | ⟨l, hl, h | h⟩ <;> rw [h]
  · exact hd
  · exact distinct_assign _ _ _ hd (hd _ (mem_of_lookup _ _ l hl))
  · apply distinct_assign _ _ _ hd
    rw [List.map_map]
    exact hd _ (mem_of_lookup _ _ l hl)

/-- Does an event change what an agent asked for a symbol? -/
def asks (a s : Nat) : Event → Bool
  | .request q _ _ is => decide (q = a) && is.contains s
  | _ => false

theorem handle_subs (latency : Nat → Nat) (x : Exchange) (t : Nat) (e : Event) (x' : Exchange) (outs : List Out)
    (h : handle latency x t e = .ok (x', outs)) (s a : Nat) (hn : asks a s e = false) :
    (subOf x'.subscriptions s a = subOf x.subscriptions s a ∨ subOf x'.subscriptions s a = (subOf x.subscriptions s a).map (upd t)) := by
  cases e with
  | logon q sup => simp only [handle, Outcome.ok.injEq, Prod.mk.injEq] at h; obtain ⟨rfl, rfl⟩ := h; exact .inl rfl
  | logout q => simp only [handle, Outcome.ok.injEq, Prod.mk.injEq] at h; obtain ⟨rfl, rfl⟩ := h; exact .inl rfl
  | request q d ty is =>
    simp only [handle] at h
    cases hr : requestAll q d t ty is x.subscriptions with
    | ok subs =>
      rw [hr] at h
      simp only [Outcome.bind_ok, Outcome.ok.injEq, Prod.mk.injEq] at h
      obtain ⟨rfl, rfl⟩ := h
      left
      exact requestAll_induct (fun y => subOf y s a = subOf x.subscriptions s a) q d t ty is
        (fun i hi y y' hy hh => by
          rw [requestOne_other q d t ty y y' i s a hy ?_, hh]
          by_cases hqa : q = a
          · right
            intro he
            subst he
            simp [asks, hqa, hi] at hn
          · exact .inl fun h => hqa h.symm) _ subs hr rfl
    | throws => rw [hr] at h; cases h
    | ub => rw [hr] at h; cases h
  | order q o => exact insertOrder_subOf latency x t q o x' outs h s a
  | cancel symbol id =>
    simp only [handle, Outcome.ok.injEq, Prod.mk.injEq] at h
    obtain ⟨rfl, rfl⟩ := h
    left
    unfold cancelOrder
    split <;> rfl

theorem handle_distinct (latency : Nat → Nat) (x : Exchange) (t : Nat) (e : Event) (x' : Exchange) (outs : List Out)
    (h : handle latency x t e = .ok (x', outs)) (hd : Distinct x.subscriptions) : Distinct x'.subscriptions := by
  cases e with
  | logon q sup => simp only [handle, Outcome.ok.injEq, Prod.mk.injEq] at h; obtain ⟨rfl, rfl⟩ := h; exact hd
  | logout q => simp only [handle, Outcome.ok.injEq, Prod.mk.injEq] at h; obtain ⟨rfl, rfl⟩ := h; exact hd
  | request q d ty is =>
    simp only [handle] at h
    cases hr : requestAll q d t ty is x.subscriptions with
    | ok subs =>
      rw [hr] at h
      simp only [Outcome.bind_ok, Outcome.ok.injEq, Prod.mk.injEq] at h
      obtain ⟨rfl, rfl⟩ := h
      exact requestAll_induct Distinct q d t ty is (fun i _ y y' hy hh => requestOne_distinct q d t ty y y' i hy hh) _ subs hr hd
    | throws => rw [hr] at h; cases h
    | ub => rw [hr] at h; cases h
  | order q o => exact insertOrder_distinct latency x t q o x' outs h hd
  | cancel symbol id =>
    simp only [handle, Outcome.ok.injEq, Prod.mk.injEq] at h
    obtain ⟨rfl, rfl⟩ := h
    unfold cancelOrder
    split <;> exact hd

theorem runEvents_distinct (latency : Nat → Nat → Nat) (es : List (Nat × Event)) (x x' : Exchange) (outs : List Out) (h : runEvents latency x es = .ok (x', outs))
    (hd : Distinct x.subscriptions) : Distinct x'.subscriptions := by
  induction es generalizing latency x outs with
  | nil => simp only [runEvents, Outcome.ok.injEq, Prod.mk.injEq] at h; rw [← h.1]; exact hd
  | cons e es ih =>
    obtain ⟨t, e⟩ := e
    obtain ⟨x1, o1, o2, h1, h2, rfl⟩ := runEvents_cons latency x t e es x' outs h
    exact ih _ x1 o2 h2 (handle_distinct (latency 0) x t e x1 o1 h1 hd)

/-! ## Data messages -/

theorem feed_silent (latency : Nat → Nat) (lower symbol : Nat) (b : Book) (trade : Bool) (r : Report) (l : List (Nat × Subscription)) (a s : Nat)
    (h : symbol = s → l.lookup a = none) : sentData a s ((l.map (feedOne latency lower symbol b trade r)).flatMap (·.2)) = [] := by
  induction l with
  | nil => rfl
  | cons q l ih =>
    obtain ⟨i, q⟩ := q
    rw [List.map_cons, List.flatMap_cons, sentData_append]
    have h1 : symbol = s → i ≠ a ∧ l.lookup a = none := by
      intro hs
      have := h hs
      rw [List.lookup] at this
      cases hk : a == i with
      | true => rw [hk] at this; cases this
      | false =>
        rw [hk] at this
        exact ⟨fun e => by simp [e] at hk, this⟩
    rw [ih fun hs => (h1 hs).2, List.append_nil]
    unfold feedOne
    split
    · rfl
    · unfold sentData
      rw [List.filter_cons]
      have : ¬ (i = a ∧ symbol = s) := fun h => (h1 h.2).1 h.1
      simp [this]

theorem sentData_report (a s recipient arrival : Nat) (o : Order) (r : Report) (l : List Out) : sentData a s (.report recipient arrival o r :: l) = sentData a s l := by
  simp [sentData]

theorem reportLoop_silent (latency : Nat → Nat) (lower sender : Nat) (o : Order) (b : Book) (changed : Bool) (rs : List Report)
    (subs : Option (List (Nat × Subscription))) (a s : Nat) (h : o.symbol = s → ∀ l, subs = some l → l.lookup a = none) :
    sentData a s (reportLoop latency lower sender o b changed rs subs).2 = [] := by
  induction rs generalizing subs with
  | nil => cases subs <;> rfl
  | cons r rs ih =>
    cases subs with
    | none => simp only [reportLoop, sentData_report]; exact ih none (fun _ l hl => by cases hl)
    | some l =>
      simp only [reportLoop]
      split
      · simp only [sentData_report, sentData_append, fed_fst]
        rw [feed_silent _ _ _ _ _ _ _ _ _ fun hs => h hs l rfl, List.nil_append]
        apply ih
        intro hs l' hl'
        cases hl'
        rw [lookup_mapVal, h hs l rfl]; rfl
      · simp only [sentData_report]
        exact ih (some l) h

theorem handle_silent (latency : Nat → Nat) (x : Exchange) (t : Nat) (e : Event) (x' : Exchange) (outs : List Out)
    (h : handle latency x t e = .ok (x', outs)) (s a : Nat) (hn : subOf x.subscriptions s a = none) : sentData a s outs = [] := by
  cases e with
  | logon q sup => simp only [handle, Outcome.ok.injEq, Prod.mk.injEq] at h; obtain ⟨rfl, rfl⟩ := h; rfl
  | logout q => simp only [handle, Outcome.ok.injEq, Prod.mk.injEq] at h; obtain ⟨rfl, rfl⟩ := h; rfl
  | request q d ty is =>
    simp only [handle] at h
    cases hr : requestAll q d t ty is x.subscriptions with
    | ok subs =>
      rw [hr] at h
      simp only [Outcome.bind_ok, Outcome.ok.injEq, Prod.mk.injEq] at h
      obtain ⟨rfl, rfl⟩ := h
      rfl
    | throws => rw [hr] at h; cases h
    | ub => rw [hr] at h; cases h
  | order q o =>
    simp only [handle, insertOrder] at h
    cases hb : x.books.lookup o.symbol with
    | none => rw [hb] at h; cases h
    | some b =>
      rw [hb] at h
      simp only [Outcome.ok.injEq, Prod.mk.injEq] at h
      obtain ⟨_, rfl⟩ := h
      apply reportLoop_silent
      intro hs l hl
      subst hs
      unfold subOf at hn
      rw [hl] at hn
      exact hn
  | cancel symbol id =>
    simp only [handle, Outcome.ok.injEq, Prod.mk.injEq] at h
    obtain ⟨rfl, rfl⟩ := h
    rfl

theorem runEvents_silent (latency : Nat → Nat → Nat) (es : List (Nat × Event)) (x x' : Exchange) (outs : List Out) (h : runEvents latency x es = .ok (x', outs))
    (s a : Nat) (hn : subOf x.subscriptions s a = none) (hes : ∀ e ∈ es, asks a s e.2 = false) : sentData a s outs = [] := by
  induction es generalizing latency x outs with
  | nil => simp only [runEvents, Outcome.ok.injEq, Prod.mk.injEq] at h; rw [← h.2]; rfl
  | cons e es ih =>
    obtain ⟨t, e⟩ := e
    obtain ⟨x1, o1, o2, h1, h2, rfl⟩ := runEvents_cons latency x t e es x' outs h
    have hq := hes _ List.mem_cons_self
    rw [sentData_append, handle_silent (latency 0) x t e x1 o1 h1 s a hn, List.nil_append]
    apply ih _ x1 o2 h2 _ (fun e he => hes e (List.mem_cons_of_mem _ he))
    rcases handle_subs (latency 0) x t e x1 o1 h1 s a hq with h | h <;> rw [h, hn]
    rfl

/-- Every subscription at that is due is served exactly once per pass. -/
theorem feed_exact (latency : Nat → Nat) (lower symbol : Nat) (b : Book) (trade : Bool) (r : Report) (l : List (Nat × Subscription)) (a : Nat) (q : Subscription)
    (hd : (l.map (·.1)).Nodup) (hq : l.lookup a = some q) (hdue : ¬ u64 (q.start + q.periodicity) > lower) :
    sentData a symbol ((l.map (feedOne latency lower symbol b trade r)).flatMap (·.2)) =
      [.data a (u64 (lower + latency a)) symbol (if trade then [(r.limit, r.quantity)] else []) b.ask b.bid] := by
  induction l with
  | nil => cases hq
  | cons e l ih =>
    obtain ⟨i, q'⟩ := e
    rw [List.map_cons, List.flatMap_cons, sentData_append]
    rw [List.map_cons, List.nodup_cons] at hd
    rw [List.lookup] at hq
    cases hk : a == i with
    | true =>
      rw [hk] at hq
      have hai : a = i := by simpa using hk
      subst hai
      cases hq
      have hnone : l.lookup a = none := by
        cases hl : l.lookup a with
        | none => rfl
        | some v => exact absurd (List.mem_map.mpr ⟨_, mem_of_lookup a l v hl, rfl⟩) hd.1
      rw [feed_silent _ _ _ _ _ _ _ _ _ fun _ => hnone, List.append_nil]
      unfold feedOne
      rw [if_neg hdue]
      simp [sentData]
    | false =>
      rw [hk] at hq
      rw [ih hd.2 hq]
      have hai : i ≠ a := fun e => by simp [e] at hk
      unfold feedOne
      split
      · rfl
      · simp [sentData, hai]

/-- The trades in data messages. -/
def tradesIn (outs : List Out) : List (Int × Nat) :=
  outs.flatMap fun m => match m with
    | .data _ _ _ trades _ _ => trades
    | _ => []

theorem tradesIn_append (l m : List Out) : tradesIn (l ++ m) = tradesIn l ++ tradesIn m := by simp [tradesIn]

theorem due_zero (q : Subscription) (lower : Nat) (hp : q.periodicity = 0) (hs : q.start ≤ lower) (hlow : lower < 2 ^ 64) : ¬ u64 (q.start + q.periodicity) > lower := by
  rw [hp, Nat.add_zero, show u64 q.start = q.start from Nat.mod_eq_of_lt (Nat.lt_of_le_of_lt hs hlow)]
  omega

theorem reportLoop_trades (latency : Nat → Nat) (lower sender : Nat) (o : Order) (b : Book) (changed : Bool) (rs : List Report)
    (l : List (Nat × Subscription)) (a : Nat) (q : Subscription) (hd : (l.map (·.1)).Nodup) (hq : l.lookup a = some q) (hp : q.periodicity = 0) (hs : q.start ≤ lower)
    (hlow : lower < 2 ^ 64) :
    tradesIn (sentData a o.symbol (reportLoop latency lower sender o b changed rs (some l)).2) =
      (rs.filter fun r => decide (r.state = .match_) && (changed || decide (r.owner = sender))).map fun r => (r.limit, r.quantity) := by
  induction rs generalizing l q with
  | nil => rfl
  | cons r rs ih =>
    simp only [reportLoop]
    have hdue := due_zero q lower hp hs hlow
    split
    · rename_i hc
      simp only [sentData_report, sentData_append, fed_fst, tradesIn_append]
      rw [feed_exact latency lower o.symbol b _ r l a q hd hq hdue]
      rw [ih (l.map fun e => (e.1, upd lower e.2)) (upd lower q) (by rw [List.map_map]; exact hd) (by rw [lookup_mapVal, hq]; rfl)
        (by unfold upd; rw [if_neg hdue]; exact hp) (by unfold upd; rw [if_neg hdue]; exact Nat.le_refl _)]
      rw [List.filter_cons]
      by_cases hm : r.state = .match_
      · have : (changed || decide (r.owner = sender)) = true := by
          rw [Bool.or_comm]; simpa [hm] using hc
        simp [hm, this, tradesIn]
      · simp [hm, tradesIn]
    · rename_i hc
      simp only [sentData_report]
      rw [ih l q hd hq hp hs, List.filter_cons]
      have : (decide (r.state = .match_) && (changed || decide (r.owner = sender))) = false := by
        cases hm : decide (r.state = .match_) <;> cases hch : changed <;> simp_all
      rw [this]
      rfl

theorem reportLoop_served (latency : Nat → Nat) (lower sender : Nat) (o : Order) (b : Book) (r : Report) (rs : List Report)
    (l : List (Nat × Subscription)) (a : Nat) (q : Subscription) (hd : (l.map (·.1)).Nodup) (hq : l.lookup a = some q) (hp : q.periodicity = 0) (hs : q.start ≤ lower)
    (hlow : lower < 2 ^ 64) :
    ∃ trades, Out.data a (u64 (lower + latency a)) o.symbol trades b.ask b.bid ∈ (reportLoop latency lower sender o b true (r :: rs) (some l)).2 := by
  simp only [reportLoop, Bool.or_true, if_true]
  have := feed_exact latency lower o.symbol b (decide (r.state = .match_)) r l a q hd hq (due_zero q lower hp hs hlow)
  have hm : Out.data a (u64 (lower + latency a)) o.symbol (if decide (r.state = .match_) then [(r.limit, r.quantity)] else []) b.ask b.bid ∈
      sentData a o.symbol ((l.map (feedOne latency lower o.symbol b (decide (r.state = .match_)) r)).flatMap (·.2)) := by
    rw [this]; exact List.mem_singleton.mpr rfl
  exact ⟨_, List.mem_cons_of_mem _ (List.mem_append_left _ ((List.mem_filter.mp hm).1))⟩

theorem reportLoop_current (latency : Nat → Nat) (lower sender : Nat) (o : Order) (b : Book) (changed : Bool) (rs : List Report)
    (subs : Option (List (Nat × Subscription))) (a arrival symbol : Nat) (trades : List (Int × Nat)) (ask bid : Option Int)
    (h : Out.data a arrival symbol trades ask bid ∈ (reportLoop latency lower sender o b changed rs subs).2) :
    symbol = o.symbol ∧ arrival = u64 (lower + latency a) ∧ ask = b.ask ∧ bid = b.bid := by
  induction rs generalizing subs with
  | nil => cases subs <;> simp [reportLoop] at h
  | cons r rs ih =>
    cases subs with
    | none =>
      simp only [reportLoop, List.mem_cons, reduceCtorEq, false_or] at h
      exact ih none h
    | some l =>
      simp only [reportLoop] at h
      split at h
      · simp only [List.mem_cons, reduceCtorEq, false_or, List.mem_append] at h
        rcases h with h | h
        · obtain ⟨e, he, hm⟩ := List.mem_flatMap.mp h
          obtain ⟨e0, _, rfl⟩ := List.mem_map.mp he
          unfold feedOne at hm
          split at hm
          · simp at hm
          · simp only [List.mem_singleton, Out.data.injEq] at hm
            obtain ⟨rfl, h2, h3, _, h4, h5⟩ := hm
            exact ⟨h3, h2, h4, h5⟩
        · exact ih _ h
      · simp only [List.mem_cons, reduceCtorEq, false_or] at h
        exact ih _ h

/-- A live stream: the subscription has no periodicity and starts no later than `T`. -/
def Live (T : Nat) (subs : List (Nat × List (Nat × Subscription))) (s a : Nat) : Prop := ∃ q, subOf subs s a = some q ∧ q.periodicity = 0 ∧ q.start ≤ T

theorem runEvents_live (latency : Nat → Nat → Nat) (T : Nat) (es : List (Nat × Event)) (x x' : Exchange) (outs : List Out) (h : runEvents latency x es = .ok (x', outs))
    (s a : Nat) (hl : Live T x.subscriptions s a) (hes : ∀ e ∈ es, asks a s e.2 = false) (ht : ∀ e ∈ es, e.1 ≤ T) : Live T x'.subscriptions s a := by
  induction es generalizing latency x outs with
  | nil => simp only [runEvents, Outcome.ok.injEq, Prod.mk.injEq] at h; rw [← h.1]; exact hl
  | cons e es ih =>
    obtain ⟨t, e⟩ := e
    obtain ⟨x1, o1, o2, h1, h2, rfl⟩ := runEvents_cons latency x t e es x' outs h
    have hq := hes _ List.mem_cons_self
    have htt : t ≤ T := ht _ List.mem_cons_self
    apply ih _ x1 o2 h2 _ (fun e he => hes e (List.mem_cons_of_mem _ he)) (fun e he => ht e (List.mem_cons_of_mem _ he))
    obtain ⟨q, g1, g2, g3⟩ := hl
    rcases handle_subs (latency 0) x t e x1 o1 h1 s a hq with h | h
    · exact ⟨q, by rw [h, g1], g2, g3⟩
    · refine ⟨upd t q, by rw [h, g1]; rfl, ?_, ?_⟩ <;> unfold upd <;> split <;> assumption

/-! ## No snapshots, no subscriptions -/

def isSnapshot : Event → Bool
  | .request _ _ .snapshot _ => true
  | _ => false

theorem handle_bare (latency : Nat → Nat) (x : Exchange) (t : Nat) (e : Event) (x' : Exchange) (outs : List Out)
    (h : handle latency x t e = .ok (x', outs)) (hx : x.subscriptions = []) (he : isSnapshot e = false) : x'.subscriptions = [] := by
  cases e with
  | logon q sup => simp only [handle, Outcome.ok.injEq, Prod.mk.injEq] at h; obtain ⟨rfl, rfl⟩ := h; exact hx
  | logout q => simp only [handle, Outcome.ok.injEq, Prod.mk.injEq] at h; obtain ⟨rfl, rfl⟩ := h; exact hx
  | request q d ty is =>
    simp only [handle] at h
    cases hr : requestAll q d t ty is x.subscriptions with
    | ok subs =>
      rw [hr] at h
      simp only [Outcome.bind_ok, Outcome.ok.injEq, Prod.mk.injEq] at h
      obtain ⟨rfl, rfl⟩ := h
      refine requestAll_induct (fun y => y = []) q d t ty is (fun i _ y y' hy hh => ?_) _ subs hr hx
      subst hh
      rcases requestOne_cases q d t ty [] y' i hy with ⟨h0, _⟩ | ⟨_, _, h⟩ | ⟨_, l, hl, _⟩ | ⟨_, _, h⟩ | ⟨_, l, hl, _⟩
      · subst h0; simp [isSnapshot] at he
      · exact h
      · cases hl
      · exact h
      · cases hl
    | throws => rw [hr] at h; cases h
    | ub => rw [hr] at h; cases h
  | order q o =>
    rcases insertOrder_subs latency x t q o x' outs h with h | ⟨l, hl, _⟩
    · rw [h]; exact hx
    · rw [hx] at hl; cases hl
  | cancel symbol id =>
    simp only [handle, Outcome.ok.injEq, Prod.mk.injEq] at h
    obtain ⟨rfl, rfl⟩ := h
    unfold cancelOrder
    split <;> exact hx

theorem runEvents_bare (latency : Nat → Nat → Nat) (es : List (Nat × Event)) (x x' : Exchange) (outs : List Out) (h : runEvents latency x es = .ok (x', outs))
    (hx : x.subscriptions = []) (hes : ∀ e ∈ es, isSnapshot e.2 = false) (a s : Nat) : sentData a s outs = [] := by
  induction es generalizing latency x outs with
  | nil => simp only [runEvents, Outcome.ok.injEq, Prod.mk.injEq] at h; rw [← h.2]; rfl
  | cons e es ih =>
    obtain ⟨t, e⟩ := e
    obtain ⟨x1, o1, o2, h1, h2, rfl⟩ := runEvents_cons latency x t e es x' outs h
    rw [sentData_append, handle_silent (latency 0) x t e x1 o1 h1 s a (by rw [hx]; rfl), List.nil_append]
    exact ih _ x1 o2 h2 (handle_bare (latency 0) x t e x1 o1 h1 hx (hes _ List.mem_cons_self)) (fun e he => hes e (List.mem_cons_of_mem _ he))

/-! ## Positions -/

theorem emplaceKey_any {α : Type} (k : Nat) (v : α) (l : List (Nat × α)) (h : (l.any fun e => e.1 == k) = true) : emplaceKey k v l = l := by
  unfold emplaceKey; rw [if_pos h]

theorem fold_emplace_any {α : Type} (g : Nat → α) (ts : List Nat) (l : List (Nat × α)) (h : ∀ t ∈ ts, (l.any fun e => e.1 == t) = true) :
    ts.foldl (fun l t => emplaceKey t (g t) l) l = l := by
  induction ts with
  | nil => rfl
  | cons t ts ih =>
    rw [List.foldl_cons, emplaceKey_any _ _ _ (h t List.mem_cons_self)]
    exact ih fun t ht => h t (List.mem_cons_of_mem _ ht)

theorem lookup_fold_emplace {α : Type} (g : Nat → α) (ts : List Nat) (l : List (Nat × α)) (k : Nat) :
    (ts.foldl (fun l t => emplaceKey t (g t) l) l).lookup k = (l.lookup k).or (if k ∈ ts then some (g k) else none) := by
  induction ts generalizing l with
  | nil => simp
  | cons t ts ih =>
    rw [List.foldl_cons, ih, lookup_emplaceKey, Option.or_assoc]
    congr 1
    by_cases hk : k = t
    · subst hk; simp
    · simp [hk]

/-- Somebody is registered for a ticker. -/
def Idle (x : Exchange) : Prop := (∀ t, x.positions.lookup t = some [] ∨ x.positions.lookup t = none) ∧ ∀ t ∈ x.traded, x.positions.lookup t = some []

theorem logoutTicker_idle (sender : Nat) (l : List (Nat × List (Nat × Position))) (t : Nat) (h : l.lookup t = some [] ∨ l.lookup t = none) : logoutTicker sender l t = l := by
  unfold logoutTicker
  rcases h with h | h <;> rw [h] <;> simp

theorem handle_idle (latency : Nat → Nat) (x : Exchange) (t : Nat) (e : Event) (x' : Exchange) (outs : List Out)
    (h : handle latency x t e = .ok (x', outs)) (hx : Idle x) : x'.positions = x.positions ∧ x'.traded = x.traded := by
  cases e with
  | logon q sup =>
    simp only [handle, Outcome.ok.injEq, Prod.mk.injEq] at h
    obtain ⟨rfl, rfl⟩ := h
    refine ⟨?_, rfl⟩
    unfold logon
    apply fold_emplace_any (fun t => [(q, (⟨(sup t).getD 0, 0, 0⟩ : Position))])
    intro t ht
    have := hx.2 t ht
    cases hh : x.positions.any fun e => e.1 == t with
    | true => rfl
    | false => rw [(lookup_none_iff t _).mpr hh] at this; cases this
  | logout q =>
    simp only [handle, Outcome.ok.injEq, Prod.mk.injEq] at h
    obtain ⟨rfl, rfl⟩ := h
    refine ⟨?_, rfl⟩
    unfold logout
    simp only
    generalize x.traded = ts
    induction ts with
    | nil => rfl
    | cons t ts ih => rw [List.foldl_cons, logoutTicker_idle q _ t (hx.1 t)]; exact ih
  | request q d ty is =>
    simp only [handle] at h
    cases hr : requestAll q d t ty is x.subscriptions with
    | ok subs =>
      rw [hr] at h
      simp only [Outcome.bind_ok, Outcome.ok.injEq, Prod.mk.injEq] at h
      obtain ⟨rfl, rfl⟩ := h
      exact ⟨rfl, rfl⟩
    | throws => rw [hr] at h; cases h
    | ub => rw [hr] at h; cases h
  | order q o =>
    simp only [handle, insertOrder] at h
    cases hb : x.books.lookup o.symbol with
    | none => rw [hb] at h; cases h
    | some b =>
      rw [hb] at h
      simp only [Outcome.ok.injEq, Prod.mk.injEq] at h
      obtain ⟨rfl, _⟩ := h
      exact ⟨rfl, rfl⟩
  | cancel symbol id =>
    simp only [handle, Outcome.ok.injEq, Prod.mk.injEq] at h
    obtain ⟨rfl, rfl⟩ := h
    unfold cancelOrder
    split <;> exact ⟨rfl, rfl⟩

theorem runEvents_idle (latency : Nat → Nat → Nat) (es : List (Nat × Event)) (x x' : Exchange) (outs : List Out) (h : runEvents latency x es = .ok (x', outs)) (hx : Idle x) :
    Idle x' := by
  induction es generalizing latency x outs with
  | nil => simp only [runEvents, Outcome.ok.injEq, Prod.mk.injEq] at h; rw [← h.1]; exact hx
  | cons e es ih =>
    obtain ⟨t, e⟩ := e
    obtain ⟨x1, o1, o2, h1, h2, rfl⟩ := runEvents_cons latency x t e es x' outs h
    obtain ⟨g1, g2⟩ := handle_idle (latency 0) x t e x1 o1 h1 hx
    exact ih _ x1 o2 h2 (by unfold Idle; rw [g1, g2]; exact hx)

theorem create_idle (traded : List Nat) (books : List (Nat × Book)) : Idle (create traded books) := by
  unfold Idle create
  simp only [lookup_fold_emplace (fun _ => ([] : List (Nat × Position)))]
  constructor
  · intro t
    by_cases h : t ∈ traded <;> simp [h]
  · intro t ht
    simp [ht]

theorem lookup_logoutTicker (sender : Nat) (l : List (Nat × List (Nat × Position))) (t k : Nat) :
    (logoutTicker sender l t).lookup k = l.lookup k ∨ (k = t ∧ ∀ ps, (logoutTicker sender l t).lookup k = some ps → ps.lookup sender = none) := by
  unfold logoutTicker
  cases hl : l.lookup t with
  | none => exact .inl rfl
  | some ps =>
    simp only
    split
    · by_cases hk : k = t
      · right
        refine ⟨hk, ?_⟩
        subst hk
        intro ps' h
        split at h
        · rw [lookup_eraseKey] at h; simp at h
        · rw [lookup_assignKey, hl] at h
          simp only [if_true, Option.map_some, Option.some.injEq] at h
          rw [← h, lookup_eraseKey]; simp
      · left
        split
        · rw [lookup_eraseKey, if_neg hk]
        · rw [lookup_assignKey, if_neg hk]
    · exact .inl rfl

theorem logoutTicker_gone (sender : Nat) (l : List (Nat × List (Nat × Position))) (t : Nat) (ps : List (Nat × Position))
    (h : (logoutTicker sender l t).lookup t = some ps) : ps.lookup sender = none := by
  unfold logoutTicker at h
  cases hl : l.lookup t with
  | none => rw [hl] at h; simp only at h; rw [hl] at h; cases h
  | some ps0 =>
    rw [hl] at h
    simp only at h
    split at h
    · split at h
      · rw [lookup_eraseKey] at h; simp at h
      · rw [lookup_assignKey, hl] at h
        simp only [if_true, Option.map_some, Option.some.injEq] at h
        rw [← h, lookup_eraseKey]; simp
    · rename_i hn
      rw [hl] at h
      cases h
      exact (lookup_none_iff _ _).mpr (Bool.not_eq_true _ ▸ hn)

theorem fold_logout (sender : Nat) (ts : List Nat) (l : List (Nat × List (Nat × Position))) (t : Nat) (ht : t ∈ ts ∨ ∀ ps, l.lookup t = some ps → ps.lookup sender = none) :
    ∀ ps, (ts.foldl (logoutTicker sender) l).lookup t = some ps → ps.lookup sender = none := by
  induction ts generalizing l with
  | nil => simpa using ht
  | cons u ts ih =>
    rw [List.foldl_cons]
    apply ih
    by_cases hu : t = u
    · subst hu
      right
      exact logoutTicker_gone sender l t
    · rcases ht with ht | ht
      · left; simpa [hu] using ht
      · right
        intro ps h
        rcases lookup_logoutTicker sender l u t with h' | ⟨h', _⟩
        · rw [h'] at h; exact ht ps h
        · exact absurd h' hu

/-! ## The matching engine -/

def engineOp (s : Nat) : EngineOp → Option Op
  | .insert o => if o.symbol = s then some (.insert o) else none
  | .cancel symbol id => if symbol = s then some (.cancel id) else none

theorem empty_cancel (i : Nat) : empty.cancel i = empty := rfl

theorem engine_apply (e : Engine) (op : EngineOp) (s : Nat) :
    ((e.apply op).lookup s).getD empty = (engineOp s op).toList.foldl Book.apply ((e.lookup s).getD empty) := by
  cases op with
  | insert o =>
    simp only [Engine.apply, Engine.insert, engineOp, lookup_assignKey, lookup_emplaceKey]
    by_cases hs : s = o.symbol
    · subst hs
      cases h : e.lookup o.symbol <;> simp [Book.apply]
    · have : ¬ o.symbol = s := fun h => hs h.symm
      simp [hs, this]
  | cancel symbol id =>
    simp only [Engine.apply, Engine.cancel, engineOp]
    by_cases hs : symbol = s
    · subst hs
      cases h : e.lookup symbol with
      | none => simp [Book.apply, empty_cancel, h]
      | some b => simp [Book.apply, lookup_assignKey, h]
    · have hs' : ¬ s = symbol := fun h => hs h.symm
      cases h : e.lookup symbol with
      | none => simp [hs]
      | some b => simp [hs, hs', lookup_assignKey]

theorem engine_run (ops : List EngineOp) (e : Engine) (s : Nat) :
    ((ops.foldl Engine.apply e).lookup s).getD empty = (ops.filterMap (engineOp s)).foldl Book.apply ((e.lookup s).getD empty) := by
  induction ops generalizing e with
  | nil => rfl
  | cons op ops ih =>
    rw [List.foldl_cons, ih, engine_apply, List.filterMap_cons]
    cases engineOp s op <;> rfl

end Esl.Exchange
