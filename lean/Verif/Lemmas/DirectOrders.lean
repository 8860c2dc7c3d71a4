import Verif.Model.DirectOrders
import Verif.Lemmas.Exchange

/-! Lemmas about orders that are entered directly. -/

namespace Esl.DirectOrders
open Esl.Book Esl.Exchange

theorem insertDirect_ok (x x' : Exchange) (o : Order) (h : insertDirect x o = .ok x') :
    ∃ b, x.books.lookup o.symbol = some b ∧ x' = { x with books := assignKey o.symbol (b.insert o) x.books } := by
  unfold insertDirect at h
  cases hb : x.books.lookup o.symbol with
  | none => rw [hb] at h; cases h
  | some b =>
    rw [hb] at h
    simp only [Outcome.ok.injEq] at h
    exact ⟨b, rfl, h.symm⟩

/-- The operation on the book of a symbol that an act causes. -/
def opOf (s : Nat) : Act → Option Op
  | .message e => Exchange.opOf s e
  | .insert o => if o.symbol = s then some (.insert o) else none

theorem act_book (latency : Nat → Nat) (x : Exchange) (t : Nat) (a : Act) (x' : Exchange) (outs : List Out) (h : act latency x t a = .ok (x', outs))
    (s : Nat) (b : Book) (hb : x.books.lookup s = some b) :
    ∃ b', x'.books.lookup s = some b' ∧ strip b' = strip ((opOf s a).toList.foldl Book.apply b) ∧
      sentReports s outs ++ b'.reports.map owned = ((opOf s a).toList.foldl Book.apply b).reports.map owned := by
  cases a with
  | message e =>
    obtain ⟨b', h1, h2, h3, _⟩ := handle_book latency x t e x' outs h s b hb
    exact ⟨b', h1, h2, h3⟩
  | insert o =>
    simp only [act] at h
    cases hi : insertDirect x o with
    | throws => rw [hi] at h; cases h
    | ub => rw [hi] at h; cases h
    | ok x1 =>
      rw [hi] at h
      simp only [Outcome.bind_ok, Outcome.ok.injEq, Prod.mk.injEq] at h
      obtain ⟨rfl, rfl⟩ := h
      obtain ⟨c, hc, rfl⟩ := insertDirect_ok x x1 o hi
      by_cases hs : o.symbol = s
      · subst hs
        rw [hc] at hb
        cases hb
        refine ⟨b.insert o, ?_, ?_, ?_⟩
        · simp [lookup_assignKey, hc]
        · simp [opOf, Book.apply]
        · simp [opOf, Book.apply, sentReports]
      · refine ⟨b, ?_, ?_, ?_⟩
        · simp only [lookup_assignKey]
          rw [if_neg fun h => hs h.symm]
          exact hb
        · simp [opOf, hs]
        · simp [opOf, hs, sentReports]

theorem runActs_cons (latency : Nat → Nat → Nat) (x : Exchange) (t : Nat) (a : Act) (as : List (Nat × Act)) (x' : Exchange) (outs : List Out)
    (h : runActs latency x ((t, a) :: as) = .ok (x', outs)) :
    ∃ x1 o1 o2, act (latency 0) x t a = .ok (x1, o1) ∧ runActs (fun i => latency (i + 1)) x1 as = .ok (x', o2) ∧ outs = o1 ++ o2 := by
  rw [runActs] at h
  cases h1 : act (latency 0) x t a with
  | ok r =>
    rw [h1] at h
    simp only [Outcome.bind_ok] at h
    cases h2 : runActs (fun i => latency (i + 1)) r.1 as with
    | ok r' =>
      rw [h2] at h
      simp only [Outcome.bind_ok, Outcome.ok.injEq, Prod.mk.injEq] at h
      exact ⟨r.1, r.2, r'.2, rfl, by rw [h2, ← h.1], h.2.symm⟩
    | throws => rw [h2] at h; cases h
    | ub => rw [h2] at h; cases h
  | throws => rw [h1] at h; cases h
  | ub => rw [h1] at h; cases h

theorem runActs_book (latency : Nat → Nat → Nat) (as : List (Nat × Act)) (x x' : Exchange) (outs : List Out) (h : runActs latency x as = .ok (x', outs))
    (s : Nat) (b : Book) (hb : x.books.lookup s = some b) :
    ∃ b', x'.books.lookup s = some b' ∧ strip b' = strip ((as.filterMap fun e => opOf s e.2).foldl Book.apply b) ∧
      sentReports s outs ++ b'.reports.map owned = ((as.filterMap fun e => opOf s e.2).foldl Book.apply b).reports.map owned := by
  induction as generalizing latency x b outs with
  | nil =>
    simp only [runActs, Outcome.ok.injEq, Prod.mk.injEq] at h
    obtain ⟨rfl, rfl⟩ := h
    exact ⟨b, hb, rfl, rfl⟩
  | cons e as ih =>
    obtain ⟨t, e⟩ := e
    obtain ⟨x1, o1, o2, h1, h2, rfl⟩ := runActs_cons latency x t e as x' outs h
    obtain ⟨b1, hb1, g1, g2⟩ := act_book (latency 0) x t e x1 o1 h1 s b hb
    obtain ⟨b', hb', g3, g4⟩ := ih _ x1 o2 h2 b1 hb1
    have hcons : (((t, e) :: as).filterMap fun e => opOf s e.2).foldl Book.apply b =
        (as.filterMap fun e => opOf s e.2).foldl Book.apply ((opOf s e).toList.foldl Book.apply b) := by
      rw [List.filterMap_cons]
      cases opOf s e <;> rfl
    generalize hc : (opOf s e).toList.foldl Book.apply b = c at g1 g2 hcons
    generalize (as.filterMap fun e => opOf s e.2) = ops at g3 g4 hcons
    refine ⟨b', hb', ?_, ?_⟩
    · rw [hcons, g3, (foldl_reports ops c).2, (foldl_reports ops b1).2, g1]
    · rw [sentReports_append, List.append_assoc, g4, hcons, (foldl_reports ops c).1, (foldl_reports ops b1).1, List.map_append, ← List.append_assoc, g2, g1,
        List.map_append]

theorem matchLoop_owner (crosses : Int → Bool) (o : Order) (rem : Nat) (l : List Entry) :
    (matchLoop crosses o rem l).remainder = rem ∨ ∃ r ∈ (matchLoop crosses o rem l).reports, r.owner = o.owner := by
  cases l with
  | nil => exact .inl rfl
  | cons e l =>
    rw [matchLoop]
    split
    · exact .inl rfl
    · simp only
      split
      · rename_i h0
        left
        simp only [h0]
        omega
      · right
        split <;> exact ⟨_, List.mem_cons_self, rfl⟩

/-- An order for at least one unit gives its owner a report. -/
theorem insert_owner (b : Book) (o : Order) (hq : 0 < o.quantity) : ∃ r ∈ ((strip b).insert o).reports, r.owner = o.owner := by
  unfold Book.insert
  cases o.side with
  | buy =>
    simp only
    split
    · exact ⟨_, List.mem_append_right _ (List.mem_singleton.mpr rfl), rfl⟩
    · rename_i hr
      rcases matchLoop_owner (fun k => decide (o.limit ≥ k)) o o.quantity (strip b).asks with h | ⟨r, h1, h2⟩
      · exact absurd (by rw [h]; exact hq) hr
      · exact ⟨r, List.mem_append_right _ h1, h2⟩
  | sell =>
    simp only
    split
    · exact ⟨_, List.mem_append_right _ (List.mem_singleton.mpr rfl), rfl⟩
    · rename_i hr
      rcases matchLoop_owner (fun k => decide (o.limit ≤ k)) o o.quantity (strip b).bids with h | ⟨r, h1, h2⟩
      · exact absurd (by rw [h]; exact hq) hr
      · exact ⟨r, List.mem_append_right _ h1, h2⟩

/-- Each report in a book leads to a message with the order that is being handled. -/
theorem reportLoop_mem (latency : Nat → Nat) (lower sender : Nat) (o : Order) (b : Book) (changed : Bool) (rs : List Report)
    (subs : Option (List (Nat × Subscription))) (r : Report) (hr : r ∈ rs) :
    Out.report r.owner (u64 (lower + latency sender)) o r ∈ (reportLoop latency lower sender o b changed rs subs).2 := by
  induction rs generalizing subs with
  | nil => simp at hr
  | cons r0 rs ih =>
    rcases List.mem_cons.mp hr with rfl | hr
    · cases subs with
      | none => simp [reportLoop]
      | some l => simp only [reportLoop]; split <;> exact List.mem_cons_self
    · cases subs with
      | none => simp only [reportLoop]; exact List.mem_cons_of_mem _ (ih none hr)
      | some l =>
        simp only [reportLoop]
        split
        · exact List.mem_cons_of_mem _ (List.mem_append_right _ (ih _ hr))
        · exact List.mem_cons_of_mem _ (ih _ hr)

/-- Without a new best price and without a match of the sender there is no market data. -/
theorem reportLoop_quiet (latency : Nat → Nat) (lower sender : Nat) (o : Order) (b : Book) (rs : List Report)
    (subs : Option (List (Nat × Subscription))) (h : ∀ r ∈ rs, r.state = .match_ → r.owner ≠ sender) (a s : Nat) :
    sentData a s (reportLoop latency lower sender o b false rs subs).2 = [] := by
  induction rs generalizing subs with
  | nil => cases subs <;> rfl
  | cons r rs ih =>
    have ih := fun subs => ih subs fun r' hr' => h r' (List.mem_cons_of_mem _ hr')
    cases subs with
    | none => simp only [reportLoop, sentData_report]; exact ih none
    | some l =>
      have hc : ((decide (r.state = .match_) && decide (r.owner = sender)) || false) = false := by
        by_cases hm : r.state = .match_
        · simp [h r List.mem_cons_self hm]
        · simp [hm]
      simp only [reportLoop, hc, Bool.false_eq_true, if_false, sentData_report]
      exact ih _

end Esl.DirectOrders
