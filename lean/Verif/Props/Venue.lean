import Verif.Model.Venue
import Verif.Lemmas.Flow
import Verif.Props.Exchange
import Verif.Lemmas.OrderBook
import Mathlib.Data.Nat.Pairing
import Mathlib.Tactic.Ring
import Mathlib.Algebra.BigOperators.Group.List.Basic
/-! # C147: at an exchange, every unit of every order is accounted for -/
namespace Esl.Venue
open Esl.Comm Esl.Sched Esl.Book Esl.Exchange Esl.Ledger
variable {τ : Type}

/-! ## Specification -/

/-- The sum of the quantities of the elements that satisfy a condition. -/
def Spec.total {α : Type} (l : List α) (p : α → Bool) (q : α → Nat) : Nat := ((l.filter p).map q).sum

/-- What owner `a` has submitted on side `s` to a book. -/
def Spec.submitted (a : Nat) (s : Side) (ops : List Op) : Nat :=
  Spec.total (ops.filterMap fun op => match op with | .insert o => some o | .cancel _ => none) (fun o => decide (o.owner = a ∧ o.side = s)) (·.quantity)

/-- What reports in state `st` tell owner `a` about side `s`. -/
def Spec.told (st : Status) (a : Nat) (s : Side) (rs : List Report) : Nat := Spec.total rs (fun r => decide (r.state = st ∧ r.owner = a ∧ r.side = s)) (·.quantity)

/-- What rests of the orders of owner `a` on side `s`. -/
def Spec.resting (a : Nat) (s : Side) (b : Book) : Nat := Spec.total (b.bids ++ b.asks) (fun e => decide (e.order.owner = a ∧ e.order.side = s)) (·.order.quantity)

/-- What is traded on side `s` at price `p` according to reports. -/
def Spec.traded (p : Int) (s : Side) (rs : List Report) : Nat := Spec.total rs (fun r => decide (r.state = .match_ ∧ r.limit = p ∧ r.side = s)) (·.quantity)

/-! ## Lemmas about sums -/

theorem total_nil {α : Type} (p : α → Bool) (q : α → Nat) : Spec.total [] p q = 0 := rfl

theorem total_cons {α : Type} (x : α) (l : List α) (p : α → Bool) (q : α → Nat) : Spec.total (x :: l) p q = (if p x then q x else 0) + Spec.total l p q := by
  unfold Spec.total
  cases h : p x <;> simp [h]

theorem total_append {α : Type} (l m : List α) (p : α → Bool) (q : α → Nat) : Spec.total (l ++ m) p q = Spec.total l p q + Spec.total m p q := by
  simp [Spec.total]

theorem total_perm {α : Type} {l m : List α} (h : l.Perm m) (p : α → Bool) (q : α → Nat) : Spec.total l p q = Spec.total m p q := perm_sum_nat ((h.filter p).map q)

theorem total_map {α β : Type} (f : α → β) (l : List α) (p : β → Bool) (q : β → Nat) : Spec.total (l.map f) p q = Spec.total l (fun x => p (f x)) (fun x => q (f x)) := by
  induction l with
  | nil => rfl
  | cons x l ih => rw [List.map_cons, total_cons, total_cons, ih]

/-! ## Books -/

/-- Bids are orders to buy, asks are orders to sell. -/
def Sided (b : Book) : Prop := (∀ e ∈ b.bids, e.order.side = .buy) ∧ ∀ e ∈ b.asks, e.order.side = .sell

/-- What rests in one half. -/
def half (a : Nat) (s : Side) (l : List Entry) : Nat := Spec.total l (fun e => decide (e.order.owner = a ∧ e.order.side = s)) (·.order.quantity)

theorem matchLoop_sides (crosses : Int → Bool) (o : Order) (side : Side) (l : List Entry) (h : ∀ e ∈ l, e.order.side = side) (rem : Nat) : ∀ e ∈ (matchLoop crosses o rem l).resting, e.order.side = side := by
  induction l generalizing rem with
  | nil => simp [matchLoop]
  | cons e l ih =>
    have ih := ih (fun e he => h e (List.mem_cons_of_mem _ he))
    have he := h e (List.mem_cons_self ..)
    rw [matchLoop]
    split
    · exact h
    · simp only
      split
      · exact h
      · split
        · exact ih _
        · intro x hx
          rcases List.mem_cons.1 hx with rfl | hx
          · exact he
          · exact ih _ x hx

/-- What matching takes from the orders is what it reports. -/
theorem matchLoop_told (crosses : Int → Bool) (o : Order) (a : Nat) (s : Side) (l : List Entry) (rem : Nat) :
    half a s l + (if o.owner = a ∧ o.side = s then rem else 0) =
      half a s (matchLoop crosses o rem l).resting + Spec.told .match_ a s (matchLoop crosses o rem l).reports + (if o.owner = a ∧ o.side = s then (matchLoop crosses o rem l).remainder else 0) := by
  induction l generalizing rem with
  | nil => simp [matchLoop, Spec.told, total_nil]
  | cons e l ih =>
    rw [matchLoop]
    by_cases hc : (!crosses e.key) = true
    · rw [if_pos hc]
      simp [Spec.told, total_nil]
    · rw [if_neg hc]
      simp only
      have ih := ih (rem - min rem e.order.quantity)
      have hmin : min rem e.order.quantity ≤ rem ∧ min rem e.order.quantity ≤ e.order.quantity := by omega
      generalize min rem e.order.quantity = x at *
      by_cases h0 : x = 0
      · rw [if_pos h0]
        simp [Spec.told, total_nil, h0]
      · rw [if_neg h0]
        by_cases h1 : e.order.quantity - x = 0
        · rw [if_pos h1]
          unfold half Spec.told at *
          simp only [List.cons_append, List.nil_append, total_cons, true_and, decide_eq_true_eq] at *
          by_cases ho : o.owner = a ∧ o.side = s <;> by_cases he : e.order.owner = a ∧ e.order.side = s <;> simp only [ho, he, and_self, if_true, if_false] at ih ⊢ <;> omega
        · rw [if_neg h1]
          unfold half Spec.told at *
          simp only [List.cons_append, List.nil_append, total_cons, true_and, decide_eq_true_eq] at *
          by_cases ho : o.owner = a ∧ o.side = s <;> by_cases he : e.order.owner = a ∧ e.order.side = s <;> simp only [ho, he, and_self, if_true, if_false] at ih ⊢ <;> omega

/-- Matching reports the same on both sides, at every price. -/
theorem matchLoop_traded (crosses : Int → Bool) (o : Order) (p : Int) (l : List Entry) (h : ∀ e ∈ l, e.order.side ≠ o.side) (rem : Nat) :
    Spec.traded p .buy (matchLoop crosses o rem l).reports = Spec.traded p .sell (matchLoop crosses o rem l).reports := by
  induction l generalizing rem with
  | nil => rfl
  | cons e l ih =>
    have ih := ih (fun e he => h e (List.mem_cons_of_mem _ he))
    have he := h e (List.mem_cons_self ..)
    rw [matchLoop]
    split
    · rfl
    · simp only
      split
      · rfl
      · have ih := ih (rem - min rem e.order.quantity)
        have hc : ∀ rs, Spec.traded p .buy rs = Spec.traded p .sell rs → ∀ x i j (y : Nat), Spec.traded p .buy (⟨.match_, o.side, x, i, e.order.limit, y⟩ :: ⟨.match_, e.order.side, x, j, e.order.limit, e.order.owner⟩ :: rs) =
            Spec.traded p .sell (⟨.match_, o.side, x, i, e.order.limit, y⟩ :: ⟨.match_, e.order.side, x, j, e.order.limit, e.order.owner⟩ :: rs) := by
          intro rs hrs x i j y
          unfold Spec.traded at hrs ⊢
          simp only [total_cons, true_and, decide_eq_true_eq]
          rw [hrs]
          cases h1 : o.side <;> cases h2 : e.order.side <;> simp_all
        split
        · exact hc _ ih _ _ _ _
        · exact hc _ ih _ _ _ _

theorem matchLoop_only (crosses : Int → Bool) (o : Order) (l : List Entry) (rem : Nat) : ∀ r ∈ (matchLoop crosses o rem l).reports, r.state = .match_ := by
  induction l generalizing rem with
  | nil => simp [matchLoop]
  | cons e l ih =>
    rw [matchLoop]
    split
    · simp
    · simp only
      split
      · simp
      · split
        · intro r hr
          simp only [List.cons_append, List.nil_append, List.mem_cons] at hr
          rcases hr with rfl | rfl | hr
          · rfl
          · rfl
          · exact ih _ r hr
        · intro r hr
          simp only [List.cons_append, List.nil_append, List.mem_cons] at hr
          rcases hr with rfl | rfl | hr
          · rfl
          · rfl
          · exact ih _ r hr

theorem told_append (st : Status) (a : Nat) (s : Side) (l m : List Report) : Spec.told st a s (l ++ m) = Spec.told st a s l + Spec.told st a s m := total_append ..

theorem traded_append (p : Int) (s : Side) (l m : List Report) : Spec.traded p s (l ++ m) = Spec.traded p s l + Spec.traded p s m := total_append ..

theorem told_none (st : Status) (a : Nat) (s : Side) (rs : List Report) (h : ∀ r ∈ rs, r.state ≠ st) : Spec.told st a s rs = 0 := by
  induction rs with
  | nil => rfl
  | cons r rs ih =>
    have h1 := h r (List.mem_cons_self ..)
    have h2 := ih fun r hr => h r (List.mem_cons_of_mem _ hr)
    unfold Spec.told at h2 ⊢
    rw [total_cons, h2]
    simp [h1]

theorem traded_none (p : Int) (s : Side) (rs : List Report) (h : ∀ r ∈ rs, r.state ≠ .match_) : Spec.traded p s rs = 0 := by
  induction rs with
  | nil => rfl
  | cons r rs ih =>
    have h1 := h r (List.mem_cons_self ..)
    have h2 := ih fun r hr => h r (List.mem_cons_of_mem _ hr)
    unfold Spec.traded at h2 ⊢
    rw [total_cons, h2]
    simp [h1]

theorem half_emplace (f : Int → Int → Bool) (a : Nat) (s : Side) (e : Entry) (l : List Entry) : half a s (emplace f e l) = (if e.order.owner = a ∧ e.order.side = s then e.order.quantity else 0) + half a s l := by
  unfold half
  rw [total_perm (emplace_perm f e l), total_cons]
  simp

theorem resting_halves (a : Nat) (s : Side) (b : Book) : Spec.resting a s b = half a s b.bids + half a s b.asks := total_append ..

/-- One insertion: what was there and what is submitted is what rests and what the new reports say, both sides of the new reports agree, and none of them tells of a cancellation. -/
theorem insert_told (b : Book) (o : Order) (hb : Sided b) : Sided (b.insert o) ∧ ∃ new, (b.insert o).reports = b.reports ++ new ∧
    (∀ a s, Spec.resting a s b + (if o.owner = a ∧ o.side = s then o.quantity else 0) = Spec.resting a s (b.insert o) + Spec.told .match_ a s new) ∧
    (∀ r ∈ new, r.state ≠ .cancel) ∧ ∀ p, Spec.traded p .buy new = Spec.traded p .sell new := by
  unfold Book.insert
  cases hs : o.side with
  | buy =>
    have h1 := matchLoop_told (fun k => decide (o.limit ≥ k)) o
    have h2 := matchLoop_sides (fun k => decide (o.limit ≥ k)) o .sell b.asks hb.2 o.quantity
    have h3 := fun p => matchLoop_traded (fun k => decide (o.limit ≥ k)) o p b.asks (fun e he => by rw [hb.2 e he, hs]; simp) o.quantity
    have h4 := matchLoop_only (fun k => decide (o.limit ≥ k)) o b.asks o.quantity
    simp only
    split
    · refine ⟨⟨fun e he => ?_, h2⟩, _, List.append_assoc .., fun a s => ?_, fun r hr => ?_, fun p => ?_⟩
      · rcases (mem_emplace _ _ _ _).1 he with rfl | he
        · rfl
        · exact hb.1 e he
      · have := h1 a s b.asks o.quantity
        rw [resting_halves, resting_halves, half_emplace, told_append, told_none .match_ a s [_] (by simp)]
        simp only [hs] at this ⊢
        omega
      · rcases List.mem_append.1 hr with hr | hr
        · rw [h4 r hr]; simp
        · rw [List.mem_singleton.1 hr]; simp
      · rw [traded_append, traded_append, h3, traded_none p _ [_] (by simp), traded_none p _ [_] (by simp)]
    · rename_i hr0
      refine ⟨⟨hb.1, h2⟩, _, rfl, fun a s => ?_, fun r hr => by rw [h4 r hr]; simp, h3⟩
      have := h1 a s b.asks o.quantity
      rw [resting_halves, resting_halves]
      simp only [hs] at this ⊢
      have h0 : (matchLoop (fun k => decide (o.limit ≥ k)) o o.quantity b.asks).remainder = 0 := by omega
      rw [h0, ite_self] at this
      omega
  | sell =>
    have h1 := matchLoop_told (fun k => decide (o.limit ≤ k)) o
    have h2 := matchLoop_sides (fun k => decide (o.limit ≤ k)) o .buy b.bids hb.1 o.quantity
    have h3 := fun p => matchLoop_traded (fun k => decide (o.limit ≤ k)) o p b.bids (fun e he => by rw [hb.1 e he, hs]; simp) o.quantity
    have h4 := matchLoop_only (fun k => decide (o.limit ≤ k)) o b.bids o.quantity
    simp only
    split
    · refine ⟨⟨h2, fun e he => ?_⟩, _, List.append_assoc .., fun a s => ?_, fun r hr => ?_, fun p => ?_⟩
      · rcases (mem_emplace _ _ _ _).1 he with rfl | he
        · rfl
        · exact hb.2 e he
      · have := h1 a s b.bids o.quantity
        rw [resting_halves, resting_halves, half_emplace, told_append, told_none .match_ a s [_] (by simp)]
        simp only [hs] at this ⊢
        omega
      · rcases List.mem_append.1 hr with hr | hr
        · rw [h4 r hr]; simp
        · rw [List.mem_singleton.1 hr]; simp
      · rw [traded_append, traded_append, h3, traded_none p _ [_] (by simp), traded_none p _ [_] (by simp)]
    · rename_i hr0
      refine ⟨⟨h2, hb.2⟩, _, rfl, fun a s => ?_, fun r hr => by rw [h4 r hr]; simp, h3⟩
      have := h1 a s b.bids o.quantity
      rw [resting_halves, resting_halves]
      simp only [hs] at this ⊢
      have h0 : (matchLoop (fun k => decide (o.limit ≤ k)) o o.quantity b.bids).remainder = 0 := by omega
      rw [h0, ite_self] at this
      omega

theorem cancelIn_told (side : Side) (p : Int) (i a : Nat) (s : Side) (l : List Entry) (h : ∀ e ∈ l, e.order.side = side) :
    half a s l = half a s (cancelIn side p i l).1 + Spec.told .cancel a s (cancelIn side p i l).2 ∧ (∀ e ∈ (cancelIn side p i l).1, e ∈ l) ∧ ∀ r ∈ (cancelIn side p i l).2, r.state = .cancel := by
  induction l with
  | nil => simp [cancelIn, Spec.told, total_nil]
  | cons e l ih =>
    have he := h e (List.mem_cons_self ..)
    obtain ⟨i1, i2, i3⟩ := ih fun e he => h e (List.mem_cons_of_mem _ he)
    rw [cancelIn]
    split
    · refine ⟨?_, fun x hx => List.mem_cons_of_mem _ hx, by simp⟩
      unfold half Spec.told
      simp only [total_cons, total_nil, true_and, decide_eq_true_eq, he]
      omega
    · refine ⟨?_, fun x hx => ?_, i3⟩
      · unfold half at i1 ⊢
        simp only [total_cons]
        omega
      · rcases List.mem_cons.1 hx with rfl | hx
        · exact List.mem_cons_self ..
        · exact List.mem_cons_of_mem _ (i2 x hx)

/-- One cancellation: what was there is what rests and what the new reports say, and all of them tell of cancellations. -/
theorem cancel_told (b : Book) (i : Nat) (hb : Sided b) : Sided (b.cancel i) ∧ ∃ new, (b.cancel i).reports = b.reports ++ new ∧
    (∀ a s, Spec.resting a s b = Spec.resting a s (b.cancel i) + Spec.told .cancel a s new) ∧ ∀ r ∈ new, r.state = .cancel := by
  have none : Sided b ∧ ∃ new, b.reports = b.reports ++ new ∧ (∀ a s, Spec.resting a s b = Spec.resting a s b + Spec.told .cancel a s new) ∧ ∀ r ∈ new, r.state = .cancel :=
    ⟨hb, [], by simp, fun a s => by simp [Spec.told, total_nil], by simp⟩
  unfold Book.cancel
  split
  · exact none
  · rename_i p _
    split
    · have h := fun a s => cancelIn_told .buy p i a s b.bids hb.1
      refine ⟨⟨fun e he => hb.1 e ((h 0 .buy).2.1 e he), hb.2⟩, _, rfl, fun a s => ?_, (h 0 .buy).2.2⟩
      have := (h a s).1
      rw [resting_halves, resting_halves]
      simp only
      omega
    · split
      · have h := fun a s => cancelIn_told .sell p i a s b.asks hb.2
        refine ⟨⟨hb.1, fun e he => hb.2 e ((h 0 .buy).2.1 e he)⟩, _, rfl, fun a s => ?_, (h 0 .buy).2.2⟩
        have := (h a s).1
        rw [resting_halves, resting_halves]
        simp only
        omega
      · exact none

/-- **C147 for a book.** In any history of a new order book, whatever the orders and however many: for every owner and side, what was submitted is what the reports say was executed, plus what the reports say was cancelled, plus what rests. -/
theorem C147_book (ops : List Op) (a : Nat) (s : Side) :
    Spec.submitted a s ops = Spec.told .match_ a s (run ops).reports + Spec.told .cancel a s (run ops).reports + Spec.resting a s (run ops) := by
  have key : Sided (run ops) ∧ Spec.submitted a s ops = Spec.told .match_ a s (run ops).reports + Spec.told .cancel a s (run ops).reports + Spec.resting a s (run ops) := by
    induction ops using snoc_induct with
    | h0 => exact ⟨by simp [Sided, run, empty], rfl⟩
    | h1 ops op ih =>
      obtain ⟨ih1, ih2⟩ := ih
      rw [run_append]
      have hsub : Spec.submitted a s (ops ++ [op]) = Spec.submitted a s ops + Spec.submitted a s [op] := by
        unfold Spec.submitted
        rw [List.filterMap_append, total_append]
      rw [hsub]
      cases op with
      | insert o =>
        obtain ⟨h1, new, h2, h3, h4, -⟩ := insert_told (run ops) o ih1
        refine ⟨h1, ?_⟩
        have := h3 a s
        have hz := told_none .cancel a s new h4
        have ho : Spec.submitted a s [.insert o] = if o.owner = a ∧ o.side = s then o.quantity else 0 := by
          simp [Spec.submitted, total_cons, total_nil]
        simp only [Book.apply]
        rw [h2, told_append, told_append, ho]
        omega
      | cancel i =>
        obtain ⟨h1, new, h2, h3, h4⟩ := cancel_told (run ops) i ih1
        refine ⟨h1, ?_⟩
        have := h3 a s
        have hz := told_none .match_ a s new fun r hr => by rw [h4 r hr]; simp
        have ho : Spec.submitted a s [.cancel i] = 0 := rfl
        simp only [Book.apply]
        rw [h2, told_append, told_append, ho]
        omega
  exact key.2

/-- **C147, both sides of a book.** In any history of a new order book, at every price, as much is reported bought as is reported sold. -/
theorem C147_sides (ops : List Op) (p : Int) : Spec.traded p .buy (run ops).reports = Spec.traded p .sell (run ops).reports := by
  have key : Sided (run ops) ∧ Spec.traded p .buy (run ops).reports = Spec.traded p .sell (run ops).reports := by
    induction ops using snoc_induct with
    | h0 => exact ⟨by simp [Sided, run, empty], rfl⟩
    | h1 ops op ih =>
      obtain ⟨ih1, ih2⟩ := ih
      rw [run_append]
      cases op with
      | insert o =>
        obtain ⟨h1, new, h2, -, -, h5⟩ := insert_told (run ops) o ih1
        refine ⟨h1, ?_⟩
        simp only [Book.apply]
        rw [h2, traded_append, traded_append, ih2, h5]
      | cancel i =>
        obtain ⟨h1, new, h2, -, h4⟩ := cancel_told (run ops) i ih1
        refine ⟨h1, ?_⟩
        simp only [Book.apply]
        rw [h2, traded_append, traded_append, ih2, traded_none p _ new fun r hr => by rw [h4 r hr]; simp, traded_none p _ new fun r hr => by rw [h4 r hr]; simp]
  exact key.2

/-- Owner 1 offers 5, of which 2 are bought by owner 2, and then withdraws. Owner 1 has submitted 5, has sold 2 and cancelled 3. -/
example : let ops : List Op := [.insert ⟨.goodUntilCancelled, .sell, 7, 1, 100, 5⟩, .insert ⟨.goodUntilCancelled, .buy, 7, 2, 101, 2⟩, .cancel 0]
    Spec.submitted 1 .sell ops = 5 ∧ Spec.told .match_ 1 .sell (run ops).reports = 2 ∧ Spec.told .cancel 1 .sell (run ops).reports = 3 ∧ Spec.resting 1 .sell (run ops) = 0 ∧
    Spec.traded 100 .buy (run ops).reports = 2 := by decide +kernel

/-! ## Exchanges -/

/-- What the execution reports that were sent to `a` say in state `st` about side `s`. -/
def Spec.toldTo (st : Status) (a : Nat) (s : Side) (rs : List (Nat × Report)) : Nat := Spec.total rs (fun r => decide (r.2.state = st ∧ r.1 = a ∧ r.2.side = s)) (·.2.quantity)

/-- What is traded on side `s` at price `p` according to the execution reports that were sent. -/
def Spec.tradedIn (p : Int) (s : Side) (rs : List (Nat × Report)) : Nat := Spec.total rs (fun r => decide (r.2.state = .match_ ∧ r.2.limit = p ∧ r.2.side = s)) (·.2.quantity)

/-- The book of a symbol, which is empty when there is none. -/
def Spec.bookOf (x : Exchange) (t : Nat) : Book := (x.books.lookup t).getD empty

theorem toldTo_append (st : Status) (a : Nat) (s : Side) (l m : List (Nat × Report)) : Spec.toldTo st a s (l ++ m) = Spec.toldTo st a s l + Spec.toldTo st a s m := total_append ..

theorem tradedIn_append (p : Int) (s : Side) (l m : List (Nat × Report)) : Spec.tradedIn p s (l ++ m) = Spec.tradedIn p s l + Spec.tradedIn p s m := total_append ..

theorem toldTo_owned (st : Status) (a : Nat) (s : Side) (rs : List Report) : Spec.toldTo st a s (rs.map owned) = Spec.told st a s rs := total_map ..

theorem tradedIn_owned (p : Int) (s : Side) (rs : List Report) : Spec.tradedIn p s (rs.map owned) = Spec.traded p s rs := total_map ..

/-- Books in which only cancellations wait to be reported. -/
def Good (x : Exchange) : Prop := ∀ t, Sided (Spec.bookOf x t) ∧ ∀ r ∈ (Spec.bookOf x t).reports, r.state = .cancel

/-- What an event submits. -/
def asked (t a : Nat) (s : Side) (e : Exchange.Event) : Nat :=
  match e with
  | .order _ o => if o.symbol = t ∧ o.owner = a ∧ o.side = s then o.quantity else 0
  | _ => 0

/-- Without a book there are no reports. -/
theorem handle_nobook (latency : Nat → Nat) (x : Exchange) (lower : Nat) (e : Exchange.Event) (x' : Exchange) (outs : List Out) (h : handle latency x lower e = .ok (x', outs))
    (t : Nat) (hb : x.books.lookup t = none) : x'.books.lookup t = none ∧ sentReports t outs = [] ∧ opOf t e = (match e with | .cancel symbol id => if symbol = t then some (.cancel id) else none | _ => none) := by
  cases e with
  | logon a sup =>
    simp only [handle, Outcome.ok.injEq, Prod.mk.injEq] at h
    obtain ⟨rfl, rfl⟩ := h
    exact ⟨hb, rfl, rfl⟩
  | logout a =>
    simp only [handle, Outcome.ok.injEq, Prod.mk.injEq] at h
    obtain ⟨rfl, rfl⟩ := h
    exact ⟨hb, rfl, rfl⟩
  | request a d ty is =>
    simp only [handle] at h
    cases hr : requestAll a d lower ty is x.subscriptions with
    | ok subs =>
      rw [hr] at h
      simp only [Outcome.bind_ok, Outcome.ok.injEq, Prod.mk.injEq] at h
      obtain ⟨rfl, rfl⟩ := h
      exact ⟨hb, rfl, rfl⟩
    | throws => rw [hr] at h; cases h
    | ub => rw [hr] at h; cases h
  | order q o =>
    simp only [handle, insertOrder] at h
    cases hl : x.books.lookup o.symbol with
    | none => rw [hl] at h; cases h
    | some b0 =>
      rw [hl] at h
      simp only [Outcome.ok.injEq, Prod.mk.injEq] at h
      obtain ⟨rfl, rfl⟩ := h
      have hne : o.symbol ≠ t := fun e => by rw [e, hb] at hl; cases hl
      refine ⟨?_, ?_, ?_⟩
      · simp only [lookup_assignKey]
        rw [if_neg fun e => hne e.symm]
        exact hb
      · rw [reportLoop_sent, if_neg hne]
      · simp [opOf, hne]
  | cancel symbol id =>
    simp only [handle, Outcome.ok.injEq, Prod.mk.injEq] at h
    obtain ⟨rfl, rfl⟩ := h
    refine ⟨?_, rfl, rfl⟩
    unfold cancelOrder
    cases hl : x.books.lookup symbol with
    | none => exact hb
    | some b0 =>
      have hne : symbol ≠ t := fun e => by rw [e, hb] at hl; cases hl
      simp only [lookup_assignKey]
      rw [if_neg fun e => hne e.symm]
      exact hb

/-- One event: what rests, waits to be reported and is asked for is what rests, waits and is reported afterwards. Reports agree on both sides. -/
theorem handle_told (latency : Nat → Nat) (x : Exchange) (lower : Nat) (e : Exchange.Event) (x' : Exchange) (outs : List Out) (h : handle latency x lower e = .ok (x', outs)) (hg : Good x) :
    Good x' ∧ (∀ t a s, Spec.resting a s (Spec.bookOf x t) + Spec.told .cancel a s (Spec.bookOf x t).reports + asked t a s e =
      Spec.resting a s (Spec.bookOf x' t) + Spec.told .cancel a s (Spec.bookOf x' t).reports + Spec.toldTo .match_ a s (sentReports t outs) + Spec.toldTo .cancel a s (sentReports t outs)) ∧
    ∀ t p, Spec.tradedIn p .buy (sentReports t outs) = Spec.tradedIn p .sell (sentReports t outs) := by
  have key : ∀ t, (Sided (Spec.bookOf x' t) ∧ ∀ r ∈ (Spec.bookOf x' t).reports, r.state = .cancel) ∧ (∀ a s, Spec.resting a s (Spec.bookOf x t) + Spec.told .cancel a s (Spec.bookOf x t).reports + asked t a s e =
      Spec.resting a s (Spec.bookOf x' t) + Spec.told .cancel a s (Spec.bookOf x' t).reports + Spec.toldTo .match_ a s (sentReports t outs) + Spec.toldTo .cancel a s (sentReports t outs)) ∧
      ∀ p, Spec.tradedIn p .buy (sentReports t outs) = Spec.tradedIn p .sell (sentReports t outs) := by
    intro t
    have hgt := hg t
    cases hb : x.books.lookup t with
    | none =>
      obtain ⟨h1, h2, h3⟩ := handle_nobook latency x lower e x' outs h t hb
      have e1 : Spec.bookOf x t = empty := by unfold Spec.bookOf; rw [hb]; rfl
      have e2 : Spec.bookOf x' t = empty := by unfold Spec.bookOf; rw [h1]; rfl
      rw [e1] at hgt ⊢
      rw [e2, h2]
      refine ⟨hgt, fun a s => ?_, fun p => rfl⟩
      have : asked t a s e = 0 := by
        cases e with
        | order q o =>
          unfold asked
          simp only [opOf] at h3
          by_cases ho : o.symbol = t
          · rw [if_pos ho] at h3; cases h3
          · simp [ho]
        | _ => rfl
      rw [this]
      rfl
    | some b =>
      obtain ⟨b', hb', hstrip, hrep, horder⟩ := handle_book latency x lower e x' outs h t b hb
      have e1 : Spec.bookOf x t = b := by unfold Spec.bookOf; rw [hb]; rfl
      have e2 : Spec.bookOf x' t = b' := by unfold Spec.bookOf; rw [hb']; rfl
      rw [e1] at hgt ⊢
      rw [e2]
      generalize hc : (opOf t e).toList.foldl Book.apply b = c at hstrip hrep
      have hbids : b'.bids = c.bids := by
        have := congrArg Book.bids hstrip
        simpa [strip] using this
      have hasks : b'.asks = c.asks := by
        have := congrArg Book.asks hstrip
        simpa [strip] using this
      have hrest : ∀ a s, Spec.resting a s b' = Spec.resting a s c := by
        intro a s
        unfold Spec.resting
        rw [hbids, hasks]
      have htold : ∀ st a s, Spec.toldTo st a s (sentReports t outs) + Spec.told st a s b'.reports = Spec.told st a s c.reports := by
        intro st a s
        rw [← toldTo_owned, ← toldTo_append, hrep, toldTo_owned]
      have htraded : ∀ p s, Spec.tradedIn p s (sentReports t outs) + Spec.traded p s b'.reports = Spec.traded p s c.reports := by
        intro p s
        rw [← tradedIn_owned, ← tradedIn_append, hrep, tradedIn_owned]
      have hmem : ∀ r ∈ b'.reports, r ∈ c.reports := by
        intro r hr
        have : owned r ∈ c.reports.map owned := by
          rw [← hrep]
          exact List.mem_append_right _ (List.mem_map.2 ⟨r, hr, rfl⟩)
        obtain ⟨r', hr', he⟩ := List.mem_map.1 this
        unfold owned at he
        injection he with _ he
        rw [← he]; exact hr'
      -- the rest follows once the new reports are known
      have finish : ∀ new : List Report, Sided c → c.reports = b.reports ++ new → (∀ r ∈ b'.reports, r.state = .cancel) →
          (∀ a s, Spec.resting a s b + asked t a s e = Spec.resting a s c + Spec.told .match_ a s new + Spec.told .cancel a s new) →
          (∀ p, Spec.traded p .buy new = Spec.traded p .sell new) →
          (Sided b' ∧ ∀ r ∈ b'.reports, r.state = .cancel) ∧ (∀ a s, Spec.resting a s b + Spec.told .cancel a s b.reports + asked t a s e =
            Spec.resting a s b' + Spec.told .cancel a s b'.reports + Spec.toldTo .match_ a s (sentReports t outs) + Spec.toldTo .cancel a s (sentReports t outs)) ∧
          ∀ p, Spec.tradedIn p .buy (sentReports t outs) = Spec.tradedIn p .sell (sentReports t outs) := by
        intro new hsided hnew hcancel hsum hbal
        refine ⟨⟨⟨by rw [hbids]; exact hsided.1, by rw [hasks]; exact hsided.2⟩, hcancel⟩, fun a s => ?_, fun p => ?_⟩
        · have h1 := htold .match_ a s
          have h2 := htold .cancel a s
          have h3 := told_none .match_ a s b'.reports fun r hr => by rw [hcancel r hr]; simp
          have h4 := told_none .match_ a s b.reports fun r hr => by rw [hgt.2 r hr]; simp
          rw [hnew, told_append] at h1 h2
          have h5 := hsum a s
          rw [hrest]
          omega
        · have h1 := htraded p .buy
          have h2 := htraded p .sell
          rw [traded_none p _ b'.reports fun r hr => by rw [hcancel r hr]; simp, hnew, traded_append, traded_none p _ b.reports fun r hr => by rw [hgt.2 r hr]; simp] at h1 h2
          have := hbal p
          omega
      have nothing : c = b → (∀ a s, asked t a s e = 0) → _ := fun hcb hz => finish [] (by rw [hcb]; exact hgt.1) (by rw [hcb]; simp) (fun r hr => hgt.2 r (by rw [← hcb]; exact hmem r hr))
        (fun a s => by rw [hz, hcb]; simp [Spec.told, total_nil]) (fun p => rfl)
      cases e with
      | order q o =>
        by_cases ho : o.symbol = t
        · have hcb : c = b.insert o := by rw [← hc]; simp [opOf, ho, Book.apply]
          obtain ⟨h1, new, h2, h3, h4, h5⟩ := insert_told b o hgt.1
          refine finish new (by rw [hcb]; exact h1) (by rw [hcb]; exact h2) (by rw [horder q o rfl ho]; simp) (fun a s => ?_) h5
          rw [hcb, told_none .cancel a s new h4]
          have := h3 a s
          simp only [asked, ho, true_and]
          omega
        · exact nothing (by rw [← hc]; simp [opOf, ho]) fun a s => by simp [asked, ho]
      | cancel symbol id =>
        by_cases ho : symbol = t
        · have hcb : c = b.cancel id := by rw [← hc]; simp [opOf, ho, Book.apply]
          obtain ⟨h1, new, h2, h3, h4⟩ := cancel_told b id hgt.1
          refine finish new (by rw [hcb]; exact h1) (by rw [hcb]; exact h2) (fun r hr => ?_) (fun a s => ?_) (fun p => ?_)
          · have := hmem r hr
            rw [hcb, h2] at this
            rcases List.mem_append.1 this with h | h
            · exact hgt.2 r h
            · exact h4 r h
          · rw [hcb, told_none .match_ a s new fun r hr => by rw [h4 r hr]; simp]
            have := h3 a s
            simp only [asked]
            omega
          · rw [traded_none p _ new fun r hr => by rw [h4 r hr]; simp, traded_none p _ new fun r hr => by rw [h4 r hr]; simp]
        · exact nothing (by rw [← hc]; simp [opOf, ho]) fun a s => rfl
      | logon => exact nothing (by rw [← hc]; rfl) fun a s => rfl
      | logout => exact nothing (by rw [← hc]; rfl) fun a s => rfl
      | request => exact nothing (by rw [← hc]; rfl) fun a s => rfl
  exact ⟨fun t => (key t).1, fun t => (key t).2.1, fun t => (key t).2.2⟩

theorem good_create (traded : List Nat) (books : List (Nat × Book)) (h : ∀ t b, books.lookup t = some b → b = empty) : Good (create traded books) := by
  intro t
  have : Spec.bookOf (create traded books) t = empty := by
    unfold Spec.bookOf create
    cases hb : books.lookup t with
    | none => rfl
    | some b => exact h t b hb
  rw [this]
  simp [Sided, empty]

/-- Histories of events. -/
theorem runEvents_told (latency : Nat → Nat → Nat) (es : List (Nat × Exchange.Event)) (x x' : Exchange) (outs : List Out) (h : runEvents latency x es = .ok (x', outs)) (hg : Good x) :
    (∀ t a s, Spec.resting a s (Spec.bookOf x t) + Spec.told .cancel a s (Spec.bookOf x t).reports + Spec.submitted a s (Exchange.Spec.ops t es) =
      Spec.resting a s (Spec.bookOf x' t) + Spec.told .cancel a s (Spec.bookOf x' t).reports + Spec.toldTo .match_ a s (sentReports t outs) + Spec.toldTo .cancel a s (sentReports t outs)) ∧
    ∀ t p, Spec.tradedIn p .buy (sentReports t outs) = Spec.tradedIn p .sell (sentReports t outs) := by
  induction es generalizing latency x outs with
  | nil =>
    simp only [runEvents, Outcome.ok.injEq, Prod.mk.injEq] at h
    obtain ⟨rfl, rfl⟩ := h
    exact ⟨fun t a s => rfl, fun t p => rfl⟩
  | cons e es ih =>
    obtain ⟨lower, e⟩ := e
    obtain ⟨x1, o1, o2, h1, h2, rfl⟩ := runEvents_cons latency x lower e es x' outs h
    obtain ⟨g1, g2, g3⟩ := handle_told (latency 0) x lower e x1 o1 h1 hg
    obtain ⟨i1, i2⟩ := ih _ x1 o2 h2 g1
    refine ⟨fun t a s => ?_, fun t p => ?_⟩
    · rw [sentReports_append, toldTo_append, toldTo_append]
      have h3 := g2 t a s
      have h4 := i1 t a s
      have h5 : Spec.submitted a s (Exchange.Spec.ops t ((lower, e) :: es)) = asked t a s e + Spec.submitted a s (Exchange.Spec.ops t es) := by
        unfold Spec.submitted Exchange.Spec.ops
        rw [List.filterMap_cons]
        cases e with
        | order q o =>
          by_cases ho : o.symbol = t
          · simp [asked, ho, total_cons]
          · simp [asked, ho]
        | cancel symbol id =>
          by_cases ho : symbol = t
          · simp [asked, ho]
          · simp [asked, ho]
        | _ => simp [asked]
      omega
    · rw [sentReports_append, tradedIn_append, tradedIn_append, g3, i2]

/-- **C147 for an exchange.** In any history of a new exchange with empty books, for every symbol, owner and side: what was submitted is what the reports that were sent to the owner say was executed, plus what they say was cancelled, plus
what was cancelled and waits to be reported, plus what rests in the book. -/
theorem C147_exchange (latency : Nat → Nat → Nat) (traded : List Nat) (books : List (Nat × Book)) (hempty : ∀ t b, books.lookup t = some b → b = empty) (es : List (Nat × Exchange.Event)) (x : Exchange) (outs : List Out)
    (h : runEvents latency (create traded books) es = .ok (x, outs)) (t a : Nat) (s : Side) :
    Spec.submitted a s (Exchange.Spec.ops t es) = Spec.toldTo .match_ a s (Exchange.Spec.sent t outs) + Spec.toldTo .cancel a s (Exchange.Spec.sent t outs) +
      Spec.told .cancel a s (Spec.bookOf x t).reports + Spec.resting a s (Spec.bookOf x t) := by
  have hg := good_create traded books hempty
  have hb : Spec.bookOf (create traded books) t = empty := by
    unfold Spec.bookOf create
    cases hb : books.lookup t with
    | none => rfl
    | some b => exact hempty t b hb
  have := (runEvents_told latency es _ x outs h hg).1 t a s
  rw [hb] at this
  have e1 : Spec.resting a s empty = 0 := rfl
  have e2 : Spec.told .cancel a s empty.reports = 0 := rfl
  rw [sent_eq]
  omega

/-- **C147, both sides at an exchange.** In any history of a new exchange with empty books, for every symbol and price, as much is reported bought as is reported sold, in the reports that were sent. -/
theorem C147_exchange_sides (latency : Nat → Nat → Nat) (traded : List Nat) (books : List (Nat × Book)) (hempty : ∀ t b, books.lookup t = some b → b = empty) (es : List (Nat × Exchange.Event)) (x : Exchange) (outs : List Out)
    (h : runEvents latency (create traded books) es = .ok (x, outs)) (t : Nat) (p : Int) : Spec.tradedIn p .buy (Exchange.Spec.sent t outs) = Spec.tradedIn p .sell (Exchange.Spec.sent t outs) := by
  rw [sent_eq]
  exact (runEvents_told latency es _ x outs h (good_create traded books hempty)).2 t p

/-- The events of C37: agent 1 has sold 2 of 5 to agent 3, and the cancellation of the 3 units of agent 2 waits to be reported. -/
example : (∀ t b, demoBooks.lookup t = some b → b = empty) ∧ Spec.submitted 1 .sell (Exchange.Spec.ops 7 demoEvents) = 5 ∧ Spec.submitted 2 .sell (Exchange.Spec.ops 8 demoEvents) = 3 ∧
    (match runEvents (fun _ _ => 0) (create [7, 8] demoBooks) demoEvents with
      | .ok (x, outs) => (Spec.toldTo .match_ 1 .sell (Exchange.Spec.sent 7 outs), Spec.resting 1 .sell (Spec.bookOf x 7), Spec.told .cancel 2 .sell (Spec.bookOf x 8).reports, Spec.tradedIn 100 .buy (Exchange.Spec.sent 7 outs))
      | _ => (0, 0, 0, 0)) = (2, 3, 3, 2) := by
  refine ⟨fun t b h => ?_, by decide +kernel, by decide +kernel, by decide +kernel⟩
  unfold demoBooks at h
  simp only [List.lookup] at h
  split at h
  · exact (Option.some.inj h).symm
  · split at h
    · exact (Option.some.inj h).symm
    · cases h

/-! ## Simulations -/

/-- The codes of the messages that an exchange handles. -/
def Spec.codes : List Nat := [logonCode, logoutCode, requestCode, orderCode, cancelCode]

/-- An execution report in the name of agent `x`. -/
def Spec.isReport (x : Nat) (m : Msg) : Prop := m.type = reportCode ∧ m.sender = x

/-- A callback, or what an agent does when it acts, that leaves the exchange alone: it may do anything with the rest of the state, and may throw, but it neither changes books nor sends execution reports. -/
def Spec.Quiet (x : Nat) (f : Callback (Desk τ)) : Prop :=
  ∀ s m step, (f s m step).1.exchange = s.exchange ∧ (s.failed = true → (f s m step).1.failed = true) ∧ ∀ m' ∈ (f s m step).2.1, ¬ Spec.isReport x m'

/-- A simulation in which agent `x` is an exchange. It has the callbacks of an exchange, and may do other things, such as sending orders. The other agents do anything, except for sending execution reports in the name of the exchange. Execution reports can be read. -/
structure Spec.Hosts (c : Contents) (x : Nat) (P : Program (Desk τ)) : Prop where
  shuffles : ∀ i t r, Comm.Spec.IsShuffle (P.shuffle i t r)
  readable : ∀ o r, c.reported (c.report o r) = (o, r)
  exchange : ∀ r, ∀ code ∈ Spec.codes, ∃ p latency, P.handlers x r code = [(p, exchangeEntry c latency x)]
  others : ∀ r, ∀ code ∉ Spec.codes, ∀ e ∈ P.handlers x r code, Spec.Quiet x e.2.function
  acts : ∀ r, Spec.Quiet x fun s _ step => P.act x r s step
  replies : ∀ i ≠ x, ∀ r code, ∀ e ∈ P.handlers i r code, ∀ s m step, ∀ m' ∈ (e.2.function s m step).2.1, ¬ Spec.isReport x m'
  sends : ∀ i ≠ x, ∀ r s step, ∀ m' ∈ (P.act i r s step).2.1, ¬ Spec.isReport x m'

/-- What messages order from exchange `x` for owner `a`, on side `s`, of symbol `t`. -/
def Spec.ordered (c : Contents) (x t a : Nat) (s : Side) (ms : List Msg) : Nat :=
  Spec.total ms (fun m => decide (m.type = orderCode ∧ m.recipient = x ∧ (c.order m.payload).symbol = t ∧ (c.order m.payload).owner = a ∧ (c.order m.payload).side = s)) (fun m => (c.order m.payload).quantity)

/-- What messages from exchange `x` report to agent `a` in state `st`, on side `s`, of symbol `t`. -/
def Spec.reported (c : Contents) (x : Nat) (st : Status) (t a : Nat) (s : Side) (ms : List Msg) : Nat :=
  Spec.total ms (fun m => decide (m.type = reportCode ∧ m.sender = x ∧ m.recipient = a ∧ (c.reported m.payload).1.symbol = t ∧ (c.reported m.payload).2.state = st ∧ (c.reported m.payload).2.side = s))
    (fun m => (c.reported m.payload).2.quantity)

/-- What messages from exchange `x` report as traded on side `s`, at price `p`, of symbol `t`. -/
def Spec.exchanged (c : Contents) (x t : Nat) (p : Int) (s : Side) (ms : List Msg) : Nat :=
  Spec.total ms (fun m => decide (m.type = reportCode ∧ m.sender = x ∧ (c.reported m.payload).1.symbol = t ∧ (c.reported m.payload).2.state = .match_ ∧ (c.reported m.payload).2.limit = p ∧ (c.reported m.payload).2.side = s))
    (fun m => (c.reported m.payload).2.quantity)

/-- The messages on their way: in inboxes and outboxes. -/
def Spec.underway (w : World (Desk τ)) : List Msg := w.agents.flatMap fun a => a.inbox.map (·.2) ++ a.outbox

/-- The messages that were sent. -/
def Spec.sentIn (w : World (Desk τ)) : List Msg := w.log.flatMap (·.sent)

/-- The start of a simulation: agents with different identities, one of which is `x`, an exchange with empty books; no messages on their way. -/
structure Spec.Start (x : Nat) (w : World (Desk τ)) : Prop where
  ids : Sched.Spec.UniqueIds w
  log : w.log = []
  quiet : ∀ a ∈ w.agents, a.inbox = [] ∧ a.outbox = []
  exchange : ∃ a ∈ w.agents, a.id = x ∧ ∀ t b, a.state.exchange.books.lookup t = some b → b = empty

/-! ### Lemmas -/

theorem ordered_append (c : Contents) (x t a : Nat) (s : Side) (l m : List Msg) : Spec.ordered c x t a s (l ++ m) = Spec.ordered c x t a s l + Spec.ordered c x t a s m := total_append ..

theorem reported_append (c : Contents) (x : Nat) (st : Status) (t a : Nat) (s : Side) (l m : List Msg) : Spec.reported c x st t a s (l ++ m) = Spec.reported c x st t a s l + Spec.reported c x st t a s m := total_append ..

theorem total_zero {α : Type} (l : List α) (p : α → Bool) (q : α → Nat) (h : ∀ x ∈ l, p x = false) : Spec.total l p q = 0 := by
  induction l with
  | nil => rfl
  | cons x l ih => rw [total_cons, h x (List.mem_cons_self ..), ih fun x hx => h x (List.mem_cons_of_mem _ hx)]; rfl

/-- What the messages from an exchange report. -/
theorem post_reported (c : Contents) (hc : ∀ o r, c.reported (c.report o r) = (o, r)) (x lower : Nat) (outs : List Out) :
    (∀ st t a s, Spec.reported c x st t a s (outs.map (post c x lower)) = Spec.toldTo st a s (sentReports t outs)) ∧
    (∀ t a s, Spec.ordered c x t a s (outs.map (post c x lower)) = 0) ∧
    ∀ t p s, Spec.exchanged c x t p s (outs.map (post c x lower)) = Spec.tradedIn p s (sentReports t outs) := by
  refine ⟨fun st t a s => ?_, fun t a s => ?_, fun t p s => ?_⟩
  · induction outs with
    | nil => rfl
    | cons o outs ih =>
      unfold Spec.reported Spec.toldTo sentReports at ih ⊢
      rw [List.map_cons, total_cons, ih, List.filterMap_cons]
      cases o with
      | report recipient arrival o r =>
        by_cases ho : o.symbol = t
        · simp only [post, hc, ho, if_true, total_cons, true_and, decide_eq_true_eq]
          congr 1
          by_cases h1 : r.state = st ∧ recipient = a ∧ r.side = s
          · rw [if_pos h1, if_pos ⟨h1.2.1, h1.1, h1.2.2⟩]
          · rw [if_neg h1, if_neg fun h => h1 ⟨h.2.1, h.1, h.2.2⟩]
        · simp [post, hc, ho]
      | data => simp [post, dataCode, reportCode]
  · apply total_zero
    intro m hm
    obtain ⟨o, -, rfl⟩ := List.mem_map.1 hm
    cases o <;> simp [post, reportCode, dataCode, orderCode]
  · induction outs with
    | nil => rfl
    | cons o outs ih =>
      unfold Spec.exchanged Spec.tradedIn sentReports at ih ⊢
      rw [List.map_cons, total_cons, ih, List.filterMap_cons]
      cases o with
      | report recipient arrival o r =>
        by_cases ho : o.symbol = t
        · simp only [post, hc, ho, if_true, total_cons, true_and, decide_eq_true_eq]
        · simp [post, hc, ho]
      | data => simp [post, dataCode, reportCode]

theorem quiet_reports (c : Contents) (x : Nat) (ms : List Msg) (h : ∀ m ∈ ms, ¬ Spec.isReport x m) :
    (∀ st t a s, Spec.reported c x st t a s ms = 0) ∧ ∀ t p s, Spec.exchanged c x t p s ms = 0 := by
  refine ⟨fun st t a s => total_zero _ _ _ fun m hm => ?_, fun t p s => total_zero _ _ _ fun m hm => ?_⟩
  · have := h m hm
    unfold Spec.isReport at this
    rw [decide_eq_false_iff_not]
    exact fun hh => this ⟨hh.1, hh.2.1⟩
  · have := h m hm
    unfold Spec.isReport at this
    rw [decide_eq_false_iff_not]
    exact fun hh => this ⟨hh.1, hh.2.1⟩

/-- Callbacks that leave the exchange alone. -/
theorem quiet_run (x : Nat) (step : Step) (m : Msg) (hs : Handlers (Desk τ)) (h : ∀ e ∈ hs, Spec.Quiet x e.2.function) (run : Run (Desk τ)) (first : Nat) :
    (runCallbacks step m hs (run, first)).1.agent.exchange = run.agent.exchange ∧ (run.agent.failed = true → (runCallbacks step m hs (run, first)).1.agent.failed = true) ∧
      ∃ out, (runCallbacks step m hs (run, first)).1.outbox = run.outbox ++ out ∧ ∀ m' ∈ out, ¬ Spec.isReport x m' := by
  induction hs generalizing run first with
  | nil => exact ⟨rfl, fun h => h, [], by simp [runCallbacks], by simp⟩
  | cons e hs ih =>
    obtain ⟨p, f⟩ := e
    obtain ⟨q1, q2, q3⟩ := h (p, f) (List.mem_cons_self ..) run.agent m step
    rw [runCallbacks]
    simp only
    obtain ⟨i1, i2, out, i3, i4⟩ := ih (fun e he => h e (List.mem_cons_of_mem _ he)) ⟨(f.function run.agent m step).1, run.outbox ++ (f.function run.agent m step).2.1, run.calls ++ [(m, p, f.line)]⟩
      (min first (f.function run.agent m step).2.2)
    refine ⟨by rw [i1]; exact q1, fun hf => i2 (q2 hf), (f.function run.agent m step).2.1 ++ out, by rw [i3]; exact List.append_assoc .., fun m' hm' => ?_⟩
    rcases List.mem_append.1 hm' with h' | h'
    · exact q3 m' h'
    · exact i4 m' h'

/-- Callbacks of other agents. -/
theorem replies_run (x : Nat) (step : Step) (m : Msg) (hs : Handlers (Desk τ)) (h : ∀ e ∈ hs, ∀ s m step, ∀ m' ∈ (e.2.function s m step).2.1, ¬ Spec.isReport x m') (run : Run (Desk τ)) (first : Nat) :
    ∃ out, (runCallbacks step m hs (run, first)).1.outbox = run.outbox ++ out ∧ ∀ m' ∈ out, ¬ Spec.isReport x m' := by
  induction hs generalizing run first with
  | nil => exact ⟨[], by simp [runCallbacks], by simp⟩
  | cons e hs ih =>
    obtain ⟨p, f⟩ := e
    rw [runCallbacks]
    simp only
    obtain ⟨out, i3, i4⟩ := ih (fun e he => h e (List.mem_cons_of_mem _ he)) ⟨(f.function run.agent m step).1, run.outbox ++ (f.function run.agent m step).2.1, run.calls ++ [(m, p, f.line)]⟩
      (min first (f.function run.agent m step).2.2)
    refine ⟨(f.function run.agent m step).2.1 ++ out, by rw [i3]; exact List.append_assoc .., fun m' hm' => ?_⟩
    rcases List.mem_append.1 hm' with h' | h'
    · exact h (p, f) (List.mem_cons_self ..) _ _ _ m' h'
    · exact i4 m' h'

theorem event_codes (c : Contents) (m : Msg) : (event c m = none ↔ m.type ∉ Spec.codes) := by
  unfold event Spec.codes
  simp only [List.mem_cons, List.not_mem_nil, or_false, not_or]
  constructor
  · intro h
    refine ⟨?_, ?_, ?_, ?_, ?_⟩ <;> intro e <;> simp [e, logonCode, logoutCode, requestCode, orderCode, cancelCode] at h
  · rintro ⟨h1, h2, h3, h4, h5⟩
    simp [h1, h2, h3, h4, h5]

/-- What one message to the exchange does. -/
theorem exchange_message {c : Contents} {x : Nat} {P : Program (Desk τ)} (H : Spec.Hosts c x P) (r : Nat) (step : Step) (m : Msg) (run : Run (Desk τ)) (hal : (processMessage (P.handlers x r) step m run).1.agent.failed = false) :
    run.agent.failed = false ∧ ∃ out, (processMessage (P.handlers x r) step m run).1.outbox = run.outbox ++ out ∧
      ((∃ e latency outs, event c m = some e ∧ handle latency run.agent.exchange step.lower e = .ok ((processMessage (P.handlers x r) step m run).1.agent.exchange, outs) ∧ out = outs.map (post c x step.lower)) ∨
        (event c m = none ∧ (processMessage (P.handlers x r) step m run).1.agent.exchange = run.agent.exchange ∧ ∀ m' ∈ out, ¬ Spec.isReport x m')) := by
  cases he : event c m with
  | none =>
    have hcode := (event_codes c m).1 he
    unfold processMessage at hal ⊢
    obtain ⟨h1, h2, out, h3, h4⟩ := quiet_run x step m (P.handlers x r m.type).reverse (fun e he => H.others r m.type hcode e (List.mem_reverse.1 he)) run step.upper
    refine ⟨?_, out, h3, .inr ⟨rfl, h1, h4⟩⟩
    cases hf : run.agent.failed with
    | false => rfl
    | true => rw [h2 hf] at hal; exact absurd hal (by simp)
  | some e =>
    have hcode : m.type ∈ Spec.codes := by
      by_contra hn
      rw [(event_codes c m).2 hn] at he
      cases he
    obtain ⟨p, latency, hh⟩ := H.exchange r m.type hcode
    unfold processMessage at hal ⊢
    rw [hh] at hal ⊢
    simp only [List.reverse_cons, List.reverse_nil, List.nil_append, runCallbacks, exchangeEntry, he] at hal ⊢
    cases hx : handle (latency step.lower) run.agent.exchange step.lower e with
    | ok res =>
      obtain ⟨x', outs⟩ := res
      rw [hx] at hal
      simp only at hal ⊢
      exact ⟨hal, _, rfl, .inl ⟨e, latency step.lower, outs, rfl, hx, rfl⟩⟩
    | throws => rw [hx] at hal; cases hal
    | ub => rw [hx] at hal; cases hal

theorem asked_ordered (c : Contents) (x : Nat) (m : Msg) (hm : m.recipient = x) (t a : Nat) (s : Side) :
    Spec.ordered c x t a s [m] = match event c m with | some e => asked t a s e | none => 0 := by
  unfold Spec.ordered
  rw [total_cons, total_nil]
  by_cases ho : m.type = orderCode
  · simp [event, ho, hm, logonCode, logoutCode, requestCode, orderCode, asked]
  · have : ∀ e, event c m = some e → asked t a s e = 0 := by
      intro e he
      unfold event at he
      rw [if_neg ho] at he
      split at he
      · cases he; rfl
      · split at he
        · cases he; rfl
        · split at he
          · cases he; rfl
          · split at he
            · cases he; rfl
            · cases he
    cases he : event c m with
    | none => simp [ho]
    | some e => simp [ho, this e he]

theorem weigh_ordered (c : Contents) (x t a : Nat) (s : Side) (ms : List Msg) : weigh (fun m => (Spec.ordered c x t a s [m] : Int)) ms = Spec.ordered c x t a s ms := by
  induction ms with
  | nil => rfl
  | cons m ms ih =>
    rw [weigh_cons, ih, ← Int.natCast_add, ← ordered_append]
    rfl

theorem weigh_source (c : Contents) (x t a : Nat) (s : Side) (ms : List Msg) :
    weigh (fun m => (Spec.ordered c x t a s [m] : Int) - Spec.reported c x .match_ t a s [m] - Spec.reported c x .cancel t a s [m]) ms =
      (Spec.ordered c x t a s ms : Int) - Spec.reported c x .match_ t a s ms - Spec.reported c x .cancel t a s ms := by
  induction ms with
  | nil => rfl
  | cons m ms ih =>
    have h1 := ordered_append c x t a s [m] ms
    have h2 := reported_append c x .match_ t a s [m] ms
    have h3 := reported_append c x .cancel t a s [m] ms
    simp only [List.singleton_append] at h1 h2 h3
    rw [weigh_cons, ih, h1, h2, h3]
    push_cast
    ring

theorem weigh_sides (c : Contents) (x t : Nat) (p : Int) (ms : List Msg) :
    weigh (fun m => (Spec.exchanged c x t p .buy [m] : Int) - Spec.exchanged c x t p .sell [m]) ms = (Spec.exchanged c x t p .buy ms : Int) - Spec.exchanged c x t p .sell ms := by
  induction ms with
  | nil => rfl
  | cons m ms ih =>
    have h1 : ∀ s, Spec.exchanged c x t p s (m :: ms) = Spec.exchanged c x t p s [m] + Spec.exchanged c x t p s ms := fun s => total_append [m] ms _ _
    rw [weigh_cons, ih, h1, h1]
    push_cast
    ring

/-- The law for units of orders. -/
theorem Spec.Hosts.units {c : Contents} {x : Nat} {P : Program (Desk τ)} (H : Spec.Hosts c x P) (t a : Nat) (s : Side) :
    Flow (fun i (d : Desk τ) => i = x → d.failed = false) (fun i d => i = x → Good d.exchange)
      (fun i d => if i = x then (Spec.resting a s (Spec.bookOf d.exchange t) : Int) + Spec.told .cancel a s (Spec.bookOf d.exchange t).reports else 0)
      (fun m => (Spec.ordered c x t a s [m] : Int)) (fun m => (Spec.ordered c x t a s [m] : Int) - Spec.reported c x .match_ t a s [m] - Spec.reported c x .cancel t a s [m]) P where
  shuffles := H.shuffles
  backMessage := fun i r step m run h hi => by
    subst hi
    exact (exchange_message H r step m run (h rfl)).1
  backAct := fun i r d step h hi => by
    subst hi
    have := (H.acts r d ⟨0, 0, 0, 0, 0, 0⟩ step).2.1
    cases hf : d.failed with
    | false => rfl
    | true => rw [this hf] at h; exact absurd (h rfl) (by simp)
  message := fun i r step m run hm hg hal => by
    by_cases hi : i = x
    · subst hi
      obtain ⟨-, out, h1, h2⟩ := exchange_message H r step m run (hal rfl)
      rw [h1]
      simp only [if_true]
      have ho := asked_ordered c i m hm t a s
      rcases h2 with ⟨e, latency, outs, he, hh, rfl⟩ | ⟨he, hx, hq⟩
      · obtain ⟨g1, g2, -⟩ := handle_told latency run.agent.exchange step.lower e _ outs hh (hg rfl)
        refine ⟨fun _ => g1, _, rfl, ?_⟩
        rw [weigh_ordered, weigh_source]
        obtain ⟨p1, p2, -⟩ := post_reported c H.readable i step.lower outs
        rw [p1, p1, p2, ho, he]
        have := g2 t a s
        simp only
        omega
      · refine ⟨fun _ => by rw [hx]; exact hg rfl, out, rfl, ?_⟩
        rw [weigh_ordered, weigh_source, (quiet_reports c i out hq).1, (quiet_reports c i out hq).1, hx, ho, he]
        simp
    · refine ⟨fun h => absurd h hi, ?_⟩
      obtain ⟨out, h1, h2⟩ := replies_run x step m (P.handlers i r m.type).reverse (fun e he => H.replies i hi r m.type e (List.mem_reverse.1 he)) run step.upper
      refine ⟨out, h1, ?_⟩
      rw [weigh_ordered, weigh_source, (quiet_reports c x out h2).1, (quiet_reports c x out h2).1]
      have : Spec.ordered c x t a s [m] = 0 := by
        unfold Spec.ordered
        rw [total_cons, total_nil]
        simp [hm, hi]
      rw [this]
      simp [hi]
  act := fun i r d step hg hal => by
    by_cases hi : i = x
    · subst hi
      obtain ⟨q1, -, q3⟩ := H.acts r d ⟨0, 0, 0, 0, 0, 0⟩ step
      refine ⟨fun _ => by rw [q1]; exact hg rfl, ?_⟩
      rw [weigh_ordered, weigh_source, (quiet_reports c i _ q3).1, (quiet_reports c i _ q3).1]
      simp only [if_true, q1]
      simp
    · refine ⟨fun h => absurd h hi, ?_⟩
      have h2 := H.sends i hi r d step
      rw [weigh_ordered, weigh_source, (quiet_reports c x _ h2).1, (quiet_reports c x _ h2).1]
      simp [hi]

/-- The law for the two sides of trades. -/
theorem Spec.Hosts.sides {c : Contents} {x : Nat} {P : Program (Desk τ)} (H : Spec.Hosts c x P) (t : Nat) (p : Int) :
    Flow (fun i (d : Desk τ) => i = x → d.failed = false) (fun i d => i = x → Good d.exchange) (fun _ _ => 0)
      (fun _ => 0) (fun m => (Spec.exchanged c x t p .buy [m] : Int) - Spec.exchanged c x t p .sell [m]) P where
  shuffles := H.shuffles
  backMessage := (H.units 0 0 .buy).backMessage
  backAct := (H.units 0 0 .buy).backAct
  message := fun i r step m run hm hg hal => by
    have hz : ∀ out : List Msg, weigh (fun _ => (0 : Int)) out = 0 := fun out => by simp [weigh]
    by_cases hi : i = x
    · subst hi
      obtain ⟨-, out, h1, h2⟩ := exchange_message H r step m run (hal rfl)
      rw [h1]
      rcases h2 with ⟨e, latency, outs, he, hh, rfl⟩ | ⟨he, hx, hq⟩
      · obtain ⟨g1, -, g3⟩ := handle_told latency run.agent.exchange step.lower e _ outs hh (hg rfl)
        refine ⟨fun _ => g1, _, rfl, ?_⟩
        rw [hz, weigh_sides]
        obtain ⟨-, -, p3⟩ := post_reported c H.readable i step.lower outs
        rw [p3, p3, g3]
        simp
      · refine ⟨fun _ => by rw [hx]; exact hg rfl, out, rfl, ?_⟩
        rw [hz, weigh_sides, (quiet_reports c i out hq).2, (quiet_reports c i out hq).2]
        simp
    · refine ⟨fun h => absurd h hi, ?_⟩
      obtain ⟨out, h1, h2⟩ := replies_run x step m (P.handlers i r m.type).reverse (fun e he => H.replies i hi r m.type e (List.mem_reverse.1 he)) run step.upper
      refine ⟨out, h1, ?_⟩
      rw [hz, weigh_sides, (quiet_reports c x out h2).2, (quiet_reports c x out h2).2]
      simp
  act := fun i r d step hg hal => by
    have hz : ∀ out : List Msg, weigh (fun _ => (0 : Int)) out = 0 := fun out => by simp [weigh]
    refine ⟨((H.units 0 0 .buy).act i r d step hg hal).1, ?_⟩
    by_cases hi : i = x
    · subst hi
      obtain ⟨q1, -, q3⟩ := H.acts r d ⟨0, 0, 0, 0, 0, 0⟩ step
      rw [hz, weigh_sides, (quiet_reports c i _ q3).2, (quiet_reports c i _ q3).2]
      simp
    · have h2 := H.sends i hi r d step
      rw [hz, weigh_sides, (quiet_reports c x _ h2).2, (quiet_reports c x _ h2).2]
      simp

theorem start_good {x : Nat} {w : World (Desk τ)} (hw : Spec.Start x w) : (∀ a ∈ w.agents, InboxOk a) ∧ ∀ a ∈ w.agents, a.id = x → Good a.state.exchange := by
  refine ⟨fun a ha => ?_, fun a ha hx => ?_⟩
  · obtain ⟨h1, -⟩ := hw.quiet a ha
    unfold InboxOk Comm.Spec.InboxSorted
    rw [h1]
    simp
  · obtain ⟨b, hb, hbx, he⟩ := hw.exchange
    have : a = b := eq_of_id w.agents hw.ids a b ha hb (by rw [hx, hbx])
    subst this
    intro t
    have : Spec.bookOf a.state.exchange t = empty := by
      unfold Spec.bookOf
      cases hl : a.state.exchange.books.lookup t with
      | none => rfl
      | some b => exact he t b hl
    rw [this]
    simp [Sided, empty]

/-- A ledger in which only one agent has a value. -/
theorem ledger_one (v : Desk τ → Int) (weight : Msg → Int) (x : Nat) (ags : List (Agent (Desk τ))) (hn : (ags.map (·.id)).Nodup) (y : Agent (Desk τ)) (hy : y ∈ ags) (hyx : y.id = x) :
    ledger (fun i d => if i = x then v d else 0) weight ags = v y.state + weigh weight (ags.flatMap fun a => a.inbox.map (·.2) ++ a.outbox) := by
  have zero : ∀ l : List (Agent (Desk τ)), (∀ a ∈ l, a.id ≠ x) → ledger (fun i d => if i = x then v d else 0) weight l = weigh weight (l.flatMap fun a => a.inbox.map (·.2) ++ a.outbox) := by
    intro l hl
    induction l with
    | nil => rfl
    | cons a l ih =>
      have ih := ih fun a h => hl a (List.mem_cons_of_mem _ h)
      unfold ledger at ih ⊢
      rw [List.map_cons, List.sum_cons, ih, List.flatMap_cons, weigh_append, weigh_append]
      unfold flow
      simp [hl a (List.mem_cons_self ..)]
  induction ags with
  | nil => simp at hy
  | cons a l ih =>
    rw [List.map_cons, List.nodup_cons] at hn
    rcases List.mem_cons.1 hy with rfl | hy
    · have hz := zero l fun a ha e => hn.1 (List.mem_map.2 ⟨a, ha, by rw [e, hyx]⟩)
      unfold ledger at hz ⊢
      rw [List.map_cons, List.sum_cons, hz, List.flatMap_cons, weigh_append, weigh_append]
      unfold flow
      simp only [hyx, if_true]
      omega
    · have ih := ih hn.2 hy
      have hne : a.id ≠ x := fun e => hn.1 (List.mem_map.2 ⟨y, hy, by rw [hyx, e]⟩)
      unfold ledger at ih ⊢
      rw [List.map_cons, List.sum_cons, ih, List.flatMap_cons, weigh_append, weigh_append]
      unfold flow
      simp only [hne, if_false]
      omega

/-- **C147 for whole simulations.** In every run of every simulation with an exchange that starts with empty books, whatever the other agents do and however long it runs, if the exchange does not throw: for every symbol, owner and side,
what was ordered in messages sent to the exchange is what the exchange has reported to the owner as executed, plus what it has reported as cancelled, plus what was cancelled and waits to be reported, plus what rests in the book,
plus what is ordered by messages on their way to the exchange. -/
theorem C147_simulation (c : Contents) (x : Nat) (P : Program (Desk τ)) (H : Spec.Hosts c x P) (start end_ fuel k : Nat) (w w' : World (Desk τ)) (ts : List Nat) (hw : Spec.Start x w)
    (h : runLoop P end_ fuel k start w = some (.ok (w', ts))) (y : Agent (Desk τ)) (hy : y ∈ w'.agents) (hyx : y.id = x) (hok : y.state.failed = false) (t a : Nat) (s : Side) :
    Spec.ordered c x t a s (Spec.sentIn w') = Spec.reported c x .match_ t a s (Spec.sentIn w') + Spec.reported c x .cancel t a s (Spec.sentIn w') +
      Spec.told .cancel a s (Spec.bookOf y.state.exchange t).reports + Spec.resting a s (Spec.bookOf y.state.exchange t) + Spec.ordered c x t a s (Spec.underway w') := by
  obtain ⟨h1, h2⟩ := start_good hw
  have hn' : (w'.agents.map (·.id)).Nodup := (run_induct P end_ fuel (fun w : World (Desk τ) => Sched.Spec.UniqueIds w) (fun _ _ _ _ hn hr _ => by unfold Sched.Spec.UniqueIds at *; rw [round_ids hn hr]; exact hn) k start w w' ts hw.ids h hw.ids).1
  obtain ⟨-, hl⟩ := flow_run (H.units t a s) start end_ fuel k w w' ts hw.ids hw.log h1 h2 h (fun z hz hzx => by
    rw [eq_of_id w'.agents hn' z y hz hy (by rw [hzx, hyx])]; exact hok)
  obtain ⟨z, hz, hzx, he⟩ := hw.exchange
  rw [ledger_one (fun d => (Spec.resting a s (Spec.bookOf d.exchange t) : Int) + Spec.told .cancel a s (Spec.bookOf d.exchange t).reports) _ x w'.agents hn' y hy hyx,
    ledger_one (fun d => (Spec.resting a s (Spec.bookOf d.exchange t) : Int) + Spec.told .cancel a s (Spec.bookOf d.exchange t).reports) _ x w.agents hw.ids z hz hzx, weigh_source, weigh_ordered, weigh_ordered] at hl
  have hb : Spec.bookOf z.state.exchange t = empty := by
    unfold Spec.bookOf
    cases hb : z.state.exchange.books.lookup t with
    | none => rfl
    | some b => exact he t b hb
  have hq : (w.agents.flatMap fun a => a.inbox.map (·.2) ++ a.outbox) = [] := by
    rw [List.flatMap_eq_nil_iff]
    intro a ha
    rw [(hw.quiet a ha).1, (hw.quiet a ha).2]
    rfl
  rw [hb, hq] at hl
  have e1 : Spec.resting a s empty = 0 := rfl
  have e2 : Spec.told .cancel a s empty.reports = 0 := rfl
  have e3 : Spec.ordered c x t a s [] = 0 := rfl
  rw [e1, e2, e3] at hl
  unfold Spec.sentIn Spec.underway
  push_cast at hl
  omega

/-- **C147, both sides in whole simulations.** In every such run, for every symbol and price, the exchange has reported as much bought as sold. -/
theorem C147_simulation_sides (c : Contents) (x : Nat) (P : Program (Desk τ)) (H : Spec.Hosts c x P) (start end_ fuel k : Nat) (w w' : World (Desk τ)) (ts : List Nat) (hw : Spec.Start x w)
    (h : runLoop P end_ fuel k start w = some (.ok (w', ts))) (y : Agent (Desk τ)) (hy : y ∈ w'.agents) (hyx : y.id = x) (hok : y.state.failed = false) (t : Nat) (p : Int) :
    Spec.exchanged c x t p .buy (Spec.sentIn w') = Spec.exchanged c x t p .sell (Spec.sentIn w') := by
  obtain ⟨h1, h2⟩ := start_good hw
  have hn' : (w'.agents.map (·.id)).Nodup := (run_induct P end_ fuel (fun w : World (Desk τ) => Sched.Spec.UniqueIds w) (fun _ _ _ _ hn hr _ => by unfold Sched.Spec.UniqueIds at *; rw [round_ids hn hr]; exact hn) k start w w' ts hw.ids h hw.ids).1
  obtain ⟨-, hl⟩ := flow_run (H.sides t p) start end_ fuel k w w' ts hw.ids hw.log h1 h2 h (fun z hz hzx => by
    rw [eq_of_id w'.agents hn' z y hz hy (by rw [hzx, hyx])]; exact hok)
  have hz : ∀ ags : List (Agent (Desk τ)), ledger (fun _ _ => (0 : Int)) (fun _ => 0) ags = 0 := by
    intro ags
    unfold ledger
    have : ags.map (flow (fun _ _ => (0 : Int)) (fun _ => 0)) = ags.map fun _ => 0 := by
      apply List.map_congr_left
      intro a _
      simp [flow, weigh, Function.comp_def]
    rw [this]
    simp
  rw [hz, hz, weigh_sides] at hl
  unfold Spec.sentIn
  omega

/-! ### An example -/

/-- Numbers as one number. -/
def pack (l : List Nat) : Nat := l.foldr Nat.pair 0

def unpack : Nat → Nat → List Nat
  | 0, _ => []
  | k + 1, n => (Nat.unpair n).1 :: unpack k (Nat.unpair n).2

theorem unpack_pack (l : List Nat) : unpack l.length (pack l) = l := by
  induction l with
  | nil => rfl
  | cons a l ih =>
    show unpack (l.length + 1) (Nat.pair a (pack l)) = _
    rw [unpack, Nat.unpair_pair]
    simp only
    rw [ih]

def ofSide : Side → Nat | .buy => 0 | .sell => 1
def toSide (n : Nat) : Side := if n = 0 then .buy else .sell
def ofStatus : Status → Nat | .cancel => 0 | .match_ => 1 | .placement => 2 | .invalid => 3
def toStatus (n : Nat) : Status := if n = 0 then .cancel else if n = 1 then .match_ else if n = 2 then .placement else .invalid
def ofLifetime : Lifetime → Nat | .goodUntilCancelled => 0 | .fillOrKill => 1 | .immediateOrCancel => 2
def toLifetime (n : Nat) : Lifetime := if n = 0 then .goodUntilCancelled else if n = 1 then .fillOrKill else .immediateOrCancel
def ofInt (z : Int) : Nat := if z < 0 then 2 * z.natAbs + 1 else 2 * z.natAbs
def toInt (n : Nat) : Int := if n % 2 = 1 then -((n / 2 : Nat) : Int) else ((n / 2 : Nat) : Int)

theorem toInt_ofInt (z : Int) : toInt (ofInt z) = z := by
  unfold toInt ofInt
  split <;> split <;> omega

/-- Contents of messages. Message 1 offers 5 units of symbol 7 for agent 1, message 2 bids for 2 for agent 2. Message 3 withdraws the first order. -/
def contents : Contents where
  supply := fun _ _ => none
  request := fun _ => (0, .snapshot, [])
  order := fun n => if n = 1 then ⟨.goodUntilCancelled, .sell, 7, 1, 100, 5⟩ else ⟨.goodUntilCancelled, .buy, 7, 2, 101, 2⟩
  cancel := fun _ => (7, 0)
  report := fun o r => pack [r.ident, o.quantity, r.quantity, o.symbol, o.owner, r.owner, ofInt o.limit, ofInt r.limit, ofLifetime o.lifetime, ofSide o.side, ofSide r.side, ofStatus r.state]
  reported := fun n => match unpack 12 n with
    | [i, q, q', t, w, w', l, l', f, s, s', st] => (⟨toLifetime f, toSide s, t, w, toInt l, q⟩, ⟨toStatus st, toSide s', q', i, toInt l', w'⟩)
    | _ => (⟨.goodUntilCancelled, .buy, 0, 0, 0, 0⟩, ⟨.invalid, .buy, 0, 0, 0, 0⟩)
  data := fun _ _ _ _ => 0

theorem contents_readable (o : Order) (r : Report) : contents.reported (contents.report o r) = (o, r) := by
  have h := unpack_pack [r.ident, o.quantity, r.quantity, o.symbol, o.owner, r.owner, ofInt o.limit, ofInt r.limit, ofLifetime o.lifetime, ofSide o.side, ofSide r.side, ofStatus r.state]
  simp only [List.length_cons, List.length_nil, Nat.zero_add, Nat.reduceAdd] at h
  simp only [contents, h, toInt_ofInt]
  obtain ⟨f, s, t, w, l, q⟩ := o
  obtain ⟨st, s', q', i, l', w'⟩ := r
  cases f <;> cases s <;> cases s' <;> cases st <;> rfl

/-- Agent 0 is an exchange. Agents 1 and 2 send their orders at times 1 and 2, and agent 1 withdraws at time 3. `rest` counts what an agent has sent. -/
def trading : Program (Desk Nat) where
  handlers := fun i _ code => if i = 0 ∧ code ∈ Spec.codes then [(0, exchangeEntry contents (fun _ _ => 0) 0)] else []
  act := fun i _ s step =>
    if i = 1 ∧ s.rest = 0 ∧ step.lower = 1 then ({ s with rest := 1 }, [⟨orderCode, 1, 0, 1, 1, 1⟩], 3)
    else if i = 1 ∧ s.rest = 1 ∧ step.lower = 3 then ({ s with rest := 2 }, [⟨cancelCode, 1, 0, 3, 3, 3⟩], step.upper)
    else if i = 2 ∧ s.rest = 0 ∧ step.lower = 2 then ({ s with rest := 1 }, [⟨orderCode, 2, 0, 2, 2, 2⟩], step.upper)
    else (s, [], min step.upper (step.lower + 1))
  shuffle := fun _ _ _ ms => ms

/-- The start. -/
def opening : World (Desk Nat) where
  agents := [⟨0, ⟨create [7] [(7, empty)], false, 0⟩, [], []⟩, ⟨1, ⟨create [] [], false, 0⟩, [], []⟩, ⟨2, ⟨create [] [], false, 0⟩, [], []⟩]
  wake := [(0, 1), (1, 1), (2, 1)]
  first := 1
  log := []

theorem trading_hosts : Spec.Hosts contents 0 trading where
  shuffles := fun _ _ _ l => List.Perm.refl l
  readable := contents_readable
  exchange := fun r code hc => ⟨0, fun _ _ => 0, by simp [trading, hc]⟩
  others := fun r code hc e he => by simp [trading, hc] at he
  acts := fun r s m step => by simp [trading]
  replies := fun i hi r code e he => by simp [trading, hi] at he
  sends := fun i hi r s step m' hm' => by
    unfold trading at hm'
    simp only at hm'
    unfold Spec.isReport
    split at hm'
    · simp only [List.mem_singleton] at hm'; subst hm'; simp [orderCode, reportCode]
    · split at hm'
      · simp only [List.mem_singleton] at hm'; subst hm'; simp [cancelCode, reportCode]
      · split at hm'
        · simp only [List.mem_singleton] at hm'; subst hm'; simp [orderCode, reportCode]
        · simp at hm'

theorem opening_start : Spec.Start 0 opening where
  ids := by unfold Sched.Spec.UniqueIds; decide
  log := rfl
  quiet := by
    intro a ha
    simp only [opening, List.mem_cons, List.not_mem_nil, or_false] at ha
    rcases ha with rfl | rfl | rfl <;> exact ⟨rfl, rfl⟩
  exchange := by
    refine ⟨_, List.mem_cons_self .., rfl, fun t b h => ?_⟩
    simp only [create, List.lookup] at h
    split at h
    · exact (Option.some.inj h).symm
    · cases h

/-- Agent 1 has ordered the sale of 5 units, has been told of 2 that were sold, and 3 more are cancelled, which waits to be reported. -/
example : (match runLoop trading 6 5 10 1 opening with
    | some (.ok (w', _)) => (Spec.ordered contents 0 7 1 .sell (Spec.sentIn w'), Spec.reported contents 0 .match_ 7 1 .sell (Spec.sentIn w'), Spec.exchanged contents 0 7 100 .buy (Spec.sentIn w'),
        w'.agents.map fun a => (a.id, a.state.failed, Spec.told .cancel 1 .sell (Spec.bookOf a.state.exchange 7).reports))
    | _ => (0, 0, 0, [])) = (5, 2, 2, [(0, false, 3), (1, false, 0), (2, false, 0)]) := by decide +kernel

end Esl.Venue
