import Verif.Model.Saved
import Verif.Props.Serialization
import Verif.Props.Company
/-! C66: share classes and timings; C184: shareholders that are saved and loaded. -/
namespace Esl.Saved
open Esl.Archive Esl.Company

theorem flag_roundTrips (b : Bool) : Archive.Spec.RoundTrips flag b := by
  intro t rest
  cases b <;> simp [flag, readNat, readInt]

theorem real_roundTrips (q : Rat) : Archive.Spec.RoundTrips real q := by
  intro t rest
  simp [real, readNat, readInt, Rat.mkRat_self]

/-- **C66, share classes.** All share classes are given back. -/
theorem C66_share_class (s : ShareClass) : Archive.Spec.RoundTrips shareClass s := by
  intro t rest
  have h1 : ∀ (n : Nat) a, readNat (Item.int n :: a) = .ok (n, a) := fun n a => nat_roundTrips n 0 a
  simp only [shareClass, List.append_assoc, List.cons_append, List.nil_append, h1, Outcome.bind_ok, real_roundTrips _ _ _, flag_roundTrips _ _ _]

example : shareClass.load blankClass (shareClass.save ⟨3, 10, 1 / 4, false, true, true⟩) = .ok (⟨3, 10, 1 / 4, false, true, true⟩, []) ∧
    shareClass.save ⟨3, 10, 1 / 4, false, true, true⟩ = [.int 3, .int 10, .int 1, .int 4, .int 0, .int 1, .int 1] := by decide +kernel

/-- **C66, timings, negation.** No timing is given back: nothing is written, and the object that is loaded into stays what it was. -/
theorem C66_counterexample_timing (t : Timing) : timing.save t = [] ∧ (∀ target, timing.load target (timing.save t) = .ok (target, [])) ∧ ¬ Archive.Spec.RoundTrips timing t := by
  refine ⟨rfl, fun _ => rfl, fun h => ?_⟩
  have := h ⟨t.messaging + 1, 0⟩ []
  injection this with this
  injection this with this
  have := congrArg Timing.messaging this
  simp only at this
  omega

/-- **C66, pointers to prices, negation.** No price that is saved through a pointer can be loaded: what was written for it is not what its construction reads. -/
theorem C66_counterexample_price_pointer (p target : Archive.Price) (rest : List Item) : pricePointer.load target (pricePointer.save p ++ rest) = .throws := rfl

/-- An archive from which a pointer would be loaded has the parts and the text. -/
example : pricePointer.load ⟨0, ⟨['U', 'S', 'D'], 100⟩⟩ ([.int 250] ++ currency.save ⟨['E', 'U', 'R'], 100⟩ ++ Archive.price.save ⟨250, ⟨['E', 'U', 'R'], 100⟩⟩) = .ok (⟨250, ⟨['E', 'U', 'R'], 100⟩⟩, []) := by decide +kernel

/-! ## Maps and sets -/

/-- Inserting ascending elements one by one gives the list of them. -/
theorem container_roundTrips {α : Type} (c : Codec α) (blank : α) (insert : List α → α → List α) (before : α → α → Prop)
    (last : ∀ l x, (∀ y ∈ l, before y x) → insert l x = l ++ [x]) (xs : List α) (hx : ∀ x ∈ xs, Archive.Spec.RoundTrips c x) (ha : xs.Pairwise before) :
    Archive.Spec.RoundTrips (container c blank insert) xs := by
  intro t rest
  simp only [container]
  rw [C66_sequence c blank xs hx]
  simp only [Outcome.bind_ok]
  have : ∀ (xs l : List α), (l ++ xs).Pairwise before → xs.foldl insert l = l ++ xs := by
    intro xs
    induction xs with
    | nil => intro l _; simp
    | cons x xs ih =>
      intro l h
      rw [List.foldl_cons, last l x fun y hy => (List.pairwise_append.1 h).2.2 y hy x List.mem_cons_self, ih (l ++ [x]) (by simpa using h)]
      simp
  rw [this xs [] ha, List.nil_append]

theorem register_roundTrips (m : Register Nat) (h : Company.Spec.Ascending m) : Archive.Spec.RoundTrips register m := by
  refine container_roundTrips _ _ _ (fun (a b : ShareClass × Nat) => a.1.rank < b.1.rank) ?_ m (fun x _ => C66_tuple _ _ _ _ (C66_share_class x.1) (nat_roundTrips x.2)) h
  intro l x hl
  induction l with
  | nil => rfl
  | cons y l ih =>
    have hy := hl y List.mem_cons_self
    have h1 : x.1.lt y.1 = false := by simp [ShareClass.lt]; omega
    have h2 : y.1.lt x.1 = true := by simpa [ShareClass.lt] using hy
    show Register.insert (y :: l) x.1 x.2 = _
    rw [Register.insert, h1, h2]
    simp only [Bool.false_eq_true, if_false, if_true]
    rw [ih fun z hz => hl z (List.mem_cons_of_mem _ hz)]
    rfl

/-- What every map of share holdings is like: companies ascend, and the share classes of each ascend. -/
def Spec.Holdings (s : List (Nat × Register Nat)) : Prop := s.Pairwise (fun a b => a.1 < b.1) ∧ ∀ e ∈ s, Company.Spec.Ascending e.2

/-- What every set of dates is like: it ascends, by date and then by company. -/
def Spec.Dates (d : List (Nat × Nat)) : Prop := d.Pairwise fun a b => a.1 < b.1 ∨ (a.1 = b.1 ∧ a.2 < b.2)

theorem shares_roundTrips (s : List (Nat × Register Nat)) (h : Spec.Holdings s) : Archive.Spec.RoundTrips shares s := by
  refine container_roundTrips _ _ _ (fun (a b : Nat × Register Nat) => a.1 < b.1) ?_ s (fun x hx => C66_tuple _ _ _ _ (nat_roundTrips x.1) (register_roundTrips x.2 (h.2 x hx))) h.1
  intro l x hl
  induction l with
  | nil => rfl
  | cons y l ih =>
    have hy := hl y List.mem_cons_self
    rw [insertCompany, if_neg (by omega), if_pos hy, ih fun z hz => hl z (List.mem_cons_of_mem _ hz)]
    rfl

theorem dates_roundTrips (d : List (Nat × Nat)) (h : Spec.Dates d) : Archive.Spec.RoundTrips dates d := by
  refine container_roundTrips _ _ _ (fun (a b : Nat × Nat) => a.1 < b.1 ∨ (a.1 = b.1 ∧ a.2 < b.2)) ?_ d (fun x _ => C66_tuple _ _ _ _ (nat_roundTrips x.1) (nat_roundTrips x.2)) h
  intro l x hl
  induction l with
  | nil => rfl
  | cons y l ih =>
    have hy := hl y List.mem_cons_self
    rw [datesInsert, if_neg (by omega), if_pos hy, ih fun z hz => hl z (List.mem_cons_of_mem _ hz)]
    rfl

/-- All sets of dates that announcements make are like this. -/
theorem dates_reachable (announced : List (Nat × Nat)) : Spec.Dates (announced.foldl datesInsert []) := by
  have : ∀ (l : List (Nat × Nat)) s, Spec.Dates s → Spec.Dates (l.foldl datesInsert s) := by
    intro l
    induction l with
    | nil => intro s h; exact h
    | cons x l ih =>
      intro s h
      exact ih _ (datesInsert_ascending s x h)
  exact this _ _ List.Pairwise.nil

/-! ## Shareholders -/

/-- **C184, shares and dividends (partial).** Whatever shareholder it is loaded into, a shareholder that was saved has its shares and its ex-dividend dates again, and therefore sends companies the same dividend records for all intervals.
What is missing are its stocks and its prices, see the counterexamples. -/
theorem C184_records_partial (h target : Holder) (rest : List Item) (hs : Spec.Holdings h.shares) (hd : Spec.Dates h.dates) :
    ∃ loaded, holder.load target (holder.save h ++ rest) = .ok (loaded, rest) ∧ loaded.shares = h.shares ∧ loaded.dates = h.dates ∧
      ∀ lower upper, submitRecords loaded.dates loaded.shares lower upper = submitRecords h.dates h.shares lower upper := by
  refine ⟨⟨target.stocks, target.prices, h.shares, h.dates⟩, ?_, rfl, rfl, fun _ _ => rfl⟩
  simp only [holder, List.append_assoc]
  rw [shares_roundTrips h.shares hs]
  simp only [Outcome.bind_ok]
  rw [dates_roundTrips h.dates hd]
  rfl

/-- **C184, negation.** A shareholder that is loaded has the stocks and prices of the object that it is loaded into, whatever the one that was saved had; two shareholders that differ in nothing else cannot be told apart. -/
theorem C184_counterexample (h target : Holder) (rest : List Item) (hs : Spec.Holdings h.shares) (hd : Spec.Dates h.dates) :
    holder.load target (holder.save h ++ rest) = .ok (⟨target.stocks, target.prices, h.shares, h.dates⟩, rest) ∧
      ∀ stocks prices, holder.save { h with stocks := stocks, prices := prices } = holder.save h := by
  refine ⟨?_, fun _ _ => rfl⟩
  simp only [holder, List.append_assoc]
  rw [shares_roundTrips h.shares hs]
  simp only [Outcome.bind_ok]
  rw [dates_roundTrips h.dates hd]
  rfl

/-- The shareholder holds shares of some class of some company. -/
def Spec.HoldsShares (h : Holder) : Prop := ∃ e ∈ h.shares, e.2 ≠ []

theorem stockHoldings_none (s : List (Nat × Register Nat)) (h : ∃ e ∈ s, e.2 ≠ []) : stockHoldings (fun _ _ => none) s = .ub := by
  unfold stockHoldings
  have ub : ∀ (s : List (Nat × Register Nat)) (f : Outcome (List (Nat × Nat)) → Nat × Register Nat → Outcome (List (Nat × Nat))), (∀ e, f .ub e = .ub) → s.foldl f .ub = .ub := by
    intro s f hf
    induction s with
    | nil => rfl
    | cons e s ih => rw [List.foldl_cons, hf, ih]
  have ub' : ∀ (s : Register Nat) (f : Outcome (List (Nat × Nat)) → ShareClass × Nat → Outcome (List (Nat × Nat))), (∀ e, f .ub e = .ub) → s.foldl f .ub = .ub := by
    intro s f hf
    induction s with
    | nil => rfl
    | cons e s ih => rw [List.foldl_cons, hf, ih]
  generalize ([] : List (Nat × Nat)) = r
  induction s generalizing r with
  | nil => obtain ⟨e, he, _⟩ := h; cases he
  | cons e s ih =>
    obtain ⟨c, reg⟩ := e
    rw [List.foldl_cons]
    cases reg with
    | nil =>
      refine ih ?_ r
      obtain ⟨e, he, hne⟩ := h
      rcases List.mem_cons.1 he with rfl | he
      · exact absurd rfl hne
      · exact ⟨e, he, hne⟩
    | cons x reg =>
      simp only [Outcome.bind_ok, List.foldl_cons]
      rw [ub' reg _ fun _ => rfl]
      exact ub s _ fun _ => rfl

/-- **C184, negation, stock holdings.** A shareholder that holds any shares and that is loaded into one that was just constructed has undefined stock holdings, although the same function gave each of its stocks with its amount before. -/
theorem C184_counterexample_holdings (h : Holder) (rest : List Item) (hs : Spec.Holdings h.shares) (hd : Spec.Dates h.dates) (hh : Spec.HoldsShares h) :
    ∃ loaded, holder.load .fresh (holder.save h ++ rest) = .ok (loaded, rest) ∧ stockHoldings loaded.stocks loaded.shares = .ub :=
  ⟨_, (C184_counterexample h .fresh rest hs hd).1, stockHoldings_none _ hh⟩

/-- Seven shares of the first class and two of the second class of company 4. -/
def Spec.investor : Holder :=
  ⟨fun c s => some (100 * c + s.rank), [(401, ⟨250, ⟨['U', 'S', 'D'], 100⟩⟩)], [(4, [(⟨1, 1, 0, true, false, false⟩, 7), (⟨2, 0, 1 / 2, true, true, false⟩, 2)]), (9, [(⟨1, 1, 0, true, false, false⟩, 5)])], [(3, 4), (8, 9)]⟩

theorem investor_valid : Spec.Holdings Spec.investor.shares ∧ Spec.Dates Spec.investor.dates ∧ Spec.HoldsShares Spec.investor := by
  refine ⟨⟨by decide, ?_⟩, by unfold Spec.Dates; decide, ⟨_, List.mem_cons_self, by decide⟩⟩
  unfold Company.Spec.Ascending
  decide +kernel

example : stockHoldings Spec.investor.stocks Spec.investor.shares = .ok [(401, 7), (402, 2), (901, 5)] := by decide +kernel
example : (submitRecords Spec.investor.dates Spec.investor.shares 2 5).length = 1 := by decide +kernel
example : ∃ loaded, holder.load .fresh (holder.save Spec.investor ++ []) = .ok (loaded, []) ∧ stockHoldings loaded.stocks loaded.shares = .ub :=
  C184_counterexample_holdings _ _ investor_valid.1 investor_valid.2.1 investor_valid.2.2

/-- **C184, the rest.** A shareholder is given back exactly if the one that it is loaded into has its stocks and prices already. -/
theorem C184_restored_partial (h target : Holder) (hs : Spec.Holdings h.shares) (hd : Spec.Dates h.dates) :
    holder.load target (holder.save h) = .ok (h, []) ↔ target.stocks = h.stocks ∧ target.prices = h.prices := by
  have := (C184_counterexample h target [] hs hd).1
  rw [List.append_nil] at this
  rw [this]
  obtain ⟨s, p, x, d⟩ := h
  constructor
  · intro e
    injection e with e
    injection e with e
    injection e with e1 e2
    exact ⟨e1, e2⟩
  · rintro ⟨e1, e2⟩
    rw [e1, e2]

end Esl.Saved
