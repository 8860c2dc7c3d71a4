import Verif.Model.Accounting
import Verif.Lemmas.List
import Mathlib.Algebra.Order.Group.Unbundled.Int
import Mathlib.Tactic.Linarith
/-! # C10, C11, C73: cash-flow statements and valuation -/
namespace Esl.Accounting
open Esl.Price

/-! ## C10 -/

/-- Sum of `f` over the mutations dated in [a,b). -/
def Spec.sumIn (m : List (Nat × Int)) (a b : Nat) (f : Int → Int) : Int :=
  ((m.filter fun x => decide (a ≤ x.1 ∧ x.1 < b)).map fun x => f x.2).sum

/-- The multimap order. -/
def Spec.Sorted (m : List (Nat × Int)) : Prop := m.Pairwise fun x y => x.1 ≤ y.1

theorem foldl_add (l : List Int) (z : Int) : l.foldl (· + ·) z = z + l.sum := by
  induction l generalizing z with
  | nil => simp
  | cons x xs ih => simp only [List.foldl_cons, ih, List.sum_cons]; omega

theorem collect_eq (m : Mutations) (a b : Nat) (f : Nat → Int → Int) (hs : Spec.Sorted m) :
    collect a b f m = (m.filter fun x => decide (a ≤ x.1 ∧ x.1 < b)).map fun x => f x.1 x.2 := by
  induction m with
  | nil => rfl
  | cons x m ih =>
    obtain ⟨t, p⟩ := x
    have hs' := List.pairwise_cons.1 hs
    unfold collect
    by_cases h1 : a ≤ t ∧ t < b
    · rw [if_pos h1, List.filter_cons_of_pos (by simpa using h1), List.map_cons, ih hs'.2]
    · rw [if_neg h1, List.filter_cons_of_neg (by simpa using h1)]
      by_cases h2 : t > b ∨ t = b
      · rw [if_pos h2]
        have : m.filter (fun x => decide (a ≤ x.1 ∧ x.1 < b)) = [] := by
          rw [List.filter_eq_nil_iff]
          intro y hy
          have := hs'.1 y hy
          simp only at this
          simp only [decide_eq_true_eq]
          omega
        rw [this, List.map_nil]
      · rw [if_neg h2, ih hs'.2]

theorem filter_lowerBound (m : Mutations) (a b : Nat) :
    (lowerBound a m).filter (fun x => decide (a ≤ x.1 ∧ x.1 < b)) =
      m.filter fun x => decide (a ≤ x.1 ∧ x.1 < b) := by
  induction m with
  | nil => rfl
  | cons x m ih =>
    obtain ⟨t, p⟩ := x
    unfold lowerBound
    split
    · rw [ih, List.filter_cons_of_neg]
      simp only [decide_eq_true_eq]
      omega
    · rfl

theorem sorted_lowerBound (m : Mutations) (a : Nat) (hs : Spec.Sorted m) :
    Spec.Sorted (lowerBound a m) := by
  induction m with
  | nil => exact hs
  | cons x m ih =>
    unfold lowerBound
    split
    · exact ih (List.pairwise_cons.1 hs).2
    · exact hs

theorem history_eq (m : Mutations) (a b : Nat) (f : Int → Int) (hs : Spec.Sorted m) :
    history m a b (fun _ p => f p) = Spec.sumIn m a b f := by
  unfold history Spec.sumIn
  rw [collect_eq _ _ _ _ (sorted_lowerBound m a hs), filter_lowerBound, foldl_add]
  simp

theorem sorted_insert (m : Mutations) (t : Nat) (p : Int) (hs : Spec.Sorted m) :
    Spec.Sorted (insert m t p) ∧ (insert m t p).Perm ((t, p) :: m) := by
  induction m with
  | nil => exact ⟨by simp [insert, Spec.Sorted], by simp [insert]⟩
  | cons x m ih =>
    obtain ⟨s, q⟩ := x
    have hs' := List.pairwise_cons.1 hs
    unfold insert
    split
    · rename_i h
      refine ⟨?_, List.Perm.refl _⟩
      refine List.pairwise_cons.2 ⟨?_, hs⟩
      intro y hy
      rcases List.mem_cons.1 hy with rfl | hy
      · exact Nat.le_of_lt h
      · exact Nat.le_trans (Nat.le_of_lt h) (hs'.1 y hy)
    · rename_i h
      obtain ⟨i1, i2⟩ := ih hs'.2
      refine ⟨List.pairwise_cons.2 ⟨?_, i1⟩, ?_⟩
      · intro y hy
        rcases List.mem_cons.1 (i2.mem_iff.1 hy) with rfl | hy
        · simp only; omega
        · exact hs'.1 y hy
      · exact (List.Perm.cons _ i2).trans (List.Perm.swap _ _ _)

/-- **C10.** For every history of recorded mutations, the statement over [a,b) sums exactly the
mutations recorded with a date in [a,b), for the plain history, the income (positive parts) and
the expenses (negative parts). -/
theorem C10_statement_is_sum (recorded : List (Nat × Int)) (a b : Nat) :
    let m := recorded.foldl (fun m x => insert m x.1 x.2) []
    revenue m a b = Spec.sumIn recorded a b id ∧
    income m a b = Spec.sumIn recorded a b (fun p => max 0 p) ∧
    expenses m a b = Spec.sumIn recorded a b (fun p => min 0 p) := by
  intro m
  have key : ∀ (l : List (Nat × Int)) (m0 : Mutations), Spec.Sorted m0 →
      Spec.Sorted (l.foldl (fun m x => insert m x.1 x.2) m0) ∧
      (l.foldl (fun m x => insert m x.1 x.2) m0).Perm (l ++ m0) := by
    intro l
    induction l with
    | nil => intro m0 h; exact ⟨h, List.Perm.refl _⟩
    | cons x l ih =>
      intro m0 h
      obtain ⟨s1, s2⟩ := sorted_insert m0 x.1 x.2 h
      obtain ⟨i1, i2⟩ := ih _ s1
      refine ⟨i1, i2.trans ?_⟩
      exact (List.Perm.append_left l s2).trans List.perm_middle
  obtain ⟨hs, hp⟩ := key recorded [] (by simp [Spec.Sorted])
  have hp' : m.Perm recorded := by simpa using hp
  have eqs : ∀ f, Spec.sumIn m a b f = Spec.sumIn recorded a b f := by
    intro f
    exact perm_sum_int ((hp'.filter _).map _)
  refine ⟨?_, ?_, ?_⟩
  · rw [← eqs]; exact history_eq m a b id hs
  · rw [← eqs]; exact history_eq m a b _ hs
  · rw [← eqs]; exact history_eq m a b _ hs

/-- **C10.** Additive over adjacent intervals. -/
theorem C10_additive (m : Mutations) (hs : Spec.Sorted m) (a b c : Nat) (hab : a ≤ b) (hbc : b ≤ c) :
    revenue m a c = revenue m a b + revenue m b c := by
  unfold revenue
  have e := fun a b => history_eq m a b id hs
  simp only [id] at e
  rw [e, e, e]
  clear e
  unfold Spec.sumIn
  induction m with
  | nil => simp
  | cons x m ih =>
    have ih' := ih (List.pairwise_cons.1 hs).2
    by_cases h1 : a ≤ x.1 <;> by_cases h2 : x.1 < b <;> by_cases h3 : x.1 < c <;>
      simp only [List.filter_cons, h1, h2, h3, Nat.not_lt.mp, true_and, false_and, and_true, and_false,
        decide_true, decide_false, if_true, if_false, List.map_cons, List.sum_cons, Bool.false_eq_true,
        decide_eq_true_eq]
    all_goals first
      | (rw [if_neg (by omega)]; omega)
      | (rw [if_pos (by omega), List.map_cons, List.sum_cons]; omega)
      | omega

/-- **C10.** Income plus expenses is revenue; income is nonnegative and expenses nonpositive. -/
theorem C10_income_expenses (m : Mutations) (a b : Nat) :
    income m a b + expenses m a b = revenue m a b ∧ 0 ≤ income m a b ∧ expenses m a b ≤ 0 := by
  unfold income expenses revenue history
  simp only [foldl_add, Int.zero_add]
  generalize lowerBound a m = l
  induction l with
  | nil => simp [collect]
  | cons x l ih =>
    obtain ⟨t, p⟩ := x
    unfold collect
    split
    · simp only [List.sum_cons]
      omega
    · split
      · simp
      · exact ih

example : revenue [(1, 5), (3, -2), (3, 4), (7, 1)] 1 7 = 7 ∧
    income [(1, 5), (3, -2), (3, 4), (7, 1)] 1 7 = 9 ∧
    expenses [(1, 5), (3, -2), (3, 4), (7, 1)] 1 7 = -2 := by decide

/-! ## C11 -/

theorem toU64_of_nonneg (z : Int) (h0 : 0 ≤ z) (h1 : z < 2 ^ 63) : (toU64 z : Int) = z := by
  unfold toU64
  rw [Int.emod_eq_of_lt h0 (by omega)]
  omega

theorem InI64_wrap (z : Int) : InI64 (wrapI64 z) := by
  unfold InI64 wrapI64
  have h1 := Int.bmod_lt (x := z) (m := 2 ^ 64) (by decide)
  have h2 := Int.le_bmod (x := z) (m := 2 ^ 64) (by decide)
  omega

/-- **C11.** Whatever the quote (any price, including negative ones, any lot) and amount, the value of
holding `q` shares and of `q` unit lending contracts on the same share add up to zero (unless the
share value is the one `int64_t` that has no negation). -/
theorem C11_long_short_cancel (s : Standard) (q : Nat) (v w : P)
    (h1 : valueStock s q = .ok v) (h2 : valueLending s 1 q = .ok w) : v.value + w.value = 0 := by
  unfold valueStock at h1
  unfold valueLending at h2
  split at h1
  · simp at h1
  · rename_i k hk
    simp only [hk] at h2
    split at h1
    · simp at h1
    · split at h2
      · simp at h2
      · have e : u64 (u64 (toU64 k.price.value * 1) * q) = u64 (toU64 k.price.value * q) := by
          unfold u64
          rw [Nat.mul_one, Nat.mul_mod, Nat.mod_mod, ← Nat.mul_mod]
        simp only [e] at h2
        split at h2
        · simp at h1 h2
          subst h1 h2
          simp only
          omega
        · simp at h2

/-- **C11.** Both values are defined whenever there is a market quote with a positive lot, unless the
value is `-2^63`. -/
theorem C11_defined (s : Standard) (k : Quote) (hq : s.quote = some k) (hl : 0 < k.lot) (q : Nat) :
    (∃ v, valueStock s q = .ok v ∧ (v.value ≠ -(2 ^ 63) → ∃ w, valueLending s 1 q = .ok w)) := by
  have hk : k.lot ≠ 0 := by omega
  refine ⟨_, by simp [valueStock, hq, hk]; rfl, ?_⟩
  intro hv
  have e : u64 (u64 (toU64 k.price.value * 1) * q) = u64 (toU64 k.price.value * q) := by
    unfold u64
    rw [Nat.mul_one, Nat.mul_mod, Nat.mod_mod, ← Nat.mul_mod]
  have hin := InI64_wrap ((u64 (toU64 k.price.value * q) / k.lot : Nat) : Int)
  simp only at hv
  rw [← Int.natCast_ediv] at hv
  have hin' : InI64 (0 - wrapI64 ((u64 (toU64 k.price.value * q) / k.lot : Nat) : Int)) := by
    unfold InI64 at hin ⊢
    omega
  exact ⟨_, by simp only [valueLending, hq, hk, if_false, e]; rw [if_pos hin']⟩

/-- **C11 (partial).** For nonnegative prices and amounts whose product fits into 63 bits, the share
value is `price * q / lot` rounded towards zero, in the currency of the quote. Missing: negative
prices, for which the code divides an unsigned number (see the counterexample). -/
theorem C11_stock_value_partial (s : Standard) (k : Quote) (hq : s.quote = some k) (hl : 0 < k.lot)
    (q : Nat) (h0 : 0 ≤ k.price.value) (hv : k.price.value * q < 2 ^ 63) (hq1 : 0 < q) :
    valueStock s q = .ok ⟨k.price.value * q / k.lot, k.price.valuation⟩ := by
  have hk : k.lot ≠ 0 := by omega
  have hpv : k.price.value < 2 ^ 63 := by
    have : k.price.value * 1 ≤ k.price.value * q := Int.mul_le_mul_of_nonneg_left (by omega) h0
    omega
  simp only [valueStock, hq, hk, if_false, Outcome.ok.injEq, P.mk.injEq, and_true]
  have h1 : ((toU64 k.price.value * q : Nat) : Int) = k.price.value * q := by
    rw [Int.natCast_mul, toU64_of_nonneg _ h0 hpv]
  have h2 : u64 (toU64 k.price.value * q) = toU64 k.price.value * q := by
    unfold u64; apply Nat.mod_eq_of_lt; omega
  have hnn : 0 ≤ k.price.value * (q : Int) := Int.mul_nonneg h0 (by omega)
  rw [h2, Int.natCast_ediv, h1]
  apply wrapI64_of_in
  have hle : k.price.value * ↑q / ↑k.lot ≤ k.price.value * ↑q := Int.ediv_le_self _ hnn
  have hge : 0 ≤ k.price.value * ↑q / ↑k.lot := Int.ediv_nonneg hnn (by omega)
  unfold InI64
  omega

/-- **C11 (partial).** For lot size one the value is exact for negative prices as well. -/
theorem C11_stock_value_unit_lot_partial (s : Standard) (k : Quote) (hq : s.quote = some k)
    (hl : k.lot = 1) (q : Nat) (hv : InI64 (k.price.value * q)) :
    valueStock s q = .ok ⟨k.price.value * q, k.price.valuation⟩ := by
  simp only [valueStock, hq, hl, Nat.div_one]
  rw [if_neg (by omega)]
  simp only [Outcome.ok.injEq, P.mk.injEq, and_true]
  have : ((u64 (toU64 k.price.value * q) : Nat) : Int) = (k.price.value * q) % (2 ^ 64) := by
    unfold u64 toU64
    have h64 : (0 : Int) < 2 ^ 64 := by decide
    rw [Int.natCast_emod, Int.natCast_mul, Int.toNat_of_nonneg (Int.emod_nonneg _ (by omega))]
    simp [Int.mul_emod]
  rw [this]
  rw [wrapI64_emod]
  exact wrapI64_of_in hv

/-- **C11 (negation).** A holding quoted at -1 per lot of two shares is valued at 2^63-1 instead
of 0. -/
theorem C11_counterexample_negative_price :
    valueStock ⟨⟨85, 83, 68, 100⟩, some ⟨2, ⟨-1, ⟨85, 83, 68, 100⟩⟩⟩, none⟩ 1 =
      .ok ⟨2 ^ 63 - 1, ⟨85, 83, 68, 100⟩⟩ := by decide

/-- Without a market quote the valuation is refused. -/
theorem C11_refused_without_quote (s : Standard) (h : s.quote = none) (q size : Nat) :
    valueStock s q = .throws ∧ valueLending s size q = .throws := by
  simp [valueStock, valueLending, h]

example : valueStock ⟨⟨85, 83, 68, 100⟩, some ⟨100, ⟨1234, ⟨85, 83, 68, 100⟩⟩⟩, none⟩ 50 =
      .ok ⟨617, ⟨85, 83, 68, 100⟩⟩ := by decide

/-- The hypotheses of `C11_long_short_cancel` and `C11_defined`: a lot of 100, held long and short. -/
example : valueLending ⟨⟨85, 83, 68, 100⟩, some ⟨100, ⟨1234, ⟨85, 83, 68, 100⟩⟩⟩, none⟩ 1 50 =
      .ok ⟨-617, ⟨85, 83, 68, 100⟩⟩ := by decide

/-- The hypothesis of `C11_stock_value_unit_lot_partial` with a negative price, and of `C10_additive`. -/
example : InI64 (-25 * (40 : Nat)) ∧ Spec.Sorted [(1, 5), (3, -2), (3, 4), (7, 1)] := by
  refine ⟨by unfold InI64; decide, ?_⟩
  simp [Spec.Sorted]

/-! ## C73 -/

/-- **C73 (partial).** Amounts in the reporting currency are valued at their amount; loans are valued at
minus the amount in units of the reporting currency; an amount in a foreign currency without an
exchange rate is refused. Missing: converted amounts, which the code labels with the foreign
currency. -/
theorem C73_reporting_currency_partial (s : Standard) (q : Nat) (c : Currency) :
    (q < 2 ^ 63 → valueMoney s s.reporting q = .ok ⟨q, s.reporting⟩) ∧
    (q * s.reporting.denominator ≤ 2 ^ 63 → q < 2 ^ 63 →
      valueLoan s q = ⟨-(q * s.reporting.denominator), s.reporting⟩) ∧
    (c ≠ s.reporting → s.rate = none → valueMoney s c q = .throws) := by
  refine ⟨?_, ?_, ?_⟩
  · intro h
    have he : s.reporting.eq s.reporting = true := by simp [Currency.eq]
    simp only [valueMoney, he, if_true]
    rw [wrapI64_of_in]
    unfold InI64; omega
  · intro h hq
    unfold valueLoan
    simp only [P.mk.injEq, and_true]
    rw [wrapI64_of_in (z := (q : Int)) (by unfold InI64; omega)]
    have : ((u64 (toU64 (-(q : Int)) * s.reporting.denominator) : Nat) : Int)
        = (-(q : Int) * s.reporting.denominator) % (2 ^ 64) := by
      unfold u64 toU64
      rw [Int.natCast_emod, Int.natCast_mul, Int.toNat_of_nonneg (Int.emod_nonneg _ (by decide))]
      rw [Int.mul_emod (-(q : Int)), Int.mul_emod (-(q : Int) % 2 ^ 64)]
      simp
    rw [this]
    rw [wrapI64_emod, Int.neg_mul]
    apply wrapI64_of_in
    unfold InI64
    have : ((q * s.reporting.denominator : Nat) : Int) ≤ 2 ^ 63 := by exact_mod_cast h
    rw [Int.natCast_mul] at this
    have hnn : 0 ≤ (q : Int) * s.reporting.denominator := by positivity
    omega
  · intro h hr
    have he : c.eq s.reporting = false := by
      cases hb : c.eq s.reporting
      · rfl
      · exfalso; apply h
        revert hb
        cases c; cases hs : s.reporting
        simp [Currency.eq]
        omega
    simp [valueMoney, he, hr]

/-- **C73 (negation).** Whenever a foreign amount is converted, the result is labelled with the foreign
currency rather than with the reporting currency. -/
theorem C73_counterexample (s : Standard) (c : Currency) (q : Nat) (p : P)
    (hc : c.eq s.reporting = false) (h : valueMoney s c q = .ok p) : p.valuation = c := by
  simp only [valueMoney, hc, Bool.false_eq_true, if_false] at h
  split at h
  · simp at h
  · split at h
    · simp at h
    · simp at h; subst h; rfl

/-- **C73, converted amounts (partial).** Apart from the currency, a foreign amount is converted at the rate, rounded down, if the product with the numerator is below `2 ^ 63`. Missing: the currency, and larger products, see the counterexamples. -/
theorem C73_converted_amount_partial (s : Standard) (c : Currency) (q num den : Nat) (hc : c ≠ s.reporting) (hr : s.rate = some (num, den)) (hd : 0 < den) (hq : q < 2 ^ 63) (hn : q * num < 2 ^ 63) :
    ∃ v : Nat, valueMoney s c q = .ok ⟨v, c⟩ ∧ v * den ≤ q * num ∧ q * num < (v + 1) * den := by
  have he : c.eq s.reporting = false := by
    cases hb : c.eq s.reporting
    · rfl
    · exfalso; apply hc
      revert hb
      cases c; cases hs : s.reporting
      simp [Currency.eq]
      omega
  have e1 : toU64 (wrapI64 (q : Int)) = q := by
    rw [wrapI64_of_in (by unfold InI64; omega)]
    unfold toU64
    omega
  have hle : q * num / den ≤ q * num := Nat.div_le_self _ _
  refine ⟨q * num / den, ?_, Nat.div_mul_le_self _ _, ?_⟩
  · simp only [valueMoney, he, Bool.false_eq_true, if_false, hr, convert, e1]
    rw [if_neg (by omega), show u64 (q * num) = q * num by unfold u64; omega, wrapI64_of_in (z := ((q * num / den : Nat) : Int)) (by unfold InI64; exact ⟨Int.le_trans (by decide) (Int.natCast_nonneg _), by exact_mod_cast Nat.lt_of_le_of_lt hle hn⟩)]
  · have := Nat.div_add_mod (q * num) den
    have h2 := Nat.mod_lt (q * num) hd
    rw [Nat.add_mul, Nat.one_mul, Nat.mul_comm _ den]
    omega

/-- **C73 (negation, overflow).** At a rate of `2 ^ 62 / 5`, seven units are worth `2 ^ 62 * 7 / 5`, but are converted to `2 ^ 62 * 3 / 5`. -/
theorem C73_counterexample_overflow : valueMoney ⟨⟨85, 83, 68, 100⟩, none, some (2 ^ 62, 5)⟩ ⟨69, 85, 82, 100⟩ 7 = .ok ⟨2 ^ 62 * 3 / 5, ⟨69, 85, 82, 100⟩⟩ := by decide +kernel

/-- Non-vacuity: 100 EUR cents at 3/2 USD per EUR come out as 150 "EUR". -/
example : valueMoney ⟨⟨85, 83, 68, 100⟩, none, some (3, 2)⟩ ⟨69, 85, 82, 100⟩ 100 =
    .ok ⟨150, ⟨69, 85, 82, 100⟩⟩ ∧ (⟨69, 85, 82, 100⟩ : Currency) ≠ ⟨85, 83, 68, 100⟩ := by decide

end Esl.Accounting
