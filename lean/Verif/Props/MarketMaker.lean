import Verif.Model.MarketMaker
import Mathlib.Analysis.Complex.ExponentialBounds
/-! C67: the quotes of the market maker. -/
namespace Esl.Maker

theorem spread_pos (theta sigma gamma k : ℝ) (ht : theta ≤ 1) (hg : 0 < gamma) (hk : 0 < k) : 0 < spread theta sigma gamma k := by
  unfold spread
  have h1 : 0 ≤ gamma * (sigma * sigma) * (1 - theta) := mul_nonneg (mul_nonneg hg.le (mul_self_nonneg sigma)) (by linarith)
  have h2 : 0 < gamma / k := div_pos hg hk
  have h3 : 0 < Real.log (1 + gamma / k) := Real.log_pos (by linarith)
  have h4 : 0 < 2 / gamma * Real.log (1 + gamma / k) := mul_pos (div_pos (by norm_num) hg) h3
  linarith

/-- The price at which a market maker with `long` units bought and `short` units sold is indifferent, from Avellaneda and Stoikov (2008): `s - q γ σ² (T - t)`, in units of currency. -/
noncomputable def Spec.indifference (mid : ℝ) (long short : Nat) (theta sigma gamma : ℝ) : ℝ := mid - ((long : ℝ) - short) * gamma * sigma ^ 2 * (1 - theta)

/-- Half of the optimal spread, from the same paper: `(γ σ² (T - t) + (2/γ) ln(1 + γ/k)) / 2`. -/
noncomputable def Spec.half (theta sigma gamma k : ℝ) : ℝ := (gamma * sigma ^ 2 * (1 - theta) + 2 / gamma * Real.log (1 + gamma / k)) / 2

theorem reservation_eq (mid : Int) (denominator : Nat) (long short : Nat) (theta sigma gamma : ℝ) :
    reservation mid denominator long short theta sigma gamma = Spec.indifference ((mid : ℝ) / denominator) long short theta sigma gamma := by
  unfold reservation Spec.indifference; ring

theorem spread_eq (theta sigma gamma k : ℝ) : spread theta sigma gamma k / 2 = Spec.half theta sigma gamma k := by
  unfold spread Spec.half; ring

theorem half_pos (theta sigma gamma k : ℝ) (ht : theta ≤ 1) (hg : 0 < gamma) (hk : 0 < k) : 0 < Spec.half theta sigma gamma k := by
  have := spread_pos theta sigma gamma k ht hg hk
  rw [← spread_eq]; linarith

theorem quotes_eq (mid : Int) (denominator : Nat) (hd : 0 < denominator) (long short : Nat) (theta sigma gamma k : ℝ) (ht : theta ≤ 1) (hg : 0 < gamma) (hk : 0 < k) :
    quotes mid denominator long short theta sigma gamma k =
      if ¬InI64 ⌊(Spec.indifference ((mid : ℝ) / denominator) long short theta sigma gamma - Spec.half theta sigma gamma k) * denominator⌋ ∨
         ¬InI64 ⌈(Spec.indifference ((mid : ℝ) / denominator) long short theta sigma gamma + Spec.half theta sigma gamma k) * denominator⌉ then .ub
      else .ok (⌊(Spec.indifference ((mid : ℝ) / denominator) long short theta sigma gamma - Spec.half theta sigma gamma k) * denominator⌋,
                ⌈(Spec.indifference ((mid : ℝ) / denominator) long short theta sigma gamma + Spec.half theta sigma gamma k) * denominator⌉) := by
  have hs := half_pos theta sigma gamma k ht hg hk
  have hdr : (0 : ℝ) < denominator := by exact_mod_cast hd
  have hc : ¬(denominator = 0 ∨ gamma = 0 ∨ k = 0 ∨ 1 + gamma / k ≤ 0) := by
    have h2 : 0 < gamma / k := div_pos hg hk
    rintro (h | h | h | h)
    · omega
    · linarith
    · linarith
    · linarith
  unfold quotes
  rw [if_neg hc]
  simp only [reservation_eq, spread_eq]
  generalize Spec.indifference ((mid : ℝ) / denominator) long short theta sigma gamma = r
  generalize Spec.half theta sigma gamma k = s at hs ⊢
  have f1 := Int.floor_le ((r - s) * denominator)
  have c1 := Int.le_ceil ((r + s) * denominator)
  have hlt : (r - s) * denominator < (r + s) * denominator := mul_lt_mul_of_pos_right (by linarith) hdr
  have hne : ⌊(r - s) * denominator⌋ ≠ ⌈(r + s) * denominator⌉ := by
    intro e
    have : ((⌊(r - s) * denominator⌋ : ℤ) : ℝ) < (⌈(r + s) * denominator⌉ : ℤ) := by linarith
    rw [e] at this
    exact lt_irrefl _ this
  rw [if_neg hne]

/-- **C67 (partial).** For a risk-averse market maker (`gamma > 0`) with a positive arrival rate, at any time of the session, with any inventory, volatility and mid price: the bid is less than the ask; the bid
is the price half the optimal spread below the indifference price, rounded down to a multiple of the smallest unit, and the ask the one half the spread above, rounded up; and the quotes exist if they fit 64 bits.
Missing: the risk-neutral market maker, `gamma = 0`, which the documentation allows; see the counterexample. -/
theorem C67_bid_below_ask_partial (mid : Int) (denominator : Nat) (hd : 0 < denominator) (long short : Nat) (theta sigma gamma k : ℝ) (ht : theta ≤ 1) (hg : 0 < gamma) (hk : 0 < k) :
    (∀ bid ask, quotes mid denominator long short theta sigma gamma k = .ok (bid, ask) →
      bid < ask ∧
      (bid : ℝ) / denominator ≤ Spec.indifference ((mid : ℝ) / denominator) long short theta sigma gamma - Spec.half theta sigma gamma k ∧
      Spec.indifference ((mid : ℝ) / denominator) long short theta sigma gamma - Spec.half theta sigma gamma k < ((bid : ℝ) + 1) / denominator ∧
      Spec.indifference ((mid : ℝ) / denominator) long short theta sigma gamma + Spec.half theta sigma gamma k ≤ (ask : ℝ) / denominator ∧
      ((ask : ℝ) - 1) / denominator < Spec.indifference ((mid : ℝ) / denominator) long short theta sigma gamma + Spec.half theta sigma gamma k) ∧
    ((∀ x : ℝ, |x| ≤ Spec.half theta sigma gamma k → |(Spec.indifference ((mid : ℝ) / denominator) long short theta sigma gamma + x) * denominator| < 2 ^ 63 - 2) →
      ∃ q, quotes mid denominator long short theta sigma gamma k = .ok q) := by
  have hs := half_pos theta sigma gamma k ht hg hk
  have hdr : (0 : ℝ) < denominator := by exact_mod_cast hd
  rw [quotes_eq mid denominator hd long short theta sigma gamma k ht hg hk]
  generalize Spec.indifference ((mid : ℝ) / denominator) long short theta sigma gamma = r
  generalize Spec.half theta sigma gamma k = s at hs ⊢
  have f1 := Int.floor_le ((r - s) * denominator)
  have f2 := Int.lt_floor_add_one ((r - s) * denominator)
  have c1 := Int.le_ceil ((r + s) * denominator)
  have c2 := Int.ceil_lt_add_one ((r + s) * denominator)
  have hlt : (r - s) * denominator < (r + s) * denominator := mul_lt_mul_of_pos_right (by linarith) hdr
  constructor
  · intro bid ask hq
    split at hq
    · cases hq
    · injection hq with hq
      injection hq with hb ha
      subst hb ha
      refine ⟨?_, ?_, ?_, ?_, ?_⟩
      · have h1 : ((⌊(r - s) * denominator⌋ : ℤ) : ℝ) < (⌈(r + s) * denominator⌉ : ℤ) := by linarith
        exact_mod_cast h1
      · rwa [div_le_iff₀ hdr]
      · rwa [lt_div_iff₀ hdr]
      · rwa [le_div_iff₀ hdr]
      · rw [div_lt_iff₀ hdr]; linarith
  · intro hb
    have b1 := abs_lt.1 (hb (-s) (by rw [abs_neg, abs_of_pos hs]))
    have b2 := abs_lt.1 (hb s (by rw [abs_of_pos hs]))
    rw [← sub_eq_add_neg] at b1
    have i1 : -2 ^ 63 + 1 < ⌊(r - s) * denominator⌋ := by
      have : ((-2 ^ 63 + 1 : ℤ) : ℝ) < (⌊(r - s) * denominator⌋ : ℤ) := by push_cast; linarith
      exact_mod_cast this
    have i2 : ⌊(r - s) * denominator⌋ < 2 ^ 63 - 2 := by
      have : ((⌊(r - s) * denominator⌋ : ℤ) : ℝ) < ((2 ^ 63 - 2 : ℤ) : ℝ) := by push_cast; linarith
      exact_mod_cast this
    have i3 : -2 ^ 63 + 1 < ⌈(r + s) * denominator⌉ := by
      have : ((-2 ^ 63 + 1 : ℤ) : ℝ) < (⌈(r + s) * denominator⌉ : ℤ) := by push_cast; linarith
      exact_mod_cast this
    have i4 : ⌈(r + s) * denominator⌉ < 2 ^ 63 - 1 := by
      have : ((⌈(r + s) * denominator⌉ : ℤ) : ℝ) < ((2 ^ 63 - 1 : ℤ) : ℝ) := by push_cast; linarith
      exact_mod_cast this
    rw [if_neg (by unfold InI64; omega)]
    exact ⟨_, rfl⟩

/-- **C67, negation.** With `gamma = 0`, which the documentation describes as risk neutrality, the spread is infinity times zero, and there are no quotes. -/
theorem C67_counterexample_risk_neutral (mid : Int) (denominator : Nat) (long short : Nat) (theta sigma k : ℝ) : quotes mid denominator long short theta sigma 0 k = .ub := by
  unfold quotes
  rw [if_pos (by right; left; rfl)]

/-- **C67, inventory.** A larger inventory moves neither quote up: having bought more, or sold less, the bid is lower or equal, and so is the ask. -/
theorem C67_inventory (mid : Int) (denominator : Nat) (hd : 0 < denominator) (long long' short short' : Nat) (theta sigma gamma k : ℝ) (ht : theta ≤ 1) (hg : 0 < gamma) (hk : 0 < k)
    (hl : long ≤ long') (hsh : short' ≤ short) (bid ask bid' ask' : Int)
    (h : quotes mid denominator long short theta sigma gamma k = .ok (bid, ask)) (h' : quotes mid denominator long' short' theta sigma gamma k = .ok (bid', ask')) :
    bid' ≤ bid ∧ ask' ≤ ask := by
  have hdr : (0 : ℝ) < denominator := by exact_mod_cast hd
  rw [quotes_eq mid denominator hd _ _ theta sigma gamma k ht hg hk] at h h'
  have hr : Spec.indifference ((mid : ℝ) / denominator) long' short' theta sigma gamma ≤ Spec.indifference ((mid : ℝ) / denominator) long short theta sigma gamma := by
    unfold Spec.indifference
    have h1 : (long : ℝ) ≤ long' := by exact_mod_cast hl
    have h0 : (short' : ℝ) ≤ short := by exact_mod_cast hsh
    have h2 : 0 ≤ gamma * sigma ^ 2 * (1 - theta) := mul_nonneg (mul_nonneg hg.le (sq_nonneg sigma)) (by linarith)
    have h3 := mul_le_mul_of_nonneg_right (sub_le_sub h1 h0) h2
    linarith
  split at h
  · cases h
  split at h'
  · cases h'
  injection h with h; injection h with hb ha
  injection h' with h'; injection h' with hb' ha'
  subst hb ha hb' ha'
  exact ⟨Int.floor_le_floor (mul_le_mul_of_nonneg_right (by linarith) hdr.le), Int.ceil_le_ceil (mul_le_mul_of_nonneg_right (by linarith) hdr.le)⟩

/-- **C67, never crossed.** Whatever the risk aversion and the arrival rate: as long as the optimal spread is not negative, a bid and an ask that are quoted differ, and the bid is the lower one; also when the
spread is zero. -/
theorem C67_never_crossed (mid : Int) (denominator : Nat) (long short : Nat) (theta sigma gamma k : ℝ) (hs : 0 ≤ Spec.half theta sigma gamma k) (bid ask : Int)
    (h : quotes mid denominator long short theta sigma gamma k = .ok (bid, ask)) : bid < ask := by
  unfold quotes at h
  split at h
  · cases h
  simp only [reservation_eq, spread_eq] at h
  generalize Spec.indifference ((mid : ℝ) / denominator) long short theta sigma gamma = r at h
  generalize Spec.half theta sigma gamma k = s at hs h
  split at h
  · cases h
  have hle : ⌊(r - s) * denominator⌋ ≤ ⌈(r + s) * denominator⌉ := by
    have f1 := Int.floor_le ((r - s) * denominator)
    have c1 := Int.le_ceil ((r + s) * denominator)
    have hlt : (r - s) * denominator ≤ (r + s) * denominator := mul_le_mul_of_nonneg_right (by linarith) (Nat.cast_nonneg _)
    have : ((⌊(r - s) * denominator⌋ : ℤ) : ℝ) ≤ (⌈(r + s) * denominator⌉ : ℤ) := by linarith
    exact_mod_cast this
  split at h
  · rename_i heq
    split at h
    · injection h with h
      injection h with hb ha
      omega
    · cases h
  · rename_i hne
    injection h with h
    injection h with hb ha
    omega

/-- Non-vacuity: a spread of zero, of a market maker that seeks risk; the quotes are moved apart. -/
example : Spec.half 0 (Real.sqrt (2 * Real.log 2)) (-1) 2 = 0 ∧ quotes 100 1 3 3 0 (Real.sqrt (2 * Real.log 2)) (-1) 2 = .ok (99, 101) := by
  have hl1 := Real.log_two_gt_d9
  have hsq : Real.sqrt (2 * Real.log 2) ^ 2 = 2 * Real.log 2 := Real.sq_sqrt (by linarith)
  have hlog : Real.log (1 + (-1) / 2) = -Real.log 2 := by
    rw [show (1 : ℝ) + (-1) / 2 = 2⁻¹ by norm_num, Real.log_inv]
  have hh : Spec.half 0 (Real.sqrt (2 * Real.log 2)) (-1) 2 = 0 := by
    unfold Spec.half
    rw [hsq, hlog]; ring
  have hr : Spec.indifference (((100 : Int) : ℝ) / ((1 : Nat) : ℝ)) 3 3 0 (Real.sqrt (2 * Real.log 2)) (-1) = 100 := by
    unfold Spec.indifference; norm_num
  refine ⟨hh, ?_⟩
  unfold quotes
  rw [if_neg (by norm_num)]
  simp only [reservation_eq, spread_eq, hh, hr]
  have hb : ⌊((100 : ℝ) - 0) * ((1 : Nat) : ℝ)⌋ = 100 := by
    rw [Int.floor_eq_iff]; push_cast; constructor <;> linarith
  have ha : ⌈((100 : ℝ) + 0) * ((1 : Nat) : ℝ)⌉ = 100 := by
    rw [Int.ceil_eq_iff]; push_cast; constructor <;> linarith
  rw [hb, ha]
  rw [if_neg (by unfold InI64; omega), if_pos rfl, if_pos (by unfold InI64; omega)]
  rfl

/-- Non-vacuity: at the end of the session, with a mid price of 100 units, `gamma = 1` and `k = 1`, the quotes are 99 and 101. -/
example : quotes 100 1 5 3 1 2 1 1 = .ok (99, 101) := by
  have hl1 := Real.log_two_gt_d9
  have hl2 := Real.log_two_lt_d9
  have hr : reservation 100 1 5 3 1 2 1 = 100 := by unfold reservation; norm_num
  have hsp : spread 1 2 1 1 = 2 * Real.log 2 := by unfold spread; norm_num
  unfold quotes
  rw [if_neg (by norm_num)]
  simp only [hr, hsp]
  have hb : ⌊((100 : ℝ) - 2 * Real.log 2 / 2) * ((1 : Nat) : ℝ)⌋ = 99 := by
    rw [Int.floor_eq_iff]; push_cast; constructor <;> linarith
  have ha : ⌈((100 : ℝ) + 2 * Real.log 2 / 2) * ((1 : Nat) : ℝ)⌉ = 101 := by
    rw [Int.ceil_eq_iff]; push_cast; constructor <;> linarith
  rw [hb, ha]
  rw [if_neg (by unfold InI64; omega), if_neg (by decide)]

end Esl.Maker
