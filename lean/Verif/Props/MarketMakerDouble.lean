import Verif.Props.MarketMaker
import Verif.Lemmas.Double
import Mathlib.Tactic.Positivity
/-!
# C67 in IEEE arithmetic
-/
namespace Esl.Maker
open Double

/-- What is required of the logarithm of the standard library: it is zero for one, and not negative from there on. -/
structure Spec.Logarithm (log : Rat → Rat) : Prop where
  one : log 1 = 0
  nonneg : ∀ x, 1 ≤ x → 0 ≤ log x

theorem binary64_one : binary64 1 = 1 := by
  have := binary64_int 1 (by decide)
  simpa using this

theorem spreadDouble_nonneg (log : Rat → Rat) (hlog : Spec.Logarithm log) (theta sigma gamma k : Rat) (ht : theta ≤ 1) (hg : 0 < gamma) (hk : 0 < k) :
    0 ≤ spreadDouble binary64 log theta sigma gamma k := by
  unfold spreadDouble
  have h1 : 0 ≤ binary64 (sigma * sigma) := binary64_nonneg _ (mul_self_nonneg _)
  have h2 : 0 ≤ binary64 (gamma * binary64 (sigma * sigma)) := binary64_nonneg _ (mul_nonneg hg.le h1)
  have h3 : 0 ≤ binary64 (1 - theta) := binary64_nonneg _ (by linarith)
  have h4 : 0 ≤ binary64 (gamma / k) := binary64_nonneg _ (div_nonneg hg.le hk.le)
  have h5 : 1 ≤ binary64 (1 + binary64 (gamma / k)) := by
    have := binary64_mono (p := 1) (q := 1 + binary64 (gamma / k)) (by linarith)
    rwa [binary64_one] at this
  have h6 : 0 ≤ binary64 (2 / gamma) := binary64_nonneg _ (by positivity)
  exact binary64_nonneg _ (add_nonneg (binary64_nonneg _ (mul_nonneg h2 h3)) (binary64_nonneg _ (mul_nonneg h6 (hlog.nonneg _ h5))))

theorem raw_order (s r : Rat) (denominator : Nat) (hs : 0 ≤ s) :
    ⌊binary64 (binary64 (r - binary64 (s / 2)) * binary64 denominator)⌋ ≤ ⌈binary64 (binary64 (r + binary64 (s / 2)) * binary64 denominator)⌉ := by
  have h1 : 0 ≤ binary64 (s / 2) := binary64_nonneg _ (by linarith)
  have h2 : binary64 (r - binary64 (s / 2)) ≤ binary64 (r + binary64 (s / 2)) := binary64_mono (by linarith)
  have hd : 0 ≤ binary64 (denominator : Rat) := binary64_nonneg _ (by positivity)
  exact (Int.floor_mono (binary64_mono (mul_le_mul_of_nonneg_right h2 hd))).trans (Int.floor_le_ceil _)

/-- **C67 in IEEE arithmetic.** With every operation rounded and any logarithm of the standard library, a market maker that is risk averse and has a positive arrival rate quotes a bid strictly below its ask. -/
theorem C67_binary64 (log : Rat → Rat) (hlog : Spec.Logarithm log) (mid : Int) (denominator : Nat) (long short : Nat) (theta sigma gamma k : Rat)
    (ht : theta ≤ 1) (hg : 0 < gamma) (hk : 0 < k) (bid ask : Int)
    (h : quotesDouble binary64 log mid denominator long short theta sigma gamma k = .ok (bid, ask)) : bid < ask := by
  have hs := spreadDouble_nonneg log hlog theta sigma gamma k ht hg hk
  unfold quotesDouble at h
  simp only at h
  generalize spreadDouble binary64 log theta sigma gamma k = s at h hs
  generalize reservationDouble binary64 mid denominator long short theta sigma gamma = r at h
  have h4 := raw_order s r denominator hs
  split_ifs at h
  · injection h with h
    injection h with h5 h6
    omega
  · injection h with h
    injection h with h5 h6
    omega

/-- **C67 in IEEE arithmetic, inventory.** A larger inventory moves neither quote up. -/
theorem C67_binary64_inventory (log : Rat → Rat) (hlog : Spec.Logarithm log) (mid : Int) (denominator : Nat) (long long' short short' : Nat) (theta sigma gamma k : Rat)
    (ht : theta ≤ 1) (hg : 0 < gamma) (hk : 0 < k) (hsig : 0 ≤ sigma) (hl : long ≤ long') (hsh : short' ≤ short) (bid ask bid' ask' : Int)
    (h : quotesDouble binary64 log mid denominator long short theta sigma gamma k = .ok (bid, ask))
    (h' : quotesDouble binary64 log mid denominator long' short' theta sigma gamma k = .ok (bid', ask')) :
    bid' ≤ bid ∧ ask' ≤ ask := by
  have hr : reservationDouble binary64 mid denominator long' short' theta sigma gamma ≤ reservationDouble binary64 mid denominator long short theta sigma gamma := by
    unfold reservationDouble
    have e1 : binary64 (long : Rat) ≤ binary64 (long' : Rat) := binary64_mono (by exact_mod_cast hl)
    have e2 : binary64 (short' : Rat) ≤ binary64 (short : Rat) := binary64_mono (by exact_mod_cast hsh)
    have e3 : binary64 (binary64 (long : Rat) - binary64 short) ≤ binary64 (binary64 (long' : Rat) - binary64 short') := binary64_mono (by linarith)
    have e4 := binary64_mono (mul_le_mul_of_nonneg_right e3 hg.le)
    have e5 := binary64_mono (mul_le_mul_of_nonneg_right e4 hsig)
    have e6 := binary64_mono (mul_le_mul_of_nonneg_right e5 hsig)
    have e7 := binary64_mono (mul_le_mul_of_nonneg_right e6 (binary64_nonneg (1 - theta) (by linarith)))
    exact binary64_mono (by linarith)
  have hs := spreadDouble_nonneg log hlog theta sigma gamma k ht hg hk
  unfold quotesDouble at h h'
  simp only at h h'
  generalize spreadDouble binary64 log theta sigma gamma k = s at h h' hs
  generalize reservationDouble binary64 mid denominator long short theta sigma gamma = r at h hr
  generalize reservationDouble binary64 mid denominator long' short' theta sigma gamma = r' at h' hr
  have hd : 0 ≤ binary64 (denominator : Rat) := binary64_nonneg _ (by positivity)
  have hb : ⌊binary64 (binary64 (r' - binary64 (s / 2)) * binary64 denominator)⌋ ≤ ⌊binary64 (binary64 (r - binary64 (s / 2)) * binary64 denominator)⌋ :=
    Int.floor_mono (binary64_mono (mul_le_mul_of_nonneg_right (binary64_mono (by linarith)) hd))
  have ha : ⌈binary64 (binary64 (r' + binary64 (s / 2)) * binary64 denominator)⌉ ≤ ⌈binary64 (binary64 (r + binary64 (s / 2)) * binary64 denominator)⌉ :=
    Int.ceil_mono (binary64_mono (mul_le_mul_of_nonneg_right (binary64_mono (by linarith)) hd))
  have o := raw_order s r denominator hs
  have o' := raw_order s r' denominator hs
  generalize ⌊binary64 (binary64 (r' - binary64 (s / 2)) * binary64 denominator)⌋ = b' at *
  generalize ⌊binary64 (binary64 (r - binary64 (s / 2)) * binary64 denominator)⌋ = b at *
  generalize ⌈binary64 (binary64 (r' + binary64 (s / 2)) * binary64 denominator)⌉ = a' at *
  generalize ⌈binary64 (binary64 (r + binary64 (s / 2)) * binary64 denominator)⌉ = a at *
  split_ifs at h h' <;> injection h with h <;> injection h' with h' <;> injection h with h5 h6 <;> injection h' with h7 h8 <;> omega

/-- The rounded price at a distance from a price, in smallest units. -/
def Spec.away (price distance : Rat) (denominator : Nat) : Rat := binary64 (binary64 (price + distance) * binary64 denominator)

/-- **C67 in IEEE arithmetic, rounding.** The quotes are rounded away from the mid price, to the next smallest unit: the bid is at most the price half the spread below the reservation price, and less than two units
away from it, and the ask at least the one half the spread above. -/
theorem C67_binary64_rounding (log : Rat → Rat) (mid : Int) (denominator : Nat) (long short : Nat) (theta sigma gamma k : Rat) (bid ask : Int)
    (h : quotesDouble binary64 log mid denominator long short theta sigma gamma k = .ok (bid, ask)) :
    ∃ r s, r = reservationDouble binary64 mid denominator long short theta sigma gamma ∧ s = spreadDouble binary64 log theta sigma gamma k ∧
      (bid : Rat) ≤ Spec.away r (-binary64 (s / 2)) denominator ∧ Spec.away r (-binary64 (s / 2)) denominator < bid + 2 ∧
      Spec.away r (binary64 (s / 2)) denominator ≤ ask ∧ (ask : Rat) - 2 < Spec.away r (binary64 (s / 2)) denominator := by
  refine ⟨_, _, rfl, rfl, ?_⟩
  unfold quotesDouble at h
  simp only at h
  generalize spreadDouble binary64 log theta sigma gamma k = s at h ⊢
  generalize reservationDouble binary64 mid denominator long short theta sigma gamma = r at h ⊢
  unfold Spec.away
  rw [← sub_eq_add_neg]
  have f1 := Int.floor_le (binary64 (binary64 (r - binary64 (s / 2)) * binary64 denominator))
  have f2 := Int.lt_floor_add_one (binary64 (binary64 (r - binary64 (s / 2)) * binary64 denominator))
  have c1 := Int.le_ceil (binary64 (binary64 (r + binary64 (s / 2)) * binary64 denominator))
  have c2 := Int.ceil_lt_add_one (binary64 (binary64 (r + binary64 (s / 2)) * binary64 denominator))
  split_ifs at h
  all_goals
    injection h with h
    injection h with h5 h6
    subst h5 h6
    push_cast
    refine ⟨by linarith, by linarith, by linarith, by linarith⟩

/-- A logarithm, for the examples. -/
theorem logarithm_example : Spec.Logarithm (fun x => (x - 1) / 2) :=
  ⟨by norm_num, fun x hx => by linarith⟩

/-- A mid price of 100 dollars, the parameters of the paper, and two inventories. -/
example : quotesDouble binary64 (fun x => (x - 1) / 2) 10000 100 0 0 (1 / 2) 2 (1 / 8) (3 / 2) = .ok (9954, 10046) ∧
    quotesDouble binary64 (fun x => (x - 1) / 2) 10000 100 3 1 (1 / 2) 2 (1 / 8) (3 / 2) = .ok (9904, 9996) := by decide +kernel

/-- **C67, negation.** In IEEE arithmetic the quotes of a market maker with little risk aversion are not half the optimal spread away from the mid price: at the end of the session they are one cent below and above
100 dollars, whatever the arrival rate is, while half the optimal spread is at least `1 / (2 k)`. -/
theorem C67_counterexample_little_aversion (log : Rat → Rat) (hlog : Spec.Logarithm log) (long short : Nat) (sigma gamma k : Rat) (hk : 0 < k) (hg : 0 < gamma) (hs : gamma / k ≤ 1 / 2 ^ 54) :
    quotesDouble binary64 log 10000 100 long short 1 sigma gamma k = .ok (9999, 10001) ∧ 1 / (2 * (k : ℝ)) ≤ Spec.half 1 sigma gamma k := by
  constructor
  · have e1 : binary64 (1 + binary64 (gamma / k)) = 1 := by
      have h0 : 0 ≤ binary64 (gamma / k) := binary64_nonneg _ (div_nonneg hg.le hk.le)
      have h1 : binary64 (gamma / k) ≤ 1 / 2 ^ 54 := by
        have := binary64_mono hs
        rwa [show binary64 (1 / 2 ^ 54) = 1 / 2 ^ 54 from by decide +kernel] at this
      have h2 := binary64_mono (p := 1) (q := 1 + binary64 (gamma / k)) (by linarith)
      have h3 := binary64_mono (p := 1 + binary64 (gamma / k)) (q := 1 + 1 / 2 ^ 54) (by linarith)
      rw [binary64_one] at h2
      rw [show binary64 (1 + 1 / 2 ^ 54) = 1 from by decide +kernel] at h3
      exact le_antisymm h3 h2
    have e2 : spreadDouble binary64 log 1 sigma gamma k = 0 := by
      unfold spreadDouble
      rw [e1, hlog.one]
      simp [binary64_zero]
    have e3 : reservationDouble binary64 10000 100 long short 1 sigma gamma = 100 := by
      unfold reservationDouble
      rw [sub_self, binary64_zero, mul_zero, binary64_zero, sub_zero]
      decide +kernel
    unfold quotesDouble
    rw [if_neg (by rw [e1]; push Not; exact ⟨by decide, hg.ne', hk.ne', by norm_num⟩), e2, e3]
    decide +kernel
  · have hk' : (0 : ℝ) < k := by exact_mod_cast hk
    have hg' : (0 : ℝ) < gamma := by exact_mod_cast hg
    have hx : (0 : ℝ) < (gamma : ℝ) / k := div_pos hg' hk'
    have hx1 : (gamma : ℝ) / k ≤ 1 := by
      have : ((gamma / k : Rat) : ℝ) ≤ ((1 / 2 ^ 54 : Rat) : ℝ) := by exact_mod_cast hs
      push_cast at this
      have h2 : (1 : ℝ) / 2 ^ 54 ≤ 1 := by norm_num
      linarith
    have hl : 1 - (1 + (gamma : ℝ) / k)⁻¹ ≤ Real.log (1 + gamma / k) := Real.one_sub_inv_le_log_of_pos (by linarith)
    have hl2 : (gamma : ℝ) / k / 2 ≤ 1 - (1 + (gamma : ℝ) / k)⁻¹ := by
      generalize (gamma : ℝ) / k = x at *
      have hp : (0 : ℝ) < 1 + x := by linarith
      have : 1 - (1 + x)⁻¹ = x / (1 + x) := by field_simp; ring
      rw [this, div_le_div_iff₀ (by norm_num) hp]
      nlinarith
    unfold Spec.half
    have h3 : (2 : ℝ) / gamma * (gamma / k / 2) ≤ 2 / gamma * Real.log (1 + gamma / k) := mul_le_mul_of_nonneg_left (by linarith) (by positivity)
    have h4 : (2 : ℝ) / gamma * (gamma / k / 2) = 1 / k := by field_simp
    have h5 : (1 : ℝ) / (2 * k) = 1 / k / 2 := by field_simp
    push_cast
    rw [h5]
    have h6 : (gamma : ℝ) * (sigma : ℝ) ^ 2 * (1 - 1) = 0 := by ring
    rw [h6]
    linarith

/-- An arrival rate for which half the optimal spread is at least 50 dollars. -/
example : (0 : Rat) < 1 / 100 ∧ (0 : Rat) < 1 / 2 ^ 64 ∧ ((1 : Rat) / 2 ^ 64) / (1 / 100) ≤ 1 / 2 ^ 54 ∧ (1 : Rat) / (2 * (1 / 100)) = 50 := by norm_num

end Esl.Maker
