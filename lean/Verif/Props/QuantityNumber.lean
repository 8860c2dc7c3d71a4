import Verif.Model.QuantityNumber
import Verif.Lemmas.Double
import Verif.Lemmas.Walras
/-! # C137: quantities and floating-point numbers -/
namespace Esl.QNum
open Double

/-- The number is a value of type `double`. -/
def Spec.Representable (x : Rat) : Prop := binary64 x = x

/-- Non-vacuity: whole numbers up to 2^53, their halves, and powers of two are representable. -/
example : Spec.Representable 12 ∧ Spec.Representable (5 / 2) ∧ Spec.Representable (2 ^ 63) ∧ ¬ Spec.Representable (1 / 10) := by
  unfold Spec.Representable
  decide +kernel

/-- **C137, exactly one.** For a finite number exactly one of equal, less and greater holds, and the other two comparisons follow; nothing holds for what is not a number. -/
theorem C137_exactly_one (a : Nat) :
    (∀ x : Rat, (eqNum a (.finite x) = true ∧ ltNum a (.finite x) = false ∧ gtNum a (.finite x) = false) ∨ (eqNum a (.finite x) = false ∧ ltNum a (.finite x) = true ∧ gtNum a (.finite x) = false) ∨
      (eqNum a (.finite x) = false ∧ ltNum a (.finite x) = false ∧ gtNum a (.finite x) = true)) ∧
    (∀ x, leNum a x = true ↔ ltNum a x = true ∨ eqNum a x = true) ∧ (∀ x, geNum a x = true ↔ gtNum a x = true ∨ eqNum a x = true) ∧
    (leNum a .nan = false ∧ geNum a .nan = false) ∧ (ltNum a (.infinite false) = true ∧ gtNum a (.infinite false) = false ∧ ltNum a (.infinite true) = false ∧ gtNum a (.infinite true) = true) := by
  refine ⟨fun x => ?_, fun x => by simp [leNum], fun x => by simp [geNum], ⟨rfl, rfl⟩, rfl, rfl, rfl, rfl⟩
  simp only [eqNum, ltNum, gtNum, decide_eq_true_eq, decide_eq_false_iff_not, not_lt]
  rcases lt_trichotomy (toDouble a) x with h | h | h
  · exact .inr (.inl ⟨h.ne, h, h.le⟩)
  · exact .inl ⟨h, h.ge, h.le⟩
  · exact .inr (.inr ⟨h.ne', h.le, h⟩)

/-- **C137, what is less is less.** For every quantity and every number of type `double`, if the comparison says that the quantity is less than the number then it is, and likewise for greater; what is less is never said to
be greater, nor the other way round. -/
theorem C137_sound (a : Nat) (x : Rat) (hx : Spec.Representable x) :
    (ltNum a (.finite x) = true → (a : Rat) < x) ∧ (gtNum a (.finite x) = true → x < (a : Rat)) ∧ ((a : Rat) ≤ x → leNum a (.finite x) = true) ∧ (x ≤ (a : Rat) → geNum a (.finite x) = true) := by
  simp only [ltNum, gtNum, leNum, geNum, eqNum, decide_eq_true_eq, Bool.or_eq_true]
  unfold toDouble
  refine ⟨binary64_lt_exact hx, binary64_gt_exact hx, fun h => ?_, fun h => ?_⟩
  · have := binary64_mono h
    rw [hx] at this
    exact this.lt_or_eq
  · have := binary64_mono h
    rw [hx] at this
    rcases this.lt_or_eq with h | h
    · exact .inl h
    · exact .inr h.symm

theorem toDouble_small (a : Nat) (h : a ≤ 2 ^ 53) : toDouble a = a := by
  have := binary64_int a (by rw [abs_of_nonneg (by omega)]; exact_mod_cast h)
  unfold toDouble
  exact_mod_cast this

theorem toDouble_large (a : Nat) (h : 2 ^ 53 ≤ a) : (2 : Rat) ^ 53 ≤ toDouble a := by
  have h1 : ((2 ^ 53 : Nat) : Rat) ≤ (a : Rat) := by exact_mod_cast h
  have h2 := binary64_mono h1
  have h3 := toDouble_small (2 ^ 53) le_rfl
  unfold toDouble at h3 ⊢
  rw [h3] at h2
  push_cast at h2
  norm_num at h2 ⊢
  exact h2

/-- **C137, exact comparison (partial).** A comparison with a number below 2^53 is exact for every quantity, and a comparison of a quantity up to 2^53 is exact for every number. Missing: both above 2^53, where different
quantities are equal to the same number. -/
theorem C137_exact_partial (a : Nat) (x : Rat) (h : a ≤ 2 ^ 53 ∨ x < 2 ^ 53) :
    (eqNum a (.finite x) = true ↔ (a : Rat) = x) ∧ (ltNum a (.finite x) = true ↔ (a : Rat) < x) ∧ (gtNum a (.finite x) = true ↔ x < (a : Rat)) ∧
    (leNum a (.finite x) = true ↔ (a : Rat) ≤ x) ∧ (geNum a (.finite x) = true ↔ x ≤ (a : Rat)) := by
  simp only [ltNum, gtNum, leNum, geNum, eqNum, decide_eq_true_eq, Bool.or_eq_true]
  by_cases ha : a ≤ 2 ^ 53
  · rw [toDouble_small a ha]
    refine ⟨Iff.rfl, Iff.rfl, Iff.rfl, le_iff_lt_or_eq.symm, ?_⟩
    rw [le_iff_lt_or_eq, eq_comm (a := x)]
  · have hx := h.resolve_left ha
    have h1 := toDouble_large a (by omega)
    have h2 : (2 : Rat) ^ 53 < a := by
      have : (2 ^ 53 : Nat) < a := by omega
      exact_mod_cast this
    have h3 : x < toDouble a := lt_of_lt_of_le hx h1
    have h4 : x < a := lt_trans hx h2
    simp [h3, h4, h3.ne', h4.ne', h3.not_gt, h4.not_gt, h4.le, h4.not_ge]

example : eqNum 3 (.finite 3) = true ∧ ltNum 3 (.finite (7 / 2)) = true ∧ gtNum (2 ^ 63 + 1) (.finite 5) = true ∧ ((2 ^ 63 + 1 : Nat) : Rat) > 5 := by
  refine ⟨by decide +kernel, by decide +kernel, by decide +kernel, by norm_num⟩

/-- A whole odd number between 2^53 and 2^54 is rounded to an even one. -/
theorem toDouble_odd (k : Nat) (h1 : 2 ^ 52 ≤ k) (h2 : k < 2 ^ 53) : ∃ b : Nat, toDouble (2 * k + 1) = ((2 * b : Nat) : Rat) ∧ (b = k ∨ b = k + 1) := by
  have hpos : (0 : Rat) < ((2 * k + 1 : Nat) : Rat) := by exact_mod_cast (by omega : 0 < 2 * k + 1)
  have hs := exponent_spec (2 * k + 1) 1 (by omega) (by omega)
  have he : exponent (2 * k + 1) 1 = 1 := by
    have a1 : (2 : Rat) ^ (exponent (2 * k + 1) 1 + 52) < 2 ^ (54 : Int) := by
      refine lt_of_le_of_lt (by simpa using hs.1) ?_
      have : 2 * k + 1 < 2 ^ 54 := by omega
      exact_mod_cast this
    have a2 : (2 : Rat) ^ (53 : Int) < 2 ^ (exponent (2 * k + 1) 1 + 53) := by
      refine lt_of_lt_of_le ?_ (by simpa using hs.2.le)
      have : 2 ^ 53 < 2 * k + 1 := by omega
      exact_mod_cast this
    have b1 := (zpow_lt_zpow_iff_right₀ (by norm_num : (1 : Rat) < 2)).mp a1
    have b2 := (zpow_lt_zpow_iff_right₀ (by norm_num : (1 : Rat) < 2)).mp a2
    omega
  refine ⟨nearestEven (2 * k + 1) 2, ?_, ?_⟩
  · unfold toDouble
    rw [binary64_of_pos _ hpos]
    simp only [Rat.num_natCast, Rat.den_natCast, Int.toNat_natCast]
    unfold roundPos
    simp only [he]
    norm_num
    ring
  · rw [nearestEven_tie (2 * k + 1) 2 k (by omega) (by ring)]
    split <;> omega

/-- **C137, negation for equality.** Every odd quantity between 2^53 and 2^54 is equal to a number that another quantity is equal to, and its conversion to a number is the conversion of another quantity. -/
theorem C137_counterexample_equal (k : Nat) (h1 : 2 ^ 52 ≤ k) (h2 : k < 2 ^ 53) :
    ∃ (b : Nat) (x : Rat), b ≠ 2 * k + 1 ∧ eqNum (2 * k + 1) (.finite x) = true ∧ eqNum b (.finite x) = true ∧ eq b (2 * k + 1) = false ∧ toDouble b = toDouble (2 * k + 1) := by
  obtain ⟨b, hb, -⟩ := toDouble_odd k h1 h2
  have h3 : toDouble (2 * b) = toDouble (2 * k + 1) := by
    have := binary64_idem ((2 * k + 1 : Nat) : Rat)
    unfold toDouble at hb ⊢
    rw [hb] at this
    rw [this, hb]
  refine ⟨2 * b, toDouble (2 * k + 1), by omega, by simp [eqNum], by simp [eqNum, h3], ?_, h3⟩
  unfold eq
  simp only [beq_eq_false_iff_ne]
  omega

example : eqNum (2 ^ 53 + 1) (.finite (2 ^ 53)) = true ∧ eqNum (2 ^ 53 + 3) (.finite (2 ^ 53 + 4)) = true ∧ (2 ^ 52 ≤ 2 ^ 52 ∧ 2 ^ 52 < 2 ^ 53) := by
  refine ⟨by decide +kernel, by decide +kernel, by omega⟩

theorem ofNumber_nonneg (x : Rat) (h0 : 0 ≤ x) (h1 : x < 2 ^ 64) : ofNumber (.finite x) = .ok ⌊x⌋.toNat := by
  have e := Walras.trunc_nonneg x h0
  have f0 : 0 ≤ ⌊x⌋ := Int.floor_nonneg.mpr h0
  have f1 : ⌊x⌋ < 2 ^ 64 := by
    rw [Int.floor_lt]
    push_cast
    exact h1
  unfold ofNumber
  simp only
  rw [e, if_pos ⟨f0, f1⟩]

/-- **C137, negation for inequality.** A quantity and a number strictly between it and the next one are neither equal nor unequal. -/
theorem C137_counterexample_unequal (a : Nat) (ha : a ≤ 2 ^ 53) (x : Rat) (h1 : (a : Rat) < x) (h2 : x < a + 1) : eqNum a (.finite x) = false ∧ neNum a (.finite x) = .ok false := by
  have ha' : (a : Rat) ≤ 2 ^ 53 := by exact_mod_cast ha
  have h0 : (0 : Rat) ≤ a := by exact_mod_cast Nat.zero_le a
  have big : (2 : Rat) ^ 53 + 1 < 2 ^ 64 := by norm_num
  have e := ofNumber_nonneg x (by linarith) (by linarith)
  have f : ⌊x⌋ = (a : Int) := by
    rw [Int.floor_eq_iff]
    push_cast
    exact ⟨h1.le, h2⟩
  rw [f] at e
  refine ⟨?_, ?_⟩
  · simp only [eqNum, toDouble_small a ha, decide_eq_false_iff_not]
    exact h1.ne
  · unfold neNum
    rw [e]
    simp [ne, eq]

example : eqNum 2 (.finite (5 / 2)) = false ∧ neNum 2 (.finite (5 / 2)) = .ok false ∧ ((2 : Nat) : Rat) < 5 / 2 ∧ (5 / 2 : Rat) < (2 : Nat) + 1 := by
  refine ⟨by decide +kernel, by decide +kernel, by norm_num, by norm_num⟩

theorem neNum_ok (a b : Nat) (x : Number) (h : ofNumber x = .ok b) (c : Bool) (hc : eq a b = c) : neNum a x = .ok (!c) := by
  unfold neNum
  rw [h, ← hc]
  rfl

/-- **C137, inequality (partial).** For whole numbers below 2^53, unequal is the negation of equal. Missing: other numbers; fractions are counted as the whole number below, and for negative and large numbers, infinities and what is not a number, the comparison is undefined. -/
theorem C137_unequal_partial (a n : Nat) (hn : n < 2 ^ 53) : neNum a (.finite n) = .ok (!(eqNum a (.finite n))) := by
  have hn' : (n : Rat) < 2 ^ 53 := by exact_mod_cast hn
  have e : ofNumber (.finite n) = .ok n := by
    have big : (2 : Rat) ^ 53 < 2 ^ 64 := by norm_num
    have e := ofNumber_nonneg n (Nat.cast_nonneg n) (lt_trans hn' big)
    rw [e, Int.floor_natCast, Int.toNat_natCast]
  have h : eq a n = eqNum a (.finite n) := by
    have h1 := (C137_exact_partial a n (.inr hn')).1
    have h2 : (a : Rat) = n ↔ a = n := Nat.cast_inj
    rw [h2] at h1
    by_cases hh : a = n
    · rw [h1.mpr hh]
      exact beq_iff_eq.mpr hh
    · rw [Bool.eq_false_iff.mpr (fun h => hh (h1.mp h))]
      exact beq_eq_false_iff_ne.mpr hh
  exact neNum_ok a n _ e _ h

/-- **C137, negation for negative numbers.** Asking whether a quantity differs from minus one or less, from infinity or from what is not a number is undefined, although asking whether it is equal is not. So are the product and the sum. -/
theorem C137_counterexample_negative (a : Nat) (x : Rat) (hx : x ≤ -1) :
    neNum a (.finite x) = .ub ∧ eqNum a (.finite x) = false ∧ neNum a (.infinite false) = .ub ∧ neNum a .nan = .ub ∧
    ∀ y, y = .finite x ∨ y = .infinite false ∨ y = .infinite true ∨ y = .nan → mulNum a y = .ub ∧ addNum a y = .ub := by
  have e := Walras.trunc_neg x (by linarith)
  have f : ⌈x⌉ < 0 := by
    have : ⌈x⌉ ≤ -1 := Int.ceil_le.mpr (by push_cast; exact hx)
    omega
  have g : ofNumber (.finite x) = .ub := by
    unfold ofNumber
    simp only
    rw [e, if_neg (by omega)]
  refine ⟨by unfold neNum; rw [g], ?_, rfl, rfl, ?_⟩
  rotate_left
  · rintro y (rfl | rfl | rfl | rfl)
    · unfold mulNum addNum; rw [g]; exact ⟨rfl, rfl⟩
    all_goals exact ⟨rfl, rfl⟩
  simp only [eqNum, decide_eq_false_iff_not]
  have := binary64_nonneg (a : Rat) (by exact_mod_cast Nat.zero_le a)
  unfold toDouble
  intro h
  linarith

/-- **C137, negation for products and sums.** Multiplying by a number from one whole number to the next multiplies by the whole number; so multiplying by any number below one gives nothing, and adding such a number adds
nothing. -/
theorem C137_counterexample_product (a n : Nat) (hs : a * n < 2 ^ 64) (hn : n < 2 ^ 64) (x : Rat) (h1 : (n : Rat) ≤ x) (h2 : x < n + 1) :
    mulNum a (.finite x) = .ok (a * n) ∧ (a + n < 2 ^ 64 → addNum a (.finite x) = .ok (a + n)) := by
  have hn' : (n : Rat) + 1 ≤ 2 ^ 64 := by
    have : n + 1 ≤ 2 ^ 64 := by omega
    exact_mod_cast this
  have h0 : (0 : Rat) ≤ n := by exact_mod_cast Nat.zero_le n
  have e := ofNumber_nonneg x (by linarith) (by linarith)
  have f : ⌊x⌋ = (n : Int) := by
    rw [Int.floor_eq_iff]
    push_cast
    exact ⟨h1, h2⟩
  rw [f, Int.toNat_natCast] at e
  refine ⟨?_, fun h => ?_⟩
  · unfold mulNum
    rw [e]
    simp only [Quantity.mul, u64]
    rw [Nat.mod_eq_of_lt hs]
  · unfold addNum
    rw [e]
    simp only [Quantity.add, u64]
    rw [Nat.mod_eq_of_lt h]

example : mulNum 1000 (.finite (1 / 2)) = .ok 0 ∧ mulNum 1000 (.finite (19 / 10)) = .ok 1000 ∧ ((0 : Nat) : Rat) ≤ 1 / 2 := by
  refine ⟨by decide +kernel, by decide +kernel, by norm_num⟩

/-- **C137, whole factors.** Multiplying by a whole number, in place or as a number, is exact if the product has 64 bits. -/
theorem C137_whole_product (a n : Nat) (h : a * n < 2 ^ 64) : mulAssign a n = a * n ∧ (n < 2 ^ 64 → mulNum a (.finite n) = .ok (a * n)) :=
  ⟨Nat.mod_eq_of_lt h, fun hn => (C137_counterexample_product a n h hn n le_rfl (by linarith)).1⟩

example : mulAssign 12 3 = 36 ∧ mulNum 12 (.finite 3) = .ok 36 := by decide +kernel

/-- **C137, division (partial).** Dividing by a whole number other than zero gives the whole quotient. Dividing a quantity up to 2^53 by a number from one on gives a quantity that differs from the quotient by less than
one apart from rounding, and dividing by an infinite number gives nothing. Missing: larger quantities, which are changed even by dividing by the number one, and negative divisors. -/
theorem C137_division_partial (a : Nat) (ha : a ≤ 2 ^ 53) :
    (∀ d : Nat, 0 < d → d < 2 ^ 63 → divAssign a d = .ok (a / d) ∧ divAssignInt a d = .ok (a / d)) ∧
    (∀ x : Rat, 1 ≤ x → ∃ r, divAssignNum a (.finite x) = .ok r ∧ |(r : Rat) - a / x| < 1 + a / x / 2 ^ 53) ∧ divAssignNum a (.finite 1) = .ok a ∧
    (∀ negative, divAssignNum a (.infinite negative) = .ok 0) := by
  have hd : ∀ d : Nat, 0 < d → divAssign a d = .ok (a / d) := fun d h => by unfold divAssign; rw [if_neg (by omega)]
  have h0 : (0 : Rat) ≤ a := by exact_mod_cast Nat.zero_le a
  have ha' : (a : Rat) ≤ 2 ^ 53 := by exact_mod_cast ha
  refine ⟨fun d h1 h2 => ⟨hd d h1, ?_⟩, fun x hx => ?_, ?_, fun _ => rfl⟩
  · unfold divAssignInt
    rw [Int.emod_eq_of_lt (by omega) (by omega), Int.toNat_natCast]
    exact hd d h1
  · have hq0 : 0 ≤ (a : Rat) / x := div_nonneg h0 (by linarith)
    have hq1 : (a : Rat) / x ≤ 2 ^ 53 := le_trans (div_le_self h0 hx) ha'
    have hb0 := binary64_nonneg _ hq0
    have hb1 := abs_le.mp (binary64_err ((a : Rat) / x))
    rw [abs_of_nonneg hq0] at hb1
    have e := ofNumber_nonneg (binary64 ((a : Rat) / x)) hb0 (by
      have : (a : Rat) / x / 2 ^ 53 ≤ 1 := by rw [div_le_one (by positivity)]; exact hq1
      norm_num at hq1 ⊢
      linarith [hb1.2])
    unfold divAssignNum
    simp only
    rw [if_neg (by linarith), toDouble_small a ha, e]
    refine ⟨_, rfl, ?_⟩
    have f1 := Int.floor_le (binary64 ((a : Rat) / x))
    have f2 := Int.lt_floor_add_one (binary64 ((a : Rat) / x))
    have f3 : ((⌊binary64 ((a : Rat) / x)⌋.toNat : Nat) : Rat) = (⌊binary64 ((a : Rat) / x)⌋ : Rat) := by
      have := Int.toNat_of_nonneg (Int.floor_nonneg.mpr hb0)
      exact_mod_cast congrArg (Int.cast : Int → Rat) this
    rw [f3, abs_lt]
    constructor <;> linarith [hb1.1, hb1.2]
  · unfold divAssignNum
    simp only [one_ne_zero, if_false, div_one]
    have := toDouble_small a ha
    rw [this]
    have h2 : binary64 (a : Rat) = a := this
    rw [h2]
    have e := ofNumber_nonneg a h0 (by norm_num at ha' ⊢; linarith)
    rw [Int.floor_natCast, Int.toNat_natCast] at e
    exact e

example : divAssignNum 10 (.finite (5 / 2)) = .ok 4 ∧ divAssignNum 10 (.finite 4) = .ok 2 ∧ divAssignInt 10 3 = .ok 3 := by decide +kernel

/-- **C137, negation for dividing by one.** Dividing an odd quantity between 2^53 and 2^54 by the number one changes it. -/
theorem C137_counterexample_divide_by_one (k : Nat) (h1 : 2 ^ 52 ≤ k) (h2 : k < 2 ^ 53) :
    ∃ r, divAssignNum (2 * k + 1) (.finite 1) = .ok r ∧ r ≠ 2 * k + 1 ∧ divAssign (2 * k + 1) 1 = .ok (2 * k + 1) := by
  obtain ⟨b, hb, hk⟩ := toDouble_odd k h1 h2
  have h3 : binary64 ((2 * b : Nat) : Rat) = ((2 * b : Nat) : Rat) := by
    have := binary64_idem ((2 * k + 1 : Nat) : Rat)
    unfold toDouble at hb
    rw [hb] at this
    exact this
  refine ⟨2 * b, ?_, by omega, by simp [divAssign]⟩
  unfold divAssignNum
  simp only [one_ne_zero, if_false, div_one]
  rw [hb, h3]
  have : ((2 * b : Nat) : Rat) < 2 ^ 64 := by
    have : 2 * b < 2 ^ 64 := by omega
    exact_mod_cast this
  have e := ofNumber_nonneg ((2 * b : Nat) : Rat) (by exact_mod_cast Nat.zero_le _) this
  rw [Int.floor_natCast, Int.toNat_natCast] at e
  exact e

/-- **C137, negation at the limits.** Dividing the largest quantity by the number one is undefined; so is dividing anything by zero, whole or not. -/
theorem C137_counterexample_limits : divAssignNum (2 ^ 64 - 1) (.finite 1) = .ub ∧ (∀ a, divAssign a 0 = .ub ∧ divAssignInt a 0 = .ub ∧ divAssignNum a (.finite 0) = .ub) := by
  refine ⟨by decide +kernel, fun a => ⟨rfl, rfl, ?_⟩⟩
  simp [divAssignNum]

/-- **C137, negation for negative divisors.** Dividing by a negative whole number gives nothing for every quantity below 2^63, rather than an exception. -/
theorem C137_counterexample_negative_divisor (a : Nat) (i : Int) (hi : i < 0) (hl : -(2 ^ 63) ≤ i) (ha : a < 2 ^ 63) : divAssignInt a i = .ok 0 := by
  have e : (i % 2 ^ 64).toNat = (i + 2 ^ 64).toNat := by
    have : i % 2 ^ 64 = i + 2 ^ 64 := by omega
    rw [this]
  unfold divAssignInt divAssign
  rw [e, if_neg (by omega), Nat.div_eq_of_lt (by omega)]

/-- **C137, conversion (partial).** Converting a quantity to a number and back gives the quantity up to 2^53, and converting never reverses the order. Missing: larger quantities, of which different ones are the same
number. -/
theorem C137_conversion_partial (a b : Nat) : (a ≤ 2 ^ 53 → ofNumber (.finite (toDouble a)) = .ok a) ∧ (a ≤ b → toDouble a ≤ toDouble b) ∧ (a < b → a ≤ 2 ^ 53 → b ≤ 2 ^ 53 → toDouble a < toDouble b) ∧ toUint64 a = a := by
  refine ⟨fun h => ?_, fun h => ?_, fun h h1 h2 => ?_, rfl⟩
  · rw [toDouble_small a h]
    have ha' : (a : Rat) ≤ 2 ^ 53 := by exact_mod_cast h
    have e := ofNumber_nonneg a (by exact_mod_cast Nat.zero_le a) (by norm_num at ha' ⊢; linarith)
    rw [Int.floor_natCast, Int.toNat_natCast] at e
    exact e
  · exact binary64_mono (by exact_mod_cast h)
  · rw [toDouble_small a h1, toDouble_small b h2]
    exact_mod_cast h

end Esl.QNum
