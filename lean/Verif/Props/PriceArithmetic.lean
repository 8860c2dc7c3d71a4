import Verif.Model.PriceArithmetic
import Verif.Lemmas.Double
/-!
Properties C130 to C133: the arithmetic of prices, quotes and rates.
-/
namespace Esl.Arith
open Esl.Price Esl.Double
open Esl.Archive (Ratio)

/-! ## C130: arithmetic on prices agrees with arithmetic on the amounts -/

/-- The amount of money that a price denotes, in whole units of the currency. -/
def Spec.amount (p : P) : Rat := (p.value : Rat) / (p.valuation.denominator : Rat)

theorem trunc_abs (q : Rat) : |(trunc q : Rat) - q| < 1 ∧ |(trunc q : Rat)| ≤ |q| := by
  have key : ∀ q : Rat, 0 ≤ q → trunc q = ⌊q⌋ := by
    intro q hq
    unfold trunc
    rw [Int.tdiv_eq_ediv_of_nonneg (Rat.num_nonneg.mpr hq), Rat.floor_def']
  have negk : trunc (-q) = -trunc q := by
    unfold trunc
    simp [Int.neg_tdiv]
  rcases le_total 0 q with h | h
  · rw [key q h]
    have h1 := Int.floor_le q
    have h2 := Int.lt_floor_add_one q
    have h3 : (0 : Rat) ≤ (⌊q⌋ : Int) := by exact_mod_cast Int.floor_nonneg.mpr h
    refine ⟨by rw [abs_lt]; constructor <;> linarith, ?_⟩
    rw [abs_of_nonneg h3, abs_of_nonneg h]; exact h1
  · have e : trunc q = -⌊-q⌋ := by
      rw [← key (-q) (by linarith), negk]; ring
    rw [e]
    push_cast
    have h1 := Int.floor_le (-q)
    have h2 := Int.lt_floor_add_one (-q)
    have h3 : (0 : Rat) ≤ (⌊-q⌋ : Int) := by exact_mod_cast Int.floor_nonneg.mpr (show 0 ≤ -q by linarith)
    refine ⟨by rw [abs_lt]; constructor <;> linarith, ?_⟩
    rw [abs_neg, abs_of_nonneg h3, abs_of_nonpos h]; exact h1

theorem trunc_int (z : Int) : trunc (z : Rat) = z := by simp [trunc]

theorem signed_ok {z : Int} {c : Currency} (h : InI64 z) : signed z c = .ok ⟨z, c⟩ := if_pos h
theorem signed_ub {z : Int} {c : Currency} (h : ¬ InI64 z) : signed z c = .ub := if_neg h

theorem in_of_abs {z : Int} (h : |z| < 2 ^ 63) : InI64 z := by
  rw [abs_lt] at h; unfold InI64; omega

/-- A signed result is the price of the amount if it is in range, and undefined otherwise. -/
theorem signed_amount (z : Int) (c : Currency) (x : Rat) (hx : (z : Rat) / c.denominator = x) :
    (InI64 z → ∃ r, signed z c = .ok r ∧ r.valuation = c ∧ Spec.amount r = x) ∧ (¬ InI64 z → signed z c = .ub) :=
  ⟨fun h => ⟨⟨z, c⟩, signed_ok h, rfl, hx⟩, fun h => signed_ub h⟩

/-- **C130, sums, differences and multiples (partial).** For prices in the same currency, the sum, the difference, the negation and the product with an integer denote the sum, the difference,
the negation and the multiple of the amounts, in the same currency, provided that the result can be represented; otherwise the behaviour is undefined. -/
theorem C130_amounts_partial (a b : P) (h : a.valuation = b.valuation) (n : Int) :
    (InI64 (a.value + b.value) → ∃ r, add a b = .ok r ∧ r.valuation = a.valuation ∧ Spec.amount r = Spec.amount a + Spec.amount b) ∧
    (InI64 (a.value - b.value) → ∃ r, sub a b = .ok r ∧ r.valuation = a.valuation ∧ Spec.amount r = Spec.amount a - Spec.amount b) ∧
    (InI64 (-a.value) → ∃ r, neg a = .ok r ∧ r.valuation = a.valuation ∧ Spec.amount r = -Spec.amount a) ∧
    (InI64 (a.value * n) → ∃ r, scale a n = .ok r ∧ r.valuation = a.valuation ∧ Spec.amount r = Spec.amount a * n) := by
  obtain ⟨v, c⟩ := a
  obtain ⟨w, c'⟩ := b
  simp only at h
  subst h
  refine ⟨(signed_amount _ _ _ ?_).1, (signed_amount _ _ _ ?_).1, (signed_amount _ _ _ ?_).1, (signed_amount _ _ _ ?_).1⟩
  · simp only [Spec.amount]; push_cast; ring
  · simp only [Spec.amount]; push_cast; ring
  · simp only [Spec.amount]; push_cast; ring
  · simp only [Spec.amount]; push_cast; ring

/-- The dollar, divided in 100. -/
def Spec.dollar : Currency := ⟨85, 83, 68, 100⟩
/-- The yen, not divided. -/
def Spec.yen : Currency := ⟨74, 80, 89, 1⟩

example : add ⟨1999, Spec.dollar⟩ ⟨-2050, Spec.dollar⟩ = .ok ⟨-51, Spec.dollar⟩ ∧ InI64 (1999 + -2050) := by decide

/-- **C130, laws (partial).** Where they are defined, adding and subtracting the same price cancel, the order of the terms does not matter, and adding the same price on both sides preserves the order. -/
theorem C130_laws_partial (a b c r s : P) (h : a.valuation = b.valuation) (hc : a.valuation = c.valuation) (ha : InI64 a.value) :
    (add a b = .ok r → sub r b = .ok a ∧ add b a = .ok r) ∧
    (add a c = .ok r → add b c = .ok s → P.lt r s = P.lt a b) := by
  obtain ⟨v, x⟩ := a
  obtain ⟨w, y⟩ := b
  obtain ⟨z, t⟩ := c
  simp only at h hc ha
  subst h hc
  constructor
  · intro e
    unfold add signed at e
    simp only at e
    split at e
    · rename_i hi
      cases e
      refine ⟨?_, ?_⟩
      · show signed (v + w - w) x = _
        rw [show v + w - w = v by ring]; exact signed_ok ha
      · show signed (w + v) x = _
        rw [Int.add_comm]; exact signed_ok hi
    · cases e
  · intro e f
    unfold add signed at e f
    simp only at e f
    split at e <;> split at f <;> cases e <;> cases f
    unfold P.lt
    simp

example : add ⟨5, Spec.dollar⟩ ⟨7, Spec.dollar⟩ = .ok ⟨12, Spec.dollar⟩ ∧ add ⟨6, Spec.dollar⟩ ⟨7, Spec.dollar⟩ = .ok ⟨13, Spec.dollar⟩ := by decide

theorem int_of_rat_abs {z : Int} {n : Nat} (h : |(z : Rat)| < 2 ^ n) : |z| < 2 ^ n := by exact_mod_cast h

/-- A conversion to `int64_t` after an operation that is rounded: less than one unit off, apart from the rounding. -/
theorem cast_rounded (y : Rat) (c : Currency) (hy : |y| < 2 ^ 62) :
    ∃ r, cast (binary64 y) c = .ok r ∧ r.valuation = c ∧ |(r.value : Rat) - y| < 1 + |y| / 2 ^ 53 := by
  have e := binary64_err y
  obtain ⟨t1, t2⟩ := trunc_abs (binary64 y)
  have hb : |binary64 y| ≤ |y| + |y| / 2 ^ 53 := by
    calc |binary64 y| = |(binary64 y - y) + y| := by ring_nf
      _ ≤ |binary64 y - y| + |y| := abs_add_le _ _
      _ ≤ |y| + |y| / 2 ^ 53 := by linarith
  have hin : InI64 (trunc (binary64 y)) := by
    apply in_of_abs
    apply int_of_rat_abs
    have : |y| / 2 ^ 53 ≤ |y| := div_le_self (abs_nonneg _) (by norm_num)
    calc |((trunc (binary64 y) : Int) : Rat)| ≤ |binary64 y| := t2
      _ ≤ |y| + |y| / 2 ^ 53 := hb
      _ < 2 ^ 63 := by norm_num at hy ⊢; linarith
  refine ⟨⟨trunc (binary64 y), c⟩, signed_ok hin, rfl, ?_⟩
  calc |((trunc (binary64 y) : Int) : Rat) - y| = |((trunc (binary64 y) : Int) - binary64 y) + (binary64 y - y)| := by ring_nf
    _ ≤ |((trunc (binary64 y) : Int) : Rat) - binary64 y| + |binary64 y - y| := abs_add_le _ _
    _ < 1 + |y| / 2 ^ 53 := by linarith

theorem cast_exact (z : Int) (c : Currency) (h : |z| ≤ 2 ^ 53) : cast (binary64 z) c = .ok ⟨z, c⟩ := by
  unfold cast
  rw [binary64_int z h, trunc_int]
  apply signed_ok
  apply in_of_abs
  exact lt_of_le_of_lt h (by decide)

/-- **C130, products and quotients with a number (partial).** Multiplying or dividing a price by a floating-point number gives a price in the same currency that differs from the exact result by
less than one smallest unit apart from rounding to 53 binary digits; if the exact product is a whole number of units of up to 53 binary digits it is exact. -/
theorem C130_number_partial (a : P) (ha : |a.value| ≤ 2 ^ 53) (x : Rat) :
    (|(a.value : Rat) * x| < 2 ^ 62 → ∃ r, mulDouble binary64 a x = .ok r ∧ r.valuation = a.valuation ∧
      |(r.value : Rat) - a.value * x| < 1 + |(a.value : Rat) * x| / 2 ^ 53) ∧
    (x ≠ 0 → |(a.value : Rat) / x| < 2 ^ 62 → ∃ r, divDouble binary64 a x = .ok r ∧ r.valuation = a.valuation ∧
      |(r.value : Rat) - a.value / x| < 1 + |(a.value : Rat) / x| / 2 ^ 53) ∧
    (∀ z : Int, |z| ≤ 2 ^ 53 → (a.value : Rat) * x = z → mulDouble binary64 a x = .ok ⟨z, a.valuation⟩) := by
  unfold mulDouble divDouble
  rw [binary64_int _ ha]
  refine ⟨fun h => cast_rounded _ _ h, fun hx h => ?_, fun z hz e => ?_⟩
  · rw [if_neg hx]; exact cast_rounded _ _ h
  · rw [e]; exact cast_exact z _ hz

example : mulDouble binary64 ⟨1999, Spec.dollar⟩ (3 / 2) = .ok ⟨2998, Spec.dollar⟩ ∧ divDouble binary64 ⟨-1999, Spec.dollar⟩ 2 = .ok ⟨-999, Spec.dollar⟩ ∧
    |((1999 : Int) : Rat) * (3 / 2)| < 2 ^ 62 := by
  refine ⟨by decide +kernel, by decide +kernel, by norm_num⟩

theorem amount_pos_ne (v : Int) (c : Currency) (hv : v ≠ 0) (hd : 0 < c.denominator) : Spec.amount ⟨v, c⟩ ≠ 0 := by
  unfold Spec.amount
  have h1 : (v : Rat) ≠ 0 := by exact_mod_cast hv
  have h2 : (c.denominator : Rat) ≠ 0 := by exact_mod_cast (by omega : c.denominator ≠ 0)
  exact div_ne_zero h1 h2

/-- **C130, negation for products.** The product of two prices other than zero in a currency that is divided never is the product of the amounts: it is too large by the number of smallest units in
a whole one. -/
theorem C130_counterexample_product (a b r : P) (h : a.valuation = b.valuation) (hd : 2 ≤ a.valuation.denominator) (ha : a.value ≠ 0) (hb : b.value ≠ 0) (e : mul a b = .ok r) :
    Spec.amount r = a.valuation.denominator * (Spec.amount a * Spec.amount b) ∧ Spec.amount r ≠ Spec.amount a * Spec.amount b := by
  obtain ⟨v, c⟩ := a
  obtain ⟨w, c'⟩ := b
  simp only at h hd ha hb
  subst h
  unfold mul signed at e
  simp only at e
  split at e
  · cases e
    have h2 : (c.denominator : Rat) ≠ 0 := by exact_mod_cast (by omega : c.denominator ≠ 0)
    have e1 : Spec.amount ⟨v * w, c⟩ = c.denominator * (Spec.amount ⟨v, c⟩ * Spec.amount ⟨w, c⟩) := by
      unfold Spec.amount; push_cast; field_simp
    refine ⟨e1, ?_⟩
    rw [e1]
    intro hc
    have hne := mul_ne_zero (amount_pos_ne v c ha (by omega)) (amount_pos_ne w c hb (by omega))
    have : (c.denominator : Rat) = 1 := by
      have : ((c.denominator : Rat) - 1) * (Spec.amount ⟨v, c⟩ * Spec.amount ⟨w, c⟩) = 0 := by linarith
      rcases mul_eq_zero.mp this with h | h
      · linarith
      · exact absurd h hne
    have : c.denominator = 1 := by exact_mod_cast this
    omega
  · cases e

example : mul ⟨100, Spec.dollar⟩ ⟨300, Spec.dollar⟩ = .ok ⟨30000, Spec.dollar⟩ ∧ Spec.amount ⟨30000, Spec.dollar⟩ = 300 := by
  refine ⟨by decide, by norm_num [Spec.amount, Spec.dollar]⟩

/-- **C130, negation for quotients.** Any price divided by itself is one smallest unit, which is not an amount of one in a currency that is divided. -/
theorem C130_counterexample_quotient (a : P) (ha : a.value ≠ 0) (hd : 2 ≤ a.valuation.denominator) :
    ∃ r, div a a = .ok r ∧ r.value = 1 ∧ Spec.amount r ≠ 1 := by
  obtain ⟨v, c⟩ := a
  simp only at ha hd
  refine ⟨⟨1, c⟩, ?_, rfl, ?_⟩
  · unfold div
    rw [if_neg ha]
    show signed (v.tdiv v) c = _
    rw [Int.tdiv_self ha]
    exact signed_ok (by decide)
  · unfold Spec.amount
    intro h
    have h2 : (c.denominator : Rat) ≠ 0 := by exact_mod_cast (by omega : c.denominator ≠ 0)
    rw [div_eq_one_iff_eq h2] at h
    simp only at h
    have : (1 : Int) = c.denominator := by exact_mod_cast h
    omega

/-- **C130, negation for adding and subtracting a number.** Adding or subtracting a whole number adds or subtracts that many smallest units, not whole units, although a price is made from a number, and
converted to one, in whole units. -/
theorem C130_counterexample_number (a : P) (n : Int) (hn : n ≠ 0) (hd : 2 ≤ a.valuation.denominator) (ha : |a.value| ≤ 2 ^ 53) :
    (|a.value + n| ≤ 2 ^ 53 → ∃ r, addDouble binary64 a n = .ok r ∧ r.valuation = a.valuation ∧ r.value = a.value + n ∧ Spec.amount r ≠ Spec.amount a + n) ∧
    (|a.value - n| ≤ 2 ^ 53 → ∃ r, subDouble binary64 a n = .ok r ∧ r.valuation = a.valuation ∧ r.value = a.value - n ∧ Spec.amount r ≠ Spec.amount a - n) := by
  obtain ⟨v, c⟩ := a
  simp only at ha hd
  have h2 : (c.denominator : Rat) ≠ 0 := by exact_mod_cast (by omega : c.denominator ≠ 0)
  have key : ∀ m : Int, m ≠ 0 → Spec.amount ⟨v + m, c⟩ ≠ Spec.amount ⟨v, c⟩ + m := by
    intro m hm h
    unfold Spec.amount at h
    simp only at h
    field_simp at h
    push_cast at h
    have h3 : (m : Rat) * ((c.denominator : Rat) - 1) = 0 := by linarith
    rcases mul_eq_zero.mp h3 with h | h
    · exact hm (by exact_mod_cast h)
    · have : (c.denominator : Rat) = 1 := by linarith
      have : c.denominator = 1 := by exact_mod_cast this
      omega
  constructor
  · intro hs
    refine ⟨⟨v + n, c⟩, ?_, rfl, rfl, key n hn⟩
    unfold addDouble
    rw [binary64_int _ ha]
    have : ((v : Rat) + (n : Rat)) = ((v + n : Int) : Rat) := by push_cast; rfl
    simp only
    rw [this]
    exact cast_exact _ _ hs
  · intro hs
    refine ⟨⟨v - n, c⟩, ?_, rfl, rfl, ?_⟩
    · unfold subDouble
      rw [binary64_int _ ha]
      have : ((v : Rat) - (n : Rat)) = ((v - n : Int) : Rat) := by push_cast; rfl
      simp only
      rw [this]
      exact cast_exact _ _ hs
    · have := key (-n) (by omega)
      push_cast at this
      rw [← sub_eq_add_neg, ← sub_eq_add_neg] at this
      exact this

example : addDouble binary64 ⟨500, Spec.dollar⟩ 1 = .ok ⟨501, Spec.dollar⟩ ∧ similar binary64 1 ⟨500, Spec.dollar⟩ = .ok ⟨100, Spec.dollar⟩ := by
  refine ⟨by decide +kernel, by decide +kernel⟩

/-- **C130, negation for currencies.** Without assertions, prices in different currencies are added, subtracted, multiplied and divided as if they were in the currency of the first; comparing them throws. -/
theorem C130_counterexample_currencies (a b : P) (h : a.valuation ≠ b.valuation) (hs : InI64 (a.value + b.value)) :
    add a b = .ok ⟨a.value + b.value, a.valuation⟩ ∧ P.lt a b = .throws := by
  refine ⟨signed_ok hs, ?_⟩
  unfold P.lt
  refine if_pos ?_
  simp only [Currency.ne, Bool.or_eq_true, bne_iff_ne, ne_eq]
  obtain ⟨_, c⟩ := a
  obtain ⟨_, d⟩ := b
  obtain ⟨c0, c1, c2, c3⟩ := c
  obtain ⟨d0, d1, d2, d3⟩ := d
  simp only at h ⊢
  by_cases h0 : c0 = d0 <;> by_cases h1 : c1 = d1 <;> by_cases h2 : c2 = d2 <;> simp_all

example : add ⟨100, Spec.dollar⟩ ⟨100, Spec.yen⟩ = .ok ⟨200, Spec.dollar⟩ := by decide

/-- **C130, negation at the limits.** The sum of the largest price and any positive one, the negation of the smallest, dividing it by minus one smallest unit, and dividing by zero are undefined. -/
theorem C130_counterexample_limits (b : P) (c : Currency) (h : 0 < b.value) :
    add ⟨2 ^ 63 - 1, c⟩ b = .ub ∧ neg ⟨-(2 ^ 63), c⟩ = .ub ∧ div ⟨-(2 ^ 63), c⟩ ⟨-1, c⟩ = .ub ∧ (∀ a, div a ⟨0, c⟩ = .ub) := by
  refine ⟨signed_ub ?_, rfl, rfl, fun a => rfl⟩
  unfold InI64
  simp only
  omega

/-! ## C131: converting prices to floating-point numbers and back -/

/-- The error of a product of quotients: dividing by `D` and multiplying again. -/
theorem there_and_back (v D : Rat) (hD : 0 < D) :
    |binary64 (binary64 (v / D) * D) - v| ≤ |v| * (2 / 2 ^ 53 + 1 / 2 ^ 106) := by
  set x := binary64 (v / D) with hx
  have e1 : |x - v / D| ≤ |v / D| / 2 ^ 53 := binary64_err _
  have e2 : |x * D - v| ≤ |v| / 2 ^ 53 := by
    have : x * D - v = (x - v / D) * D := by field_simp
    rw [this, abs_mul, abs_of_pos hD]
    calc |x - v / D| * D ≤ |v / D| / 2 ^ 53 * D := by gcongr
      _ = |v| / 2 ^ 53 := by rw [abs_div, abs_of_pos hD]; field_simp
  have e3 : |binary64 (x * D) - x * D| ≤ |x * D| / 2 ^ 53 := binary64_err _
  have e4 : |x * D| ≤ |v| + |v| / 2 ^ 53 := by
    calc |x * D| = |(x * D - v) + v| := by ring_nf
      _ ≤ |x * D - v| + |v| := abs_add_le _ _
      _ ≤ |v| + |v| / 2 ^ 53 := by linarith
  calc |binary64 (x * D) - v| = |(binary64 (x * D) - x * D) + (x * D - v)| := by ring_nf
    _ ≤ |binary64 (x * D) - x * D| + |x * D - v| := abs_add_le _ _
    _ ≤ |x * D| / 2 ^ 53 + |v| / 2 ^ 53 := by linarith
    _ ≤ (|v| + |v| / 2 ^ 53) / 2 ^ 53 + |v| / 2 ^ 53 := by gcongr
    _ = |v| * (2 / 2 ^ 53 + 1 / 2 ^ 106) := by ring

theorem binary64_pos (q : Rat) (h : 0 < q) : 0 < binary64 q := by
  have := binary64_err q
  rw [abs_of_pos h, abs_le] at this
  have h2 : q / 2 ^ 53 ≤ q / 2 := by
    apply div_le_div_of_nonneg_left (le_of_lt h) (by norm_num) (by norm_num)
  linarith [this.1]

/-- A number within less than one of a positive integer truncates to it or to the one below. -/
theorem trunc_near (z : Int) (x : Rat) (h : |x - z| < 1) : trunc x = z ∨ trunc x = z - z.sign := by
  have key : ∀ (z : Int) (x : Rat), 0 < z → |x - z| < 1 → trunc x = z ∨ trunc x = z - 1 := by
    intro z x hz h
    rw [abs_lt] at h
    have hz' : (1 : Rat) ≤ z := by exact_mod_cast hz
    have hx : 0 ≤ x := by linarith
    have e : trunc x = ⌊x⌋ := by
      unfold trunc
      rw [Int.tdiv_eq_ediv_of_nonneg (Rat.num_nonneg.mpr hx), Rat.floor_def']
    have h1 : z - 1 ≤ ⌊x⌋ := by rw [Int.le_floor]; push_cast; linarith
    have h2 : ⌊x⌋ < z + 1 := by rw [Int.floor_lt]; push_cast; linarith
    rw [e]; omega
  have negk : ∀ q : Rat, trunc (-q) = -trunc q := by
    intro q
    unfold trunc
    simp [Int.neg_tdiv]
  rcases lt_trichotomy z 0 with hz | hz | hz
  · have := key (-z) (-x) (by omega) (by push_cast; rw [← abs_neg]; ring_nf; ring_nf at h; exact h)
    rw [negk] at this
    rw [Int.sign_eq_neg_one_of_neg hz]
    omega
  · subst hz
    left
    obtain ⟨_, t2⟩ := trunc_abs x
    have : |((trunc x : Int) : Rat)| < 1 := lt_of_le_of_lt t2 (by simpa using h)
    have : |trunc x| < 1 := by exact_mod_cast this
    rw [abs_lt] at this
    omega
  · rw [Int.sign_eq_one_of_pos hz]
    exact key z x hz h

/-- **C131, there and back (partial).** Converting a price of up to 51 binary digits to a floating-point number and making a price like it from that number gives a price in the same currency,
that is the same or one smallest unit nearer to zero; it never is further away from zero. -/
theorem C131_round_trip_partial (p : P) (hp : |p.value| ≤ 2 ^ 51) (hd : 0 < p.valuation.denominator) :
    ∃ r, similar binary64 (toDouble binary64 p) p = .ok r ∧ r.valuation = p.valuation ∧ (r.value = p.value ∨ r.value = p.value - p.value.sign) := by
  obtain ⟨v, c⟩ := p
  simp only at hp hd
  have hD : (0 : Rat) < binary64 (c.denominator : Rat) := binary64_pos _ (by exact_mod_cast hd)
  have hv : |(v : Rat)| ≤ 2 ^ 51 := by exact_mod_cast hp
  have e := there_and_back v _ hD
  have e2 : |binary64 (binary64 ((v : Rat) / binary64 (c.denominator : Rat)) * binary64 (c.denominator : Rat)) - v| < 1 := by
    refine lt_of_le_of_lt e ?_
    calc |(v : Rat)| * (2 / 2 ^ 53 + 1 / 2 ^ 106) ≤ 2 ^ 51 * (2 / 2 ^ 53 + 1 / 2 ^ 106) := by gcongr
      _ < 1 := by norm_num
  have tn := trunc_near v _ e2
  unfold similar approximate toDouble cast
  simp only
  rw [binary64_int v (le_trans hp (by decide))]
  refine ⟨⟨_, c⟩, signed_ok ?_, rfl, tn⟩
  apply in_of_abs
  rcases abs_le.mp hp with ⟨l, u⟩
  have hs : v.sign = 1 ∨ v.sign = 0 ∨ v.sign = -1 := by rcases lt_trichotomy v 0 with h | h | h <;> simp [h]
  rw [abs_lt]
  generalize trunc _ = t at *
  omega

/-- **C131, undivided currencies (partial).** A price of up to 53 binary digits in a currency that is not divided is given back exactly. -/
theorem C131_undivided_partial (p : P) (hp : |p.value| ≤ 2 ^ 53) (hd : p.valuation.denominator = 1) :
    similar binary64 (toDouble binary64 p) p = .ok p := by
  obtain ⟨v, c⟩ := p
  simp only at hp hd
  have h1 : binary64 (c.denominator : Rat) = 1 := by
    rw [hd]; have := binary64_int 1 (by decide); simpa using this
  unfold similar approximate toDouble
  simp only
  rw [h1, div_one, mul_one, binary64_int v hp, binary64_int v hp]
  exact cast_exact' v c hp
where
  cast_exact' (v : Int) (c : Currency) (hp : |v| ≤ 2 ^ 53) : cast (binary64 v) c = .ok ⟨v, c⟩ := cast_exact v c hp

/-- **C131, representable amounts (partial).** A price of up to 53 binary digits whose amount, in units of the currency, is itself a floating-point number is given back exactly: whole amounts, halves, quarters and so on. -/
theorem C131_representable_partial (p : P) (hp : |p.value| ≤ 2 ^ 53) (hd : 0 < p.valuation.denominator) (hd' : p.valuation.denominator ≤ 2 ^ 53) (m e : Int) (hm : |m| ≤ 2 ^ 53)
    (h : Spec.amount p = (m : Rat) * 2 ^ e) : similar binary64 (toDouble binary64 p) p = .ok p := by
  obtain ⟨v, c⟩ := p
  simp only at hp hd hd'
  have hD : binary64 (c.denominator : Rat) = (c.denominator : Rat) := by
    have := binary64_int (c.denominator : Int) (by rw [abs_of_nonneg (by positivity)]; exact_mod_cast hd')
    simpa using this
  have hne : (c.denominator : Rat) ≠ 0 := by
    have : (0 : Rat) < c.denominator := by exact_mod_cast hd
    exact ne_of_gt this
  have ha : (v : Rat) / c.denominator = (m : Rat) * 2 ^ e := h
  unfold similar approximate toDouble
  simp only
  rw [hD, binary64_int v hp, ha, binary64_repr m e hm, ← ha, div_mul_cancel₀ _ hne]
  exact cast_exact v c hp

/-- **C131, whole amounts (partial).** In particular, whole amounts of any currency. -/
theorem C131_whole_partial (p : P) (hp : |p.value| ≤ 2 ^ 53) (hd : 0 < p.valuation.denominator) (hd' : p.valuation.denominator ≤ 2 ^ 53) (n : Int) (h : p.value = n * p.valuation.denominator) :
    similar binary64 (toDouble binary64 p) p = .ok p := by
  have hD : (0 : Rat) < p.valuation.denominator := by exact_mod_cast hd
  refine C131_representable_partial p hp hd hd' n 0 ?_ ?_
  · rw [h, abs_mul] at hp
    have h1 : (1 : Int) ≤ |(p.valuation.denominator : Int)| := by rw [abs_of_nonneg (by positivity)]; exact_mod_cast hd
    nlinarith [abs_nonneg n]
  · show (p.value : Rat) / p.valuation.denominator = _
    rw [h]; push_cast
    rw [mul_div_assoc, div_self (ne_of_gt hD)]

example : Spec.amount ⟨1975, Spec.dollar⟩ = ((79 : Int) : Rat) * 2 ^ (-2 : Int) ∧ (2900 : Int) = 29 * Spec.dollar.denominator := by
  refine ⟨by decide +kernel, by decide +kernel⟩

/-- **C131, order (partial).** Prices in the same currency of up to 51 binary digits are ordered as the numbers that they are converted to; different prices are different numbers. -/
theorem C131_order_partial (p q : P) (h : p.valuation = q.valuation) (hd : 0 < p.valuation.denominator) (hp : |p.value| ≤ 2 ^ 51) (hq : |q.value| ≤ 2 ^ 51) :
    toDouble binary64 p < toDouble binary64 q ↔ p.value < q.value := by
  obtain ⟨v, c⟩ := p
  obtain ⟨w, c'⟩ := q
  simp only at h hd hp hq
  subst h
  unfold toDouble
  simp only
  rw [binary64_int v (le_trans hp (by decide)), binary64_int w (le_trans hq (by decide))]
  have hD : (0 : Rat) < binary64 (c.denominator : Rat) := binary64_pos _ (by exact_mod_cast hd)
  generalize binary64 (c.denominator : Rat) = D at hD
  have key : ∀ v w : Int, |v| ≤ 2 ^ 51 → |w| ≤ 2 ^ 51 → v < w → binary64 ((v : Rat) / D) < binary64 ((w : Rat) / D) := by
    intro v w hv hw hlt
    have ev := (abs_le.mp (binary64_err ((v : Rat) / D))).2
    have ew := (abs_le.mp (binary64_err ((w : Rat) / D))).1
    have hv' : |(v : Rat)| ≤ 2 ^ 51 := by exact_mod_cast hv
    have hw' : |(w : Rat)| ≤ 2 ^ 51 := by exact_mod_cast hw
    rw [abs_div, abs_of_pos hD] at ev ew
    have bv : |(v : Rat)| / D / 2 ^ 53 ≤ (1 / 4) / D := by
      rw [div_div, div_le_div_iff₀ (by positivity) hD]
      nlinarith
    have bw : |(w : Rat)| / D / 2 ^ 53 ≤ (1 / 4) / D := by
      rw [div_div, div_le_div_iff₀ (by positivity) hD]
      nlinarith
    have gap : (w : Rat) / D - v / D ≥ 1 / D := by
      rw [← sub_div, ge_iff_le]
      gcongr
      have : v + 1 ≤ w := hlt
      have : (v : Rat) + 1 ≤ w := by exact_mod_cast this
      linarith
    have pos : 0 < 1 / D := by positivity
    have q4 : (1 / 4 : Rat) / D = 1 / 4 * (1 / D) := by ring
    rw [q4] at bv bw
    linarith
  constructor
  · intro hlt
    by_contra hc
    rcases lt_or_eq_of_le (not_lt.mp hc) with h | h
    · exact absurd (key w v hq hp h) (not_lt.mpr (le_of_lt hlt))
    · rw [h] at hlt; exact lt_irrefl _ hlt
  · exact key v w hp hq

example : |(1999 : Int)| ≤ 2 ^ 51 ∧ 0 < Spec.dollar.denominator ∧ similar binary64 (toDouble binary64 ⟨1999, Spec.dollar⟩) ⟨0, Spec.dollar⟩ = .ok ⟨1998, Spec.dollar⟩ := by
  refine ⟨by decide, by decide, by decide +kernel⟩

/-- **C131, negation.** A price of 29 cents converted to a number and back is 28 cents. The largest price is not defined on the way back. -/
theorem C131_counterexample :
    similar binary64 (toDouble binary64 ⟨29, Spec.dollar⟩) ⟨29, Spec.dollar⟩ = .ok ⟨28, Spec.dollar⟩ ∧
    similar binary64 (toDouble binary64 ⟨2 ^ 63 - 1, Spec.yen⟩) ⟨0, Spec.yen⟩ = .ub := by
  refine ⟨by decide +kernel, by decide +kernel⟩

/-- **C131, negation.** The losses add up: 58 cents are 57 cents after one conversion to a number and back, and 56 cents after two. -/
theorem C131_counterexample_drift :
    (similar binary64 (toDouble binary64 ⟨58, Spec.dollar⟩) ⟨58, Spec.dollar⟩ >>= fun p => similar binary64 (toDouble binary64 p) p) = .ok ⟨56, Spec.dollar⟩ := by
  decide +kernel

/-! ## C132: arithmetic on quotes is arithmetic on the prices of one item -/

/-- The price of one item, in whole units of the currency. -/
def Spec.perItem (q : Quote) : Rat := Spec.amount q.price / (q.lot : Rat)

/-- **C132, sums and differences (partial).** Quotes with different lots are refused by all operators; with equal lots and in the same currency, the sum and the difference have the same lot, and
the price of one item is the sum or the difference of the prices of one item. -/
theorem C132_sums_partial (a b : Quote) :
    (a.lot ≠ b.lot → quoteAdd a b = .throws ∧ quoteSub a b = .throws ∧ quoteMul a b = .throws ∧ quoteDiv a b = .throws) ∧
    (a.lot = b.lot → 0 < a.lot → a.price.valuation = b.price.valuation →
      (InI64 (a.price.value + b.price.value) → ∃ r, quoteAdd a b = .ok r ∧ r.lot = a.lot ∧ r.price.valuation = a.price.valuation ∧ Spec.perItem r = Spec.perItem a + Spec.perItem b) ∧
      (InI64 (a.price.value - b.price.value) → ∃ r, quoteSub a b = .ok r ∧ r.lot = a.lot ∧ r.price.valuation = a.price.valuation ∧ Spec.perItem r = Spec.perItem a - Spec.perItem b)) := by
  constructor
  · intro h
    unfold quoteAdd quoteSub quoteMul quoteDiv quoteOp
    simp [h]
  · intro h hl hc
    obtain ⟨h1, h2, _⟩ := C130_amounts_partial a.price b.price hc 1
    constructor
    · intro hi
      obtain ⟨r, e, ev, ea⟩ := h1 hi
      refine ⟨⟨a.lot, r⟩, ?_, rfl, ev, ?_⟩
      · unfold quoteAdd quoteOp
        rw [if_neg (by simp [h]), e]
        show Quote.make r a.lot = _
        exact if_neg (by omega)
      · unfold Spec.perItem; rw [ea, ← h]; ring
    · intro hi
      obtain ⟨r, e, ev, ea⟩ := h2 hi
      refine ⟨⟨a.lot, r⟩, ?_, rfl, ev, ?_⟩
      · unfold quoteSub quoteOp
        rw [if_neg (by simp [h]), e]
        show Quote.make r a.lot = _
        exact if_neg (by omega)
      · unfold Spec.perItem; rw [ea, ← h]; ring

example : quoteAdd ⟨100, ⟨250, Spec.dollar⟩⟩ ⟨100, ⟨-50, Spec.dollar⟩⟩ = .ok ⟨100, ⟨200, Spec.dollar⟩⟩ := by decide

/-- **C132, negation, products.** The product of two quotes in a currency with subunits, or with lots of more than one item, is not the product of the prices of one item: it is too large by the factor of the lot times the subunits. -/
theorem C132_counterexample_product (a b r : Quote) (hc : a.price.valuation = b.price.valuation) (hl : 0 < a.lot) (hd : 0 < a.price.valuation.denominator) (h2 : 2 ≤ a.lot * a.price.valuation.denominator)
    (ha : a.price.value ≠ 0) (hb : b.price.value ≠ 0) (e : quoteMul a b = .ok r) :
    r.lot = a.lot ∧ Spec.perItem r = (a.lot * a.price.valuation.denominator : Nat) * (Spec.perItem a * Spec.perItem b) ∧ Spec.perItem r ≠ Spec.perItem a * Spec.perItem b := by
  obtain ⟨l, v, c⟩ := a
  obtain ⟨l', w, c'⟩ := b
  simp only at hc hl hd h2 ha hb
  subst hc
  have hlr : (l : Rat) ≠ 0 := by exact_mod_cast (by omega : l ≠ 0)
  have hdr : (c.denominator : Rat) ≠ 0 := by exact_mod_cast (by omega : c.denominator ≠ 0)
  have hv : (v : Rat) ≠ 0 := by exact_mod_cast ha
  have hw : (w : Rat) ≠ 0 := by exact_mod_cast hb
  unfold quoteMul quoteOp at e
  simp only at e
  by_cases hll : l = l'
  · subst hll
    rw [if_neg (by simp)] at e
    unfold mul signed at e
    simp only at e
    split at e
    · have e' : Quote.make ⟨v * w, c⟩ l = .ok r := e
      rw [Quote.make, if_neg (by omega)] at e'
      cases e'
      have key : Spec.perItem ⟨l, ⟨v * w, c⟩⟩ = (l * c.denominator : Nat) * (Spec.perItem ⟨l, ⟨v, c⟩⟩ * Spec.perItem ⟨l, ⟨w, c⟩⟩) := by
        unfold Spec.perItem Spec.amount
        push_cast
        field_simp
      refine ⟨rfl, key, ?_⟩
      rw [key]
      intro h
      have hp : Spec.perItem ⟨l, ⟨v, c⟩⟩ * Spec.perItem ⟨l, ⟨w, c⟩⟩ ≠ 0 := by
        unfold Spec.perItem Spec.amount
        exact mul_ne_zero (div_ne_zero (div_ne_zero hv hdr) hlr) (div_ne_zero (div_ne_zero hw hdr) hlr)
      have h1 := (mul_eq_right₀ hp).1 h
      have : l * c.denominator = 1 := by exact_mod_cast h1
      omega
    · cases e
  · rw [if_pos hll] at e
    cases e

example : quoteMul ⟨100, ⟨250, Spec.dollar⟩⟩ ⟨100, ⟨4, Spec.dollar⟩⟩ = .ok ⟨100, ⟨1000, Spec.dollar⟩⟩ := by decide

/-- **C132, negation, quotients.** The quotient of two quotes is a quote whose price is the ratio of the two prices, rounded towards zero, in subunits of the currency and for a whole lot; so that a quote divided by itself is not one, but one subunit
for a lot. -/
theorem C132_counterexample_quotient (a b : Quote) (hl : a.lot = b.lot) (h0 : 0 < a.lot) (hc : a.price.valuation = b.price.valuation) (hd : 0 < a.price.valuation.denominator) (hb : b.price.value ≠ 0) (hi : InI64 (a.price.value.tdiv b.price.value)) :
    (∃ r, quoteDiv a b = .ok r ∧ r.lot = a.lot ∧ r.price.valuation = a.price.valuation ∧ |Spec.perItem r * (a.lot * a.price.valuation.denominator : Nat) - Spec.perItem a / Spec.perItem b| < 1 ∧
      |Spec.perItem r * (a.lot * a.price.valuation.denominator : Nat)| ≤ |Spec.perItem a / Spec.perItem b|) ∧
    (2 ≤ b.lot * b.price.valuation.denominator → ∃ r, quoteDiv b b = .ok r ∧ Spec.perItem r ≠ 1) := by
  obtain ⟨l, v, c⟩ := a
  obtain ⟨l', w, c'⟩ := b
  simp only at hl h0 hc hd hb hi
  subst hc hl
  have hlr : (l : Rat) ≠ 0 := by exact_mod_cast (by omega : l ≠ 0)
  have hdr : (c.denominator : Rat) ≠ 0 := by exact_mod_cast (by omega : c.denominator ≠ 0)
  have hw : (w : Rat) ≠ 0 := by exact_mod_cast hb
  have run : ∀ u : Int, InI64 (u.tdiv w) → quoteDiv ⟨l, ⟨u, c⟩⟩ ⟨l, ⟨w, c⟩⟩ = .ok ⟨l, ⟨u.tdiv w, c⟩⟩ := by
    intro u hu
    unfold quoteDiv quoteOp div
    rw [if_neg (by simp), if_neg hb, signed_ok hu]
    show Quote.make ⟨u.tdiv w, c⟩ l = _
    exact if_neg (by omega)
  constructor
  · refine ⟨_, run v hi, rfl, rfl, ?_⟩
    have e1 : Spec.perItem ⟨l, ⟨v.tdiv w, c⟩⟩ * ((l * c.denominator : Nat) : Rat) = (v.tdiv w : Int) := by
      unfold Spec.perItem Spec.amount
      push_cast
      field_simp
    have e2 : Spec.perItem ⟨l, ⟨v, c⟩⟩ / Spec.perItem ⟨l, ⟨w, c⟩⟩ = (v : Rat) / w := by
      unfold Spec.perItem Spec.amount
      field_simp
    rw [e1, e2]
    have hm : (v : Rat) = w * (v.tdiv w : Int) + (v.tmod w : Int) := by exact_mod_cast (Int.mul_tdiv_add_tmod v w).symm
    have e3 : ((v.tdiv w : Int) : Rat) - (v : Rat) / w = -((v.tmod w : Int) : Rat) / w := by
      rw [hm]
      field_simp
      ring
    constructor
    swap
    · rw [abs_div, le_div_iff₀ (abs_pos.2 hw)]
      have : |v.tdiv w| * |w| ≤ |v| := by
        rw [Int.abs_eq_natAbs, Int.abs_eq_natAbs, Int.abs_eq_natAbs, Int.natAbs_tdiv]
        exact_mod_cast Nat.div_mul_le_self _ _
      exact_mod_cast this
    rw [e3, abs_div, abs_neg, div_lt_one (abs_pos.2 hw)]
    have : |v.tmod w| < |w| := by
      have h1 := Int.natAbs_tmod v w
      have h2 : v.natAbs % w.natAbs < w.natAbs := Nat.mod_lt _ (Int.natAbs_pos.2 hb)
      rw [Int.abs_eq_natAbs, Int.abs_eq_natAbs]
      omega
    exact_mod_cast this
  · intro h2
    simp only at h2
    refine ⟨_, run w (by rw [Int.tdiv_self hb]; decide), ?_⟩
    rw [Int.tdiv_self hb]
    unfold Spec.perItem Spec.amount
    simp only
    intro h
    have : ((l * c.denominator : Nat) : Rat) = 1 := by
      rw [div_div, div_eq_one_iff_eq (mul_ne_zero hdr hlr)] at h
      push_cast at h ⊢
      rw [mul_comm]
      exact h.symm
    have : l * c.denominator = 1 := by exact_mod_cast this
    omega

example : quoteDiv ⟨100, ⟨250, Spec.dollar⟩⟩ ⟨100, ⟨4, Spec.dollar⟩⟩ = .ok ⟨100, ⟨62, Spec.dollar⟩⟩ := by decide

/-- **C132, numbers (partial).** Multiplying or dividing a quote by a number keeps the lot and the currency and multiplies or divides the price, up to one smallest unit and the rounding of `double`; adding or
subtracting a number keeps the lot and does to the price what adding it to a price does (C130). -/
theorem C132_numbers_partial (a : Quote) (hl : 0 < a.lot) (ha : |a.price.value| ≤ 2 ^ 53) (x : Rat) :
    (|(a.price.value : Rat) * x| < 2 ^ 62 → ∃ r, quoteDouble (mulDouble binary64) a x = .ok r ∧ r.lot = a.lot ∧ r.price.valuation = a.price.valuation ∧
      |(r.price.value : Rat) - a.price.value * x| < 1 + |(a.price.value : Rat) * x| / 2 ^ 53) ∧
    (x ≠ 0 → |(a.price.value : Rat) / x| < 2 ^ 62 → ∃ r, quoteDouble (divDouble binary64) a x = .ok r ∧ r.lot = a.lot ∧ r.price.valuation = a.price.valuation ∧
      |(r.price.value : Rat) - a.price.value / x| < 1 + |(a.price.value : Rat) / x| / 2 ^ 53) ∧
    (∀ n : Int, x = n → |a.price.value + n| ≤ 2 ^ 53 → quoteDouble (addDouble binary64) a x = .ok ⟨a.lot, ⟨a.price.value + n, a.price.valuation⟩⟩) ∧
    (∀ n : Int, x = n → |a.price.value - n| ≤ 2 ^ 53 → quoteDouble (subDouble binary64) a x = .ok ⟨a.lot, ⟨a.price.value - n, a.price.valuation⟩⟩) := by
  have lift : ∀ (op : P → Rat → Outcome P) (p : P), op a.price x = .ok p → quoteDouble op a x = .ok ⟨a.lot, p⟩ := by
    intro op p e
    unfold quoteDouble
    rw [e]
    exact if_neg (by omega)
  obtain ⟨h1, h2, -⟩ := C130_number_partial a.price ha x
  refine ⟨fun h => ?_, fun hx h => ?_, fun n e h => ?_, fun n e h => ?_⟩
  · obtain ⟨r, e1, e2, e3⟩ := h1 h
    exact ⟨_, lift _ r e1, rfl, e2, e3⟩
  · obtain ⟨r, e1, e2, e3⟩ := h2 hx h
    exact ⟨_, lift _ r e1, rfl, e2, e3⟩
  · apply lift
    unfold addDouble
    rw [binary64_int _ ha, e]
    have : ((a.price.value : Rat) + (n : Rat)) = ((a.price.value + n : Int) : Rat) := by push_cast; rfl
    rw [this]
    exact cast_exact _ _ h
  · apply lift
    unfold subDouble
    rw [binary64_int _ ha, e]
    have : ((a.price.value : Rat) - (n : Rat)) = ((a.price.value - n : Int) : Rat) := by push_cast; rfl
    rw [this]
    exact cast_exact _ _ h

example : quoteDouble (mulDouble binary64) ⟨100, ⟨1999, Spec.dollar⟩⟩ (3 / 2) = .ok ⟨100, ⟨2998, Spec.dollar⟩⟩ ∧
    quoteDouble (subDouble binary64) ⟨100, ⟨1999, Spec.dollar⟩⟩ 2 = .ok ⟨100, ⟨1997, Spec.dollar⟩⟩ := by decide +kernel

/-- **C132, there and back with a lot of one (partial).** With a lot of one, a quote that is converted to a number and back has the same lot and currency, and its price is the same or one smallest unit
nearer to zero. -/
theorem C132_round_trip_partial (q : Quote) (hl : q.lot = 1) (hp : |q.price.value| ≤ 2 ^ 51) (hd : 0 < q.price.valuation.denominator) :
    ∃ r, quoteSimilar binary64 (quoteToDouble binary64 q) q = .ok r ∧ r.lot = q.lot ∧ r.price.valuation = q.price.valuation ∧
      (r.price.value = q.price.value ∨ r.price.value = q.price.value - q.price.value.sign) := by
  obtain ⟨r, e, hv, hr⟩ := C131_round_trip_partial q.price hp hd
  refine ⟨⟨q.lot, r⟩, ?_, rfl, hv, hr⟩
  unfold quoteSimilar quoteToDouble
  have : binary64 (toDouble binary64 q.price / (q.lot : Rat)) = toDouble binary64 q.price := by
    rw [hl]
    show binary64 (toDouble binary64 q.price / 1) = _
    rw [div_one]
    exact binary64_idem _
  rw [this, e]
  exact if_neg (by omega)

/-- **C132, negation for other lots.** A positive quote with a lot of two or more, converted to a number and made a quote like it again, always is a lower quote: the number is the price of one item, but it becomes
the price of the lot. -/
theorem C132_counterexample_lot (q : Quote) (hl : 2 ≤ q.lot) (h0 : 0 < q.price.value) (hp : q.price.value ≤ 2 ^ 51) (hd : 0 < q.price.valuation.denominator) :
    ∃ r, quoteSimilar binary64 (quoteToDouble binary64 q) q = .ok r ∧ r.lot = q.lot ∧ r.price.value < q.price.value := by
  obtain ⟨lot, v, c⟩ := q
  simp only at hl h0 hp hd
  unfold quoteSimilar quoteToDouble similar approximate toDouble
  simp only
  rw [binary64_int v (by rw [abs_of_pos h0]; exact le_trans hp (by decide))]
  have hD : (0 : Rat) < binary64 (c.denominator : Rat) := binary64_pos _ (by exact_mod_cast hd)
  generalize binary64 (c.denominator : Rat) = D at hD
  have hv : (1 : Rat) ≤ v := by exact_mod_cast h0
  have hL : (2 : Rat) ≤ lot := by exact_mod_cast hl
  -- an upper bound for each rounding
  have up : ∀ x : Rat, 0 ≤ x → binary64 x ≤ x * (1 + 1 / 2 ^ 53) := by
    intro x hx
    have := (abs_le.mp (binary64_err x)).2
    rw [abs_of_nonneg hx] at this
    linarith
  have nn : ∀ x : Rat, 0 ≤ x → 0 ≤ binary64 x := by
    intro x hx
    have := (abs_le.mp (binary64_err x)).1
    rw [abs_of_nonneg hx] at this
    have : x / 2 ^ 53 ≤ x := div_le_self hx (by norm_num)
    linarith
  have u1 := up ((v : Rat) / D) (by positivity)
  have n1 := nn ((v : Rat) / D) (by positivity)
  generalize binary64 ((v : Rat) / D) = x1 at *
  have u2 := up (x1 / lot) (by positivity)
  have n2 := nn (x1 / lot) (by positivity)
  generalize binary64 (x1 / lot) = x2 at *
  have u3 := up (x2 * D) (by positivity)
  have n3 := nn (x2 * D) (by positivity)
  generalize binary64 (x2 * D) = x3 at *
  have hx3 : x3 < v := by
    have a1 : x1 * D ≤ v * (1 + 1 / 2 ^ 53) := by
      calc x1 * D ≤ v / D * (1 + 1 / 2 ^ 53) * D := by gcongr
        _ = v * (1 + 1 / 2 ^ 53) := by field_simp
    have a2 : x2 ≤ x1 / 2 * (1 + 1 / 2 ^ 53) := by
      refine le_trans u2 ?_
      gcongr
    calc x3 ≤ x2 * D * (1 + 1 / 2 ^ 53) := u3
      _ ≤ (x1 / 2 * (1 + 1 / 2 ^ 53)) * D * (1 + 1 / 2 ^ 53) := by gcongr
      _ = (x1 * D) * ((1 + 1 / 2 ^ 53) * (1 + 1 / 2 ^ 53) / 2) := by ring
      _ ≤ (v * (1 + 1 / 2 ^ 53)) * ((1 + 1 / 2 ^ 53) * (1 + 1 / 2 ^ 53) / 2) := by gcongr
      _ = v * ((1 + 1 / 2 ^ 53) * ((1 + 1 / 2 ^ 53) * (1 + 1 / 2 ^ 53) / 2)) := by ring
      _ < v * 1 := by
        apply mul_lt_mul_of_pos_left _ (by linarith)
        norm_num
      _ = v := mul_one _
  obtain ⟨_, t2⟩ := trunc_abs x3
  rw [abs_of_nonneg n3] at t2
  have t3 : ((trunc x3 : Int) : Rat) < v := lt_of_le_of_lt (le_trans (le_abs_self _) t2) hx3
  have t4 : trunc x3 < v := by exact_mod_cast t3
  have t5 : -(v : Rat) < ((trunc x3 : Int) : Rat) := by
    have := neg_abs_le ((trunc x3 : Int) : Rat)
    linarith
  have t6 : -v < trunc x3 := by exact_mod_cast t5
  have hin : InI64 (trunc x3) := by unfold InI64; omega
  refine ⟨⟨lot, ⟨trunc x3, c⟩⟩, ?_, rfl, t4⟩
  unfold cast
  rw [signed_ok hin]
  exact if_neg (by omega)

example : quoteSimilar binary64 (quoteToDouble binary64 ⟨10, ⟨10000, Spec.dollar⟩⟩) ⟨10, ⟨10000, Spec.dollar⟩⟩ = .ok ⟨10, ⟨1000, Spec.dollar⟩⟩ := by decide +kernel

/-! ## C133: rates -/

/-- The number that a rate denotes. -/
def Spec.ratio (r : Ratio) : Rat := (r.num : Rat) / (r.den : Rat)

/-- Bringing to lowest terms keeps the number. -/
theorem make_ratio (n d : Int) (hd : d ≠ 0) : ∃ r, Ratio.make n d = .ok r ∧ 0 < r.den ∧ Spec.ratio r = (n : Rat) / d := by
  have hg : (0 : Int) < (Int.gcd n d : Nat) := by
    have := Int.gcd_pos_of_ne_zero_right n hd
    omega
  have hgn : ((Int.gcd n d : Nat) : Int) ∣ n := Int.gcd_dvd_left ..
  have hgd : ((Int.gcd n d : Nat) : Int) ∣ d := Int.gcd_dvd_right ..
  unfold Ratio.make
  rw [if_neg hd]
  simp only
  generalize ((Int.gcd n d : Nat) : Int) = g at *
  obtain ⟨a, rfl⟩ := hgn
  obtain ⟨b, rfl⟩ := hgd
  have g0 : (g : Rat) ≠ 0 := by exact_mod_cast (by omega : g ≠ 0)
  have b0 : b ≠ 0 := by rintro rfl; simp at hd
  have b0' : (b : Rat) ≠ 0 := by exact_mod_cast b0
  rw [Int.mul_ediv_cancel_left _ (by omega), Int.mul_ediv_cancel_left _ (by omega)]
  have eq : (((g * a : Int)) : Rat) / ((g * b : Int) : Rat) = (a : Rat) / b := by push_cast; field_simp
  by_cases hneg : g * b < 0
  · rw [if_pos hneg]
    have : b < 0 := by nlinarith
    refine ⟨_, rfl, by simp only; omega, ?_⟩
    rw [eq]
    unfold Spec.ratio
    push_cast
    rw [neg_div_neg_eq]
  · rw [if_neg hneg]
    have : 0 < b := by
      rcases lt_trichotomy b 0 with h | h | h
      · exact absurd (by nlinarith : g * b < 0) hneg
      · exact absurd h b0
      · exact h
    refine ⟨_, rfl, this, ?_⟩
    rw [eq]
    rfl

/-- **C133, rates from numbers (partial).** A rate made from a number with a precision of up to 53 binary digits differs from the number by less than one step of the precision, apart from the rounding of the product. -/
theorem C133_number_partial (x : Rat) (precision : Nat) (h0 : 0 < precision) (hp : precision ≤ 2 ^ 53) (hx : |x * precision| < 2 ^ 62) :
    ∃ r, rateFrom binary64 x precision = .ok r ∧ 0 < r.den ∧ |Spec.ratio r - x| < (1 + |x * precision| / 2 ^ 53) / precision := by
  have hpz : |(precision : Int)| ≤ 2 ^ 53 := by rw [abs_of_nonneg (by omega)]; exact_mod_cast hp
  have hfl : binary64 (precision : Rat) = precision := by
    have := binary64_int (precision : Int) hpz
    simpa using this
  obtain ⟨⟨t, c⟩, e, _, hb⟩ := cast_rounded (x * precision) Spec.yen hx
  unfold rateFrom
  simp only
  rw [hfl]
  unfold cast signed at e
  split at e
  · rename_i hin
    rw [if_pos hin]
    cases e
    simp only at hb
    have hw : wrapI64 (precision : Int) = precision := wrapI64_of_in (by unfold InI64; omega)
    have hmin : ¬ (trunc (binary64 (x * precision)) = -(2 ^ 63) ∨ (precision : Int) = -(2 ^ 63)) := by
      rintro (hc | hc)
      · rw [hc] at hb
        have h1 := (abs_lt.mp hx).1
        have h2 : |x * (precision : Rat)| / 2 ^ 53 ≤ |x * (precision : Rat)| / 8 :=
          div_le_div_of_nonneg_left (abs_nonneg _) (by norm_num) (by norm_num)
        have h3 := (abs_lt.mp hb).1
        push_cast at h3
        norm_num at h1 h3 hx
        linarith
      · omega
    obtain ⟨r, er, hden, hr⟩ := make_ratio (trunc (binary64 (x * precision))) precision (by omega)
    refine ⟨r, ?_, hden, ?_⟩
    · unfold rate
      rw [hw, if_neg hmin]; exact er
    · have pp : (0 : Rat) < precision := by exact_mod_cast h0
      rw [hr, Int.cast_natCast, lt_div_iff₀ pp]
      have : ((trunc (binary64 (x * precision)) : Int) : Rat) / precision - x = (((trunc (binary64 (x * precision)) : Int) : Rat) - x * precision) / precision := by field_simp
      rw [this, abs_div, abs_of_pos pp, div_mul_cancel₀ _ (ne_of_gt pp)]
      exact hb
  · cases e

example : rateFrom binary64 (1 / 40) 10000 = .ok ⟨1, 40⟩ := by decide +kernel

/-- **C133, negation for decimal numbers.** The rate made from the number nearest to 0.0003, with the default precision of 10000, is 0.0002. -/
theorem C133_counterexample_number : rateFrom binary64 (binary64 (3 / 10000)) 10000 = .ok ⟨1, 5000⟩ := by decide +kernel

/-- **C133, rates as numbers.** The floating-point number that a rate is converted to is the number nearest to the rate, for numerators and denominators of up to 53 binary digits; in particular a rate that is a floating-point number is
converted exactly. -/
theorem C133_to_number_partial (r : Ratio) (hn : |r.num| ≤ 2 ^ 53) (hd : |r.den| ≤ 2 ^ 53) :
    rateToDouble binary64 r = binary64 (Spec.ratio r) ∧ |rateToDouble binary64 r - Spec.ratio r| ≤ |Spec.ratio r| / 2 ^ 53 := by
  have e : rateToDouble binary64 r = binary64 (Spec.ratio r) := by
    unfold rateToDouble Spec.ratio
    rw [binary64_int _ hn, binary64_int _ hd]
  exact ⟨e, by rw [e]; exact binary64_err _⟩

example : rateToDouble binary64 ⟨1, 40⟩ = binary64 (1 / 40) ∧ rateToDouble binary64 ⟨-3, 8⟩ = -3 / 8 := by decide +kernel

/-- **C133, inflation (partial).** The inflation rate computed from consumer prices of which the first is positive, and whose difference does not overflow, is the relative increase exactly, over the duration given. -/
theorem C133_inflation_partial (start stop : P) (d : Nat) (h0 : 0 < start.value) (hs : InI64 (stop.value - start.value)) (hm : stop.value - start.value ≠ -(2 ^ 63)) :
    ∃ r, fromConsumerPrices start stop d = .ok (r, d) ∧ 0 < r.den ∧ Spec.ratio r = ((stop.value : Rat) - start.value) / start.value := by
  obtain ⟨r, er, hden, hr⟩ := make_ratio (stop.value - start.value) start.value (by omega)
  refine ⟨r, ?_, hden, by rw [hr]; push_cast; rfl⟩
  unfold fromConsumerPrices sub
  rw [signed_ok hs]
  show (rate (stop.value - start.value) start.value >>= fun r => Outcome.ok (r, d)) = _
  unfold rate
  rw [if_neg (by rintro (h | h) <;> omega), er]
  rfl

example : fromConsumerPrices ⟨20000, Spec.dollar⟩ ⟨20500, Spec.dollar⟩ 12 = .ok (⟨1, 40⟩, 12) := by decide

/-- **C133, negation for inflation.** The inflation rate between prices in different currencies is computed as if they were in the same. -/
theorem C133_counterexample_currency (start stop : P) (c : Currency) (d : Nat) :
    fromConsumerPrices start ⟨stop.value, c⟩ d = fromConsumerPrices start stop d := by
  unfold fromConsumerPrices sub signed
  simp only
  split <;> rfl

/-- **C133, exchange rates.** An exchange rate made from two positive numbers is their ratio. -/
theorem C133_exchange_rate (quote base : Nat) (hb : 0 < base) : ∃ r, exchangeRate quote base = .ok r ∧ 0 < r.den ∧ Spec.ratio r = (quote : Rat) / base := by
  obtain ⟨r, er, hden, hr⟩ := make_ratio quote base (by omega)
  exact ⟨r, er, hden, by rw [hr]; push_cast; rfl⟩

example : exchangeRate 110 100 = .ok ⟨11, 10⟩ := by decide

/-- **C133, negation for the precision of exchange rates.** An exchange rate made like another is said to have the same precision, but the precision is that of the other in lowest terms: however fine the steps of a rate of
one, every number below one that is made a rate like it is zero. -/
theorem C133_counterexample_precision (k : Nat) (hk : 0 < k) (x : Rat) (h0 : 0 ≤ x) (h1 : x ≤ 1 - 1 / 2 ^ 52) :
    ∃ r, exchangeRate k k = .ok r ∧ exchangeSimilar binary64 x r = .ok ⟨0, 1⟩ := by
  refine ⟨⟨1, 1⟩, ?_, ?_⟩
  · unfold exchangeRate Ratio.make
    rw [if_neg (by omega)]
    simp only [Int.gcd_self, Int.natAbs_natCast]
    rw [if_neg (by omega), Int.ediv_self (by omega)]
  · have h2 : binary64 ((1 : Int) : Rat) = ((1 : Int) : Rat) := binary64_int 1 (by decide)
    unfold exchangeSimilar
    simp only
    rw [h2]
    rw [Int.cast_one, mul_one]
    have e := abs_le.mp (binary64_err x)
    rw [abs_of_nonneg h0] at e
    have hb : x / 2 ^ 53 ≤ 1 / 2 ^ 53 := by
      gcongr
      have : (0 : Rat) ≤ 1 / 2 ^ 52 := by positivity
      linarith
    have up : binary64 x < 1 := by
      have : (1 : Rat) / 2 ^ 53 < 1 / 2 ^ 52 := by norm_num
      linarith [e.2]
    have lo : 0 ≤ binary64 x := by
      have : x / 2 ^ 53 ≤ x := div_le_self h0 (by norm_num)
      linarith [e.1]
    have t : trunc (binary64 x) = 0 := by
      obtain ⟨_, t2⟩ := trunc_abs (binary64 x)
      rw [abs_of_nonneg lo] at t2
      have : |((trunc (binary64 x) : Int) : Rat)| < 1 := lt_of_le_of_lt t2 up
      have : |trunc (binary64 x)| < 1 := by exact_mod_cast this
      rw [abs_lt] at this
      omega
    rw [t]
    decide

/-- **C133, exchange rates from numbers.** An exchange rate that is made from a number that is not negative, like another rate, is less than one step of the other rate off, apart from the rounding of a product. -/
theorem C133_similar_partial (x : Rat) (r : Ratio) (h0 : 0 ≤ x) (hd : 0 < r.den) (hp : r.den ≤ 2 ^ 53) (hx : x * r.den ≤ 2 ^ 63) :
    ∃ r', exchangeSimilar binary64 x r = .ok r' ∧ 0 < r'.den ∧ |Spec.ratio r' - x| < (1 + x * r.den / 2 ^ 53) / r.den := by
  have hfl : binary64 (r.den : Rat) = r.den := binary64_int _ (by rw [abs_of_pos hd]; exact hp)
  have hdr : (0 : Rat) < r.den := by exact_mod_cast hd
  have hy : 0 ≤ x * r.den := mul_nonneg h0 (le_of_lt hdr)
  have e := abs_le.mp (binary64_err (x * r.den))
  rw [abs_of_nonneg hy] at e
  have hlo : 0 ≤ binary64 (x * r.den) := by
    have : x * r.den / 2 ^ 53 ≤ x * r.den := div_le_self hy (by norm_num)
    linarith [e.1]
  have hhi : binary64 (x * r.den) < 2 ^ 64 := by
    have : x * r.den / 2 ^ 53 ≤ 2 ^ 63 / 2 ^ 53 := by gcongr
    have : (2 : Rat) ^ 63 + 2 ^ 63 / 2 ^ 53 < 2 ^ 64 := by norm_num
    linarith [e.2]
  obtain ⟨t1, t2⟩ := trunc_abs (binary64 (x * r.den))
  have hn0 : 0 ≤ trunc (binary64 (x * r.den)) := Int.tdiv_nonneg (Rat.num_nonneg.2 hlo) (Int.natCast_nonneg _)
  rw [abs_of_nonneg hlo, abs_of_nonneg (by exact_mod_cast hn0)] at t2
  have hn1 : trunc (binary64 (x * r.den)) < 2 ^ 64 := by
    have : ((trunc (binary64 (x * r.den)) : Int) : Rat) < ((2 ^ 64 : Int) : Rat) := by push_cast; linarith
    exact_mod_cast this
  obtain ⟨r', er, hden, hr⟩ := make_ratio (trunc (binary64 (x * r.den))) r.den (by omega)
  refine ⟨r', ?_, hden, ?_⟩
  · unfold exchangeSimilar exchangeRate
    simp only
    rw [hfl, if_pos ⟨hn0, hn1⟩, Int.toNat_of_nonneg hn0, Int.toNat_of_nonneg (le_of_lt hd)]
    exact er
  · have hr' : Spec.ratio r' = ((trunc (binary64 (x * r.den)) : Int) : Rat) / r.den := hr
    have hs : Spec.ratio r' - x = (((trunc (binary64 (x * r.den)) : Int) : Rat) - x * r.den) / r.den := by
      rw [hr']
      field_simp
    rw [hs, abs_div, abs_of_pos hdr]
    apply div_lt_div_of_pos_right _ hdr
    have := abs_sub_le ((trunc (binary64 (x * r.den)) : Int) : Rat) (binary64 (x * r.den)) (x * r.den)
    have e' := binary64_err (x * r.den)
    rw [abs_of_nonneg hy] at e'
    linarith

/-- **C133, negation for large exchange rates.** A number of at least `2 ^ 64` steps of the other rate has no exchange rate: the conversion to an unsigned number is undefined. -/
theorem C133_counterexample_large (x : Rat) (r : Ratio) (hd : 0 < r.den) (hp : r.den ≤ 2 ^ 53) (hx : 2 ^ 64 ≤ x * r.den) : exchangeSimilar binary64 x r = .ub := by
  have hfl : binary64 (r.den : Rat) = r.den := binary64_int _ (by rw [abs_of_pos hd]; exact hp)
  have h64 : binary64 ((2 : Rat) ^ 64) = 2 ^ 64 := by decide +kernel
  have hm : (2 : Rat) ^ 64 ≤ binary64 (x * r.den) := by
    rw [← h64]
    exact binary64_mono hx
  unfold exchangeSimilar
  simp only
  rw [hfl, if_neg]
  rintro ⟨_, h⟩
  have hq : 0 ≤ binary64 (x * r.den) := le_trans (by norm_num) hm
  have hf : trunc (binary64 (x * r.den)) = ⌊binary64 (x * r.den)⌋ := by
    unfold trunc
    rw [Int.tdiv_eq_ediv_of_nonneg (Rat.num_nonneg.2 hq), Rat.floor_def']
  rw [hf] at h
  have : (2 ^ 64 : Int) ≤ ⌊binary64 (x * r.den)⌋ := Int.le_floor.2 (by push_cast; exact hm)
  omega

example : exchangeSimilar binary64 (2 ^ 64) ⟨1, 1⟩ = .ub ∧ exchangeSimilar binary64 (2 ^ 63) ⟨3, 2⟩ = .ub := by decide +kernel

example : exchangeSimilar binary64 (1 / 2) ⟨1, 1⟩ = .ok ⟨0, 1⟩ ∧ exchangeSimilar binary64 (1 / 2) ⟨1, 10000⟩ = .ok ⟨1, 2⟩ := by decide +kernel

end Esl.Arith
