import Verif.Props.StaticCoding
import Verif.Lemmas.Double
import Mathlib.Tactic.Positivity
import Mathlib.Tactic.NormNum
import Mathlib.Tactic.GCongr
/-! # C34: encoding of prices as levels of the static order book, with the rounding of `double` -/
namespace Esl.Static
open Esl.Double

/-! ## Specification -/

/-- A configuration in which a price unit has `k` levels, with the rounding of `double`; no more than 2^40 levels are needed for the prices up to the maximum. -/
structure Spec.Rounded (c : Config) (k : Nat) : Prop where
  arith : c.fl = binary64
  den : 0 < c.denominator
  two : 2 ≤ k
  lot : c.lot = k * c.denominator
  nonneg : 0 ≤ c.lower
  range : c.lower < c.upper
  size : k * c.upper ≤ 2 ^ 40

/-! ## Arithmetic -/

theorem near (x t e M : Rat) (h : |x - t| ≤ e) (hM : |t| ≤ M) : |binary64 x - t| ≤ e + (M + e) / 2 ^ 53 := by
  have h1 := binary64_err x
  have h2 : |x| ≤ M + e := by
    calc |x| = |t + (x - t)| := by ring_nf
      _ ≤ |t| + |x - t| := abs_add_le _ _
      _ ≤ M + e := by linarith
  calc |binary64 x - t| = |(x - t) + (binary64 x - x)| := by ring_nf
    _ ≤ |x - t| + |binary64 x - x| := abs_add_le _ _
    _ ≤ e + |x| / 2 ^ 53 := by linarith
    _ ≤ e + (M + e) / 2 ^ 53 := by gcongr

theorem cround_neg (q : Rat) (h : q < 0) : cround q = -cround (-q) := by
  have h1 : q.num < 0 := Rat.num_neg.2 h
  unfold cround
  rw [if_neg (by omega), Rat.neg_num, Rat.neg_den, if_pos (by omega)]

theorem cround_near (q : Rat) (n : Int) (h : |q - n| < 1 / 2) : cround q = n := by
  rw [abs_lt] at h
  by_cases h0 : 0 ≤ q
  · exact cround_eq q n h0 (by linarith) (by linarith)
  · have h0' : q < 0 := not_le.1 h0
    rw [cround_neg q h0', cround_eq (-q) (-n) (by linarith) (by push_cast; linarith) (by push_cast; linarith)]
    omega

theorem cround_half (q : Rat) (h0 : 0 ≤ q) : |(cround q : Rat) - q| ≤ 1 / 2 := by
  have hd : (0 : Rat) < (q.den : Rat) := by exact_mod_cast q.den_pos
  have hdi : (0 : Int) < (q.den : Int) := by exact_mod_cast q.den_pos
  have hn : 0 ≤ q.num := Rat.num_nonneg.2 h0
  have e := q_eq q
  have hc : cround q = (2 * q.num + q.den) / (2 * q.den) := by unfold cround; rw [if_pos hn]
  have h1 := Int.mul_ediv_add_emod (2 * q.num + q.den) (2 * q.den)
  have h2 := Int.emod_nonneg (2 * q.num + q.den) (show (2 * (q.den : Int)) ≠ 0 by omega)
  have h3 := Int.emod_lt_of_pos (2 * q.num + q.den) (show (0 : Int) < 2 * (q.den : Int) by omega)
  rw [← hc] at h1
  have a1 : 2 * (q.den : Int) * cround q ≤ 2 * q.num + q.den := by omega
  have a2 : 2 * q.num + q.den < 2 * (q.den : Int) * cround q + 2 * q.den := by omega
  have b1 : 2 * (q.den : Rat) * (cround q : Rat) ≤ 2 * (q.num : Rat) + q.den := by exact_mod_cast a1
  have b2 : 2 * (q.num : Rat) + q.den < 2 * (q.den : Rat) * (cround q : Rat) + 2 * q.den := by exact_mod_cast a2
  have en : (q.num : Rat) = q * q.den := by
    have := Rat.num_div_den q
    field_simp at this
    linarith
  rw [en] at b1 b2
  rw [abs_le]
  constructor
  · have : 0 ≤ ((cround q : Rat) - q + 1 / 2) * (2 * q.den) := by nlinarith
    have := nonneg_of_mul_nonneg_left this (by positivity)
    linarith
  · have : 0 ≤ (1 / 2 - ((cround q : Rat) - q)) * (2 * q.den) := by nlinarith
    have := nonneg_of_mul_nonneg_left this (by positivity)
    linarith

/-- Rounding a number near an integer: the error at most doubles. -/
theorem cround_twice (q : Rat) (n : Int) (e : Rat) (hn : 0 ≤ n) (h : |q - n| ≤ e) : |(cround q : Rat) - n| ≤ 2 * e := by
  have he : 0 ≤ e := le_trans (abs_nonneg _) h
  by_cases h2 : |q - n| < 1 / 2
  · rw [cround_near q n h2]; simpa using he
  · have h2' : 1 / 2 ≤ e := le_trans (not_lt.1 h2) h
    have hn' : (0 : Rat) ≤ n := by exact_mod_cast hn
    by_cases h0 : 0 ≤ q
    · calc |(cround q : Rat) - n| = |((cround q : Rat) - q) + (q - n)| := by ring_nf
        _ ≤ |(cround q : Rat) - q| + |q - n| := abs_add_le _ _
        _ ≤ 2 * e := by linarith [cround_half q h0]
    · have h0' : 0 ≤ -q := by linarith [not_le.1 h0]
      have hh := cround_half (-q) h0'
      rw [cround_neg q (not_le.1 h0)]
      push_cast
      have : |(-(cround (-q) : Rat)) - q| ≤ 1 / 2 := by
        rw [← abs_neg]; ring_nf; ring_nf at hh; exact hh
      calc |-(cround (-q) : Rat) - n| = |(-(cround (-q) : Rat) - q) + (q - n)| := by ring_nf
        _ ≤ |-(cround (-q) : Rat) - q| + |q - n| := abs_add_le _ _
        _ ≤ 2 * e := by linarith

theorem trunc_between (q : Rat) (n : Int) (hn : 0 ≤ n) (h1 : (n : Rat) - 1 < q) (h2 : q < n + 1) : trunc q = n ∨ trunc q = n - 1 := by
  by_cases h0 : 0 ≤ q
  · by_cases h : (n : Rat) ≤ q
    · exact Or.inl (trunc_eq q n h0 h h2)
    · exact Or.inr (trunc_eq q (n - 1) h0 (by push_cast; linarith) (by push_cast; linarith [not_le.1 h]))
  · have h0' : q < 0 := not_le.1 h0
    have hn0 : n = 0 := by
      have : (n : Rat) < 1 := by linarith
      have : n < 1 := by exact_mod_cast this
      omega
    subst hn0
    have hneg : trunc q = -trunc (-q) := by
      unfold trunc
      simp [Int.neg_tdiv]
    left
    rw [hneg, trunc_eq (-q) 0 (by linarith) (by push_cast; linarith) (by push_cast at h1 ⊢; linarith)]
    rfl

theorem mulerr (x z : Rat) (hz : 0 ≤ z) : |binary64 x * z - x * z| ≤ |x * z| / 2 ^ 53 := by
  have t : binary64 x * z - x * z = (binary64 x - x) * z := by ring
  rw [t, abs_mul, abs_mul, abs_of_nonneg hz]
  calc |binary64 x - x| * z ≤ |x| / 2 ^ 53 * z := by gcongr; exact binary64_err x
    _ = |x| * z / 2 ^ 53 := by ring

/-- The last operations of decoding: addition of the intercept, division by the lot and multiplication by the denominator. -/
theorem last_steps (x I t u L d k : Rat) (hd : 0 < d) (hk2 : 2 ≤ k) (lot : L = k * d) (hx : |x - t| ≤ 5 / 2 ^ 10) (hi : |I - u| ≤ 1 / 2 ^ 10) (TB : |t + u| ≤ 2 ^ 40) :
    |binary64 (binary64 (binary64 (x + I) / L) * d) - (t + u) / k| ≤ 1 / 2 ^ 6 := by
  have hk : 0 < k := by linarith
  have hL : 0 < L := by rw [lot]; positivity
  have s1 : |x + I - (t + u)| ≤ 6 / 2 ^ 10 := by
    have e : x + I - (t + u) = (x - t) + (I - u) := by ring
    rw [e]
    refine le_trans (abs_add_le _ _) ?_
    have := add_le_add hx hi
    refine le_trans this ?_
    norm_num
  have s2 : |binary64 (x + I) - (t + u)| ≤ 7 / 2 ^ 10 := le_trans (near _ _ _ _ s1 TB) (by norm_num)
  generalize binary64 (x + I) = Q at s2 ⊢
  generalize t + u = T at s2 TB ⊢
  have s3 : |binary64 (Q / L) * L - T| ≤ 8 / 2 ^ 10 := by
    have a := mulerr (Q / L) L hL.le
    have e : Q / L * L = Q := by field_simp
    rw [e] at a
    have b : |Q| ≤ 2 ^ 40 + 1 := by
      calc |Q| = |T + (Q - T)| := by ring_nf
        _ ≤ |T| + |Q - T| := abs_add_le _ _
        _ ≤ 2 ^ 40 + 1 := by linarith [show (7 : Rat) / 2 ^ 10 ≤ 1 by norm_num]
    have b' : |Q| / 2 ^ 53 ≤ (2 ^ 40 + 1) / 2 ^ 53 := by gcongr
    calc |binary64 (Q / L) * L - T| = |(binary64 (Q / L) * L - Q) + (Q - T)| := by ring_nf
      _ ≤ |binary64 (Q / L) * L - Q| + |Q - T| := abs_add_le _ _
      _ ≤ 8 / 2 ^ 10 := by linarith [show (2 ^ 40 + 1 : Rat) / 2 ^ 53 + 7 / 2 ^ 10 ≤ 8 / 2 ^ 10 by norm_num]
  have s4 : |binary64 (Q / L) * d - T / k| ≤ 8 / 2 ^ 10 := by
    have e : binary64 (Q / L) * d - T / k = (binary64 (Q / L) * L - T) / k := by
      have : L / k = d := by rw [lot]; field_simp
      rw [← this]; field_simp
    rw [e, abs_div, abs_of_pos hk, div_le_iff₀ hk]
    calc |binary64 (Q / L) * L - T| ≤ 8 / 2 ^ 10 := s3
      _ ≤ 8 / 2 ^ 10 * k := by linarith
  have TkB : |T / k| ≤ 2 ^ 40 := by
    rw [abs_div, abs_of_pos hk, div_le_iff₀ hk]
    linarith
  exact le_trans (near _ _ _ _ s4 TkB) (by norm_num)

/-! ## The configuration -/

variable {c : Config} {k : Nat}

/-- Facts about a configuration, over rational numbers. -/
structure Facts (c : Config) (k : Nat) : Prop where
  d : (0 : Rat) < c.denominator
  k2 : (2 : Rat) ≤ k
  lot : (c.lot : Rat) = k * c.denominator
  low : (0 : Rat) ≤ c.lower
  width : (1 : Rat) ≤ (c.upper : Rat) - c.lower
  size : (k : Rat) * c.upper ≤ 2 ^ 40

theorem Spec.Rounded.facts (h : Spec.Rounded c k) : Facts c k where
  d := by exact_mod_cast h.den
  k2 := by exact_mod_cast h.two
  lot := by rw [h.lot]; push_cast; rfl
  low := by exact_mod_cast h.nonneg
  width := by
    have := h.range
    have : (c.lower : Int) + 1 ≤ c.upper := by omega
    have : (c.lower : Rat) + 1 ≤ c.upper := by exact_mod_cast this
    linarith
  size := by exact_mod_cast h.size

/-- The number that a price is converted to, in units of the price. -/
theorem Spec.Rounded.real (h : Spec.Rounded c k) (v : Int) (hv : 0 ≤ v) : |c.real v * (c.denominator * c.lot) - v| ≤ 3 * (v : Rat) / 2 ^ 53 := by
  have f := h.facts
  have hd := f.d
  have hk : (0 : Rat) < k := by linarith [f.k2]
  have hL : (0 : Rat) < c.lot := by rw [f.lot]; positivity
  have hv' : (0 : Rat) ≤ v := by exact_mod_cast hv
  unfold Config.real
  rw [h.arith]
  have e1 := binary64_err ((v : Rat) / c.denominator)
  have e2 := binary64_err (binary64 ((v : Rat) / c.denominator) / c.lot)
  set a := binary64 ((v : Rat) / c.denominator) with ha
  have q0 : |(v : Rat) / c.denominator| = (v : Rat) / c.denominator := abs_of_nonneg (by positivity)
  rw [q0] at e1
  have a1 : |a * c.denominator - v| ≤ (v : Rat) / 2 ^ 53 := by
    have : a * c.denominator - v = (a - (v : Rat) / c.denominator) * c.denominator := by field_simp
    rw [this, abs_mul, abs_of_pos hd]
    calc |a - (v : Rat) / c.denominator| * c.denominator ≤ (v : Rat) / c.denominator / 2 ^ 53 * c.denominator := by gcongr
      _ = (v : Rat) / 2 ^ 53 := by field_simp
  have a2 : |a * c.denominator| ≤ 2 * v := by
    calc |a * c.denominator| = |v + (a * c.denominator - v)| := by ring_nf
      _ ≤ |(v : Rat)| + |a * c.denominator - v| := abs_add_le _ _
      _ ≤ v + (v : Rat) / 2 ^ 53 := by rw [abs_of_nonneg hv']; linarith
      _ ≤ 2 * v := by linarith
  have a3 : |binary64 (a / c.lot) * (c.denominator * c.lot) - a * c.denominator| ≤ 2 * (v : Rat) / 2 ^ 53 := by
    have : binary64 (a / c.lot) * (c.denominator * c.lot) - a * c.denominator = (binary64 (a / c.lot) - a / c.lot) * (c.denominator * c.lot) := by field_simp
    rw [this, abs_mul, abs_of_pos (by positivity : (0 : Rat) < c.denominator * c.lot)]
    calc |binary64 (a / c.lot) - a / c.lot| * (c.denominator * c.lot) ≤ |a / c.lot| / 2 ^ 53 * (c.denominator * c.lot) := by gcongr
      _ = |a * c.denominator| / 2 ^ 53 := by rw [abs_div, abs_mul, abs_of_pos hL, abs_of_pos hd]; field_simp
      _ ≤ 2 * (v : Rat) / 2 ^ 53 := by gcongr
  calc |binary64 (a / c.lot) * (c.denominator * c.lot) - v| = |(binary64 (a / c.lot) * (c.denominator * c.lot) - a * c.denominator) + (a * c.denominator - v)| := by ring_nf
    _ ≤ |binary64 (a / c.lot) * (c.denominator * c.lot) - a * c.denominator| + |a * c.denominator - v| := abs_add_le _ _
    _ ≤ 2 * (v : Rat) / 2 ^ 53 + (v : Rat) / 2 ^ 53 := by linarith
    _ = 3 * (v : Rat) / 2 ^ 53 := by ring

/-- Differences of prices, in levels: the error is less than a thousandth of a level. -/
theorem Spec.Rounded.diff (h : Spec.Rounded c k) (v : Int) (h1 : c.lower ≤ v) (h2 : v ≤ c.upper) :
    |binary64 (c.real v - c.real c.lower) * (c.denominator * c.lot) * k - ((v : Rat) - c.lower) * k| ≤ 1 / 2 ^ 10 := by
  have f := h.facts
  have hd := f.d
  have hk : (0 : Rat) < k := by linarith [f.k2]
  have hL : (0 : Rat) < c.lot := by rw [f.lot]; positivity
  have hD : (0 : Rat) < c.denominator * c.lot := by positivity
  have v1 : (c.lower : Rat) ≤ v := by exact_mod_cast h1
  have v2 : (v : Rat) ≤ c.upper := by exact_mod_cast h2
  have r1 := h.real v (by have := h.nonneg; omega)
  have r2 := h.real c.lower h.nonneg
  set D : Rat := c.denominator * c.lot with hDdef
  set x := c.real v - c.real c.lower with hx
  have hlow := f.low
  have hsz := f.size
  have e0 : |x * D - ((v : Rat) - c.lower)| ≤ 6 * (c.upper : Rat) / 2 ^ 53 := by
    calc |x * D - ((v : Rat) - c.lower)| = |(c.real v * D - v) - (c.real c.lower * D - c.lower)| := by rw [hx]; ring_nf
      _ ≤ |c.real v * D - v| + |c.real c.lower * D - c.lower| := abs_sub _ _
      _ ≤ 3 * (v : Rat) / 2 ^ 53 + 3 * (c.lower : Rat) / 2 ^ 53 := by linarith
      _ ≤ 6 * (c.upper : Rat) / 2 ^ 53 := by
        have : (c.lower : Rat) ≤ c.upper := by linarith
        linarith
  have e1 := binary64_err x
  have e2 : |binary64 x * D - x * D| ≤ |x * D| / 2 ^ 53 := by
    have : binary64 x * D - x * D = (binary64 x - x) * D := by ring
    have hx' : |x * D| = |x| * D := by rw [abs_mul x D, abs_of_pos hD]
    rw [this, hx', abs_mul (binary64 x - x) D, abs_of_pos hD]
    calc |binary64 x - x| * D ≤ |x| / 2 ^ 53 * D := by gcongr
      _ = |x| * D / 2 ^ 53 := by ring
  have e3 : |x * D| ≤ 2 * c.upper := by
    calc |x * D| = |((v : Rat) - c.lower) + (x * D - ((v : Rat) - c.lower))| := by ring_nf
      _ ≤ |(v : Rat) - c.lower| + |x * D - ((v : Rat) - c.lower)| := abs_add_le _ _
      _ ≤ c.upper + 6 * (c.upper : Rat) / 2 ^ 53 := by rw [abs_of_nonneg (by linarith)]; linarith
      _ ≤ 2 * c.upper := by
        have : (0 : Rat) ≤ c.upper := by linarith
        linarith
  have e4 : |binary64 x * D - ((v : Rat) - c.lower)| ≤ 8 * (c.upper : Rat) / 2 ^ 53 := by
    calc |binary64 x * D - ((v : Rat) - c.lower)| = |(binary64 x * D - x * D) + (x * D - ((v : Rat) - c.lower))| := by ring_nf
      _ ≤ |binary64 x * D - x * D| + |x * D - ((v : Rat) - c.lower)| := abs_add_le _ _
      _ ≤ 2 * c.upper / 2 ^ 53 + 6 * (c.upper : Rat) / 2 ^ 53 := by
        have : |x * D| / 2 ^ 53 ≤ 2 * c.upper / 2 ^ 53 := by gcongr
        linarith
      _ = 8 * (c.upper : Rat) / 2 ^ 53 := by ring
  have : binary64 x * D * k - ((v : Rat) - c.lower) * k = (binary64 x * D - ((v : Rat) - c.lower)) * k := by ring
  rw [this, abs_mul, abs_of_pos hk]
  calc |binary64 x * D - ((v : Rat) - c.lower)| * k ≤ 8 * (c.upper : Rat) / 2 ^ 53 * k := by gcongr
    _ = (k * c.upper) * (8 / 2 ^ 53) := by ring
    _ ≤ 2 ^ 40 * (8 / 2 ^ 53) := by gcongr
    _ = 1 / 2 ^ 10 := by norm_num

/-- The width of the range, in levels. -/
def width (c : Config) (k : Nat) : Int := (c.upper - c.lower) * k

/-- The number of levels: one too few, at worst. -/
theorem Spec.Rounded.span (h : Spec.Rounded c k) : (c.span : Int) = width c k ∨ (c.span : Int) = width c k + 1 := by
  have f := h.facts
  have hd := f.d
  have hk2 := f.k2
  have hk : (0 : Rat) < k := by linarith
  have hL : (0 : Rat) < c.lot := by rw [f.lot]; positivity
  have hlow := f.low
  have hw := f.width
  have hsz := f.size
  have hW : ((width c k : Int) : Rat) = ((c.upper : Rat) - c.lower) * k := by unfold width; push_cast; ring
  have hWsize : |((width c k : Int) : Rat)| ≤ 2 ^ 40 := by
    rw [hW, abs_of_nonneg (by nlinarith)]
    nlinarith
  have hW2 : (2 : Rat) ≤ ((width c k : Int) : Rat) := by rw [hW]; nlinarith
  have hdiff := h.diff c.upper (by have := h.range; omega) le_rfl
  unfold Config.span
  rw [h.arith]
  set s := binary64 (c.real c.upper - c.real c.lower) with hs
  rw [← hW] at hdiff
  have e0 : s * (c.denominator * c.lot) * k = s * c.lot * c.lot := by rw [f.lot]; ring
  rw [e0] at hdiff
  have e1 : |binary64 (s * c.lot) * c.lot - width c k| ≤ 1 / 2 ^ 10 + (2 ^ 40 + 1) / 2 ^ 53 := by
    have b := binary64_err (s * c.lot)
    have : |binary64 (s * c.lot) * c.lot - s * c.lot * c.lot| ≤ (2 ^ 40 + 1) / 2 ^ 53 := by
      have t : binary64 (s * c.lot) * c.lot - s * c.lot * c.lot = (binary64 (s * c.lot) - s * c.lot) * c.lot := by ring
      rw [t, abs_mul, abs_of_pos hL]
      have m : |s * c.lot| * c.lot ≤ 2 ^ 40 + 1 := by
        have : |s * c.lot| * c.lot = |s * c.lot * c.lot| := by rw [abs_mul (s * c.lot), abs_of_pos hL]
        rw [this]
        calc |s * c.lot * c.lot| = |(width c k : Rat) + (s * c.lot * c.lot - width c k)| := by ring_nf
          _ ≤ |(width c k : Rat)| + |s * c.lot * c.lot - width c k| := abs_add_le _ _
          _ ≤ 2 ^ 40 + 1 := by linarith [show (1 : Rat) / 2 ^ 10 ≤ 1 by norm_num]
      calc |binary64 (s * c.lot) - s * c.lot| * c.lot ≤ |s * c.lot| / 2 ^ 53 * c.lot := by gcongr
        _ = |s * c.lot| * c.lot / 2 ^ 53 := by ring
        _ ≤ (2 ^ 40 + 1) / 2 ^ 53 := by gcongr
    calc |binary64 (s * c.lot) * c.lot - width c k| = |(binary64 (s * c.lot) * c.lot - s * c.lot * c.lot) + (s * c.lot * c.lot - width c k)| := by ring_nf
      _ ≤ |binary64 (s * c.lot) * c.lot - s * c.lot * c.lot| + |s * c.lot * c.lot - width c k| := abs_add_le _ _
      _ ≤ 1 / 2 ^ 10 + (2 ^ 40 + 1) / 2 ^ 53 := by linarith
  have e2 : |binary64 (binary64 (s * c.lot) * c.lot) - width c k| ≤ 1 / 2 ^ 9 := by
    refine le_trans (near _ _ _ _ e1 hWsize) ?_
    norm_num
  have e3 : |binary64 (binary64 (binary64 (s * c.lot) * c.lot) + 1) - ((width c k : Rat) + 1)| ≤ 1 / 2 ^ 8 := by
    refine le_trans (near _ _ (1 / 2 ^ 9) (2 ^ 40 + 1) ?_ ?_) ?_
    · have : binary64 (binary64 (s * c.lot) * c.lot) + 1 - ((width c k : Rat) + 1) = binary64 (binary64 (s * c.lot) * c.lot) - width c k := by ring
      rw [this]; exact e2
    · calc |(width c k : Rat) + 1| ≤ |(width c k : Rat)| + |(1 : Rat)| := abs_add_le _ _
        _ ≤ 2 ^ 40 + 1 := by rw [abs_one]; linarith
    · norm_num
  rw [abs_le] at e3
  have hW0 : 0 ≤ width c k + 1 := by
    have : (0 : Rat) ≤ ((width c k : Int) : Rat) + 1 := by linarith
    exact_mod_cast this
  have ht := trunc_between (binary64 (binary64 (binary64 (s * c.lot) * c.lot) + 1)) (width c k + 1) hW0
    (by push_cast; linarith [show (1 : Rat) / 2 ^ 8 < 1 by norm_num]) (by push_cast; linarith [show (1 : Rat) / 2 ^ 8 < 1 by norm_num])
  have hW2' : 2 ≤ width c k := by exact_mod_cast hW2
  rcases ht with ht | ht <;> rw [ht] <;> omega

/-- The level of a limit: with the number of levels that the range has, it is the right one or the next; with one less, it is the right one. -/
theorem Spec.Rounded.encode (h : Spec.Rounded c k) (v : Int) (h1 : c.lower ≤ v) (h2 : v < c.upper) :
    ∃ l, c.encode v = some l ∧ (l = (v - c.lower) * k ∨ (l = (v - c.lower) * k + 1 ∧ (c.span : Int) = width c k + 1)) := by
  have f := h.facts
  have hd := f.d
  have hk2 := f.k2
  have hk : (0 : Rat) < k := by linarith
  have hL : (0 : Rat) < c.lot := by rw [f.lot]; positivity
  have hlow := f.low
  have hw := f.width
  have hsz := f.size
  have v1 : (c.lower : Rat) ≤ v := by exact_mod_cast h1
  have v2 : (v : Rat) < c.upper := by exact_mod_cast h2
  have hD : (0 : Rat) < c.denominator * c.lot := by positivity
  have hW : ((width c k : Int) : Rat) = ((c.upper : Rat) - c.lower) * k := by unfold width; push_cast; ring
  set w : Rat := ((c.upper : Rat) - c.lower) * k with hwdef
  set y : Rat := ((v : Rat) - c.lower) * k with hydef
  have hw2 : 2 ≤ w := by rw [hwdef]; nlinarith
  have hwB : w ≤ 2 ^ 40 := by rw [hwdef]; nlinarith
  have hy0 : 0 ≤ y := by rw [hydef]; nlinarith
  have hyw : y ≤ w := by rw [hydef, hwdef]; nlinarith
  have dv := h.diff v h1 (le_of_lt h2)
  have du := h.diff c.upper (by have := h.range; omega) le_rfl
  unfold Config.encode Config.contains
  rw [if_neg (by simp [h1, le_of_lt h2])]
  rw [h.arith]
  set a := binary64 (c.real v - c.real c.lower) with ha
  set s := binary64 (c.real c.upper - c.real c.lower) with hs
  rw [← hydef] at dv
  rw [← hwdef] at du
  set a' := a * (c.denominator * c.lot) * k with ha'
  set s' := s * (c.denominator * c.lot) * k with hs'
  have hs1 : w / 2 ≤ s' := by rw [abs_le] at du; linarith [show (1 : Rat) / 2 ^ 10 ≤ 1 by norm_num]
  have hs0 : 0 < s' := by linarith
  have hq : a / s = a' / s' := by
    have hs00 : s ≠ 0 := by
      intro h0; rw [hs', h0] at hs0; simp at hs0
    rw [ha', hs']
    field_simp
  rw [hq]
  have q1 : |a' / s' - y / w| ≤ 4 / 2 ^ 10 / w := by
    have e : a' / s' - y / w = ((a' - y) - y / w * (s' - w)) / s' := by field_simp; ring
    have hyw1 : |y / w| ≤ 1 := by rw [abs_of_nonneg (by positivity), div_le_one (by linarith)]; exact hyw
    have m : |y / w * (s' - w)| ≤ 1 / 2 ^ 10 := by
      rw [abs_mul]
      calc |y / w| * |s' - w| ≤ 1 * (1 / 2 ^ 10) := by gcongr
        _ = 1 / 2 ^ 10 := by ring
    rw [e, abs_div, abs_of_pos hs0, div_le_div_iff₀ hs0 (by linarith)]
    have n : |(a' - y) - y / w * (s' - w)| ≤ 2 / 2 ^ 10 := by
      calc |(a' - y) - y / w * (s' - w)| ≤ |a' - y| + |y / w * (s' - w)| := abs_sub _ _
        _ ≤ 2 / 2 ^ 10 := by linarith
    calc |(a' - y) - y / w * (s' - w)| * w ≤ 2 / 2 ^ 10 * w := by gcongr
      _ ≤ 4 / 2 ^ 10 * s' := by linarith
  have hyw1 : |y / w| ≤ 1 := by rw [abs_of_nonneg (by positivity), div_le_one (by linarith)]; exact hyw
  have q2 : |binary64 (a' / s') - y / w| ≤ 4 / 2 ^ 10 / w + 2 / 2 ^ 53 := by
    refine le_trans (near _ _ _ _ q1 hyw1) ?_
    have : 4 / 2 ^ 10 / w ≤ 1 := by rw [div_le_one (by linarith)]; linarith [show (4 : Rat) / 2 ^ 10 ≤ 2 by norm_num]
    have : (1 + 4 / 2 ^ 10 / w) / 2 ^ 53 ≤ 2 / 2 ^ 53 := by gcongr; linarith
    linarith
  have hspan := h.span
  have hN : (0 : Rat) ≤ (c.span : Rat) ∧ (c.span : Rat) ≤ w + 1 := by
    refine ⟨by positivity, ?_⟩
    rcases hspan with e | e
    · have : (c.span : Rat) = w := by rw [← hW]; exact_mod_cast e
      linarith
    · have : (c.span : Rat) = w + 1 := by rw [← hW]; exact_mod_cast e
      linarith
  set N : Rat := (c.span : Rat) with hNdef
  have q3 : |binary64 (a' / s') * N - y / w * N| ≤ 1 / 2 ^ 6 := by
    have t : binary64 (a' / s') * N - y / w * N = (binary64 (a' / s') - y / w) * N := by ring
    rw [t, abs_mul, abs_of_nonneg hN.1]
    calc |binary64 (a' / s') - y / w| * N ≤ (4 / 2 ^ 10 / w + 2 / 2 ^ 53) * (w + 1) := by gcongr; exact hN.2
      _ = 4 / 2 ^ 10 * ((w + 1) / w) + 2 / 2 ^ 53 * (w + 1) := by ring
      _ ≤ 4 / 2 ^ 10 * 2 + 2 / 2 ^ 53 * (2 ^ 40 + 1) := by
        have : (w + 1) / w ≤ 2 := by rw [div_le_iff₀ (by linarith)]; linarith
        gcongr
      _ ≤ 1 / 2 ^ 6 := by norm_num
  have q4 : |binary64 (binary64 (a' / s') * N) - y / w * N| ≤ 1 / 2 ^ 5 := by
    refine le_trans (near _ _ _ (2 ^ 40 + 1) q3 ?_) (by norm_num)
    rw [abs_mul, abs_of_nonneg hN.1]
    calc |y / w| * N ≤ 1 * (2 ^ 40 + 1) := by gcongr; linarith [hN.2]
      _ = 2 ^ 40 + 1 := by ring
  set X := binary64 (binary64 (a' / s') * N) with hX
  have hy : (((v - c.lower) * k : Int) : Rat) = y := by rw [hydef]; push_cast; ring
  rw [abs_le] at q4
  have c1 : (1 : Rat) / 2 ^ 5 < 1 / 2 := by norm_num
  rcases hspan with e | e
  · have eN : N = w := by rw [hNdef, ← hW]; exact_mod_cast e
    have t : y / w * N = y := by rw [eN]; field_simp
    rw [t] at q4
    exact ⟨_, rfl, Or.inl (cround_near X _ (by rw [hy, abs_lt]; constructor <;> linarith))⟩
  · have eN : N = w + 1 := by rw [hNdef, ← hW]; exact_mod_cast e
    have t : y / w * N = y + y / w := by rw [eN]; field_simp
    rw [t] at q4
    have p0 : 0 ≤ y / w := by positivity
    have p1 : y / w ≤ 1 := by rw [div_le_one (by linarith)]; exact hyw
    by_cases hX2 : X < y + 1 / 2
    · exact ⟨_, rfl, Or.inl (cround_near X _ (by rw [hy, abs_lt]; constructor <;> linarith))⟩
    · refine ⟨_, rfl, Or.inr ⟨cround_near' X _ ?_ ?_ ?_, e⟩⟩
      · linarith [not_lt.1 hX2]
      · push_cast at hy ⊢; rw [hy]; linarith [not_lt.1 hX2]
      · push_cast at hy ⊢; rw [hy]; linarith
where
  cround_near' (q : Rat) (n : Int) (h0 : 0 ≤ q) (h1 : (n : Rat) - 1 / 2 ≤ q) (h2 : q < (n : Rat) + 1 / 2) : cround q = n := cround_eq q n h0 h1 h2

/-- The price of a level, as long as there is such a level: before it is cut off, the error is less than a hundredth of a unit. -/
theorem Spec.Rounded.decode (h : Spec.Rounded c k) (l : Int) (h0 : 0 ≤ l) (h1 : l < c.span) :
    ∃ q : Rat, c.decode l = trunc q ∧ |q - (c.lower + (l : Rat) * ((c.upper : Rat) - c.lower) / ((c.span - 1 : Nat) : Rat))| ≤ 1 / 2 ^ 6 := by
  have f := h.facts
  have hd := f.d
  have hk2 := f.k2
  have hk : (0 : Rat) < k := by linarith
  have hL : (0 : Rat) < c.lot := by rw [f.lot]; positivity
  have hlow := f.low
  have hw := f.width
  have hsz := f.size
  have hD : (0 : Rat) < c.denominator * c.lot := by positivity
  have hW : ((width c k : Int) : Rat) = ((c.upper : Rat) - c.lower) * k := by unfold width; push_cast; ring
  set w : Rat := ((c.upper : Rat) - c.lower) * k with hwdef
  have hw2 : 2 ≤ w := by rw [hwdef]; nlinarith
  have hwB : w ≤ 2 ^ 40 := by rw [hwdef]; nlinarith
  have hl0 : (0 : Rat) ≤ l := by exact_mod_cast h0
  have hspan := h.span
  have hw2I : 2 ≤ width c k := by rw [← hW] at hw2; exact_mod_cast hw2
  have hM1 : 1 ≤ c.span - 1 := by omega
  have hlM : l ≤ ((c.span - 1 : Nat) : Int) := by omega
  have hMr : (1 : Rat) ≤ ((c.span - 1 : Nat) : Rat) := by exact_mod_cast hM1
  have hlMr : (l : Rat) ≤ ((c.span - 1 : Nat) : Rat) := by exact_mod_cast hlM
  have du := h.diff c.upper (by have := h.range; omega) le_rfl
  have dl := h.real c.lower h.nonneg
  unfold Config.decode
  rw [h.arith]
  simp only
  refine ⟨_, rfl, ?_⟩
  set s := binary64 (c.real c.upper - c.real c.lower) with hs
  rw [← hwdef] at du
  have e0 : s * (c.denominator * c.lot) * k = s * c.lot * c.lot := by rw [f.lot]; ring
  rw [e0] at du
  set M : Rat := ((c.span - 1 : Nat) : Rat) with hMdef
  have hM0 : 0 < M := by linarith
  -- the product of level and width
  have g0 : |(l : Rat) * s * c.lot * c.lot - l * w| ≤ l / 2 ^ 10 := by
    have t : (l : Rat) * s * c.lot * c.lot - l * w = l * (s * c.lot * c.lot - w) := by ring
    rw [t, abs_mul, abs_of_nonneg hl0]
    calc (l : Rat) * |s * c.lot * c.lot - w| ≤ l * (1 / 2 ^ 10) := by gcongr
      _ = l / 2 ^ 10 := by ring
  have step : ∀ (x z e : Rat), 0 ≤ z → |x * z - l * w| ≤ l * e → 0 ≤ e → e ≤ 1 → |binary64 x * z - l * w| ≤ l * (e + (2 ^ 40 + 1) / 2 ^ 53) := by
    intro x z e hz hx he he1
    have a := mulerr x z hz
    have b : |x * z| ≤ l * (2 ^ 40 + 1) := by
      calc |x * z| = |l * w + (x * z - l * w)| := by ring_nf
        _ ≤ |l * w| + |x * z - l * w| := abs_add_le _ _
        _ ≤ l * w + l * e := by rw [abs_of_nonneg (by positivity)]; linarith
        _ = l * (w + e) := by ring
        _ ≤ l * (2 ^ 40 + 1) := by gcongr
    calc |binary64 x * z - l * w| = |(binary64 x * z - x * z) + (x * z - l * w)| := by ring_nf
      _ ≤ |binary64 x * z - x * z| + |x * z - l * w| := abs_add_le _ _
      _ ≤ l * (2 ^ 40 + 1) / 2 ^ 53 + l * e := by
        have : |x * z| / 2 ^ 53 ≤ l * (2 ^ 40 + 1) / 2 ^ 53 := by gcongr
        linarith
      _ = l * (e + (2 ^ 40 + 1) / 2 ^ 53) := by ring
  have g1 := step ((l : Rat) * s) (c.lot * c.lot) (1 / 2 ^ 10) (by positivity) (by
    have t : (l : Rat) * s * (c.lot * c.lot) = l * s * c.lot * c.lot := by ring
    rw [t]; refine le_trans g0 (le_of_eq (by ring))) (by norm_num) (by norm_num)
  have g2 := step (binary64 ((l : Rat) * s) * c.lot) c.lot (1 / 2 ^ 10 + (2 ^ 40 + 1) / 2 ^ 53) (by positivity) (by
    have t : binary64 ((l : Rat) * s) * c.lot * c.lot = binary64 ((l : Rat) * s) * (c.lot * c.lot) := by ring
    rw [t]; exact g1) (by norm_num) (by norm_num)
  have g3 := step (binary64 (binary64 ((l : Rat) * s) * c.lot) * c.lot) 1 (1 / 2 ^ 10 + (2 ^ 40 + 1) / 2 ^ 53 + (2 ^ 40 + 1) / 2 ^ 53) (by norm_num) (by rw [mul_one]; exact g2) (by norm_num) (by norm_num)
  rw [mul_one] at g3
  have g4 : |binary64 (binary64 (binary64 ((l : Rat) * s) * c.lot) * c.lot) - l * w| ≤ l / 2 ^ 9 := by
    refine le_trans g3 ?_
    have : (1 : Rat) / 2 ^ 10 + (2 ^ 40 + 1) / 2 ^ 53 + (2 ^ 40 + 1) / 2 ^ 53 + (2 ^ 40 + 1) / 2 ^ 53 ≤ 1 / 2 ^ 9 := by norm_num
    calc (l : Rat) * (1 / 2 ^ 10 + (2 ^ 40 + 1) / 2 ^ 53 + (2 ^ 40 + 1) / 2 ^ 53 + (2 ^ 40 + 1) / 2 ^ 53) ≤ (l : Rat) * (1 / 2 ^ 9) := mul_le_mul_of_nonneg_left this hl0
      _ = (l : Rat) / 2 ^ 9 := by ring
  set R := binary64 (binary64 (binary64 ((l : Rat) * s) * c.lot) * c.lot) with hR
  have hlw : ((l * width c k : Int) : Rat) = l * w := by push_cast; rw [hW]
  have g5 := cround_twice R (l * width c k) (l / 2 ^ 9) (mul_nonneg h0 (by omega)) (by rw [hlw]; exact g4)
  rw [hlw] at g5
  set V : Rat := ((cround R : Int) : Rat) with hV
  have g6 : |V / M - l * w / M| ≤ 1 / 2 ^ 8 := by
    rw [← sub_div, abs_div, abs_of_pos hM0, div_le_iff₀ hM0]
    calc |V - l * w| ≤ 2 * (l / 2 ^ 9) := g5
      _ = 1 / 2 ^ 8 * l := by ring
      _ ≤ 1 / 2 ^ 8 * M := by gcongr
  have T1 : |(l : Rat) * w / M| ≤ 2 ^ 40 := by
    rw [abs_of_nonneg (by positivity), div_le_iff₀ hM0]
    nlinarith
  have T1' : (l : Rat) * w / M ≤ w := by
    rw [div_le_iff₀ hM0]; nlinarith
  have g7 : |binary64 (V / M) - l * w / M| ≤ 5 / 2 ^ 10 := le_trans (near _ _ _ _ g6 T1) (by norm_num)
  -- the intercept
  have kl : (k : Rat) * c.lower ≤ 2 ^ 40 := by nlinarith
  have i0 : |c.real c.lower * c.lot * c.lot - k * c.lower| ≤ 1 / 2 ^ 11 := by
    have t : c.real c.lower * c.lot * c.lot - k * c.lower = (c.real c.lower * (c.denominator * c.lot) - c.lower) * k := by rw [f.lot]; ring
    rw [t, abs_mul, abs_of_pos hk]
    calc |c.real c.lower * (c.denominator * c.lot) - c.lower| * k ≤ 3 * (c.lower : Rat) / 2 ^ 53 * k := by gcongr
      _ = k * c.lower * (3 / 2 ^ 53) := by ring
      _ ≤ 2 ^ 40 * (3 / 2 ^ 53) := by gcongr
      _ ≤ 1 / 2 ^ 11 := by norm_num
  have akl : |(k : Rat) * c.lower| ≤ 2 ^ 40 := by rw [abs_of_nonneg (by positivity)]; exact kl
  have i1 : |binary64 (c.real c.lower * c.lot) * c.lot - k * c.lower| ≤ 1 / 2 ^ 11 + (2 ^ 40 + 1) / 2 ^ 53 := by
    have a := mulerr (c.real c.lower * c.lot) c.lot hL.le
    have b : |c.real c.lower * c.lot * c.lot| ≤ 2 ^ 40 + 1 := by
      calc |c.real c.lower * c.lot * c.lot| = |(k : Rat) * c.lower + (c.real c.lower * c.lot * c.lot - k * c.lower)| := by ring_nf
        _ ≤ |(k : Rat) * c.lower| + |c.real c.lower * c.lot * c.lot - k * c.lower| := abs_add_le _ _
        _ ≤ 2 ^ 40 + 1 := by linarith [show (1 : Rat) / 2 ^ 11 ≤ 1 by norm_num]
    have b' : |c.real c.lower * c.lot * c.lot| / 2 ^ 53 ≤ (2 ^ 40 + 1) / 2 ^ 53 := by gcongr
    calc |binary64 (c.real c.lower * c.lot) * c.lot - k * c.lower| = |(binary64 (c.real c.lower * c.lot) * c.lot - c.real c.lower * c.lot * c.lot) + (c.real c.lower * c.lot * c.lot - k * c.lower)| := by ring_nf
      _ ≤ |binary64 (c.real c.lower * c.lot) * c.lot - c.real c.lower * c.lot * c.lot| + |c.real c.lower * c.lot * c.lot - k * c.lower| := abs_add_le _ _
      _ ≤ 1 / 2 ^ 11 + (2 ^ 40 + 1) / 2 ^ 53 := by linarith
  have i2 : |binary64 (binary64 (c.real c.lower * c.lot) * c.lot) - k * c.lower| ≤ 1 / 2 ^ 10 := le_trans (near _ _ _ _ i1 akl) (by norm_num)
  set I := binary64 (binary64 (c.real c.lower * c.lot) * c.lot) with hI
  -- the sum
  set T : Rat := l * w / M + k * c.lower with hT
  have T0 : 0 ≤ T := by rw [hT]; positivity
  have TB : |T| ≤ 2 ^ 40 := by
    rw [abs_of_nonneg T0, hT]
    have : w + k * c.lower = k * c.upper := by rw [hwdef]; ring
    linarith
  have target : (c.lower : Rat) + l * ((c.upper : Rat) - c.lower) / M = T / k := by
    rw [hT, hwdef]; field_simp; ring
  rw [target, hT]
  exact last_steps _ _ _ _ _ _ _ hd hk2 f.lot g7 i2 TB

/-! ## C34 -/

/-- **C34 (partial), with the rounding of `double`.** With at least two levels per unit, non-negative prices and at most 2^40 levels up to the maximum, every valid limit except the maximum has a level, which exists; higher limits have higher
levels, so that no two limits share one; and decoding gives the limit back, or the one a unit below. Missing: that it gives the limit back, which is false (C34_counterexample_rounding). -/
theorem C34_binary64_partial (h : Spec.Rounded c k) (v : Int) (h1 : c.lower ≤ v) (h2 : v < c.upper) :
    (∃ l : Int, c.encode v = some l ∧ 0 ≤ l ∧ l < c.span ∧ (c.decode l = v ∨ c.decode l = v - 1)) ∧
    ∀ u, v < u → u < c.upper → ∃ l m, c.encode v = some l ∧ c.encode u = some m ∧ l < m := by
  have hk : (2 : Int) ≤ k := by exact_mod_cast h.two
  obtain ⟨l, hl, hcase⟩ := h.encode v h1 h2
  have hspan := h.span
  have hnn : 0 ≤ (v - c.lower) * (k : Int) := mul_nonneg (by omega) (by omega)
  have hup : (v - c.lower) * (k : Int) + k ≤ width c k := by
    have : (v - c.lower + 1) * (k : Int) ≤ (c.upper - c.lower) * k := mul_le_mul_of_nonneg_right (by omega) (by omega)
    unfold width
    linarith
  have l0 : 0 ≤ l := by omega
  have lN : l < c.span := by omega
  constructor
  · refine ⟨l, hl, l0, lN, ?_⟩
    obtain ⟨q, hq, hnear⟩ := h.decode l l0 lN
    rw [hq]
    have hv0 : 0 ≤ v := by have := h.nonneg; omega
    have f := h.facts
    have hkr : (2 : Rat) ≤ k := f.k2
    have hW : ((width c k : Int) : Rat) = ((c.upper : Rat) - c.lower) * k := by unfold width; push_cast; ring
    have v1 : (c.lower : Rat) ≤ v := by exact_mod_cast h1
    have v2 : (v : Rat) + 1 ≤ c.upper := by exact_mod_cast h2
    have hw := f.width
    have b : (v : Rat) ≤ c.lower + (l : Rat) * ((c.upper : Rat) - c.lower) / ((c.span - 1 : Nat) : Rat) ∧
        c.lower + (l : Rat) * ((c.upper : Rat) - c.lower) / ((c.span - 1 : Nat) : Rat) ≤ v + 1 / 2 := by
      rcases hspan with e | e
      · have hl' : l = (v - c.lower) * k := by omega
        have hlr : (l : Rat) = ((v : Rat) - c.lower) * k := by rw [hl']; push_cast; ring
        have hM : ((c.span - 1 : Nat) : Rat) = ((c.upper : Rat) - c.lower) * k - 1 := by
          have : ((c.span - 1 : Nat) : Int) = width c k - 1 := by omega
          rw [← hW]; exact_mod_cast this
        have hMpos : (0 : Rat) < ((c.upper : Rat) - c.lower) * k - 1 := by nlinarith
        rw [hM, hlr]
        constructor
        · have : (v : Rat) - c.lower ≤ ((v : Rat) - c.lower) * k * ((c.upper : Rat) - c.lower) / (((c.upper : Rat) - c.lower) * k - 1) := by
            rw [le_div_iff₀ hMpos]; nlinarith
          linarith
        · have : ((v : Rat) - c.lower) * k * ((c.upper : Rat) - c.lower) / (((c.upper : Rat) - c.lower) * k - 1) ≤ (v : Rat) - c.lower + 1 / 2 := by
            rw [div_le_iff₀ hMpos]; nlinarith
          linarith
      · have hM : ((c.span - 1 : Nat) : Rat) = ((c.upper : Rat) - c.lower) * k := by
          have : ((c.span - 1 : Nat) : Int) = width c k := by omega
          rw [← hW]; exact_mod_cast this
        have hkp : (0 : Rat) < k := by linarith
        have hwp : (0 : Rat) < (c.upper : Rat) - c.lower := by linarith
        have t : (l : Rat) * ((c.upper : Rat) - c.lower) / (((c.upper : Rat) - c.lower) * k) = (l : Rat) / k := by field_simp
        rw [hM, t]
        have hl1 : ((v : Rat) - c.lower) * k ≤ l := by
          have : (v - c.lower) * (k : Int) ≤ l := by omega
          exact_mod_cast this
        have hl2 : (l : Rat) ≤ ((v : Rat) - c.lower) * k + 1 := by
          have : l ≤ (v - c.lower) * (k : Int) + 1 := by omega
          exact_mod_cast this
        constructor
        · have : (v : Rat) - c.lower ≤ (l : Rat) / k := by rw [le_div_iff₀ hkp]; exact hl1
          linarith
        · have : (l : Rat) / k ≤ (v : Rat) - c.lower + 1 / 2 := by rw [div_le_iff₀ hkp]; nlinarith
          linarith
    rw [abs_le] at hnear
    have c6 : (1 : Rat) / 2 ^ 6 < 1 / 2 := by norm_num
    exact trunc_between q v hv0 (by linarith) (by linarith)
  · intro u hu hu2
    obtain ⟨m, hm, hcase'⟩ := h.encode u (by omega) hu2
    refine ⟨l, m, hl, hm, ?_⟩
    have : (v - c.lower) * (k : Int) + k ≤ (u - c.lower) * k := by
      have : (v - c.lower + 1) * (k : Int) ≤ (u - c.lower) * k := mul_le_mul_of_nonneg_right (by omega) (by omega)
      linarith
    omega

/-- The configuration of the library's tests. -/
example : Spec.Rounded ⟨1, 1000, 10000, 100, none, binary64⟩ 100 := ⟨rfl, by decide, by decide, rfl, by decide, by decide, by decide⟩

end Esl.Static
