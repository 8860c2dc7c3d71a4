import Verif.Model.StaticBook
import Mathlib.Tactic.FieldSimp
import Mathlib.Tactic.Ring
import Mathlib.Tactic.Linarith
import Mathlib.Algebra.Order.Field.Rat
/-! # C34: encoding of prices as levels of the static order book -/
namespace Esl.Static
open Esl.Double

/-! ## Specification -/

/-- A configuration in which a price unit has `k` levels: the lot is `k` times the denominator. The library's tests use `k = 100`. Arithmetic is exact. -/
structure Spec.Exact (c : Config) (k : Nat) : Prop where
  arith : c.fl = id
  den : 0 < c.denominator
  pos : 0 < k
  lot : c.lot = k * c.denominator
  range : c.lower < c.upper

/-- The limit `v` can be encoded, its level exists, and decoding gives `v` back. -/
def Spec.RoundTrip (c : Config) (v : Int) : Prop := ∃ l : Int, c.encode v = some l ∧ 0 ≤ l ∧ l < c.span ∧ c.decode l = v

/-! ## Arithmetic -/

theorem q_eq (q : Rat) : q = (q.num : Rat) / (q.den : Rat) := (Rat.num_div_den q).symm

theorem cround_eq (q : Rat) (n : Int) (h0 : 0 ≤ q) (h1 : (n : Rat) - 1 / 2 ≤ q) (h2 : q < (n : Rat) + 1 / 2) : cround q = n := by
  have hd : (0 : Rat) < (q.den : Rat) := by exact_mod_cast q.den_pos
  have hn : 0 ≤ q.num := Rat.num_nonneg.2 h0
  have e := q_eq q
  unfold cround
  rw [if_pos hn]
  rw [e] at h1 h2
  rw [le_div_iff₀ hd] at h1
  rw [div_lt_iff₀ hd] at h2
  have h1' : n * (2 * (q.den : Int)) ≤ 2 * q.num + q.den := by
    have : (n : Rat) * (2 * (q.den : Rat)) ≤ 2 * (q.num : Rat) + (q.den : Rat) := by linarith
    exact_mod_cast this
  have h2' : 2 * q.num + q.den < (n + 1) * (2 * (q.den : Int)) := by
    have : 2 * (q.num : Rat) + (q.den : Rat) < ((n : Rat) + 1) * (2 * (q.den : Rat)) := by linarith
    exact_mod_cast this
  have hp : (0 : Int) < 2 * (q.den : Int) := by have := q.den_pos; omega
  exact le_antisymm (Int.lt_add_one_iff.1 ((Int.ediv_lt_iff_lt_mul hp).2 h2')) ((Int.le_ediv_iff_mul_le hp).2 h1')

theorem trunc_eq (q : Rat) (n : Int) (h0 : 0 ≤ q) (h1 : (n : Rat) ≤ q) (h2 : q < (n : Rat) + 1) : trunc q = n := by
  have hd : (0 : Rat) < (q.den : Rat) := by exact_mod_cast q.den_pos
  have hn : 0 ≤ q.num := Rat.num_nonneg.2 h0
  have e := q_eq q
  unfold trunc
  rw [Int.tdiv_eq_ediv_of_nonneg hn]
  rw [e] at h1 h2
  rw [le_div_iff₀ hd] at h1
  rw [div_lt_iff₀ hd] at h2
  have h1' : n * (q.den : Int) ≤ q.num := by exact_mod_cast h1
  have h2' : q.num < (n + 1) * (q.den : Int) := by exact_mod_cast h2
  have hp : (0 : Int) < (q.den : Int) := by have := q.den_pos; omega
  exact le_antisymm (Int.lt_add_one_iff.1 ((Int.ediv_lt_iff_lt_mul hp).2 h2')) ((Int.le_ediv_iff_mul_le hp).2 h1')

theorem cround_int (n : Int) (h : 0 ≤ n) : cround (n : Rat) = n :=
  cround_eq _ _ (by exact_mod_cast h) (by linarith) (by linarith)

variable {c : Config} {k : Nat}

theorem Spec.Exact.real (h : Spec.Exact c k) (v : Int) : c.real v = (v : Rat) / c.denominator / c.lot := by
  unfold Config.real; rw [h.arith]; rfl

theorem Spec.Exact.span (h : Spec.Exact c k) : (c.span : Int) = (c.upper - c.lower) * k + 1 := by
  have hd : (c.denominator : Rat) ≠ 0 := by have := h.den; positivity
  have hk : (k : Rat) ≠ 0 := by have := h.pos; positivity
  unfold Config.span
  rw [h.arith]
  simp only [id]
  rw [h.real, h.real, h.lot]
  have e : (((c.upper : Rat) / c.denominator / ((k * c.denominator : Nat) : Rat) - (c.lower : Rat) / c.denominator / ((k * c.denominator : Nat) : Rat)) *
      ((k * c.denominator : Nat) : Rat) * ((k * c.denominator : Nat) : Rat) + 1) = (((c.upper - c.lower) * k + 1 : Int) : Rat) := by
    push_cast
    field_simp
  rw [e]
  have hr := h.range
  have hnn : 0 ≤ (c.upper - c.lower) * (k : Int) := by apply mul_nonneg <;> omega
  rw [trunc_eq _ ((c.upper - c.lower) * k + 1) (by exact_mod_cast (by omega : 0 ≤ (c.upper - c.lower) * (k : Int) + 1)) (by simp) (by simp)]
  omega

/-- The encoded level: `k` levels per unit, and one more from the middle of the range on. -/
theorem Spec.Exact.encode (h : Spec.Exact c k) (v : Int) (h1 : c.lower ≤ v) (h2 : v ≤ c.upper) :
    c.encode v = some ((v - c.lower) * k + if 2 * (v - c.lower) < c.upper - c.lower then 0 else 1) := by
  have hd : (0 : Rat) < c.denominator := by have := h.den; positivity
  have hk : (0 : Rat) < k := by have := h.pos; positivity
  have hr : (c.lower : Rat) < c.upper := by exact_mod_cast h.range
  have hv1 : (c.lower : Rat) ≤ v := by exact_mod_cast h1
  have hv2 : (v : Rat) ≤ c.upper := by exact_mod_cast h2
  have hs : (c.span : Rat) = ((c.upper : Rat) - c.lower) * k + 1 := by exact_mod_cast h.span
  unfold Config.encode Config.contains
  rw [if_neg (by simp [h1, h2])]
  congr 1
  rw [h.arith]
  simp only [id]
  rw [h.real, h.real, h.real, hs, h.lot]
  have e : ((v : Rat) / c.denominator / ((k * c.denominator : Nat) : Rat) - (c.lower : Rat) / c.denominator / ((k * c.denominator : Nat) : Rat)) /
      ((c.upper : Rat) / c.denominator / ((k * c.denominator : Nat) : Rat) - (c.lower : Rat) / c.denominator / ((k * c.denominator : Nat) : Rat)) =
      ((v : Rat) - c.lower) / (c.upper - c.lower) := by
    push_cast
    rw [← sub_div, ← sub_div, ← sub_div, ← sub_div, div_div_div_cancel_right₀ (by positivity), div_div_div_cancel_right₀ (by positivity)]
  rw [e]
  have hw : (0 : Rat) < (c.upper : Rat) - c.lower := by linarith
  have e2 : ((v : Rat) - c.lower) / (c.upper - c.lower) * (((c.upper : Rat) - c.lower) * k + 1) =
      ((v : Rat) - c.lower) * k + ((v : Rat) - c.lower) / (c.upper - c.lower) := by
    field_simp
  rw [e2]
  have hf0 : (0 : Rat) ≤ ((v : Rat) - c.lower) / (c.upper - c.lower) := div_nonneg (by linarith) hw.le
  have hf1 : ((v : Rat) - c.lower) / (c.upper - c.lower) ≤ 1 := by rw [div_le_iff₀ hw]; linarith
  have hm0 : (0 : Rat) ≤ ((v : Rat) - c.lower) * k := mul_nonneg (by linarith) hk.le
  split
  · rename_i hh
    have hh' : 2 * ((v : Rat) - c.lower) < (c.upper : Rat) - c.lower := by exact_mod_cast hh
    have : ((v : Rat) - c.lower) / (c.upper - c.lower) < 1 / 2 := by rw [div_lt_iff₀ hw]; linarith
    apply cround_eq
    · linarith
    · push_cast; linarith
    · push_cast; linarith
  · rename_i hh
    have hh' : (c.upper : Rat) - c.lower ≤ 2 * ((v : Rat) - c.lower) := by
      have : c.upper - c.lower ≤ 2 * (v - c.lower) := by omega
      exact_mod_cast this
    have : 1 / 2 ≤ ((v : Rat) - c.lower) / (c.upper - c.lower) := by rw [le_div_iff₀ hw]; linarith
    apply cround_eq
    · linarith
    · push_cast; linarith
    · push_cast; linarith

/-- The decoded price: rounded down to a unit. -/
theorem Spec.Exact.decode (h : Spec.Exact c k) (hl : 0 ≤ c.lower) (l : Int) (h0 : 0 ≤ l) :
    c.decode l = c.lower + l / k := by
  have hd : (0 : Rat) < c.denominator := by have := h.den; positivity
  have hkn := h.pos
  have hk : (0 : Rat) < k := by positivity
  have hr : (c.lower : Rat) < c.upper := by exact_mod_cast h.range
  have hspan := h.span
  have hw : (0 : Rat) < (c.upper : Rat) - c.lower := by linarith
  have hwk : 0 < (c.upper - c.lower) * (k : Int) := by
    have := h.range
    apply mul_pos <;> omega
  have hs : ((c.span - 1 : Nat) : Rat) = ((c.upper : Rat) - c.lower) * k := by
    have : ((c.span - 1 : Nat) : Int) = (c.upper - c.lower) * k := by omega
    exact_mod_cast this
  unfold Config.decode
  rw [h.arith]
  simp only [id]
  rw [h.real, h.real, hs, h.lot]
  have e1 : (l : Rat) * ((c.upper : Rat) / c.denominator / ((k * c.denominator : Nat) : Rat) - (c.lower : Rat) / c.denominator / ((k * c.denominator : Nat) : Rat)) *
      ((k * c.denominator : Nat) : Rat) * ((k * c.denominator : Nat) : Rat) = ((l * ((c.upper - c.lower) * k) : Int) : Rat) := by
    push_cast
    field_simp
  rw [e1, cround_int _ (mul_nonneg h0 hwk.le)]
  have e2 : ((l * ((c.upper - c.lower) * k) : Int) : Rat) / (((c.upper : Rat) - c.lower) * k) = l := by
    push_cast
    field_simp
  rw [e2]
  have e3 : ((l : Rat) + (c.lower : Rat) / c.denominator / ((k * c.denominator : Nat) : Rat) * ((k * c.denominator : Nat) : Rat) * ((k * c.denominator : Nat) : Rat)) /
      ((k * c.denominator : Nat) : Rat) * c.denominator = c.lower + (l : Rat) / k := by
    push_cast
    field_simp
    ring
  rw [e3]
  have hkI : (0 : Int) < k := by omega
  have hdm := Int.mul_ediv_add_emod l k
  have hm0 := Int.emod_nonneg l (by omega : (k : Int) ≠ 0)
  have hm1 := Int.emod_lt_of_pos l hkI
  have hq0 : 0 ≤ l / (k : Int) := Int.ediv_nonneg h0 (by omega)
  have b1 : ((l / (k : Int) : Int) : Rat) ≤ (l : Rat) / k := by
    rw [le_div_iff₀ hk]
    have : (l / (k : Int)) * k ≤ l := by rw [mul_comm]; omega
    exact_mod_cast this
  have b2 : (l : Rat) / k < ((l / (k : Int) : Int) : Rat) + 1 := by
    rw [div_lt_iff₀ hk]
    have : l < (l / (k : Int) + 1) * k := by rw [add_mul, one_mul, mul_comm]; omega
    exact_mod_cast this
  have b3 : (0 : Rat) ≤ c.lower := by exact_mod_cast hl
  have b4 : (0 : Rat) ≤ ((l / (k : Int) : Int) : Rat) := by exact_mod_cast hq0
  apply trunc_eq
  · linarith
  · push_cast; linarith
  · push_cast; linarith

/-! ## C34 -/

/-- **C34 (partial).** In exact arithmetic, with at least two levels per unit and non-negative prices, every valid limit except the
maximum survives encoding and decoding, and its level lies strictly inside the range of levels unless it is the minimum; larger limits have higher levels. Missing: the maximum, one level per unit, lots that are no multiple of the
denominator, and rounding errors of `double`; the claim is false for each of them, see the counterexamples. -/
theorem C34_round_trip_partial (h : Spec.Exact c k) (hk : 2 ≤ k) (hl : 0 ≤ c.lower) (v : Int) (h1 : c.lower ≤ v) (h2 : v < c.upper) :
    Spec.RoundTrip c v ∧
    (c.lower < v → ∃ l, c.encode v = some l ∧ 0 < l ∧ l < c.span - 1) ∧
    (∀ w, v < w → w < c.upper → ∃ l m, c.encode v = some l ∧ c.encode w = some m ∧ l < m) := by
  have e := h.encode v h1 (by omega)
  have hs := h.span
  have hkI : (2 : Int) ≤ k := by omega
  generalize hz : (if 2 * (v - c.lower) < c.upper - c.lower then (0 : Int) else 1) = z at e
  have hz0 : 0 ≤ z ∧ z ≤ 1 := by rw [← hz]; split <;> omega
  have hnn : 0 ≤ (v - c.lower) * (k : Int) := mul_nonneg (by omega) (by omega)
  have hup : (v - c.lower) * (k : Int) + k ≤ (c.upper - c.lower) * k := by
    have : (v - c.lower + 1) * (k : Int) ≤ (c.upper - c.lower) * k := mul_le_mul_of_nonneg_right (by omega) (by omega)
    linarith
  refine ⟨⟨_, e, by omega, by omega, ?_⟩, ?_, ?_⟩
  · rw [h.decode hl _ (by omega)]
    have : ((v - c.lower) * (k : Int) + z) / k = v - c.lower := by
      rw [mul_comm, Int.mul_add_ediv_left _ _ (by omega), Int.ediv_eq_zero_of_lt hz0.1 (by omega), add_zero]
    omega
  · intro hlt
    refine ⟨_, e, ?_, by omega⟩
    have : 0 < (v - c.lower) * (k : Int) := mul_pos (by omega) (by omega)
    omega
  · intro w hw hwu
    have e' := h.encode w (by omega) (by omega)
    refine ⟨_, _, e, e', ?_⟩
    have : (v - c.lower + 1) * (k : Int) ≤ (w - c.lower) * k := mul_le_mul_of_nonneg_right (by omega) (by omega)
    have : (v - c.lower + 1) * (k : Int) = (v - c.lower) * k + k := by ring
    split <;> omega

/-- **C34 (partial), one level per unit.** In the lower half of the range the limits survive encoding and decoding. -/
theorem C34_lower_half_partial (h : Spec.Exact c k) (hl : 0 ≤ c.lower) (v : Int) (h1 : c.lower ≤ v)
    (h2 : 2 * (v - c.lower) < c.upper - c.lower) : Spec.RoundTrip c v := by
  have e := h.encode v h1 (by omega)
  rw [if_pos h2, add_zero] at e
  have hs := h.span
  have hk := h.pos
  have hnn : 0 ≤ (v - c.lower) * (k : Int) := mul_nonneg (by omega) (by omega)
  have hup : (v - c.lower) * (k : Int) ≤ (c.upper - c.lower) * k := mul_le_mul_of_nonneg_right (by omega) (by omega)
  refine ⟨_, e, hnn, by omega, ?_⟩
  rw [h.decode hl _ hnn, Int.mul_ediv_cancel _ (by omega)]
  omega

/-- **C34, negation.** The maximum is a valid limit, but its level does not exist, in every configuration; so inserting an order at the maximum throws. -/
theorem C34_counterexample_maximum (h : Spec.Exact c k) : c.contains c.upper = true ∧ c.encode c.upper = some (c.span : Int) := by
  have hr := h.range
  refine ⟨by simp [Config.contains]; omega, ?_⟩
  rw [h.encode c.upper (by omega) (by omega), if_neg (by omega), h.span]

/-- **C34, negation.** With one level per unit, every limit in the upper half of the range is decoded as the next higher price. -/
theorem C34_counterexample_upper_half (h : Spec.Exact c 1) (hl : 0 ≤ c.lower) (v : Int) (h1 : c.upper - c.lower ≤ 2 * (v - c.lower))
    (h2 : v < c.upper) : ∃ l, c.encode v = some l ∧ c.decode l = v + 1 := by
  have hr := h.range
  have e := h.encode v (by omega) (by omega)
  rw [if_neg (by omega)] at e
  refine ⟨_, e, ?_⟩
  rw [h.decode hl _ (by push_cast; omega)]
  push_cast
  omega

/-- **C34, negation.** When the lot is smaller than the denominator several prices share a level: with lot 1 and denominator 100, the limit 110 is decoded as
100. -/
theorem C34_counterexample_small_lot :
    let c : Config := ⟨100, 1000, 1, 100, none, id⟩
    c.encode 110 = some 0 ∧ c.decode 0 = 100 := by decide +kernel

/-- **C34, negation.** With the rounding of `double`, in the configuration of the library's tests (prices from 0.01 to 10.00 dollar, 100 levels per cent), a limit of 29 cents is
decoded as 28 cents. -/
theorem C34_counterexample_rounding :
    let c : Config := ⟨1, 1000, 10000, 100, none, binary64⟩
    c.span = 99901 ∧ c.encode 29 = some 2800 ∧ c.decode 2800 = 28 := by decide +kernel

/-- The configuration of the library's tests, in exact arithmetic. -/
example : Spec.Exact ⟨1, 1000, 10000, 100, none, id⟩ 100 := ⟨rfl, by decide, by decide, rfl, by decide⟩

example : Spec.RoundTrip ⟨1, 1000, 10000, 100, none, id⟩ 29 ∧ Spec.RoundTrip ⟨1, 1000, 10000, 100, none, id⟩ 999 :=
  ⟨⟨2800, by decide +kernel⟩, ⟨99801, by decide +kernel⟩⟩

example : Spec.Exact ⟨0, 1000, 100, 100, none, id⟩ 1 := ⟨rfl, by decide, by decide, rfl, by decide⟩

end Esl.Static
