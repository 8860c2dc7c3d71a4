import Verif.Model.Double
import Mathlib.Algebra.Order.Field.Rat
import Mathlib.Data.Rat.Floor
import Mathlib.Tactic.Linarith
import Mathlib.Tactic.Ring
import Mathlib.Tactic.FieldSimp
import Mathlib.Tactic.Positivity
import Mathlib.Algebra.Order.Field.Power
/-!
Rounding errors of `binary64`.
-/
namespace Esl.Double

theorem nearestEven_err (n d : Nat) (hd : 0 < d) :
    2 * n ≤ 2 * (nearestEven n d * d) + d ∧ 2 * (nearestEven n d * d) ≤ 2 * n + d := by
  have h := Nat.div_add_mod n d
  have hr := Nat.mod_lt n hd
  have hc : d * (n / d) = n / d * d := Nat.mul_comm _ _
  have hs : (n / d + 1) * d = n / d * d + d := by ring
  unfold nearestEven
  simp only
  generalize hq : n / d * d = qd at *
  split
  · rw [hq]; omega
  · split
    · rw [hs]; omega
    · split
      · rw [hq]; omega
      · rw [hs]; omega

theorem nearestEven_exact (m d : Nat) (hd : 0 < d) : nearestEven (m * d) d = m := by
  unfold nearestEven
  simp [Nat.mul_div_cancel _ hd, hd]

/-- The exponent brings the quotient to 53 binary digits. -/
theorem exponent_spec (n d : Nat) (hn : 0 < n) (hd : 0 < d) :
    (2 : Rat) ^ (exponent n d + 52) * d ≤ n ∧ (n : Rat) < 2 ^ (exponent n d + 53) * d := by
  have n1 : (2 : Rat) ^ (Nat.log2 n : Int) ≤ n := by
    rw [zpow_natCast]; exact_mod_cast Nat.log2_self_le (by omega)
  have n2 : (n : Rat) < 2 ^ ((Nat.log2 n : Int) + 1) := by
    have := Nat.lt_log2_self (n := n)
    have h : ((Nat.log2 n : Int) + 1) = ((Nat.log2 n + 1 : Nat) : Int) := by push_cast; rfl
    rw [h, zpow_natCast]; exact_mod_cast this
  have d1 : (2 : Rat) ^ (Nat.log2 d : Int) ≤ d := by
    rw [zpow_natCast]; exact_mod_cast Nat.log2_self_le (by omega)
  have d2 : (d : Rat) < 2 ^ ((Nat.log2 d : Int) + 1) := by
    have := Nat.lt_log2_self (n := d)
    have h : ((Nat.log2 d : Int) + 1) = ((Nat.log2 d + 1 : Nat) : Int) := by push_cast; rfl
    rw [h, zpow_natCast]; exact_mod_cast this
  have two : (2 : Rat) ≠ 0 := by norm_num
  unfold exponent
  simp only
  generalize hk : ((Nat.log2 n : Int) - (Nat.log2 d : Int)) = k
  have ge_iff : (if 0 ≤ k then decide (d * 2 ^ k.toNat ≤ n) else decide (d ≤ n * 2 ^ (-k).toNat)) = true
      ↔ (2 : Rat) ^ k * d ≤ n := by
    by_cases h0 : 0 ≤ k
    · rw [if_pos h0, decide_eq_true_iff]
      obtain ⟨m, rfl⟩ := Int.eq_ofNat_of_zero_le h0
      rw [Int.toNat_natCast, zpow_natCast, mul_comm]
      constructor
      · intro h; exact_mod_cast h
      · intro h; exact_mod_cast h
    · rw [if_neg h0, decide_eq_true_iff]
      obtain ⟨m, hm⟩ := Int.eq_ofNat_of_zero_le (a := -k) (by omega)
      have hk' : k = -(m : Int) := by omega
      have hp : (0 : Rat) < 2 ^ m := by positivity
      rw [hm, hk', Int.toNat_natCast, zpow_neg, zpow_natCast, inv_mul_le_iff₀ hp, mul_comm n]
      constructor
      · intro h; exact_mod_cast h
      · intro h; exact_mod_cast h
  have dpos : (0 : Rat) < d := by exact_mod_cast hd
  cases hg : (if 0 ≤ k then decide (d * 2 ^ k.toNat ≤ n) else decide (d ≤ n * 2 ^ (-k).toNat)) with
  | true =>
    simp only [if_true]
    have := ge_iff.mp hg
    refine ⟨by rw [show k - 52 + 52 = k by ring]; exact this, ?_⟩
    rw [show k - 52 + 53 = k + 1 by ring]
    calc (n : Rat) < 2 ^ ((Nat.log2 n : Int) + 1) := n2
      _ = 2 ^ (k + 1) * 2 ^ (Nat.log2 d : Int) := by rw [← zpow_add₀ two]; congr 1; omega
      _ ≤ 2 ^ (k + 1) * d := by gcongr
  | false =>
    have hlt : (n : Rat) < 2 ^ k * d := by
      by_contra hc
      rw [ge_iff.mpr (not_lt.mp hc)] at hg
      exact absurd hg (by simp)
    simp only [Bool.false_eq_true, if_false]
    refine ⟨?_, by rw [show k - 1 - 52 + 53 = k by ring]; exact hlt⟩
    rw [show k - 1 - 52 + 52 = k - 1 by ring]
    calc (2 : Rat) ^ (k - 1) * d ≤ 2 ^ (k - 1) * 2 ^ ((Nat.log2 d : Int) + 1) := by gcongr
      _ = 2 ^ (Nat.log2 n : Int) := by rw [← zpow_add₀ two]; congr 1; omega
      _ ≤ n := n1

/-- `roundPos` is the nearest integer at the scale of the exponent. -/
theorem roundPos_err (n d : Nat) (hn : 0 < n) (hd : 0 < d) :
    |roundPos n d - (n : Rat) / d| ≤ (n : Rat) / d / 2 ^ 53 := by
  have hs := (exponent_spec n d hn hd).1
  unfold roundPos
  simp only
  generalize exponent n d = e at *
  have dpos : (0 : Rat) < d := by exact_mod_cast hd
  have two : (2 : Rat) ≠ 0 := by norm_num
  -- it suffices to be within half of 2^e
  have key : ∀ r : Rat, |r - (n : Rat) / d| ≤ 2 ^ e / 2 → |r - (n : Rat) / d| ≤ (n : Rat) / d / 2 ^ 53 := by
    intro r hr
    refine le_trans hr ?_
    rw [le_div_iff₀ (by positivity), le_div_iff₀ dpos]
    have : (2 : Rat) ^ (e + 52) = 2 ^ e / 2 * 2 ^ 53 := by
      rw [zpow_add₀ two]; norm_num; ring
    rw [← this]; exact hs
  apply key
  by_cases h0 : 0 ≤ e
  · rw [if_pos h0]
    obtain ⟨m, rfl⟩ := Int.eq_ofNat_of_zero_le h0
    rw [Int.toNat_natCast]
    have hD : 0 < d * 2 ^ m := Nat.mul_pos hd (by positivity)
    obtain ⟨a, b⟩ := nearestEven_err n (d * 2 ^ m) hD
    have a' : 2 * (n : Rat) ≤ 2 * (nearestEven n (d * 2 ^ m) * (d * 2 ^ m)) + d * 2 ^ m := by exact_mod_cast a
    have b' : 2 * (nearestEven n (d * 2 ^ m) * (d * 2 ^ m)) ≤ 2 * (n : Rat) + d * 2 ^ m := by exact_mod_cast b
    have hmm : ((Int.ofNat m : Int)) = (m : Int) := rfl
    push_cast
    rw [zpow_natCast]
    generalize (nearestEven n (d * 2 ^ m) : Rat) = r at *
    have hx : r * 2 ^ m - (n : Rat) / d = (r * (d * 2 ^ m) - n) / d := by field_simp
    rw [hx, abs_div, abs_of_pos dpos, div_le_iff₀ dpos, abs_le]
    constructor <;> linarith
  · rw [if_neg h0]
    obtain ⟨m, hm⟩ := Int.eq_ofNat_of_zero_le (a := -e) (by omega)
    have he : e = -(m : Int) := by omega
    rw [hm, Int.toNat_natCast]
    obtain ⟨a, b⟩ := nearestEven_err (n * 2 ^ m) d hd
    have a' : 2 * ((n : Rat) * 2 ^ m) ≤ 2 * (nearestEven (n * 2 ^ m) d * d) + d := by exact_mod_cast a
    have b' : 2 * (nearestEven (n * 2 ^ m) d * d) ≤ 2 * ((n : Rat) * 2 ^ m) + d := by exact_mod_cast b
    rw [he, zpow_neg, zpow_natCast]
    push_cast
    generalize (nearestEven (n * 2 ^ m) d : Rat) = r at *
    have hp : (0 : Rat) < 2 ^ m := by positivity
    have hx : r / 2 ^ m - (n : Rat) / d = (r * d - n * 2 ^ m) / (d * 2 ^ m) := by field_simp
    have hy : ((2 : Rat) ^ m)⁻¹ / 2 = (d / 2) / (d * 2 ^ m) := by field_simp
    rw [hx, hy, abs_div, abs_of_pos (show (0 : Rat) < d * 2 ^ m by positivity)]
    gcongr
    rw [abs_le]
    constructor <;> linarith

/-- Rounding changes a number by at most one part in `2 ^ 53`. -/
theorem binary64_err (q : Rat) : |binary64 q - q| ≤ |q| / 2 ^ 53 := by
  unfold binary64
  have hden : 0 < q.den := q.den_pos
  split
  · rename_i h
    have : q = 0 := Rat.num_eq_zero.mp h
    subst this; simp
  · rename_i h0
    split
    · rename_i hp
      have e : ((q.num.toNat : Nat) : Rat) / q.den = q := by
        have : ((q.num.toNat : Nat) : Rat) = (q.num : Rat) := by
          have := Int.toNat_of_nonneg (le_of_lt hp)
          exact_mod_cast congrArg (Int.cast : Int → Rat) this
        rw [this, Rat.num_div_den]
      have h := roundPos_err q.num.toNat q.den (by omega) hden
      rw [e] at h
      rwa [abs_of_pos (Rat.num_pos.mp hp)]
    · rename_i hp
      have hneg : q < 0 := Rat.num_neg.mp (by omega)
      have e : (((-q.num).toNat : Nat) : Rat) / q.den = -q := by
        have : (((-q.num).toNat : Nat) : Rat) = ((-q.num : Int) : Rat) := by
          have := Int.toNat_of_nonneg (show 0 ≤ -q.num by omega)
          exact_mod_cast congrArg (Int.cast : Int → Rat) this
        rw [this]; push_cast; rw [neg_div, Rat.num_div_den]
      have h := roundPos_err (-q.num).toNat q.den (by omega) hden
      rw [e] at h
      rw [abs_of_neg hneg]
      have : -roundPos (-q.num).toNat q.den - q = -(roundPos (-q.num).toNat q.den - -q) := by ring
      rw [this, abs_neg]
      exact h

theorem binary64_neg (q : Rat) : binary64 (-q) = -binary64 q := by
  unfold binary64
  simp only [Rat.neg_num, Rat.neg_den, neg_eq_zero, Int.neg_neg]
  by_cases h0 : q.num = 0
  · simp [h0]
  · by_cases hp : 0 < q.num
    · simp [h0, hp, show ¬ q.num < 0 by omega]
    · simp [h0, hp, show q.num < 0 by omega]

/-- Multiples of the scale are exact. -/
theorem roundPos_exact (n d k : Nat) (hd : 0 < d) (h : (n : Rat) / d = k * 2 ^ exponent n d) : roundPos n d = (n : Rat) / d := by
  have dpos : (d : Rat) ≠ 0 := by exact_mod_cast (by omega : d ≠ 0)
  rw [h]
  rw [div_eq_iff dpos] at h
  unfold roundPos
  simp only
  generalize exponent n d = e at *
  by_cases h0 : 0 ≤ e
  · rw [if_pos h0]
    obtain ⟨m, rfl⟩ := Int.eq_ofNat_of_zero_le h0
    rw [Int.toNat_natCast]
    rw [zpow_natCast] at h ⊢
    have hn : n = k * (d * 2 ^ m) := by
      have : (n : Rat) = ((k * (d * 2 ^ m) : Nat) : Rat) := by rw [h]; push_cast; ring
      exact_mod_cast this
    have := nearestEven_exact k (d * 2 ^ m) (Nat.mul_pos hd (by positivity))
    rw [hn, this]
    push_cast
    ring
  · rw [if_neg h0]
    obtain ⟨m, hm⟩ := Int.eq_ofNat_of_zero_le (a := -e) (by omega)
    have he : e = -(m : Int) := by omega
    rw [hm, Int.toNat_natCast]
    rw [he, zpow_neg, zpow_natCast] at h ⊢
    have hp : (2 : Rat) ^ m ≠ 0 := by positivity
    have hn : n * 2 ^ m = k * d := by
      have : ((n * 2 ^ m : Nat) : Rat) = ((k * d : Nat) : Rat) := by push_cast; rw [h]; field_simp
      exact_mod_cast this
    rw [hn, nearestEven_exact k d hd]
    push_cast
    rw [div_eq_mul_inv]

/-- A positive rational number in lowest terms. -/
theorem pos_parts (q : Rat) (hq : 0 < q) : ((q.num.toNat : Nat) : Rat) / (q.den : Rat) = q := by
  have : ((q.num.toNat : Nat) : Rat) = (q.num : Rat) := by
    have := Int.toNat_of_nonneg (le_of_lt (Rat.num_pos.mpr hq))
    exact_mod_cast congrArg (Int.cast : Int → Rat) this
  rw [this, Rat.num_div_den]

theorem binary64_of_pos (q : Rat) (hq : 0 < q) : binary64 q = roundPos q.num.toNat q.den := by
  have := Rat.num_pos.mpr hq
  unfold binary64
  rw [if_neg (by omega), if_pos this]

/-- Numbers of up to 53 binary digits times a power of two are exact. -/
theorem binary64_repr (m e : Int) (h : |m| ≤ 2 ^ 53) : binary64 ((m : Rat) * 2 ^ e) = (m : Rat) * 2 ^ e := by
  have two : (2 : Rat) ≠ 0 := by norm_num
  have pos : ∀ m : Nat, 0 < m → m ≤ 2 ^ 53 → binary64 ((m : Rat) * 2 ^ e) = (m : Rat) * 2 ^ e := by
    intro m hm hle
    have hq : (0 : Rat) < (m : Rat) * 2 ^ e := by
      have : (0 : Rat) < m := by exact_mod_cast hm
      positivity
    rw [binary64_of_pos _ hq]
    have parts := pos_parts _ hq
    generalize hQ : (m : Rat) * 2 ^ e = q at *
    have hn : 0 < q.num.toNat := by have := Rat.num_pos.mpr hq; omega
    have hs := exponent_spec q.num.toNat q.den hn q.den_pos
    have dpos : (0 : Rat) < q.den := by exact_mod_cast q.den_pos
    have lo : (2 : Rat) ^ (exponent q.num.toNat q.den + 52) ≤ q := by
      rw [← parts, le_div_iff₀ dpos, parts]; exact hs.1
    have ex : ∀ k : Nat, q = k * 2 ^ exponent q.num.toNat q.den → roundPos q.num.toNat q.den = q := by
      intro k hk
      have := roundPos_exact q.num.toNat q.den k q.den_pos (by rw [parts]; exact hk)
      rw [this, parts]
    generalize exponent q.num.toNat q.den = E at *
    by_cases hE : E ≤ e
    · obtain ⟨j, hj⟩ := Int.eq_ofNat_of_zero_le (a := e - E) (by omega)
      apply ex (m * 2 ^ j)
      rw [← hQ, show e = (j : Int) + E by omega, zpow_add₀ two, zpow_natCast]
      push_cast
      ring
    · -- then `m = 2^53` and `E = e + 1`
      have h1 : (2 : Rat) ^ (E + 52 - e) ≤ m := by
        rw [← hQ] at lo
        have : (2 : Rat) ^ (E + 52) = 2 ^ (E + 52 - e) * 2 ^ e := by rw [← zpow_add₀ two]; congr 1; ring
        rw [this] at lo
        exact le_of_mul_le_mul_right lo (by positivity)
      have h2 : (m : Rat) ≤ 2 ^ (53 : Int) := by
        have : (m : Rat) ≤ 9007199254740992 := by exact_mod_cast hle
        rw [show (2 : Rat) ^ (53 : Int) = 9007199254740992 by norm_num]; exact this
      have h3 : E + 52 - e ≤ 53 := by
        have := le_trans h1 h2
        rwa [zpow_le_zpow_iff_right₀ (by norm_num)] at this
      have h4 : E = e + 1 := by omega
      have h5 : m = 2 ^ 53 := by
        rw [show E + 52 - e = 53 by omega] at h1
        have : (m : Rat) = 2 ^ (53 : Int) := le_antisymm h2 h1
        have : (m : Rat) = ((2 ^ 53 : Nat) : Rat) := by rw [this]; norm_num
        exact_mod_cast this
      apply ex (2 ^ 52)
      rw [← hQ, h4, h5, zpow_add₀ two]
      push_cast
      ring
  rcases lt_trichotomy m 0 with hm | hm | hm
  · have e1 := pos (-m).toNat (by omega) (by rw [abs_of_neg hm] at h; omega)
    have e2 : (((-m).toNat : Nat) : Rat) = -(m : Rat) := by
      have := Int.toNat_of_nonneg (show 0 ≤ -m by omega)
      have h2 : (((-m).toNat : Nat) : Rat) = ((-m : Int) : Rat) := by exact_mod_cast congrArg (Int.cast : Int → Rat) this
      rw [h2]; push_cast; rfl
    rw [e2] at e1
    have e3 := binary64_neg ((-(m : Rat)) * 2 ^ e)
    rw [e1] at e3
    have : -(-(m : Rat) * 2 ^ e) = (m : Rat) * 2 ^ e := by ring
    rw [this] at e3
    exact e3
  · subst hm; simp [binary64]
  · have e1 := pos m.toNat (by omega) (by rw [abs_of_pos hm] at h; omega)
    have e2 : ((m.toNat : Nat) : Rat) = (m : Rat) := by
      have := Int.toNat_of_nonneg (le_of_lt hm)
      exact_mod_cast congrArg (Int.cast : Int → Rat) this
    rw [e2] at e1
    exact e1

/-- Integers of up to 53 binary digits are exact. -/
theorem binary64_int (z : Int) (h : |z| ≤ 2 ^ 53) : binary64 z = z := by
  have := binary64_repr z 0 h
  simpa using this

theorem nearestEven_le (n d b : Nat) (hd : 0 < d) (h : n < b * d) : nearestEven n d ≤ b := by
  have : n / d < b := (Nat.div_lt_iff_lt_mul hd).mpr h
  unfold nearestEven
  simp only
  split
  · omega
  · split
    · omega
    · split <;> omega

/-- The result of rounding has up to 53 binary digits. -/
theorem roundPos_repr (n d : Nat) (hn : 0 < n) (hd : 0 < d) : ∃ (m e : Int), |m| ≤ 2 ^ 53 ∧ roundPos n d = (m : Rat) * 2 ^ e := by
  have hs := (exponent_spec n d hn hd).2
  have two : (2 : Rat) ≠ 0 := by norm_num
  unfold roundPos
  simp only
  generalize exponent n d = e at *
  by_cases h0 : 0 ≤ e
  · rw [if_pos h0]
    obtain ⟨m, rfl⟩ := Int.eq_ofNat_of_zero_le h0
    rw [Int.toNat_natCast]
    refine ⟨(nearestEven n (d * 2 ^ m) : Nat), m, ?_, ?_⟩
    · have : n < 2 ^ 53 * (d * 2 ^ m) := by
        rw [show (m : Int) + 53 = ((m + 53 : Nat) : Int) by simp, zpow_natCast] at hs
        have : (n : Rat) < ((2 ^ 53 * (d * 2 ^ m) : Nat) : Rat) := by
          push_cast; rw [pow_add] at hs; linarith
        exact_mod_cast this
      have := nearestEven_le n (d * 2 ^ m) (2 ^ 53) (Nat.mul_pos hd (by positivity)) this
      rw [abs_of_nonneg (by omega)]
      exact_mod_cast this
    · rw [zpow_natCast]; push_cast; rfl
  · rw [if_neg h0]
    obtain ⟨m, hm⟩ := Int.eq_ofNat_of_zero_le (a := -e) (by omega)
    have he : e = -(m : Int) := by omega
    rw [hm, Int.toNat_natCast]
    refine ⟨(nearestEven (n * 2 ^ m) d : Nat), -(m : Int), ?_, ?_⟩
    · have : n * 2 ^ m < 2 ^ 53 * d := by
        have : ((n * 2 ^ m : Nat) : Rat) < ((2 ^ 53 * d : Nat) : Rat) := by
          rw [he, zpow_add₀ two, zpow_neg, zpow_natCast] at hs
          have hp : (0 : Rat) < 2 ^ m := by positivity
          push_cast
          calc (n : Rat) * 2 ^ m < ((2 ^ m)⁻¹ * 2 ^ (53 : Int) * d) * 2 ^ m := by gcongr
            _ = 2 ^ 53 * d := by field_simp
        exact_mod_cast this
      have := nearestEven_le (n * 2 ^ m) d (2 ^ 53) hd this
      rw [abs_of_nonneg (by omega)]
      exact_mod_cast this
    · rw [zpow_neg, zpow_natCast, div_eq_mul_inv]; push_cast; rfl

/-- Every result of rounding is a number of up to 53 binary digits times a power of two, and rounding it again does not change it. -/
theorem binary64_idem (q : Rat) : binary64 (binary64 q) = binary64 q := by
  have key : ∀ q : Rat, 0 < q → binary64 (binary64 q) = binary64 q := by
    intro q hq
    obtain ⟨m, e, hm, h⟩ := roundPos_repr q.num.toNat q.den (by have := Rat.num_pos.mpr hq; omega) q.den_pos
    rw [binary64_of_pos q hq, h]
    exact binary64_repr m e hm
  rcases lt_trichotomy q 0 with h | h | h
  · have := key (-q) (by linarith)
    rw [binary64_neg, binary64_neg] at this
    exact neg_injective this
  · subst h; simp [binary64]
  · exact key q h

/-! ## Rounding is monotone -/

theorem nearestEven_half (n d : Nat) (hd : 0 < d) : |(nearestEven n d : Rat) - (n : Rat) / d| ≤ 1 / 2 := by
  obtain ⟨a, b⟩ := nearestEven_err n d hd
  have a' : 2 * (n : Rat) ≤ 2 * (nearestEven n d * d) + d := by exact_mod_cast a
  have b' : 2 * (nearestEven n d * d : Rat) ≤ 2 * n + d := by exact_mod_cast b
  have dpos : (0 : Rat) < d := by exact_mod_cast hd
  generalize (nearestEven n d : Rat) = r at *
  have hx : r - (n : Rat) / d = (r * d - n) / d := by field_simp
  rw [hx, abs_div, abs_of_pos dpos, div_le_iff₀ dpos, abs_le]
  constructor <;> linarith

theorem nearestEven_tie (n d b : Nat) (hd : 0 < d) (h : 2 * n = (2 * b + 1) * d) : nearestEven n d = if b % 2 = 0 then b else b + 1 := by
  have h1 : 2 * n = 2 * (b * d) + d := by rw [h]; ring
  have hq : n / d = b := by
    apply Nat.div_eq_of_lt_le
    · omega
    · have : (b + 1) * d = b * d + d := by ring
      omega
  have hr : 2 * (n % d) = d := by
    have := Nat.div_add_mod n d
    rw [hq, Nat.mul_comm d b] at this
    omega
  unfold nearestEven
  simp only [hq]
  rw [if_neg (by omega), if_neg (by omega)]

theorem nearestEven_mono (n₁ d₁ n₂ d₂ : Nat) (h₁ : 0 < d₁) (h₂ : 0 < d₂) (h : (n₁ : Rat) / d₁ ≤ (n₂ : Rat) / d₂) :
    nearestEven n₁ d₁ ≤ nearestEven n₂ d₂ := by
  by_contra hc
  have a := (abs_le.mp (nearestEven_half n₁ d₁ h₁)).2
  have b := (abs_le.mp (nearestEven_half n₂ d₂ h₂)).1
  have hlt : nearestEven n₂ d₂ + 1 ≤ nearestEven n₁ d₁ := by omega
  have hlt' : (nearestEven n₂ d₂ : Rat) + 1 ≤ nearestEven n₁ d₁ := by exact_mod_cast hlt
  have e1 : (n₁ : Rat) / d₁ = nearestEven n₂ d₂ + 1 / 2 := by linarith
  have e2 : (n₂ : Rat) / d₂ = nearestEven n₂ d₂ + 1 / 2 := by linarith
  have p1 : (d₁ : Rat) ≠ 0 := by exact_mod_cast (by omega : d₁ ≠ 0)
  have p2 : (d₂ : Rat) ≠ 0 := by exact_mod_cast (by omega : d₂ ≠ 0)
  rw [div_eq_iff p1] at e1
  rw [div_eq_iff p2] at e2
  have t1 : 2 * n₁ = (2 * nearestEven n₂ d₂ + 1) * d₁ := by
    have : ((2 * n₁ : Nat) : Rat) = (((2 * nearestEven n₂ d₂ + 1) * d₁ : Nat) : Rat) := by push_cast; rw [e1]; ring
    exact_mod_cast this
  have t2 : 2 * n₂ = (2 * nearestEven n₂ d₂ + 1) * d₂ := by
    have : ((2 * n₂ : Nat) : Rat) = (((2 * nearestEven n₂ d₂ + 1) * d₂ : Nat) : Rat) := by push_cast; rw [e2]; ring
    exact_mod_cast this
  have r1 := nearestEven_tie _ _ _ h₁ t1
  have r2 := nearestEven_tie _ _ _ h₂ t2
  rw [← r2] at r1
  omega

theorem roundPos_form (n d : Nat) (hd : 0 < d) : ∃ n' d' : Nat, 0 < d' ∧ (n' : Rat) / d' = (n : Rat) / d / 2 ^ exponent n d ∧
    roundPos n d = (nearestEven n' d' : Rat) * 2 ^ exponent n d := by
  have dpos : (d : Rat) ≠ 0 := by exact_mod_cast (by omega : d ≠ 0)
  unfold roundPos
  simp only
  generalize exponent n d = e
  by_cases h0 : 0 ≤ e
  · rw [if_pos h0]
    obtain ⟨m, rfl⟩ := Int.eq_ofNat_of_zero_le h0
    rw [Int.toNat_natCast, zpow_natCast]
    refine ⟨n, d * 2 ^ m, Nat.mul_pos hd (by positivity), ?_, by push_cast; rfl⟩
    push_cast
    rw [div_div]
  · rw [if_neg h0]
    obtain ⟨m, hm⟩ := Int.eq_ofNat_of_zero_le (a := -e) (by omega)
    have he : e = -(m : Int) := by omega
    rw [hm, Int.toNat_natCast, he, zpow_neg, zpow_natCast]
    refine ⟨n * 2 ^ m, d, hd, ?_, by push_cast; rw [div_eq_mul_inv]⟩
    push_cast
    field_simp

theorem binary64_mono_pos (p q : Rat) (hp : 0 < p) (h : p ≤ q) : binary64 p ≤ binary64 q := by
  have hq : 0 < q := lt_of_lt_of_le hp h
  have two : (2 : Rat) ≠ 0 := by norm_num
  rw [binary64_of_pos p hp, binary64_of_pos q hq]
  have parts : ∀ x : Rat, 0 < x → (2 : Rat) ^ (exponent x.num.toNat x.den + 52) ≤ x ∧ x < 2 ^ (exponent x.num.toNat x.den + 53) ∧
      ∃ n' d' : Nat, 0 < d' ∧ (n' : Rat) / d' = x / 2 ^ exponent x.num.toNat x.den ∧ roundPos x.num.toNat x.den = (nearestEven n' d' : Rat) * 2 ^ exponent x.num.toNat x.den := by
    intro x hx
    have hn : 0 < x.num.toNat := by have := Rat.num_pos.mpr hx; omega
    have hs := exponent_spec x.num.toNat x.den hn x.den_pos
    have pp := pos_parts x hx
    have dpos : (0 : Rat) < x.den := by exact_mod_cast x.den_pos
    obtain ⟨n', d', h1, h2, h3⟩ := roundPos_form x.num.toNat x.den x.den_pos
    rw [pp] at h2
    refine ⟨?_, ?_, n', d', h1, h2, h3⟩
    · rw [← le_div_iff₀ dpos, pp] at hs; exact hs.1
    · rw [← div_lt_iff₀ dpos, pp] at hs; exact hs.2
  obtain ⟨lp, up, n₁, d₁, pd, f1, g1⟩ := parts p hp
  obtain ⟨lq, uq, n₂, d₂, qd, f2, g2⟩ := parts q hq
  rw [g1, g2]
  generalize exponent p.num.toNat p.den = E at *
  generalize exponent q.num.toNat q.den = F at *
  have hEF : E ≤ F := by
    have : (2 : Rat) ^ (E + 52) < 2 ^ (F + 53) := lt_of_le_of_lt lp (lt_of_le_of_lt h uq)
    rw [zpow_lt_zpow_iff_right₀ (by norm_num)] at this
    omega
  rcases eq_or_lt_of_le hEF with rfl | hlt
  · have hm := nearestEven_mono n₁ d₁ n₂ d₂ pd qd (by rw [f1, f2]; gcongr)
    have hm' : (nearestEven n₁ d₁ : Rat) ≤ nearestEven n₂ d₂ := by exact_mod_cast hm
    gcongr
  · -- a power of two separates them
    have up' : (nearestEven n₁ d₁ : Rat) ≤ 2 ^ (53 : Int) := by
      have : nearestEven n₁ d₁ ≤ 2 ^ 53 := by
        have h1 := nearestEven_mono n₁ d₁ (2 ^ 53) 1 pd (by omega) (by
          rw [f1, div_le_iff₀ (by positivity)]
          push_cast
          rw [div_one]
          have : (9007199254740992 : Rat) * 2 ^ E = 2 ^ (E + 53) := by rw [zpow_add₀ two]; norm_num; ring
          rw [this]; exact up.le)
        have h2 := nearestEven_exact (2 ^ 53) 1 (by omega)
        rw [Nat.mul_one] at h2
        rwa [h2] at h1
      exact_mod_cast this
    have lo' : (2 : Rat) ^ (52 : Int) ≤ nearestEven n₂ d₂ := by
      have : 2 ^ 52 ≤ nearestEven n₂ d₂ := by
        have h1 := nearestEven_mono (2 ^ 52) 1 n₂ d₂ (by omega) qd (by
          rw [f2, le_div_iff₀ (by positivity)]
          push_cast
          rw [div_one]
          have : (4503599627370496 : Rat) * 2 ^ F = 2 ^ (F + 52) := by rw [zpow_add₀ two]; norm_num; ring
          rw [this]; exact lq)
        have h2 := nearestEven_exact (2 ^ 52) 1 (by omega)
        rw [Nat.mul_one] at h2
        rwa [h2] at h1
      exact_mod_cast this
    calc (nearestEven n₁ d₁ : Rat) * 2 ^ E ≤ 2 ^ (53 : Int) * 2 ^ E := by gcongr
      _ = 2 ^ (E + 53) := by rw [← zpow_add₀ two]; congr 1; ring
      _ ≤ 2 ^ (F + 52) := by rw [zpow_le_zpow_iff_right₀ (by norm_num)]; omega
      _ = 2 ^ (52 : Int) * 2 ^ F := by rw [← zpow_add₀ two]; congr 1; ring
      _ ≤ nearestEven n₂ d₂ * 2 ^ F := by gcongr

theorem binary64_zero : binary64 0 = 0 := by simp [binary64]

theorem binary64_nonneg (q : Rat) (h : 0 ≤ q) : 0 ≤ binary64 q := by
  rcases eq_or_lt_of_le h with rfl | hp
  · rw [binary64_zero]
  · have := (abs_le.mp (binary64_err q)).1
    rw [abs_of_pos hp] at this
    have h2 : q / 2 ^ 53 ≤ q := div_le_self h (by norm_num)
    linarith

/-- Rounding does not change the order of numbers. -/
theorem binary64_mono {p q : Rat} (h : p ≤ q) : binary64 p ≤ binary64 q := by
  rcases lt_or_ge 0 p with hp | hp
  · exact binary64_mono_pos p q hp h
  · rcases lt_or_ge q 0 with hq | hq
    · have := binary64_mono_pos (-q) (-p) (by linarith) (by linarith)
      rw [binary64_neg, binary64_neg] at this
      linarith
    · have h1 := binary64_nonneg q hq
      have h2 := binary64_nonneg (-p) (by linarith)
      rw [binary64_neg] at h2
      linarith

/-- A rounded number is compared correctly with numbers that need no rounding. -/
theorem binary64_lt_exact {p x : Rat} (hx : binary64 x = x) (h : binary64 p < x) : p < x := by
  by_contra hc
  have := binary64_mono (not_lt.mp hc)
  rw [hx] at this
  linarith

theorem binary64_gt_exact {p x : Rat} (hx : binary64 x = x) (h : x < binary64 p) : x < p := by
  by_contra hc
  have := binary64_mono (not_lt.mp hc)
  rw [hx] at this
  linarith

end Esl.Double
