import Verif.Model.Money
import Verif.Props.PriceArithmetic
/-! # C174: money from numbers -/
namespace Esl.Money
open Esl.Price Esl.Double Esl.Arith

/-! ## Specification -/

/-- A whole number is a number without its fraction: it is between zero and the number, and less than one away. -/
def Spec.Truncates (x : Rat) (z : Int) : Prop := |x - z| < 1 ∧ (0 ≤ x → 0 ≤ (z : Rat) ∧ z ≤ x) ∧ (x ≤ 0 → x ≤ z ∧ (z : Rat) ≤ 0)

/-! ## Lemmas -/

theorem trunc_neg (x : Rat) : trunc (-x) = -trunc x := by simp [trunc, Int.neg_tdiv]

theorem trunc_truncates (x : Rat) : Spec.Truncates x (trunc x) := by
  obtain ⟨h1, h2⟩ := trunc_abs x
  refine ⟨by rw [abs_sub_comm]; exact h1, fun h => ?_, fun h => ?_⟩
  · have e : 0 ≤ trunc x := Int.tdiv_nonneg (Rat.num_nonneg.2 h) (Int.natCast_nonneg _)
    have e' : (0 : Rat) ≤ trunc x := by exact_mod_cast e
    rw [abs_of_nonneg e', abs_of_nonneg h] at h2
    exact ⟨e', h2⟩
  · have e : 0 ≤ trunc (-x) := Int.tdiv_nonneg (Rat.num_nonneg.2 (by linarith)) (Int.natCast_nonneg _)
    rw [trunc_neg] at e
    have e' : (trunc x : Rat) ≤ 0 := by exact_mod_cast (by omega : trunc x ≤ 0)
    rw [abs_of_nonpos e', abs_of_nonpos h] at h2
    exact ⟨by linarith, e'⟩

theorem truncates_unique {x : Rat} {a b : Int} (ha : Spec.Truncates x a) (hb : Spec.Truncates x b) : a = b := by
  obtain ⟨a1, a2, a3⟩ := ha
  obtain ⟨b1, b2, b3⟩ := hb
  rw [abs_lt] at a1 b1
  have : |(a : Rat) - b| < 1 := by
    rw [abs_lt]
    rcases le_total 0 x with h | h
    · have := a2 h; have := b2 h
      constructor <;> linarith
    · have := a3 h; have := b3 h
      constructor <;> linarith
  have : |a - b| < 1 := by exact_mod_cast this
  rw [abs_lt] at this
  omega

theorem denominator_exact (c : Currency) (h : c.denominator ≤ 2 ^ 53) : binary64 (c.denominator : Rat) = c.denominator := by
  have := binary64_int (c.denominator : Int) (by rw [abs_of_nonneg (by positivity)]; exact_mod_cast h)
  simpa using this

/-! ## C174 -/

/-- **C174, the rounding rules.** Rounding towards zero gives the number without its fraction if it fits into the type, and is undefined otherwise. -/
theorem C174_rounding (x : Rat) :
    (∀ z, towardsZero x = .ok z ↔ InI64 z ∧ Spec.Truncates x z) ∧ (∀ n, towardsZeroUnsigned x = .ok n ↔ n < 2 ^ 64 ∧ Spec.Truncates x n) ∧ towardsZero x ≠ .throws ∧ towardsZeroUnsigned x ≠ .throws := by
  have ht := trunc_truncates x
  unfold towardsZero towardsZeroUnsigned
  refine ⟨fun z => ?_, fun n => ?_, ?_, ?_⟩
  · constructor
    · intro h
      split at h
      · cases h; exact ⟨‹_›, ht⟩
      · cases h
    · rintro ⟨h1, h2⟩
      have e := truncates_unique ht h2
      rw [if_pos (by rw [e]; exact h1), e]
  · constructor
    · intro h
      split at h
      · rename_i hr
        cases h
        refine ⟨by omega, ?_⟩
        rw [Int.toNat_of_nonneg hr.1]
        exact ht
      · cases h
    · rintro ⟨h1, h2⟩
      have e := truncates_unique ht h2
      rw [if_pos (by omega), e]
      rfl
  · split <;> simp
  · split <;> simp

/-- **C174, amounts (partial).** The amount of money made from a number of units that is not negative differs from it by less than one smallest unit, apart from the rounding of the product, and never exceeds the rounded product. The price made from the
same number is the same amount, and so is the price made from the amount. -/
theorem C174_amount_partial (c : Currency) (hc : c.denominator ≤ 2 ^ 53) (x : Rat) (h0 : 0 ≤ x) (hx : x * c.denominator < 2 ^ 62) :
    ∃ n : Nat, amount binary64 towardsZeroUnsigned c x = .ok n ∧ (n : Rat) ≤ binary64 (x * c.denominator) ∧ |(n : Rat) - x * c.denominator| < 1 + x * c.denominator / 2 ^ 53 ∧
      price binary64 towardsZero c x = .ok ⟨n, c⟩ ∧ ofQuantity c n = ⟨n, c⟩ := by
  have hy : 0 ≤ x * c.denominator := mul_nonneg h0 (by positivity)
  obtain ⟨r, e, hv, hb⟩ := cast_rounded (x * c.denominator) c (by rw [abs_of_nonneg hy]; exact hx)
  unfold Arith.cast signed at e
  split at e
  · rename_i hin
    cases e
    simp only at hb hv
    rw [abs_of_nonneg hy] at hb
    obtain ⟨t1, t2, -⟩ := trunc_truncates (binary64 (x * c.denominator))
    obtain ⟨t3, t4⟩ := t2 (binary64_nonneg _ hy)
    have t5 : 0 ≤ trunc (binary64 (x * c.denominator)) := by exact_mod_cast t3
    have t6 : ((trunc (binary64 (x * c.denominator))).toNat : Int) = trunc (binary64 (x * c.denominator)) := Int.toNat_of_nonneg t5
    have t7 : (((trunc (binary64 (x * c.denominator))).toNat : Nat) : Rat) = (trunc (binary64 (x * c.denominator)) : Rat) := by exact_mod_cast t6
    have hin' := hin
    unfold InI64 at hin'
    refine ⟨(trunc (binary64 (x * c.denominator))).toNat, ?_, by rw [t7]; exact t4, by rw [t7]; exact hb, ?_, ?_⟩
    · unfold amount towardsZeroUnsigned
      rw [denominator_exact c hc, if_pos (by omega)]
    · unfold price towardsZero
      rw [denominator_exact c hc, if_pos hin, t6]
      rfl
    · unfold ofQuantity
      rw [t6, show wrapI64 (trunc (binary64 (x * c.denominator))) = trunc (binary64 (x * c.denominator)) by rw [wrapI64, Int.bmod_def]; omega]
  · cases e

/-- **C174, exact amounts (partial).** If the number of units is a whole number of smallest units, of up to 53 binary digits, the amount and the price are exact; in particular for whole numbers of units. -/
theorem C174_exact_partial (c : Currency) (hc : c.denominator ≤ 2 ^ 53) (x : Rat) (n : Nat) (hn : n ≤ 2 ^ 53) (h : x * c.denominator = n) :
    amount binary64 towardsZeroUnsigned c x = .ok n ∧ price binary64 towardsZero c x = .ok ⟨n, c⟩ ∧ price binary64 towardsZero c (-x) = .ok ⟨-n, c⟩ := by
  have en : binary64 (x * c.denominator) = ((n : Int) : Rat) := by
    rw [h]
    have := binary64_int (n : Int) (by rw [abs_of_nonneg (by positivity)]; exact_mod_cast hn)
    simpa using this
  have em : binary64 (-x * c.denominator) = ((-n : Int) : Rat) := by
    rw [neg_mul, binary64_neg, en]
    push_cast
    rfl
  unfold amount price towardsZeroUnsigned towardsZero
  rw [denominator_exact c hc, en, em, trunc_int, trunc_int, if_pos (by omega), if_pos (by unfold InI64; omega), if_pos (by unfold InI64; omega)]
  exact ⟨rfl, rfl, rfl⟩

/-- **C174, other rounding rules.** A rounding rule of the caller decides what becomes of the product; the currency is that of the money. -/
theorem C174_rule (fl : Rat → Rat) (c : Currency) (x : Rat) (f : Rat → Nat) (g : Rat → Int) :
    amount fl (fun y => .ok (f y)) c x = .ok (f (fl (x * fl c.denominator))) ∧ price fl (fun y => .ok (g y)) c x = .ok ⟨g (fl (x * fl c.denominator)), c⟩ := ⟨rfl, rfl⟩

/-- **C174, quantities (partial).** A quantity of less than `2 ^ 63` smallest units, as a price, is that many. -/
theorem C174_quantity_partial (c : Currency) (q : Nat) (h : q < 2 ^ 63) : ofQuantity c q = ⟨q, c⟩ := by
  unfold ofQuantity
  simp only [P.mk.injEq, and_true]
  rw [wrapI64, Int.bmod_def]
  omega

/-- **C174 (negation, decimal numbers).** 0.29 dollars, as a floating-point number, are 28 cents. -/
theorem C174_counterexample_cents : amount binary64 towardsZeroUnsigned Spec.dollar (binary64 (29 / 100)) = .ok 28 ∧ price binary64 towardsZero Spec.dollar (binary64 (29 / 100)) = .ok ⟨28, Spec.dollar⟩ := by
  decide +kernel

/-- **C174 (negation, negative amounts).** A debt of at least one smallest unit, as an amount, is undefined. -/
theorem C174_counterexample_debt (c : Currency) (hc : c.denominator ≤ 2 ^ 53) (x : Rat) (n : Nat) (hn : 0 < n) (hn' : n ≤ 2 ^ 53) (h : x * c.denominator = -(n : Rat)) : amount binary64 towardsZeroUnsigned c x = .ub := by
  have em : binary64 (x * c.denominator) = ((-n : Int) : Rat) := by
    rw [h]
    have := binary64_int (-n : Int) (by rw [abs_neg, abs_of_nonneg (by positivity)]; exact_mod_cast hn')
    simpa using this
  unfold amount towardsZeroUnsigned
  rw [denominator_exact c hc, em, trunc_int, if_neg (by omega)]

/-- **C174 (negation, large quantities).** A quantity of `2 ^ 63` smallest units or more is a negative price. -/
theorem C174_counterexample_quantity (c : Currency) (q : Nat) (h : 2 ^ 63 ≤ q) (hq : q < 2 ^ 64) : (ofQuantity c q).value = q - 2 ^ 64 ∧ (ofQuantity c q).value < 0 := by
  have e : wrapI64 (q : Int) = q - 2 ^ 64 := by rw [wrapI64, Int.bmod_def]; omega
  have e0 : (ofQuantity c q).value = wrapI64 (q : Int) := by simp only [ofQuantity]
  have e' := e0.trans e
  exact ⟨e', by rw [e']; omega⟩

/-! ## Examples -/

example : Spec.dollar.denominator ≤ 2 ^ 53 ∧ (0 : Rat) ≤ 1234567 / 1000 ∧ (1234567 / 1000 : Rat) * Spec.dollar.denominator < 2 ^ 62 ∧ amount binary64 towardsZeroUnsigned Spec.dollar (1234567 / 1000) = .ok 123456 := by decide +kernel
example : (5 / 2 : Rat) * Spec.dollar.denominator = (250 : Nat) := by decide +kernel
example : amount binary64 towardsZeroUnsigned Spec.dollar (-1) = .ub ∧ price binary64 towardsZero Spec.dollar (-1) = .ok ⟨-100, Spec.dollar⟩ := by decide +kernel

end Esl.Money
