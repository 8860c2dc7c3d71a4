import Verif.Model.Poisson
import Mathlib.Analysis.SpecialFunctions.Exponential
import Mathlib.Analysis.Complex.Exponential
import Mathlib.Tactic.Ring
import Mathlib.Tactic.Linarith
import Mathlib.Tactic.FieldSimp
import Mathlib.Tactic.Positivity
/-!
C158: numbers drawn from the zero-truncated Poisson distribution have that distribution.
-/
namespace Esl.Poisson
open Finset

/-- The probability of `k` in the Poisson distribution with mean `l`, given that it is not zero. -/
noncomputable def Spec.probability (l : ℝ) (k : Nat) : ℝ := l ^ k / (k.factorial * (Real.exp l - 1))

/-- The probability of `1, ..., k`. -/
noncomputable def Spec.cumulative (l : ℝ) (k : Nat) : ℝ := ∑ i ∈ range k, Spec.probability l (i + 1)

/-- The number that belongs to a uniform random number `u`: the first `k` for which `1, ..., k` together have at least the probability `u`. -/
def Spec.IsQuantile (l u : ℝ) (k : Nat) : Prop := 1 ≤ k ∧ u ≤ Spec.cumulative l k ∧ ∀ j, 1 ≤ j → j < k → Spec.cumulative l j < u

/-- What the variable `t` contains when `k` is about to be compared, starting with `p`. -/
noncomputable def term (l p : ℝ) (k : Nat) : ℝ := p * (l ^ (k - 1) / (k - 1).factorial)
/-- What the variable `s` contains. -/
noncomputable def partialSum (l p : ℝ) (k : Nat) : ℝ := ∑ i ∈ range k, term l p (i + 1)

theorem term_succ (l p : ℝ) (k : Nat) (h : 1 ≤ k) : term l p k * (l / k) = term l p (k + 1) := by
  obtain ⟨k, rfl⟩ : ∃ m, k = m + 1 := ⟨k - 1, by omega⟩
  unfold term
  simp only [Nat.add_sub_cancel, Nat.factorial_succ]
  have : (k.factorial : ℝ) ≠ 0 := by exact_mod_cast Nat.factorial_ne_zero k
  have h2 : ((k : ℝ) + 1) ≠ 0 := by positivity
  push_cast
  field_simp
  ring

theorem loop_spec (l u p : ℝ) : ∀ (left k : Nat), 1 ≤ k → (∀ j, 1 ≤ j → j < k → partialSum l p j < u) →
    k ≤ loop l u left k (term l p k) (partialSum l p k) ∧ loop l u left k (term l p k) (partialSum l p k) ≤ k + left ∧
    (∀ j, 1 ≤ j → j < loop l u left k (term l p k) (partialSum l p k) → partialSum l p j < u) ∧
    (loop l u left k (term l p k) (partialSum l p k) = k + left ∨ u ≤ partialSum l p (loop l u left k (term l p k) (partialSum l p k)))
  | 0, k, h, hj => by simpa [loop] using hj
  | left + 1, k, h, hj => by
    simp only [loop]
    by_cases c : partialSum l p k < u
    · rw [if_pos c, term_succ l p k h]
      have e : partialSum l p k + term l p (k + 1) = partialSum l p (k + 1) := by simp [partialSum, sum_range_succ]
      rw [e]
      obtain ⟨a, b, c', d⟩ := loop_spec l u p left (k + 1) (by omega) (by
        intro j h1 h2
        by_cases e : j = k
        · rw [e]; exact c
        · exact hj j h1 (by omega))
      refine ⟨by omega, by omega, c', ?_⟩
      rcases d with d | d
      · left; omega
      · right; exact d
    · rw [if_neg c]
      exact ⟨le_refl _, by omega, hj, Or.inr (not_lt.mp c)⟩

/-- The probability of one, as computed by the code. -/
noncomputable def first (l : ℝ) : ℝ := Real.exp (-l) / (1 - Real.exp (-l)) * l

theorem exp_sub_one_pos {l : ℝ} (hl : 0 < l) : 0 < Real.exp l - 1 := by linarith [Real.add_one_lt_exp hl.ne']

theorem first_eq {l : ℝ} (hl : 0 < l) : first l = l / (Real.exp l - 1) := by
  unfold first
  rw [Real.exp_neg]
  have h1 := exp_sub_one_pos hl
  have h2 := Real.exp_pos l
  have h3 : 1 - (Real.exp l)⁻¹ ≠ 0 := by
    have : (1 - (Real.exp l)⁻¹) = (Real.exp l - 1) / Real.exp l := by field_simp
    rw [this]; positivity
  field_simp

theorem first_pos {l : ℝ} (hl : 0 < l) : 0 < first l := by
  rw [first_eq hl]
  have := exp_sub_one_pos hl
  positivity

theorem draw_spec (max : Nat) (hm : 1 ≤ max) (l u : ℝ) :
    1 ≤ draw max l u ∧ draw max l u ≤ max ∧ (∀ j, 1 ≤ j → j < draw max l u → partialSum l (first l) j < u) ∧
    (draw max l u = max ∨ u ≤ partialSum l (first l) (draw max l u)) := by
  have h := loop_spec l u (first l) (max - 1) 1 (le_refl _) (by intro j h1 h2; omega)
  have e1 : term l (first l) 1 = first l := by simp [term]
  have e2 : partialSum l (first l) 1 = first l := by simp [partialSum, term]
  rw [e1, e2] at h
  have e3 : 1 + (max - 1) = max := by omega
  rw [e3] at h
  exact h

theorem probability_eq {l : ℝ} (hl : 0 < l) (i : Nat) : Spec.probability l (i + 1) = first l * (l ^ i / (i + 1).factorial) := by
  rw [first_eq hl]
  unfold Spec.probability
  have := exp_sub_one_pos hl
  have h2 : ((i + 1).factorial : ℝ) ≠ 0 := by exact_mod_cast Nat.factorial_ne_zero _
  field_simp
  ring

theorem cumulative_le {l : ℝ} (hl : 0 < l) (k : Nat) : Spec.cumulative l k ≤ partialSum l (first l) k := by
  unfold Spec.cumulative partialSum
  refine sum_le_sum fun i _ => ?_
  rw [probability_eq hl]
  unfold term
  simp only [Nat.add_sub_cancel]
  refine mul_le_mul_of_nonneg_left ?_ (first_pos hl).le
  have h1 : (0 : ℝ) < i.factorial := by exact_mod_cast Nat.factorial_pos i
  have h2 : (i.factorial : ℝ) ≤ (i + 1).factorial := by exact_mod_cast Nat.factorial_le (Nat.le_succ i)
  exact div_le_div_of_nonneg_left (by positivity) h1 h2

/-- **C158.** Every number drawn is at least one, and in the range of its type. -/
theorem C158_positive (max : Nat) (hm : 1 ≤ max) (l u : ℝ) : 1 ≤ draw max l u ∧ draw max l u ≤ max := ⟨(draw_spec max hm l u).1, (draw_spec max hm l u).2.1⟩

/-- **C158 (partial).** One is drawn exactly when it should be, so with the right probability. Missing: all other numbers. -/
theorem C158_one_partial (max : Nat) (hm : 2 ≤ max) (l u : ℝ) (hl : 0 < l) : draw max l u = 1 ↔ Spec.IsQuantile l u 1 := by
  obtain ⟨h1, _, h3, h4⟩ := draw_spec max (by omega) l u
  have e : Spec.cumulative l 1 = partialSum l (first l) 1 := by
    simp [Spec.cumulative, partialSum, probability_eq hl, term]
  constructor
  · intro h
    refine ⟨le_refl _, ?_, by intro j a b; omega⟩
    rw [h] at h4
    rw [e]
    rcases h4 with h4 | h4
    · omega
    · exact h4
  · rintro ⟨_, h, _⟩
    by_contra c
    have := h3 1 (le_refl _) (by omega)
    linarith

/-- **C158 (partial).** What is drawn is never larger than it should be. Missing: it can be smaller. -/
theorem C158_at_most_partial (max : Nat) (hm : 1 ≤ max) (l u : ℝ) (hl : 0 < l) (k : Nat) (h : Spec.IsQuantile l u k) : draw max l u ≤ k := by
  obtain ⟨_, _, h3, _⟩ := draw_spec max hm l u
  by_contra c
  have := h3 k h.1 (by omega)
  linarith [h.2.1, cumulative_le hl k]

theorem exp_bound {l : ℝ} (hl : 0 < l) : 1 + l + l ^ 2 / 2 + l ^ 3 / 6 < Real.exp l := by
  have := Real.sum_le_exp_of_nonneg hl.le 5
  simp [sum_range_succ, Nat.factorial] at this
  have h4 : 0 < l ^ 4 / 24 := by positivity
  linarith

theorem cumulative_values {l : ℝ} (hl : 0 < l) : Spec.cumulative l 1 = first l ∧ Spec.cumulative l 2 = first l * (1 + l / 2) ∧ Spec.cumulative l 3 = first l * (1 + l / 2 + l ^ 2 / 6) := by
  simp only [Spec.cumulative, sum_range_succ, range_zero, sum_empty, probability_eq hl, Nat.factorial]
  refine ⟨by norm_num, ?_, ?_⟩
  · push_cast; ring
  · push_cast; ring

theorem partialSum_values (l p : ℝ) : partialSum l p 1 = p ∧ partialSum l p 2 = p * (1 + l) := by
  simp only [partialSum, sum_range_succ, range_zero, sum_empty, term, Nat.factorial]
  refine ⟨by norm_num, ?_⟩
  norm_num; ring

/-- **C158 (negation).** For every mean there are random numbers for which two is drawn instead of three. -/
theorem C158_counterexample (max : Nat) (hm : 3 ≤ max) (l : ℝ) (hl : 0 < l) : ∃ u, 0 ≤ u ∧ u < 1 ∧ draw max l u = 2 ∧ Spec.IsQuantile l u 3 := by
  obtain ⟨c1, c2, c3⟩ := cumulative_values hl
  obtain ⟨p1, p2⟩ := partialSum_values l (first l)
  have hf := first_pos hl
  have a : Spec.cumulative l 2 < Spec.cumulative l 3 := by
    rw [c2, c3]
    have : 0 < first l * (l ^ 2 / 6) := by positivity
    linarith
  have b : Spec.cumulative l 2 < partialSum l (first l) 2 := by
    rw [c2, p2]
    have : 0 < first l * (l / 2) := by positivity
    linarith
  have c : Spec.cumulative l 3 < 1 := by
    rw [c3, first_eq hl]
    have h1 := exp_sub_one_pos hl
    rw [div_mul_eq_mul_div, div_lt_one h1]
    have := exp_bound hl
    nlinarith
  have d : Spec.cumulative l 1 < Spec.cumulative l 2 := by
    rw [c1, c2]
    have : 0 < first l * (l / 2) := by positivity
    linarith
  refine ⟨min (Spec.cumulative l 3) (partialSum l (first l) 2), ?_, lt_of_le_of_lt (min_le_left _ _) c, ?_, by omega, min_le_left _ _, ?_⟩
  · rw [c3, p2]
    refine le_min ?_ ?_ <;> positivity
  · obtain ⟨h1, h2, h3, h4⟩ := draw_spec max (by omega) l (min (Spec.cumulative l 3) (partialSum l (first l) 2))
    have hle : draw max l (min (Spec.cumulative l 3) (partialSum l (first l) 2)) ≤ 2 := by
      by_contra c
      have := h3 2 (by omega) (by omega)
      exact absurd (lt_of_lt_of_le this (min_le_right _ _)) (lt_irrefl _)
    have hne : draw max l (min (Spec.cumulative l 3) (partialSum l (first l) 2)) ≠ 1 := by
      intro e
      rw [e] at h4
      rcases h4 with h4 | h4
      · omega
      · have h4 := h4.trans (le_of_eq (p1.trans c1.symm))
        rcases min_le_iff.mp h4 with h4 | h4 <;> linarith
    omega
  · intro j h1 h2
    refine lt_min ?_ ?_
    · obtain rfl | rfl : j = 1 ∨ j = 2 := by omega
      · linarith
      · exact a
    · obtain rfl | rfl : j = 1 ∨ j = 2 := by omega
      · linarith
      · exact b

/-- **C158 (negation).** With a mean of at most one nothing larger than two is ever drawn. -/
theorem C158_counterexample_two (max : Nat) (hm : 1 ≤ max) (l u : ℝ) (hl : 0 < l) (h1 : l ≤ 1) (hu : u < 1) : draw max l u ≤ 2 := by
  obtain ⟨_, _, h3, _⟩ := draw_spec max hm l u
  by_contra c
  have h := h3 2 (by omega) (by omega)
  rw [(partialSum_values l (first l)).2, first_eq hl] at h
  have hp := exp_sub_one_pos hl
  have hb := Real.abs_exp_sub_one_sub_id_le (x := l) (by rw [abs_of_pos hl]; exact h1)
  have hb' := (abs_le.mp hb).2
  have : 1 ≤ l / (Real.exp l - 1) * (1 + l) := by
    rw [div_mul_eq_mul_div, le_div_iff₀ hp]
    nlinarith
  linarith

/-- The hypotheses can be met: the mean one, and a number that should be three. -/
example : ∃ u, 0 ≤ u ∧ u < 1 ∧ draw 2147483647 1 u = 2 ∧ Spec.IsQuantile 1 u 3 := C158_counterexample _ (by norm_num) 1 one_pos
example : draw 2147483647 1 0 = 1 := (C158_one_partial _ (by norm_num) 1 0 one_pos).mpr ⟨le_refl _, by rw [(cumulative_values one_pos).1]; exact (first_pos one_pos).le, by intro j a b; omega⟩

end Esl.Poisson
