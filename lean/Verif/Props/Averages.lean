import Verif.Model.Averages
import Mathlib.Analysis.SpecialFunctions.Pow.Real
import Mathlib.Analysis.Complex.ExponentialBounds
/-!
# Averages (C141)

A geometric mean of `n` positive numbers is the positive number whose `n`-th power is their product. The growth rate of a series `x₀, …, xₙ` is the rate `g` with `x₀ (1+g)ⁿ = xₙ`.
-/
namespace Esl.Averages

/-! ## Specification -/

/-- `m` is the geometric mean of the numbers `xs`. -/
def Spec.IsGeometricMean (xs : List ℝ) (m : ℝ) : Prop := 0 < m ∧ m ^ xs.length = xs.prod

/-- `g` is the growth rate per period of a series with first element `x` and the others `r`: growing at that rate, one period per step, leads from the first element to the last. -/
def Spec.IsGrowthRate (x : ℝ) (r : List ℝ) (g : ℝ) : Prop :=
  -1 < g ∧ x * (1 + g) ^ r.length = (x :: r).getLast (List.cons_ne_nil x r)

/-! ## Lemmas -/

theorem meanLoop_eq : ∀ (xs : List ℝ) (s : ℝ) (n : ℕ),
    meanLoop xs s n = (s + (xs.map Real.log).sum, n + xs.length)
  | [], s, n => by simp [meanLoop]
  | x :: r, s, n => by
    rw [meanLoop, meanLoop_eq r]
    simp only [List.map_cons, List.sum_cons, List.length_cons, Prod.mk.injEq]
    constructor <;> ring

theorem geometricMean_eq {xs : List ℝ} (h : xs ≠ []) :
    geometricMean xs = .ok (Real.exp ((xs.map Real.log).sum / xs.length)) := by
  cases xs with
  | nil => exact absurd rfl h
  | cons x r => simp [geometricMean, meanLoop_eq]

theorem exp_sum_log : ∀ (xs : List ℝ), (∀ x ∈ xs, 0 < x) →
    Real.exp ((xs.map Real.log).sum) = xs.prod
  | [], _ => by simp
  | x :: r, h => by
    rw [List.map_cons, List.sum_cons, Real.exp_add, Real.exp_log (h x (by simp)),
      exp_sum_log r (fun y hy => h y (by simp [hy])), List.prod_cons]

theorem growthLoop_eq : ∀ (r : List ℝ) (x s : ℝ) (n : ℕ),
    growthLoop x r s n
      = (s + (Real.log ((x :: r).getLast (List.cons_ne_nil x r)) - Real.log x), n + r.length)
  | [], x, s, n => by simp [growthLoop]
  | y :: r, x, s, n => by
    rw [growthLoop, growthLoop_eq r]
    simp only [List.getLast_cons_cons, List.length_cons, Prod.mk.injEq]
    constructor <;> ring

theorem growthRate_eq (x : ℝ) (r : List ℝ) :
    growthRate (x :: r) = .ok (Real.exp
      ((Real.log ((x :: r).getLast (List.cons_ne_nil x r)) - Real.log x) / (r.length + 1)) - 1) := by
  simp [growthRate, growthLoop_eq, add_comm]

/-! ## The geometric mean -/

/-- The function returns the geometric mean: the only positive number whose `n`-th power is the product of the elements. -/
theorem C141_mean_partial (xs : List ℝ) (hne : xs ≠ []) (hpos : ∀ x ∈ xs, 0 < x) :
    ∃ m, geometricMean xs = .ok m ∧ geometricMeanOf xs = .ok m ∧
      ∀ m', Spec.IsGeometricMean xs m' ↔ m' = m := by
  refine ⟨_, geometricMean_eq hne, geometricMean_eq hne, ?_⟩
  have hl : (xs.length : ℝ) ≠ 0 := by
    exact_mod_cast (List.length_pos_of_ne_nil hne).ne'
  have hpow : (Real.exp ((xs.map Real.log).sum / xs.length)) ^ xs.length = xs.prod := by
    rw [← Real.exp_nat_mul, mul_div_cancel₀ _ hl, exp_sum_log xs hpos]
  intro m'
  constructor
  · rintro ⟨h0, hm⟩
    exact (pow_left_inj₀ h0.le (Real.exp_pos _).le (List.length_pos_of_ne_nil hne).ne').1
      (hm.trans hpow.symm)
  · rintro rfl
    exact ⟨Real.exp_pos _, hpow⟩

example : ([2, 8] : List ℝ) ≠ [] ∧ (∀ x ∈ ([2, 8] : List ℝ), 0 < x) ∧
    Spec.IsGeometricMean [2, 8] 4 := by
  refine ⟨by simp, by simp, by norm_num, ?_⟩
  norm_num

theorem sum_log_le (hi : ℝ) : ∀ xs : List ℝ, (∀ x ∈ xs, 0 < x ∧ x ≤ hi) →
    (xs.map Real.log).sum ≤ xs.length * Real.log hi
  | [], _ => by simp
  | x :: r, h => by
    have h1 := sum_log_le hi r (fun y hy => h y (by simp [hy]))
    have h2 := Real.log_le_log (h x (by simp)).1 (h x (by simp)).2
    simp only [List.map_cons, List.sum_cons, List.length_cons, Nat.cast_add, Nat.cast_one]
    linarith

theorem le_sum_log (lo : ℝ) (h0 : 0 < lo) : ∀ xs : List ℝ, (∀ x ∈ xs, lo ≤ x) →
    xs.length * Real.log lo ≤ (xs.map Real.log).sum
  | [], _ => by simp
  | x :: r, h => by
    have h1 := le_sum_log lo h0 r (fun y hy => h y (by simp [hy]))
    have h2 := Real.log_le_log h0 (h x (by simp))
    simp only [List.map_cons, List.sum_cons, List.length_cons, Nat.cast_add, Nat.cast_one]
    linarith

/-- The mean lies between any bounds of the elements, so between the smallest and the largest. -/
theorem C141_between_partial (xs : List ℝ) (hne : xs ≠ []) (lo hi : ℝ) (h0 : 0 < lo)
    (h : ∀ x ∈ xs, lo ≤ x ∧ x ≤ hi) :
    ∃ m, geometricMean xs = .ok m ∧ lo ≤ m ∧ m ≤ hi := by
  have hl : (0 : ℝ) < xs.length := by exact_mod_cast List.length_pos_of_ne_nil hne
  have hhi : 0 < hi := by
    obtain ⟨x, hx⟩ := List.exists_mem_of_ne_nil xs hne
    linarith [(h x hx).1, (h x hx).2]
  refine ⟨_, geometricMean_eq hne, ?_, ?_⟩
  · rw [← Real.log_le_iff_le_exp h0, le_div_iff₀ hl, mul_comm]
    exact le_sum_log lo h0 xs (fun x hx => (h x hx).1)
  · rw [← Real.le_log_iff_exp_le hhi, div_le_iff₀ hl, mul_comm]
    exact sum_log_le hi xs (fun x hx => ⟨lt_of_lt_of_le h0 (h x hx).1, (h x hx).2⟩)

example : ([3, 1, 9] : List ℝ) ≠ [] ∧ ∀ x ∈ ([3, 1, 9] : List ℝ), (1 : ℝ) ≤ x ∧ x ≤ 9 := by
  refine ⟨by simp, ?_⟩
  intro x hx
  simp at hx
  rcases hx with rfl | rfl | rfl <;> norm_num

/-- The mean does not depend on the order of the elements. -/
theorem C141_order_partial (xs ys : List ℝ) (h : xs.Perm ys) : geometricMean xs = geometricMean ys := by
  by_cases hne : xs = []
  · subst hne
    rw [List.nil_perm.1 h]
  · have hne' : ys ≠ [] := fun e => hne (by subst e; exact List.perm_nil.1 h)
    rw [geometricMean_eq hne, geometricMean_eq hne', (h.map Real.log).sum_eq, h.length_eq]

example : ([2, 8, 4] : List ℝ).Perm [8, 4, 2] := by
  exact ((List.Perm.swap 8 2 [4]).trans (List.Perm.cons 8 (List.Perm.swap 4 2 [])))

theorem sum_log_mul (c : ℝ) (hc : 0 < c) : ∀ xs : List ℝ, (∀ x ∈ xs, 0 < x) →
    ((xs.map (c * ·)).map Real.log).sum = xs.length * Real.log c + (xs.map Real.log).sum
  | [], _ => by simp
  | x :: r, h => by
    have h1 := sum_log_mul c hc r (fun y hy => h y (by simp [hy]))
    simp only [List.map_cons, List.sum_cons, List.length_cons, Nat.cast_add, Nat.cast_one] at h1 ⊢
    rw [h1, Real.log_mul hc.ne' (h x (by simp)).ne']
    ring

/-- Changing the unit of all elements changes the unit of the mean. -/
theorem C141_unit_partial (xs : List ℝ) (hpos : ∀ x ∈ xs, 0 < x) (c : ℝ) (hc : 0 < c) (m : ℝ)
    (hm : geometricMean xs = .ok m) : geometricMean (xs.map (c * ·)) = .ok (c * m) := by
  by_cases hne : xs = []
  · subst hne
    simp [geometricMean] at hm
  · have hl : (xs.length : ℝ) ≠ 0 := by
      exact_mod_cast (List.length_pos_of_ne_nil hne).ne'
    rw [geometricMean_eq hne] at hm
    cases hm
    rw [geometricMean_eq (by simpa using hne), sum_log_mul c hc xs hpos, List.length_map, add_div,
      mul_div_cancel_left₀ _ hl, Real.exp_add, Real.exp_log hc]

example : ∃ m, geometricMean [2, 8] = .ok m ∧ (0 : ℝ) < 100 :=
  ⟨_, geometricMean_eq (by simp), by norm_num⟩

/-! ## Integers -/

theorem meanLoopInteger_small : ∀ (xs : List ℕ) (n : ℕ), (∀ x ∈ xs, x = 1 ∨ x = 2) →
    meanLoopInteger xs 0 n = (0, n + xs.length)
  | [], n, _ => by simp [meanLoopInteger]
  | x :: r, n, h => by
    have hfl : ⌊((0 : ℕ) : ℝ) + Real.log (x : ℝ)⌋₊ = 0 := by
      rw [Nat.floor_eq_zero]
      rcases h x (by simp) with rfl | rfl
      · simp
      · have := Real.log_two_lt_d9
        push_cast
        linarith
    rw [meanLoopInteger, hfl, meanLoopInteger_small r _ (fun y hy => h y (by simp [hy]))]
    simp only [List.length_cons, Prod.mk.injEq, true_and]
    omega

/-- Sequences of an integer type lose the fractions of the logarithms: the mean of any sequence of ones and twos is reported as one, also when all elements are two. -/
theorem C141_counterexample_integer (xs : List ℕ) (hne : xs ≠ []) (h : ∀ x ∈ xs, x = 1 ∨ x = 2) :
    geometricMeanInteger xs = .ok 1 := by
  cases xs with
  | nil => exact absurd rfl hne
  | cons x r =>
    simp [geometricMeanInteger, meanLoopInteger_small (x :: r) 0 h]

/-- The same elements as `double` have the mean two. -/
theorem C141_counterexample_two (n : ℕ) :
    geometricMeanInteger (List.replicate (n + 1) 2) = .ok 1 ∧
    geometricMean (List.replicate (n + 1) 2) = .ok 2 := by
  constructor
  · exact C141_counterexample_integer _ (by simp) (fun x hx => Or.inr (List.eq_of_mem_replicate hx))
  · rw [geometricMean_eq (by simp)]
    have hl : ((n + 1 : ℕ) : ℝ) ≠ 0 := by exact_mod_cast Nat.succ_ne_zero n
    simp only [List.map_replicate, List.sum_replicate, List.length_replicate, nsmul_eq_mul]
    rw [mul_div_cancel_left₀ _ hl, Real.exp_log (by norm_num)]

example : ∀ x ∈ [2, 1, 2, 2], x = 1 ∨ x = 2 := by decide

/-- For an empty range there is no mean: with integers the program divides by zero, which is undefined, and the other means and the growth rate are not defined either. -/
theorem C141_counterexample_empty : geometricMeanInteger [] = .ub ∧ geometricMean [] = .ub ∧ geometricMeanOf [] = .ub ∧ growthRate [] = .ub ∧ geometricMeanAny [] = .ub ∧ growthRateAny [] = .ub ∧ ∀ A, geometricMeanWith A [] = .ub :=
  ⟨rfl, rfl, rfl, rfl, rfl, rfl, fun _ => rfl⟩

/-! ## The geometric mean with rounding -/

/-- The operations have relative errors of at most `ε`, as long as they do not overflow: `exp` of numbers of size at most `top`, the others with results of size at most `huge`. Near zero, the error may be `ε μ`: there are
no numbers between zero and the smallest one. -/
structure Spec.Accurate (A : Arith) (ε μ huge top : ℝ) : Prop where
  nonneg : 0 ≤ ε
  small : ε ≤ 1
  tiny : 0 ≤ μ
  log : ∀ x, 0 < x → |A.log x - Real.log x| ≤ ε * |Real.log x|
  exp : ∀ y, |y| ≤ top → |A.exp y - Real.exp y| ≤ ε * Real.exp y
  fl : ∀ z, |z| ≤ huge → |A.fl z - z| ≤ ε * (|z| + μ)

theorem meanLoopWith_close {A : Arith} {ε μ huge top : ℝ} (h : Spec.Accurate A ε μ huge top) : ∀ (xs : List ℝ) (s S M : ℝ) (n k : ℕ), (∀ x ∈ xs, 0 < x) → |S| + μ ≤ M → |s - S| ≤ ((1 + ε) ^ (k + 1) - 1) * M →
    (1 + ε) ^ (k + xs.length + 1) * (M + (xs.map fun x => |Real.log x|).sum) ≤ huge →
    (meanLoopWith A xs s n).2 = n + xs.length ∧
    |(meanLoopWith A xs s n).1 - (S + (xs.map Real.log).sum)| ≤ ((1 + ε) ^ (k + xs.length + 1) - 1) * (M + (xs.map fun x => |Real.log x|).sum) ∧
    |S + (xs.map Real.log).sum| + μ ≤ M + (xs.map fun x => |Real.log x|).sum
  | [], s, S, M, n, k, _, hM, hs, _ => by simpa [meanLoopWith] using ⟨hs, hM⟩
  | x :: r, s, S, M, n, k, hpos, hM, hs, hh => by
    have hε := h.nonneg
    have hμ := h.tiny
    have hx := h.log x (hpos x (by simp))
    have hM' : |S + Real.log x| + μ ≤ M + |Real.log x| := by linarith [abs_add_le S (Real.log x)]
    have hM0 : 0 ≤ M := by linarith [abs_nonneg S]
    have hl0 := abs_nonneg (Real.log x)
    have hr0 : 0 ≤ (r.map fun x => |Real.log x|).sum := List.sum_nonneg (by
      intro y hy; obtain ⟨z, -, rfl⟩ := List.mem_map.1 hy; exact abs_nonneg _)
    simp only [List.map_cons, List.sum_cons, List.length_cons] at hh
    set g : ℝ := (1 + ε) ^ (k + 1) - 1 with hg
    have hgε : ε ≤ g := by
      have : (1 + ε) ^ 1 ≤ (1 + ε) ^ (k + 1) := pow_le_pow_right₀ (by linarith) (by omega)
      rw [hg]; linarith [this, pow_one (1 + ε)]
    have hg0 : 0 ≤ g := by linarith
    have e1 : |s + A.log x - (S + Real.log x)| ≤ g * (M + |Real.log x|) := by
      calc |s + A.log x - (S + Real.log x)| = |(s - S) + (A.log x - Real.log x)| := by ring_nf
        _ ≤ |s - S| + |A.log x - Real.log x| := abs_add_le _ _
        _ ≤ g * M + ε * |Real.log x| := by linarith
        _ ≤ g * (M + |Real.log x|) := by nlinarith
    have e2 : |s + A.log x| + μ ≤ (1 + g) * (M + |Real.log x|) := by
      have : |s + A.log x| ≤ |S + Real.log x| + |s + A.log x - (S + Real.log x)| := by
        calc |s + A.log x| = |(S + Real.log x) + (s + A.log x - (S + Real.log x))| := by ring_nf
          _ ≤ _ := abs_add_le _ _
      linarith
    have hbig : |s + A.log x| ≤ huge := by
      have h1 : 1 + g ≤ (1 + ε) ^ (k + (r.length + 1) + 1) := by
        rw [hg, add_sub_cancel]; exact pow_le_pow_right₀ (by linarith) (by omega)
      have h2 : (1 + g) * (M + |Real.log x|) ≤ (1 + ε) ^ (k + (r.length + 1) + 1) * (M + (|Real.log x| + (r.map fun x => |Real.log x|).sum)) :=
        mul_le_mul h1 (by linarith) (by linarith) (by linarith)
      linarith
    have hf := h.fl (s + A.log x) hbig
    have e3 : |A.fl (s + A.log x) - (S + Real.log x)| ≤ ((1 + ε) ^ (k + 1 + 1) - 1) * (M + |Real.log x|) := by
      calc |A.fl (s + A.log x) - (S + Real.log x)| = |(A.fl (s + A.log x) - (s + A.log x)) + (s + A.log x - (S + Real.log x))| := by ring_nf
        _ ≤ |A.fl (s + A.log x) - (s + A.log x)| + |s + A.log x - (S + Real.log x)| := abs_add_le _ _
        _ ≤ ε * ((1 + g) * (M + |Real.log x|)) + g * (M + |Real.log x|) := by
          have := mul_le_mul_of_nonneg_left e2 hε
          linarith
        _ = ((1 + ε) ^ (k + 1 + 1) - 1) * (M + |Real.log x|) := by rw [hg]; ring
    have e : k + (r.length + 1) + 1 = k + 1 + r.length + 1 := by omega
    have ih := meanLoopWith_close h r (A.fl (s + A.log x)) (S + Real.log x) (M + |Real.log x|) (n + 1) (k + 1) (fun y hy => hpos y (List.mem_cons_of_mem _ hy)) hM' e3
      (by rw [e, ← add_assoc] at hh; exact hh)
    obtain ⟨i1, i2, i3⟩ := ih
    simp only [meanLoopWith, List.map_cons, List.sum_cons, List.length_cons]
    refine ⟨by rw [i1]; omega, ?_, ?_⟩
    · rw [e, ← add_assoc, ← add_assoc]; exact i2
    · rw [← add_assoc, ← add_assoc]; exact i3

/-- With any arithmetic that is accurate up to a relative error of `ε` per operation, and if the logarithms are far from an overflow: the logarithm of what the function returns differs from that of the mean by at most the
average size of the logarithms, times the error of as many operations as there are elements and two more; and by the error of the last operation. -/
theorem C141_rounding_partial (A : Arith) (ε μ huge top : ℝ) (h : Spec.Accurate A ε μ huge top) (xs : List ℝ) (hne : xs ≠ []) (hpos : ∀ x ∈ xs, 0 < x)
    (hhuge : (1 + ε) ^ (xs.length + 1) * ((xs.map fun x => |Real.log x|).sum + μ) ≤ huge)
    (htop : (1 + ε) ^ (xs.length + 2) * ((xs.map fun x => |Real.log x|).sum / xs.length + μ) ≤ top) :
    ∃ m m' : ℝ, geometricMean xs = .ok m ∧ geometricMeanWith A xs = .ok m' ∧
      let d := ((1 + ε) ^ (xs.length + 2) - 1) * ((xs.map fun x => |Real.log x|).sum / xs.length + μ)
      m * (Real.exp (-d) * (1 - ε)) ≤ m' ∧ m' ≤ m * (Real.exp d * (1 + ε)) := by
  have hl : (1 : ℝ) ≤ xs.length := by exact_mod_cast List.length_pos_of_ne_nil hne
  obtain ⟨i1, i2, i3⟩ := meanLoopWith_close h xs 0 0 μ 0 0 hpos (by simp) (by simpa using mul_nonneg h.nonneg h.tiny) (by rw [zero_add, add_comm μ]; exact hhuge)
  have hm' : geometricMeanWith A xs = .ok (A.exp (A.fl ((meanLoopWith A xs 0 0).1 / ((meanLoopWith A xs 0 0).2 : ℕ)))) := by
    cases xs with
    | nil => exact absurd rfl hne
    | cons x r => rfl
  refine ⟨_, _, geometricMean_eq hne, hm', ?_⟩
  rw [i1]
  simp only [zero_add] at i2 i3 ⊢
  set s := (meanLoopWith A xs 0 0).1
  set S := (xs.map Real.log).sum
  set T := (xs.map fun x => |Real.log x|).sum
  set n : ℝ := (xs.length : ℝ)
  have hε := h.nonneg
  have hμ := h.tiny
  have hn : 0 < n := by linarith
  have hS : |S| ≤ T := by linarith
  have hT : 0 ≤ T := le_trans (abs_nonneg _) hS
  set g : ℝ := (1 + ε) ^ (xs.length + 1) - 1 with hg
  have hg0 : 0 ≤ g := by
    have : (1 : ℝ) ≤ (1 + ε) ^ (xs.length + 1) := one_le_pow₀ (by linarith)
    linarith
  have e0 : (μ + T) / n ≤ T / n + μ := by
    rw [add_div, add_comm]
    have : μ / n ≤ μ := div_le_self hμ hl
    linarith
  have e1 : |s / n - S / n| ≤ g * (T / n + μ) := by
    rw [← sub_div, abs_div, abs_of_pos hn]
    calc |s - S| / n ≤ g * (μ + T) / n := div_le_div_of_nonneg_right i2 hn.le
      _ = g * ((μ + T) / n) := by ring
      _ ≤ g * (T / n + μ) := mul_le_mul_of_nonneg_left e0 hg0
  have e2 : |S / n| ≤ T / n := by
    rw [abs_div, abs_of_pos hn]; exact div_le_div_of_nonneg_right hS hn.le
  have e3 : |s / n| + μ ≤ (1 + g) * (T / n + μ) := by
    have : |s / n| ≤ |S / n| + |s / n - S / n| := by
      calc |s / n| = |S / n + (s / n - S / n)| := by ring_nf
        _ ≤ _ := abs_add_le _ _
    linarith
  have e3' : |s / n| ≤ huge := by
    have h1 : |s| ≤ |S| + |s - S| := by
      calc |s| = |S + (s - S)| := by ring_nf
        _ ≤ _ := abs_add_le _ _
    have h2 : |s / n| ≤ |s| := by
      rw [abs_div, abs_of_pos hn]; exact div_le_self (abs_nonneg _) hl
    have h3 : (1 + g) * (T + μ) ≤ huge := by rw [hg, add_sub_cancel]; exact hhuge
    linarith
  have e4 : |A.fl (s / n) - S / n| ≤ ((1 + ε) ^ (xs.length + 2) - 1) * (T / n + μ) := by
    calc |A.fl (s / n) - S / n| = |(A.fl (s / n) - s / n) + (s / n - S / n)| := by ring_nf
      _ ≤ |A.fl (s / n) - s / n| + |s / n - S / n| := abs_add_le _ _
      _ ≤ ε * ((1 + g) * (T / n + μ)) + g * (T / n + μ) := by
        have := h.fl (s / n) e3'
        have := mul_le_mul_of_nonneg_left e3 hε
        linarith
      _ = ((1 + ε) ^ (xs.length + 2) - 1) * (T / n + μ) := by rw [hg]; ring
  have e5 : |A.fl (s / n)| ≤ top := by
    have h1 : |A.fl (s / n)| ≤ |S / n| + |A.fl (s / n) - S / n| := by
      calc |A.fl (s / n)| = |S / n + (A.fl (s / n) - S / n)| := by ring_nf
        _ ≤ _ := abs_add_le _ _
    linarith
  generalize ((1 + ε) ^ (xs.length + 2) - 1) * (T / n + μ) = d at e4
  rw [abs_le] at e4
  have hexp := h.exp (A.fl (s / n)) e5
  rw [abs_le] at hexp
  generalize A.fl (s / n) = y at e4 hexp
  have p0 := Real.exp_pos y
  have up : Real.exp y ≤ Real.exp (S / n) * Real.exp d := by
    rw [← Real.exp_add]; exact Real.exp_le_exp.2 (by linarith)
  have lo : Real.exp (S / n) * Real.exp (-d) ≤ Real.exp y := by
    rw [← Real.exp_add]; exact Real.exp_le_exp.2 (by linarith)
  constructor
  · have := mul_le_mul_of_nonneg_right lo (by linarith [h.small] : 0 ≤ 1 - ε)
    linarith
  · have := mul_le_mul_of_nonneg_right up (by linarith : 0 ≤ 1 + ε)
    linarith

/-- Exact arithmetic is accurate; and so is arithmetic whose numbers are the multiples of a thousandth up to a million, and whose `exp` is zero for arguments beyond 700. -/
example : Spec.Accurate ⟨Real.log, Real.exp, id⟩ 0 0 10 10 := ⟨le_refl _, by norm_num, by norm_num, by simp, by simp, by simp⟩
noncomputable def Spec.coarse : Arith := ⟨Real.log, fun y => if |y| ≤ 700 then Real.exp y else 0, fun z => if |z| ≤ 1000000 then ⌊z * 1000⌋ / 1000 else 0⟩
theorem Spec.coarse_accurate : Spec.Accurate Spec.coarse (1 / 1000) 1 1000000 700 where
  nonneg := by norm_num
  small := by norm_num
  tiny := by norm_num
  log := by intro x _; simp [Spec.coarse]
  exp := by intro y hy; simp [Spec.coarse, hy, Real.exp_nonneg]
  fl := by
    intro z hz
    simp only [Spec.coarse, hz, if_true]
    have h1 := Int.floor_le (z * 1000)
    have h2 := Int.lt_floor_add_one (z * 1000)
    have h3 := abs_nonneg z
    rw [abs_le]
    constructor <;> linarith
/-- The bounds of the theorem hold there for the numbers two and eight. -/
example : (1 + (1 / 1000 : ℝ)) ^ (([2, 8] : List ℝ).length + 1) * ((([2, 8] : List ℝ).map fun x => |Real.log x|).sum + 1) ≤ 1000000 ∧
    (1 + (1 / 1000 : ℝ)) ^ (([2, 8] : List ℝ).length + 2) * ((([2, 8] : List ℝ).map fun x => |Real.log x|).sum / ([2, 8] : List ℝ).length + 1) ≤ 700 := by
  have h2 : |Real.log 2| ≤ 1 := by
    rw [abs_of_pos (Real.log_pos (by norm_num))]; linarith [Real.log_two_lt_d9]
  have h8 : |Real.log 8| ≤ 3 := by
    rw [show (8 : ℝ) = 2 ^ 3 by norm_num, Real.log_pow, abs_mul]
    norm_num
    linarith
  simp only [List.map_cons, List.map_nil, List.sum_cons, List.sum_nil, List.length_cons, List.length_nil]
  norm_num
  constructor <;> nlinarith

/-! ## The growth rate -/

/-- The function never returns the growth rate of a series that has changed: it spreads the change over one period too many. A growing series is reported to grow more slowly, and a shrinking one to shrink more slowly. -/
theorem C141_counterexample_growth (x : ℝ) (r : List ℝ) (hx : 0 < x)
    (hlast : 0 < (x :: r).getLast (List.cons_ne_nil x r))
    (g : ℝ) (hg : Spec.IsGrowthRate x r g) (hchange : g ≠ 0) (hr : r ≠ []) :
    ∃ g', growthRate (x :: r) = .ok g' ∧ |g'| < |g| ∧ (0 < g' ↔ 0 < g) := by
  obtain ⟨hg1, hgl⟩ := hg
  have h1g : 0 < 1 + g := by linarith
  have hlog : Real.log ((x :: r).getLast (List.cons_ne_nil x r)) - Real.log x
      = r.length * Real.log (1 + g) := by
    rw [← hgl, Real.log_mul hx.ne' (pow_pos h1g _).ne', Real.log_pow]
    ring
  have hl : (0 : ℝ) < r.length := by exact_mod_cast List.length_pos_of_ne_nil hr
  refine ⟨_, growthRate_eq x r, ?_⟩
  rw [hlog]
  set L := Real.log (1 + g) with hL
  set k : ℝ := (r.length : ℝ) with hk
  have hexpL : Real.exp L = 1 + g := Real.exp_log h1g
  have hkk : k * L / (k + 1) = L - L / (k + 1) := by
    field_simp
    ring
  rw [hkk]
  rcases lt_or_gt_of_ne hchange with hneg | hpos
  · have hLn : L < 0 := Real.log_neg h1g (by linarith)
    have hq : L / (k + 1) < 0 := div_neg_of_neg_of_pos hLn (by linarith)
    have hq2 : L < L / (k + 1) := by
      rw [lt_div_iff₀ (by linarith)]
      nlinarith
    have hlt : 1 + g < Real.exp (L - L / (k + 1)) := by
      rw [← hexpL]
      exact Real.exp_lt_exp.2 (by linarith)
    have hlt1 : Real.exp (L - L / (k + 1)) < 1 := by
      rw [Real.exp_lt_one_iff]
      linarith
    refine ⟨?_, ?_⟩
    · rw [abs_of_neg (by linarith), abs_of_neg hneg]
      linarith
    · constructor <;> intro <;> linarith
  · have hLp : 0 < L := Real.log_pos (by linarith)
    have hq : 0 < L / (k + 1) := div_pos hLp (by linarith)
    have hq2 : L / (k + 1) < L := by
      rw [div_lt_iff₀ (by linarith)]
      nlinarith
    have hlt : Real.exp (L - L / (k + 1)) < 1 + g := by
      rw [← hexpL]
      exact Real.exp_lt_exp.2 (by linarith)
    have hlt1 : 1 < Real.exp (L - L / (k + 1)) := by
      rw [Real.one_lt_exp_iff]
      linarith
    refine ⟨?_, ?_⟩
    · rw [abs_of_pos (by linarith), abs_of_pos hpos]
      linarith
    · constructor <;> intro <;> linarith

/-- A series that doubles three times has the rate one. -/
example : Spec.IsGrowthRate 1 [2, 4, 8] 1 ∧ (0 : ℝ) < ([1, 2, 4, 8] : List ℝ).getLast (by simp) := by
  constructor
  · refine ⟨by norm_num, ?_⟩
    norm_num
  · norm_num

/-- What the function returns instead: the rate that, applied for one period more than the series has, leads from the first element to the last. Elements in between have no influence. -/
theorem C141_growth_partial (x : ℝ) (r : List ℝ) (hx : 0 < x)
    (hlast : 0 < (x :: r).getLast (List.cons_ne_nil x r)) :
    ∃ g, growthRate (x :: r) = .ok g ∧ -1 < g ∧
      x * (1 + g) ^ (r.length + 1) = (x :: r).getLast (List.cons_ne_nil x r) := by
  refine ⟨_, growthRate_eq x r, ?_, ?_⟩
  · linarith [Real.exp_pos ((Real.log ((x :: r).getLast (List.cons_ne_nil x r)) - Real.log x) / (r.length + 1))]
  · have hl : ((r.length : ℝ) + 1) ≠ 0 := by positivity
    rw [add_sub_cancel, ← Real.exp_nat_mul]
    push_cast
    rw [mul_div_cancel₀ _ hl, Real.exp_sub, Real.exp_log hlast, Real.exp_log hx,
      mul_div_cancel₀ _ hx.ne']

/-- A series that ends where it began has growth rate zero, and the function says so. -/
theorem C141_constant_partial (x : ℝ) (r : List ℝ)
    (h : (x :: r).getLast (List.cons_ne_nil x r) = x) : growthRate (x :: r) = .ok 0 := by
  rw [growthRate_eq, h]
  simp

example : ([5, 7, 5] : List ℝ).getLast (by simp) = 5 := rfl

/-! ## Numbers that are not positive -/

theorem meanLoopAny_nan (xs : List ℝ) (n : ℕ) : (meanLoopAny xs .nan n).1 = .nan := by
  induction xs generalizing n with
  | nil => rfl
  | cons x r ih => exact ih _

theorem meanLoopAny_negative (xs : List ℝ) (s : Value) (n : ℕ) (h : ∃ x ∈ xs, x < 0) : (meanLoopAny xs s n).1 = .nan := by
  induction xs generalizing s n with
  | nil => simp at h
  | cons x r ih =>
    rw [meanLoopAny]
    by_cases hx : x < 0
    · have : Value.log x = .nan := by rw [Value.log, if_neg (by linarith), if_neg (by linarith)]
      rw [this]
      have : s.add .nan = .nan := by cases s <;> rfl
      rw [this, meanLoopAny_nan]
    · obtain ⟨y, hy, hl⟩ := h
      rcases List.mem_cons.1 hy with rfl | hy
      · exact absurd hl hx
      · exact ih _ _ ⟨y, hy, hl⟩

theorem meanLoopAny_negInf (xs : List ℝ) (n : ℕ) (h : ∀ x ∈ xs, 0 ≤ x) : (meanLoopAny xs .negInf n).1 = .negInf := by
  induction xs generalizing n with
  | nil => rfl
  | cons x r ih =>
    rw [meanLoopAny]
    have : Value.add .negInf (.log x) = .negInf := by
      unfold Value.log
      by_cases h0 : 0 < x
      · rw [if_pos h0]; rfl
      · have := h x (by simp)
        rw [if_neg h0, if_pos (by linarith)]; rfl
    rw [this]
    exact ih _ fun y hy => h y (by simp [hy])

theorem meanLoopAny_zero (xs : List ℝ) (s : ℝ) (n : ℕ) (h : ∀ x ∈ xs, 0 ≤ x) (hz : 0 ∈ xs) : (meanLoopAny xs (.num s) n).1 = .negInf := by
  induction xs generalizing s n with
  | nil => simp at hz
  | cons x r ih =>
    rw [meanLoopAny]
    by_cases h0 : 0 < x
    · have : Value.log x = .num (Real.log x) := if_pos h0
      rw [this]
      rcases List.mem_cons.1 hz with hz | hz
      · rw [← hz] at h0; exact absurd h0 (lt_irrefl _)
      · exact ih _ _ (fun y hy => h y (by simp [hy])) hz
    · have := h x (by simp)
      rw [Value.log, if_neg h0, if_pos (by linarith)]
      exact meanLoopAny_negInf _ _ fun y hy => h y (by simp [hy])

theorem meanLoopAny_positive (xs : List ℝ) (s : ℝ) (n : ℕ) (h : ∀ x ∈ xs, 0 < x) : meanLoopAny xs (.num s) n = (.num (meanLoop xs s n).1, (meanLoop xs s n).2) := by
  induction xs generalizing s n with
  | nil => rfl
  | cons x r ih =>
    rw [meanLoopAny, meanLoop]
    have : Value.log x = .num (Real.log x) := if_pos (h x (by simp))
    rw [this]
    exact ih _ _ fun y hy => h y (by simp [hy])

/-- The geometric mean of numbers that are not negative, one of which is zero, is zero, which is right: the power of it is their product. -/
theorem C141_zero_partial (xs : List ℝ) (h : ∀ x ∈ xs, 0 ≤ x) (hz : 0 ∈ xs) : geometricMeanAny xs = .ok (.num 0) ∧ ∀ m : ℝ, m ^ xs.length = xs.prod ↔ m = 0 := by
  cases xs with
  | nil => simp at hz
  | cons x r =>
    constructor
    · have := meanLoopAny_zero (x :: r) 0 0 h hz
      unfold geometricMeanAny
      simp only
      rw [this]
      rfl
    · intro m
      rw [List.prod_eq_zero hz]
      simp

/-- Of positive numbers it is the mean that the theorems above are about. -/
theorem C141_positive_partial (xs : List ℝ) (h : ∀ x ∈ xs, 0 < x) : geometricMeanAny xs = geometricMean xs >>= fun m => .ok (.num m) := by
  cases xs with
  | nil => rfl
  | cons x r =>
    unfold geometricMeanAny geometricMean
    simp only
    rw [meanLoopAny_positive _ _ _ h]
    rfl

/-- **C141 is violated** by negative numbers: the mean of numbers one of which is negative is not a number, even if they have a mean, for example if there are two and they are equal. -/
theorem C141_counterexample_negative (xs : List ℝ) (h : ∃ x ∈ xs, x < 0) : geometricMeanAny xs = .ok .nan := by
  cases xs with
  | nil => simp at h
  | cons x r =>
    have := meanLoopAny_negative (x :: r) (.num 0) 0 h
    unfold geometricMeanAny
    simp only
    rw [this]
    rfl

example : (∃ x ∈ ([-3, -3] : List ℝ), x < 0) ∧ Spec.IsGeometricMean [-3, -3] 3 := ⟨⟨-3, by simp, by norm_num⟩, by norm_num, by norm_num⟩
example : (∀ x ∈ ([2, 0, 5] : List ℝ), 0 ≤ x) ∧ (0 : ℝ) ∈ ([2, 0, 5] : List ℝ) := ⟨by simp, by simp⟩

theorem growthLoopAny_nan (r : List ℝ) (x : ℝ) (n : ℕ) : (growthLoopAny x r .nan n).1 = .nan := by
  induction r generalizing x n with
  | nil => rfl
  | cons y r ih => exact ih _ _

theorem growthLoopAny_posInf (r : List ℝ) (x : ℝ) (n : ℕ) (hx : 0 < x) (h : ∀ y ∈ r, 0 < y) : (growthLoopAny x r .posInf n).1 = .posInf := by
  induction r generalizing x n with
  | nil => rfl
  | cons y r ih =>
    have hy : 0 < y := h y (by simp)
    rw [growthLoopAny, Value.log, Value.log, if_pos hx, if_pos hy]
    exact ih _ _ hy fun z hz => h z (by simp [hz])

theorem growthLoopAny_append (r t : List ℝ) (x s : ℝ) (n : ℕ) (hx : 0 < x) (h : ∀ y ∈ r, 0 < y) :
    ∃ (s' : ℝ) (n' : ℕ) (x' : ℝ), 0 < x' ∧ n' = n + r.length ∧ growthLoopAny x (r ++ t) (.num s) n = growthLoopAny x' t (.num s') n' := by
  induction r generalizing x s n with
  | nil => exact ⟨s, n, x, hx, rfl, rfl⟩
  | cons y r ih =>
    have hy : 0 < y := h y (by simp)
    rw [List.cons_append, growthLoopAny, Value.log, Value.log, if_pos hx, if_pos hy]
    obtain ⟨s', n', x', h1, h2, h3⟩ := ih y (s + (Real.log y + -Real.log x)) (n + 1) hy fun z hz => h z (by simp [hz])
    exact ⟨s', n', x', h1, by rw [h2, List.length_cons]; omega, h3⟩

/-- The growth rate of a series that ends with zero, and was positive before, is minus one, as it should be: all is lost. -/
theorem C141_loss_partial (x : ℝ) (r : List ℝ) (hx : 0 < x) (h : ∀ y ∈ r, 0 < y) : growthRateAny (x :: r ++ [0]) = .ok (.num (-1)) ∧ ∀ g : ℝ, x * (1 + g) ^ (r ++ [0]).length = 0 ↔ g = -1 := by
  constructor
  · obtain ⟨s', n', x', h1, -, h3⟩ := growthLoopAny_append r [0] x 0 1 hx h
    rw [List.cons_append]
    unfold growthRateAny
    simp only
    rw [h3, growthLoopAny, growthLoopAny, Value.log, Value.log, if_pos h1, if_neg (lt_irrefl _), if_pos rfl]
    simp [Value.add, Value.neg, Value.over, Value.exp]
  · intro g
    simp [hx.ne']
    constructor <;> intro h <;> linarith

/-- **C141 is violated** by a series that is zero in between, at whatever time: its growth rate is not a number, although the first and the last element have a growth rate. -/
theorem C141_counterexample_interim (x z : ℝ) (r t : List ℝ) (hx : 0 < x) (h : ∀ y ∈ r, 0 < y) (hz : 0 < z) :
    growthRateAny (x :: r ++ 0 :: z :: t) = .ok .nan := by
  obtain ⟨s', n', x', h1, -, h3⟩ := growthLoopAny_append r (0 :: z :: t) x 0 1 hx h
  rw [List.cons_append]
  unfold growthRateAny
  simp only
  rw [h3, growthLoopAny, growthLoopAny]
  have e0 : Value.log 0 = .negInf := by rw [Value.log, if_neg (lt_irrefl _), if_pos rfl]
  have e1 : Value.log x' = .num (Real.log x') := if_pos h1
  have e2 : Value.log z = .num (Real.log z) := if_pos hz
  rw [e0, e1, e2]
  simp only [Value.add, Value.neg]
  rw [growthLoopAny_nan]
  rfl

/-- **C141 is violated** by a series that begins with zero and is positive from then on: its growth rate is infinite. -/
theorem C141_counterexample_beginning (y : ℝ) (r : List ℝ) (hy : 0 < y) (h : ∀ z ∈ r, 0 < z) : growthRateAny (0 :: y :: r) = .ok .posInf := by
  have e0 : Value.log 0 = .negInf := by rw [Value.log, if_neg (lt_irrefl _), if_pos rfl]
  have e1 : Value.log y = .num (Real.log y) := if_pos hy
  unfold growthRateAny
  simp only
  rw [growthLoopAny, e0, e1]
  simp only [Value.add, Value.neg]
  rw [growthLoopAny_posInf r y _ hy h]
  rfl

/-- Of positive numbers it is the growth rate that the theorems above are about. -/
theorem C141_positive_growth_partial (xs : List ℝ) (h : ∀ x ∈ xs, 0 < x) : growthRateAny xs = growthRate xs >>= fun g => .ok (.num g) := by
  have key : ∀ (r : List ℝ) (x s : ℝ) (n : ℕ), 0 < x → (∀ y ∈ r, 0 < y) → growthLoopAny x r (.num s) n = (.num (growthLoop x r s n).1, (growthLoop x r s n).2) := by
    intro r
    induction r with
    | nil => exact fun _ _ _ _ _ => rfl
    | cons y r ih =>
      intro x s n hx hr
      have hy : 0 < y := hr y (by simp)
      rw [growthLoopAny, growthLoop, Value.log, Value.log, if_pos hx, if_pos hy]
      exact ih y _ _ hy fun z hz => hr z (by simp [hz])
  cases xs with
  | nil => rfl
  | cons x r =>
    unfold growthRateAny growthRate
    simp only
    rw [key r x 0 1 (h x (by simp)) fun y hy => h y (by simp [hy])]
    simp [Value.add, Value.over, Value.exp, sub_eq_add_neg]

/-! ## Enumeration -/

theorem visit_eq : ∀ (xs : List α) (i f : ℕ), xs.length ≤ f →
    Enumerator.visit f ⟨i, xs⟩ = (xs.zipIdx i).map (fun p => (p.2, p.1))
  | [], i, f, _ => by cases f <;> simp [Enumerator.visit, Enumerator.step]
  | x :: r, i, f, h => by
    cases f with
    | zero => simp at h
    | succ f =>
      have := visit_eq r (i + 1) f (by simpa using h)
      simp [Enumerator.visit, Enumerator.step, this]

/-- A loop over `enumerate` ends after as many turns as there are elements, and turn `k` sees the index `k` and the element at `k`. -/
theorem C141_enumerate (xs : List α) (f : ℕ) (hf : xs.length ≤ f) :
    (Enumerator.visit f (Enumerator.start xs)).length = xs.length ∧
    ∀ k (hk : k < xs.length), (Enumerator.visit f (Enumerator.start xs))[k]? = some (k, xs[k]) := by
  rw [Enumerator.start, visit_eq xs 0 f hf]
  refine ⟨by simp, ?_⟩
  intro k hk
  simp [hk]

example : Enumerator.visit 5 (Enumerator.start ['a', 'b']) = [(0, 'a'), (1, 'b')] := by decide

end Esl.Averages
