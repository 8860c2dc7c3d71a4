import Verif.Props.Algorithms
import Verif.Props.Grid
/-! C61, C62 in the arithmetic of floating point numbers. -/
namespace Esl.Simplex
open Esl.Algo Esl.Double Esl.Grid

/-! ## C61: allocations -/

theorem sum_bounds (l : List Rat) (hl : ∀ f ∈ l, 0 ≤ f) (a : Rat) (ha : binary64 a = a) (h0 : 0 ≤ a) :
    a ≤ l.foldl (fun sum f => binary64 (sum + f)) a ∧
      |l.foldl (fun sum f => binary64 (sum + f)) a - (a + l.sum)| ≤ 2 * l.length * l.foldl (fun sum f => binary64 (sum + f)) a / 2 ^ 53 := by
  induction l generalizing a with
  | nil => simp
  | cons f l ih =>
    rw [List.foldl_cons, List.sum_cons]
    have hf := hl f List.mem_cons_self
    have hx : 0 ≤ a + f := by linarith
    have h1 : a ≤ binary64 (a + f) := by
      have := binary64_mono (p := a) (q := a + f) (by linarith)
      rwa [ha] at this
    obtain ⟨i1, i2⟩ := ih (fun g hg => hl g (List.mem_cons_of_mem _ hg)) (binary64 (a + f)) (binary64_idem _) (le_trans h0 h1)
    generalize l.foldl (fun sum f => binary64 (sum + f)) (binary64 (a + f)) = R at i1 i2 ⊢
    refine ⟨le_trans h1 i1, ?_⟩
    have he := abs_le.1 (binary64_err (a + f))
    rw [abs_of_nonneg hx] at he
    have hi := abs_le.1 i2
    have hR : a + f ≤ 2 * R := by linarith [he.1]
    rw [abs_le]
    push_cast [List.length_cons]
    constructor
    · have : -((2 * ((l.length : Rat) + 1) * R) / 2 ^ 53) = -(2 * l.length * R / 2 ^ 53) - 2 * R / 2 ^ 53 := by ring
      rw [this]
      linarith [hi.1, he.1]
    · have : ((2 * ((l.length : Rat) + 1) * R) / 2 ^ 53) = (2 * l.length * R / 2 ^ 53) + 2 * R / 2 ^ 53 := by ring
      rw [this]
      linarith [hi.2, he.2]

/-- **C61, in floating point numbers (partial).** For nonnegative fractions whose rounded values sum to no more than the rounded value of the computed sum (which fits an `int`), the result has one nonnegative integer per fraction, each the
rounded fraction or one more; they sum to the rounded value of the computed sum, and that is the exact sum up to one half and roundings; the additional ones go to the fractions with the largest remainders, unless to those that end in a half. Missing: the case that the rounded
values sum to more, and that the result is the nearest integer of the exact sum: see the counterexamples. -/
theorem C61_binary64_partial (fractions : List Rat) (indices : List Nat) (hsort : Algo.Spec.SortedBy fractions indices) (hf : ∀ f ∈ fractions, 0 ≤ f)
    (hle : (fractions.map Algo.Spec.rounded).sum ≤ Algo.Spec.rounded (Algo.Spec.total binary64 fractions)) (hint : Algo.Spec.rounded (Algo.Spec.total binary64 fractions) < 2 ^ 31) :
    ∃ r, allocate binary64 indices fractions = .ok r ∧ r.length = fractions.length ∧ (∀ z ∈ r, 0 ≤ z) ∧
      |((r.sum : Int) : Rat) - fractions.sum| ≤ 1 / 2 + fractions.length / 2 ^ 21 ∧
      (∀ (i : Nat) (f : Rat), fractions[i]? = some f → ∃ n, Algo.Spec.Nearest f n ∧ (r[i]? = some n ∨ r[i]? = some (n + 1))) ∧
      (∀ (i j : Nat) (f g : Rat) (n : Int), fractions[i]? = some f → fractions[j]? = some g → Algo.Spec.Nearest f n → f ≠ n - 1 / 2 → r[i]? = some (n + 1) →
        ∀ m, Algo.Spec.Nearest g m → r[j]? = some m → g - m ≤ f - n) := by
  rw [← roundAway_rounded, show Algo.Spec.total binary64 fractions = sumOf binary64 fractions from rfl] at hle hint
  obtain ⟨b1, b2⟩ := sum_bounds fractions hf 0 binary64_zero (le_refl 0)
  have hS : fractions.foldl (fun sum f => binary64 (sum + f)) 0 = sumOf binary64 fractions := rfl
  rw [hS] at b1 b2
  rw [zero_add] at b2
  have htn := roundAway_nearest _ b1
  have hR : sumOf binary64 fractions ≤ 2 ^ 31 := by
    have h1 : roundAway (sumOf binary64 fractions) ≤ 2 ^ 31 - 1 := by omega
    have h2 : ((roundAway (sumOf binary64 fractions) : Int) : Rat) ≤ 2 ^ 31 - 1 := by exact_mod_cast h1
    have := htn.2
    linarith
  have herr : 2 * (fractions.length : Rat) * sumOf binary64 fractions / 2 ^ 53 ≤ fractions.length / 2 ^ 21 := by
    have hn : (0 : Rat) ≤ fractions.length := by positivity
    have : 2 * (fractions.length : Rat) * sumOf binary64 fractions ≤ 2 * fractions.length * 2 ^ 31 := mul_le_mul_of_nonneg_left hR (by positivity)
    calc 2 * (fractions.length : Rat) * sumOf binary64 fractions / 2 ^ 53 ≤ 2 * fractions.length * 2 ^ 31 / 2 ^ 53 := div_le_div_of_nonneg_right this (by norm_num)
      _ = fractions.length / 2 ^ 21 := by ring
  have b2' := abs_le.1 b2
  have hk : roundAway (sumOf binary64 fractions) - (fractions.map roundAway).sum ≤ fractions.length := by
    have h1 := sum_rounding fractions hf
    have hn : (0 : Rat) ≤ fractions.length := by positivity
    have h2 : (fractions.length : Rat) / 2 ^ 21 ≤ fractions.length / 2 := by
      rw [div_le_div_iff₀ (by norm_num) (by norm_num)]
      linarith
    have h3 : ((roundAway (sumOf binary64 fractions) : Int) : Rat) - (((fractions.map roundAway).sum : Int) : Rat) < fractions.length + 1 := by
      have := htn.1
      linarith [b2'.2]
    have : roundAway (sumOf binary64 fractions) - (fractions.map roundAway).sum < fractions.length + 1 := by exact_mod_cast h3
    omega
  obtain ⟨r, h1, h2, h3, h4, h5, h6⟩ := allocate_ok binary64 fractions indices hsort hf b1 hle hint hk
  refine ⟨r, h1, h2, h3, ?_, h5, h6⟩
  obtain ⟨n1, n2⟩ := h4
  rw [abs_le]
  constructor <;> linarith [b2'.1, b2'.2]

/-- The number nearest to 0.05. -/
def twentieth : Rat := 3602879701896397 / 2 ^ 56

/-- The conditions can be met: three times the number nearest to 4/3. -/
example : Algo.Spec.SortedBy [binary64 (4 / 3), binary64 (4 / 3), binary64 (4 / 3)] [0, 1, 2] ∧
    (([binary64 (4 / 3), binary64 (4 / 3), binary64 (4 / 3)] : List Rat).map Algo.Spec.rounded).sum ≤ Algo.Spec.rounded (Algo.Spec.total binary64 [binary64 (4 / 3), binary64 (4 / 3), binary64 (4 / 3)]) ∧
    allocate binary64 [0, 1, 2] [binary64 (4 / 3), binary64 (4 / 3), binary64 (4 / 3)] = .ok [2, 1, 1] := by
  refine ⟨⟨List.Perm.refl _, ?_⟩, by decide +kernel, by decide +kernel⟩
  simp [List.pairwise_cons]

/-- **C61, negation.** In floating point numbers the result need not sum to the rounded total: ten times 0.05 is more than one half, but computed to be less, and nothing is allocated. -/
theorem C61_counterexample_sum : binary64 (5 / 100) = twentieth ∧ Algo.Spec.Nearest (List.replicate 10 twentieth).sum 1 ∧
    ∃ r, allocate binary64 (List.range 10) (List.replicate 10 twentieth) = .ok r ∧ r.sum = 0 := by
  refine ⟨by decide +kernel, ?_, List.replicate 10 0, by decide +kernel, by decide⟩
  unfold Algo.Spec.Nearest
  decide +kernel

/-! ## C62: barycentric coordinates -/

/-- The computed fraction. -/
def fraction (divisions n : Nat) : Rat := binary64 ((n : Rat) / binary64 divisions)

theorem fraction_nonneg (divisions n : Nat) : 0 ≤ fraction divisions n :=
  binary64_nonneg _ (div_nonneg (by positivity) (binary64_nonneg _ (by positivity)))

theorem fraction_lt (divisions : Nat) (hd : 0 < divisions) (hd' : divisions ≤ 2 ^ 31) (n m : Nat) (h : n < m) (hm : m < divisions) : fraction divisions n < fraction divisions m := by
  have e : binary64 (divisions : Rat) = divisions := by
    have := binary64_int (divisions : Int) (by rw [abs_of_nonneg (by omega)]; omega)
    exact_mod_cast this
  unfold fraction
  rw [e]
  have hD : (0 : Rat) < divisions := by exact_mod_cast hd
  have hn0 : (0 : Rat) ≤ (n : Rat) / divisions := by positivity
  have hm0 : (0 : Rat) ≤ (m : Rat) / divisions := by positivity
  have h1 := (abs_le.1 (binary64_err ((n : Rat) / divisions))).2
  have h2 := (abs_le.1 (binary64_err ((m : Rat) / divisions))).1
  rw [abs_of_nonneg hn0] at h1
  rw [abs_of_nonneg hm0] at h2
  have hstep : (n : Rat) / divisions + 1 / divisions ≤ (m : Rat) / divisions := by
    rw [← add_div]
    apply div_le_div_of_nonneg_right _ (le_of_lt hD)
    exact_mod_cast h
  have hm1 : (m : Rat) / divisions < 1 := by
    rw [div_lt_one hD]
    exact_mod_cast hm
  have hmin : 1 / (2 : Rat) ^ 31 ≤ 1 / divisions := by
    apply one_div_le_one_div_of_le hD
    exact_mod_cast hd'
  linarith

/-- What is true of every point. -/
theorem barycentric_points (divisions : Nat) (d : Nat) (total : Rat) (ht : Grid.Spec.Number total) (h0 : 0 ≤ total) :
    ∀ v ∈ barycentric binary64 divisions d total, v.length = d + 1 ∧ (∀ x ∈ v, 0 ≤ x) ∧ |v.sum - total| ≤ d * total / 2 ^ 53 := by
  induction d generalizing total with
  | zero =>
    intro v hv
    simp only [barycentric, List.mem_singleton] at hv
    subst hv
    simp [h0]
  | succ d ih =>
    intro v hv
    simp only [barycentric, List.mem_flatMap, List.mem_map] at hv
    obtain ⟨n, hn, t, htm, rfl⟩ := hv
    have hle : fraction divisions n ≤ total := by
      have := List.all_eq_true.1 (List.all_takeWhile (p := fun n : Nat => decide (binary64 ((n : Rat) / binary64 divisions) ≤ total)) (l := List.range divisions)) n hn
      exact of_decide_eq_true this
    have hf0 := fraction_nonneg divisions n
    have hr0 : 0 ≤ binary64 (total - fraction divisions n) := binary64_nonneg _ (by linarith)
    have hrt : binary64 (total - fraction divisions n) ≤ total := by
      have := binary64_mono (p := total - fraction divisions n) (q := total) (by linarith)
      have ht' : binary64 total = total := ht
      rwa [ht'] at this
    obtain ⟨i1, i2, i3⟩ := ih (binary64 (total - fraction divisions n)) (binary64_idem _) hr0 t htm
    refine ⟨by simp [i1], ?_, ?_⟩
    · intro x hx
      rcases List.mem_append.1 hx with hx | hx
      · exact i2 x hx
      · rw [List.mem_singleton.1 hx]
        exact hf0
    · rw [List.sum_append, List.sum_singleton]
      show |t.sum + fraction divisions n - total| ≤ _
      have he := abs_le.1 (binary64_err (total - fraction divisions n))
      rw [abs_of_nonneg (by linarith : 0 ≤ total - fraction divisions n)] at he
      have hi := abs_le.1 i3
      have hd : (d : Rat) * binary64 (total - fraction divisions n) / 2 ^ 53 ≤ d * total / 2 ^ 53 :=
        div_le_div_of_nonneg_right (mul_le_mul_of_nonneg_left hrt (by positivity)) (by norm_num)
      have e : ((d + 1 : Nat) : Rat) * total / 2 ^ 53 = d * total / 2 ^ 53 + total / 2 ^ 53 := by push_cast; ring
      have hs : (total - fraction divisions n) / 2 ^ 53 ≤ total / 2 ^ 53 := div_le_div_of_nonneg_right (by linarith) (by norm_num)
      rw [e, abs_le]
      constructor
      · linarith [hi.1, he.1]
      · linarith [hi.2, he.2]

/-- **C62, in floating point numbers (partial).** For at least one dimension, one to `2^31` divisions and a nonnegative total: each sample has the requested dimension and nonnegative coordinates; its exact sum is the total, up to one rounding
per coordinate but the first; and no sample occurs twice. Missing: that the sum is the total, and that all points are sampled, which are false, see below. -/
theorem C62_binary64_partial (dimensions divisions : Nat) (hdim : 0 < dimensions) (hd : 0 < divisions) (hd' : divisions ≤ 2 ^ 31) (total : Rat) (ht : Grid.Spec.Number total) (h0 : 0 ≤ total) :
    ∃ samples, sampleBarycentric binary64 dimensions divisions total = .ok samples ∧ samples.Nodup ∧
      ∀ v ∈ samples, v.length = dimensions ∧ (∀ x ∈ v, 0 ≤ x) ∧ |v.sum - total| ≤ ((dimensions - 1 : Nat) : Rat) * total / 2 ^ 53 := by
  obtain ⟨d, rfl⟩ : ∃ d, dimensions = d + 1 := ⟨dimensions - 1, by omega⟩
  refine ⟨_, rfl, ?_, barycentric_points divisions d total ht h0⟩
  clear hdim h0 ht
  induction d generalizing total with
  | zero => simp [barycentric]
  | succ d ih =>
    simp only [barycentric]
    rw [List.nodup_flatMap]
    constructor
    · intro n _
      exact (ih _).map fun a b h => List.append_cancel_right h
    · have hnd : ((List.range divisions).takeWhile fun n : Nat => decide (binary64 ((n : Rat) / binary64 divisions) ≤ total)).Pairwise fun a b => a < b ∧ b < divisions := by
        have hp : (List.range divisions).Pairwise fun a b => a < b ∧ b < divisions := by
          rw [List.pairwise_iff_getElem]
          intro i j hi hj hij
          simp only [List.getElem_range]
          rw [List.length_range] at hj
          omega
        exact hp.sublist (List.takeWhile_sublist _)
      refine hnd.imp fun {a b} hab => ?_
      intro v hv hv'
      obtain ⟨t, _, rfl⟩ := List.mem_map.1 hv
      obtain ⟨t', _, ht'⟩ := List.mem_map.1 hv'
      have := (List.append_inj' ht' rfl).2
      injection this with this
      have hlt := fraction_lt divisions hd hd' a b hab.1 hab.2
      unfold fraction at hlt
      linarith

/-- The conditions can be met. -/
example : (0 : Nat) < 3 ∧ (0 : Nat) < 10 ∧ 10 ≤ 2 ^ 31 ∧ Grid.Spec.Number 1 ∧ (0 : Rat) ≤ 1 := ⟨by decide, by decide, by decide, by unfold Grid.Spec.Number; decide +kernel, by decide⟩

/-- The numbers nearest to 0.1 and 0.9. -/
def tenth : Rat := 3602879701896397 / 2 ^ 55
def nineTenths : Rat := 8106479329266893 / 2 ^ 53

example : binary64 (1 / 10) = tenth ∧ binary64 (9 / 10) = nineTenths := by decide +kernel

/-- **C62, negation.** In floating point numbers the coordinates need not sum to the total: 0.9, 0.1 and 0 sum to a number that is not 1. -/
theorem C62_counterexample_sum : ∃ samples, sampleBarycentric binary64 3 10 1 = .ok samples ∧ [nineTenths, tenth, 0] ∈ samples ∧ nineTenths + tenth + 0 ≠ 1 :=
  ⟨_, rfl, by decide +kernel, by decide +kernel⟩

/-- **C62, negation.** In floating point numbers the samples are not symmetric: with 0.1 as the last coordinate 0.9 is sampled before it, but with 0.9 as the last coordinate 0.1 is not sampled before it; nothing but 0 is. -/
theorem C62_counterexample_missing : ∃ samples, sampleBarycentric binary64 3 10 1 = .ok samples ∧ [0, nineTenths, tenth] ∈ samples ∧
    (∀ v ∈ samples, v[2]? = some nineTenths → v[1]? = some 0) ∧ ∃ exact, sampleBarycentric id 3 10 1 = .ok exact ∧ [0, 1 / 10, 9 / 10] ∈ exact :=
  ⟨_, rfl, by decide +kernel, by decide +kernel, _, rfl, by decide +kernel⟩

end Esl.Simplex
