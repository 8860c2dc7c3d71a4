import Verif.Model.Quantity
/-! # C05-C07: quantities and integer powers -/
namespace Esl.Quantity

/-- Specification of a fair split of `amount` into `d` parts. -/
def Spec.FairSplit (amount d : Nat) (parts : List Nat) : Prop :=
  parts.length = d ∧ parts.sum = amount ∧
  (∀ x ∈ parts, ∀ y ∈ parts, x ≤ y + 1) ∧
  parts.Pairwise (· ≥ ·)

theorem sum_replicate' (n x : Nat) : (List.replicate n x).sum = n * x := by
  induction n with
  | zero => simp
  | succ n ih => simp [List.replicate_succ, ih, Nat.succ_mul, Nat.add_comm]

theorem divide_fair (amount d : Nat) (hd : 0 < d) (ha : amount < 2 ^ 64) :
    Spec.FairSplit amount d (divide amount d) := by
  have hr : amount % d < d := Nat.mod_lt _ hd
  have hdm := Nat.div_add_mod amount d
  unfold divide
  by_cases h0 : amount % d = 0
  · refine ⟨by simp [h0], ?_, ?_, ?_⟩
    · simp only [h0, List.replicate_zero, List.nil_append, sum_replicate', Nat.sub_zero]
      omega
    · intro x hx y hy
      simp [h0] at hx hy
      omega
    · rw [h0]; simp [List.pairwise_replicate]
  · have hq : amount / d + 1 < 2 ^ 64 := by
      have h2 : 2 ≤ d := by omega
      have : amount / d ≤ amount / 2 := Nat.div_le_div_left h2 (by decide)
      omega
    have hu : u64 (amount / d + 1) = amount / d + 1 := Nat.mod_eq_of_lt hq
    rw [hu]
    refine ⟨?_, ?_, ?_, ?_⟩
    · simp; omega
    · rw [List.sum_append, sum_replicate', sum_replicate', Nat.mul_add]
      have : (amount % d + (d - amount % d)) * (amount / d) = d * (amount / d) := by
        congr 1; omega
      rw [Nat.add_mul] at this
      omega
    · intro x hx y hy
      rcases List.mem_append.1 hx with h | h <;> rcases List.mem_append.1 hy with g | g <;>
        rw [List.eq_of_mem_replicate h, List.eq_of_mem_replicate g] <;> omega
    · rw [List.pairwise_append]
      refine ⟨by simp [List.pairwise_replicate], by simp [List.pairwise_replicate], ?_⟩
      intro x hx y hy
      rw [List.eq_of_mem_replicate hx, List.eq_of_mem_replicate hy]
      omega

theorem div_eq_divide (amount d : Nat) (hd : 0 < d) : div amount d = .ok (divide amount d) := by
  have hr : amount % d < d := Nat.mod_lt _ hd
  unfold div divide
  rw [if_neg (by omega)]
  simp only
  split
  · congr 1
    apply List.ext_getElem
    · simp; omega
    · intro i h1 h2
      simp only [List.getElem_mapIdx, List.getElem_replicate, List.getElem_append, List.length_replicate]
      split <;> rfl
  · congr 1
    apply List.ext_getElem
    · simp; omega
    · intro i h1 h2
      simp only [List.getElem_mapIdx, List.getElem_replicate, List.getElem_append, List.length_replicate]
      by_cases h : i < amount % d
      · rw [if_neg (by omega), dif_pos h]
      · rw [if_pos (by omega), dif_neg h]

/-- **C05.** `quantity / d` and `divide<d>` give `d` parts, sum = amount, differing by at most one,
larger parts first. -/
theorem C05_split (amount d : Nat) (hd : 0 < d) (ha : amount < 2 ^ 64) :
    Spec.FairSplit amount d (divide amount d) ∧
    ∃ parts, div amount d = .ok parts ∧ Spec.FairSplit amount d parts :=
  ⟨divide_fair amount d hd ha, _, div_eq_divide amount d hd, divide_fair amount d hd ha⟩

example : div 11 4 = .ok [3, 3, 3, 2] ∧ div 9 4 = .ok [3, 2, 2, 2] ∧ divide 2 3 = [1, 1, 0] := by decide
/-- The divisor must be positive: the code divides by it. -/
example : div 11 0 = .ub := by decide

/-- **C06 (partial).** Subtraction is exact or throws, and a throwing `-=` leaves the operand as it
was; the increments move the amount up by one below the maximum; postfix decrement moves a positive
amount down by one and returns the old amount. Missing: prefix decrement (see
`C06_counterexample_predecrement`) and postfix decrement of zero (see
`C06_counterexample_postdecrement`), for which the property is false of the code. -/
theorem C06_subtraction_partial (a b : Nat) (ha : a < 2 ^ 64) :
    (b ≤ a → ∃ c, sub a b = .ok c ∧ c + b = a ∧ subAssign a b = (c, false)) ∧
    (a < b → sub a b = .throws ∧ subAssign a b = (a, true)) ∧
    (a + 1 < 2 ^ 64 → preInc a = a + 1 ∧ postInc a = (a, a + 1)) ∧
    (0 < a → (postDec a).1 = a ∧ (postDec a).2 + 1 = a) := by
  refine ⟨?_, ?_, ?_, ?_⟩
  · intro h
    have hn : ¬ a < b := by omega
    exact ⟨a - b, by simp [sub, hn], by omega, by simp [subAssign, sub, hn]⟩
  · intro h; simp [subAssign, sub, h]
  · intro h; simp only [preInc, postInc, u64]; rw [Nat.mod_eq_of_lt h]; exact ⟨rfl, rfl⟩
  · intro h; simp only [postDec, u64]; refine ⟨trivial, ?_⟩; omega

/-- **C06 (negation).** Prefix decrement never decrements: it increases every amount below the
maximum. -/
theorem C06_counterexample_predecrement (a : Nat) (h : a + 1 < 2 ^ 64) : preDec a = a + 1 := by
  unfold preDec u64; exact Nat.mod_eq_of_lt h

/-- **C06 (negation).** Postfix decrement of zero wraps to the maximum instead of throwing. -/
theorem C06_counterexample_postdecrement : postDec 0 = (0, 2 ^ 64 - 1) := by decide

example : sub 5 3 = .ok 2 ∧ sub 3 5 = .throws ∧ subAssign 3 5 = (3, true) := by decide

/-- **C07.** `nonnegative_integer_power` is the power modulo `2^w`. -/
theorem C07_power (w x p : Nat) : power w x p = x ^ p % 2 ^ w := by
  induction p using Nat.strongRecOn with
  | _ p ih =>
    unfold power
    split
    · rename_i h; subst h; simp
    · split
      · rename_i h; subst h; simp
      · rename_i h0 h1
        have ih' := ih (p / 2) (by omega)
        simp only [ih']
        split
        · rename_i he
          rw [← Nat.mul_mod, ← Nat.pow_add]
          congr 2
          omega
        · rename_i ho
          have e : (x * (x ^ (p / 2) % 2 ^ w)) % 2 ^ w = (x * x ^ (p / 2)) % 2 ^ w := by
            rw [Nat.mul_mod, Nat.mod_mod, ← Nat.mul_mod]
          rw [e, ← Nat.mul_mod]
          congr 1
          rw [Nat.mul_assoc, ← Nat.pow_add, ← Nat.pow_succ']
          congr 1
          omega

/-- **C07.** Without overflow the result is the exact power. -/
theorem C07_power_exact (w x p : Nat) (h : x ^ p < 2 ^ w) : power w x p = x ^ p := by
  rw [C07_power, Nat.mod_eq_of_lt h]

example : power 32 10 9 = 1000000000 := by rw [C07_power]

end Esl.Quantity
