import Verif.Model.Payout
import Verif.Props.Company
import Verif.Lemmas.Double
import Mathlib.Tactic.NormNum
import Mathlib.Tactic.Positivity
/-! C53: dividends and profits, in the arithmetic of floating point numbers. -/
namespace Esl.Payout
open Esl.Company Esl.Double

/-! Without rounding, the model is the one over exact arithmetic. -/

theorem dividendLoop_id (tender : Money) (fraction : Rat) (m : Register Nat) (r : Register (Nat × Price)) :
    dividendLoop id tender fraction m r = Company.dividendLoop tender fraction m r := by
  induction m generalizing r with
  | nil => rfl
  | cons e m ih =>
    obtain ⟨s, q⟩ := e
    rw [dividendLoop, Company.dividendLoop]
    have : cashPrice id tender (id (fraction * id (q : Rat))) = Company.cashPrice tender (fraction * q) := rfl
    rw [this]
    simp only [ih]

theorem computeDividend_id (m : Register Nat) (tender : Money) (profit : Price) : computeDividend id m tender profit = Company.computeDividend m tender profit := by
  unfold computeDividend Company.computeDividend
  rw [dividendLoop_id]
  rfl

/-! ## Relative errors -/

/-- `x` is `y`, up to `k` roundings. -/
def Near (k : Nat) (x y : Rat) : Prop := y * (1 - 1 / 2 ^ 53) ^ k ≤ x ∧ x * (1 - 1 / 2 ^ 53) ^ k ≤ y

theorem near_refl (y : Rat) : Near 0 y y := by unfold Near; simp

theorem near_nonneg {k : Nat} {x y : Rat} (h : Near k x y) (hy : 0 ≤ y) : 0 ≤ x := by
  refine le_trans ?_ h.1
  apply mul_nonneg hy
  apply pow_nonneg
  norm_num

theorem near_round {k : Nat} {x y : Rat} (h : Near k x y) (hy : 0 ≤ y) : Near (k + 1) (binary64 x) y := by
  have hx := near_nonneg h hy
  have he := abs_le.1 (binary64_err x)
  rw [abs_of_nonneg hx] at he
  obtain ⟨h1, h2⟩ := h
  constructor
  · rw [pow_succ, ← mul_assoc]
    have : x * (1 - 1 / 2 ^ 53) ≤ binary64 x := by linarith [he.1]
    refine le_trans ?_ this
    exact mul_le_mul_of_nonneg_right h1 (by norm_num)
  · rw [pow_succ, mul_comm _ (1 - 1 / 2 ^ 53 : Rat), ← mul_assoc]
    have : binary64 x * (1 - 1 / 2 ^ 53) ≤ x := by
      have h : binary64 x ≤ x * (1 + 1 / 2 ^ 53) := by linarith [he.2]
      calc binary64 x * (1 - 1 / 2 ^ 53) ≤ x * (1 + 1 / 2 ^ 53) * (1 - 1 / 2 ^ 53) := mul_le_mul_of_nonneg_right h (by norm_num)
        _ = x * ((1 + 1 / 2 ^ 53) * (1 - 1 / 2 ^ 53)) := by ring
        _ ≤ x * 1 := mul_le_mul_of_nonneg_left (by norm_num) hx
        _ = x := mul_one x
    refine le_trans ?_ h2
    exact mul_le_mul_of_nonneg_right this (pow_nonneg (by norm_num) _)

theorem near_mul {k l : Nat} {x y x' y' : Rat} (h : Near k x y) (h' : Near l x' y') (hy : 0 ≤ y) (hy' : 0 ≤ y') : Near (k + l) (x * x') (y * y') := by
  have hx := near_nonneg h hy
  have hx' := near_nonneg h' hy'
  constructor
  · rw [pow_add]
    calc y * y' * ((1 - 1 / 2 ^ 53) ^ k * (1 - 1 / 2 ^ 53) ^ l) = (y * (1 - 1 / 2 ^ 53) ^ k) * (y' * (1 - 1 / 2 ^ 53) ^ l) := by ring
      _ ≤ x * x' := mul_le_mul h.1 h'.1 (mul_nonneg hy' (pow_nonneg (by norm_num) _)) hx
  · rw [pow_add]
    calc x * x' * ((1 - 1 / 2 ^ 53) ^ k * (1 - 1 / 2 ^ 53) ^ l) = (x * (1 - 1 / 2 ^ 53) ^ k) * (x' * (1 - 1 / 2 ^ 53) ^ l) := by ring
      _ ≤ y * y' := mul_le_mul h.2 h'.2 (mul_nonneg hx' (pow_nonneg (by norm_num) _)) hy

theorem near_inv {k : Nat} {x y : Rat} (h : Near k x y) (hy : 0 < y) : Near k (1 / x) (1 / y) := by
  have hx : 0 < x := lt_of_lt_of_le (mul_pos hy (pow_pos (by norm_num) _)) h.1
  constructor
  · rw [one_div_mul_eq_div, div_le_div_iff₀ hy hx, mul_comm, one_mul]
    exact h.2
  · rw [one_div_mul_eq_div, div_le_div_iff₀ hx hy, mul_comm, one_mul]
    exact h.1

/-- Dividing by a converted number is one more rounding. -/
theorem near_div {k : Nat} {x y t : Rat} (h : Near k x y) (hy : 0 ≤ y) (ht : 0 < t) : Near (k + 1) (x / binary64 t) (y / t) := by
  have := near_mul h (near_inv (near_round (near_refl t) (le_of_lt ht)) ht) hy (by positivity)
  rwa [mul_one_div, mul_one_div] at this

theorem real_near (profit : Price) (hd : 0 < profit.valuation.denominator) (hp : 0 < profit.value) :
    Near 3 (real binary64 profit) ((profit.value : Rat) / profit.valuation.denominator) := by
  have hp' : (0 : Rat) ≤ profit.value := by exact_mod_cast (le_of_lt hp)
  have hd' : (0 : Rat) < profit.valuation.denominator := by exact_mod_cast hd
  exact near_round (near_div (near_round (near_refl _) hp') hp' hd') (by positivity)

/-- What is converted to units differs from the exact part of the profit by at most nine roundings. -/
theorem amount_near (profit : Price) (hd : 0 < profit.valuation.denominator) (hp : 0 < profit.value) (T q : Nat) (hT : 0 < T) :
    Near 9 (binary64 (binary64 (binary64 (real binary64 profit / binary64 T) * binary64 q) * binary64 profit.valuation.denominator)) ((profit.value : Rat) * q / T) := by
  have hp' : (0 : Rat) ≤ profit.value := by exact_mod_cast (le_of_lt hp)
  have hd' : (0 : Rat) < profit.valuation.denominator := by exact_mod_cast hd
  have hT' : (0 : Rat) < T := by exact_mod_cast hT
  have hq' : (0 : Rat) ≤ q := by exact_mod_cast Nat.zero_le q
  have h1 := near_round (near_div (real_near profit hd hp) (by positivity) hT') (by positivity)
  have h2 := near_round (near_mul h1 (near_round (near_refl _) hq') (by positivity) hq') (by positivity)
  have h3 := near_round (near_mul h2 (near_round (near_refl _) (le_of_lt hd')) (by positivity) (le_of_lt hd')) (by positivity)
  have e : (profit.value : Rat) / profit.valuation.denominator / T * q * profit.valuation.denominator = profit.value * q / T := by
    field_simp
  rw [e] at h3
  exact h3

/-- With nine roundings, a number of at most `2^49` changes by less than one, and in proportion. -/
theorem near_nine {x y : Rat} (h : Near 9 x y) (hy : 0 ≤ y) : y * (1 - 10 / 2 ^ 53) ≤ x ∧ x ≤ y * (1 + 10 / 2 ^ 53) := by
  obtain ⟨h1, h2⟩ := h
  constructor
  · refine le_trans ?_ h1
    exact mul_le_mul_of_nonneg_left (by norm_num) hy
  · have hx := near_nonneg ⟨h1, h2⟩ hy
    have : x * ((1 - 1 / 2 ^ 53) ^ 9 * (1 + 10 / 2 ^ 53)) ≤ y * (1 + 10 / 2 ^ 53) := by
      rw [← mul_assoc]
      exact mul_le_mul_of_nonneg_right h2 (by norm_num)
    refine le_trans ?_ this
    calc x = x * 1 := (mul_one x).symm
      _ ≤ _ := mul_le_mul_of_nonneg_left (by norm_num) hx

/-- The units of the dividend of a class of `q` out of `T` shares. -/
def units (profit : Price) (T q : Nat) : Int :=
  truncate (binary64 (binary64 (binary64 (real binary64 profit / binary64 T) * binary64 q) * binary64 profit.valuation.denominator))

theorem truncate_nonneg (x : Rat) (h : 0 ≤ x) : 0 ≤ truncate x ∧ (truncate x : Rat) ≤ x ∧ x < truncate x + 1 := by
  unfold truncate
  rw [if_pos h]
  exact ⟨Int.floor_nonneg.2 h, Int.floor_le x, Int.lt_floor_add_one x⟩

/-- The units are not negative, and compare with the exact part of the profit. -/
theorem units_bounds (profit : Price) (hd : 0 < profit.valuation.denominator) (hp : 0 < profit.value) (T q : Nat) (hT : 0 < T) :
    0 ≤ units profit T q ∧ (units profit T q : Rat) ≤ (profit.value : Rat) * q / T * (1 + 10 / 2 ^ 53) ∧ (profit.value : Rat) * q / T * (1 - 10 / 2 ^ 53) < units profit T q + 1 := by
  have hp' : (0 : Rat) ≤ profit.value := by exact_mod_cast (le_of_lt hp)
  have hy : 0 ≤ (profit.value : Rat) * q / T := by positivity
  have hn := amount_near profit hd hp T q hT
  have h9 := near_nine hn hy
  have ht := truncate_nonneg _ (near_nonneg hn hy)
  unfold units
  exact ⟨ht.1, le_trans ht.2.1 h9.2, lt_of_le_of_lt h9.1 ht.2.2⟩

theorem dividendLoop_eq (profit : Price) (hd : 0 < profit.valuation.denominator) (hp : 0 < profit.value) (hp' : profit.value ≤ 2 ^ 49) (T : Nat) (hT : 0 < T)
    (m : Register Nat) (hm : Company.Spec.Ascending m) (hq : ∀ e ∈ m, e.2 ≤ T) (r : Register (Nat × Price)) (hr : ∀ a ∈ r, ∀ b ∈ m, a.1.rank < b.1.rank) :
    dividendLoop binary64 profit.valuation (binary64 (real binary64 profit / binary64 T)) m r =
      .ok (r ++ (m.filter fun e => e.1.dividend).map fun e => (e.1, e.2, ⟨units profit T e.2, profit.valuation⟩)) := by
  induction m generalizing r with
  | nil => simp [dividendLoop]
  | cons e m ih =>
    obtain ⟨s, q⟩ := e
    unfold Company.Spec.Ascending at hm ih
    rw [List.pairwise_cons] at hm
    have hq' := fun x hx => hq x (List.mem_cons_of_mem _ hx)
    rw [dividendLoop]
    by_cases hs : s.dividend = true
    · have hc : cashPrice binary64 profit.valuation (binary64 (binary64 (real binary64 profit / binary64 T) * binary64 q)) = .ok ⟨units profit T q, profit.valuation⟩ := by
        obtain ⟨u1, u2, -⟩ := units_bounds profit hd hp T q hT
        have hqT : (q : Rat) / T ≤ 1 := by
          rw [div_le_one (by exact_mod_cast hT)]
          exact_mod_cast hq (s, q) List.mem_cons_self
        have hpr : (0 : Rat) ≤ profit.value := by exact_mod_cast (le_of_lt hp)
        have hpr' : (profit.value : Rat) ≤ 2 ^ 49 := by exact_mod_cast hp'
        have : (units profit T q : Rat) < 2 ^ 63 := by
          have h1 : (profit.value : Rat) * q / T ≤ profit.value := by
            rw [mul_div_assoc]
            calc (profit.value : Rat) * (q / T) ≤ profit.value * 1 := mul_le_mul_of_nonneg_left hqT hpr
              _ = _ := mul_one _
          have h2 : (profit.value : Rat) * q / T * (1 + 10 / 2 ^ 53) ≤ profit.value * (1 + 10 / 2 ^ 53) := mul_le_mul_of_nonneg_right h1 (by norm_num)
          linarith
        have : units profit T q < 2 ^ 63 := by exact_mod_cast this
        unfold cashPrice
        show (if -2 ^ 63 ≤ units profit T q ∧ units profit T q < 2 ^ 63 then Outcome.ok _ else _) = _
        rw [if_pos (by omega)]
        rfl
      rw [if_pos hs, hc]
      simp only [Outcome.bind_ok]
      rw [insert_last r s _ fun a ha => hr a ha (s, q) List.mem_cons_self, ih hm.2 hq' _ ?_]
      · rw [List.filter_cons, if_pos hs, List.map_cons, List.append_assoc]; rfl
      · intro a ha b hb
        rcases List.mem_append.1 ha with ha | ha
        · exact hr a ha b (List.mem_cons_of_mem _ hb)
        · rw [List.mem_singleton] at ha; rw [ha]; exact hm.1 b hb
    · rw [if_neg hs, ih hm.2 hq' r fun a ha b hb => hr a ha b (List.mem_cons_of_mem _ hb)]
      rw [List.filter_cons, if_neg hs]

theorem real_pos (profit : Price) (hd : 0 < profit.valuation.denominator) (hp : 0 < profit.value) : 0 < real binary64 profit := by
  have hp' : (0 : Rat) < profit.value := by exact_mod_cast hp
  have hd' : (0 : Rat) < profit.valuation.denominator := by exact_mod_cast hd
  refine lt_of_lt_of_le ?_ (real_near profit hd hp).1
  apply mul_pos
  · positivity
  · norm_num

theorem computeDividend_eq (m : Register Nat) (hm : Company.Spec.Ascending m) (profit : Price) (hd : 0 < profit.valuation.denominator) (hs : 0 < Company.Spec.shares m)
    (hs' : Company.Spec.shares m < 2 ^ 64) (hp : 0 < profit.value) (hp' : profit.value ≤ 2 ^ 49) :
    computeDividend binary64 m profit.valuation profit =
      .ok ((m.filter fun e => e.1.dividend).map fun e => (e.1, e.2, ⟨units profit (Company.Spec.shares m) e.2, profit.valuation⟩)) := by
  have := real_pos profit hd hp
  unfold computeDividend
  rw [if_neg (by linarith), totalShares_eq m hs', if_neg (by omega)]
  have := dividendLoop_eq profit hd hp hp' (Company.Spec.shares m) hs m hm (fun e he => le_sum_of_mem _ _ (List.mem_map.2 ⟨e, he, rfl⟩)) [] (fun a ha => absurd ha (by simp))
  rw [List.nil_append] at this
  exact this

theorem paid_upper (profit : Price) (hd : 0 < profit.valuation.denominator) (hp : 0 < profit.value) (T : Nat) (hT : 0 < T) (l : Register Nat) :
    (Company.Spec.paid ((l.filter fun e => e.1.dividend).map fun e => (e.1, e.2, (⟨units profit T e.2, profit.valuation⟩ : Price))) : Rat) ≤
      (profit.value : Rat) * Company.Spec.shares l / T * (1 + 10 / 2 ^ 53) := by
  have hpr : (0 : Rat) ≤ profit.value := by exact_mod_cast (le_of_lt hp)
  induction l with
  | nil => simp [Company.Spec.paid, Company.Spec.shares]
  | cons e l ih =>
    have hsh : (Company.Spec.shares (e :: l) : Rat) = e.2 + Company.Spec.shares l := by simp [Company.Spec.shares]
    have split : (profit.value : Rat) * (e.2 + Company.Spec.shares l) / T * (1 + 10 / 2 ^ 53) =
        profit.value * e.2 / T * (1 + 10 / 2 ^ 53) + profit.value * Company.Spec.shares l / T * (1 + 10 / 2 ^ 53) := by ring
    have hu := units_bounds profit hd hp T e.2 hT
    rw [hsh, split]
    by_cases h : e.1.dividend = true
    · rw [List.filter_cons, if_pos h]
      have : (Company.Spec.paid ((e :: l.filter fun e => e.1.dividend).map fun e => (e.1, e.2, (⟨units profit T e.2, profit.valuation⟩ : Price))) : Rat) =
          units profit T e.2 + Company.Spec.paid ((l.filter fun e => e.1.dividend).map fun e => (e.1, e.2, (⟨units profit T e.2, profit.valuation⟩ : Price))) := by
        simp [Company.Spec.paid]
      rw [this]
      exact add_le_add hu.2.1 ih
    · rw [List.filter_cons, if_neg h]
      have : (0 : Rat) ≤ profit.value * e.2 / T * (1 + 10 / 2 ^ 53) := by positivity
      linarith

theorem paid_lower (profit : Price) (hd : 0 < profit.valuation.denominator) (hp : 0 < profit.value) (T : Nat) (hT : 0 < T) (l : Register Nat) (hall : ∀ e ∈ l, e.1.dividend = true) :
    (profit.value : Rat) * Company.Spec.shares l / T * (1 - 10 / 2 ^ 53) ≤
      Company.Spec.paid ((l.filter fun e => e.1.dividend).map fun e => (e.1, e.2, (⟨units profit T e.2, profit.valuation⟩ : Price))) + l.length := by
  induction l with
  | nil => simp [Company.Spec.paid, Company.Spec.shares]
  | cons e l ih =>
    have hsh : (Company.Spec.shares (e :: l) : Rat) = e.2 + Company.Spec.shares l := by simp [Company.Spec.shares]
    have split : (profit.value : Rat) * (e.2 + Company.Spec.shares l) / T * (1 - 10 / 2 ^ 53) =
        profit.value * e.2 / T * (1 - 10 / 2 ^ 53) + profit.value * Company.Spec.shares l / T * (1 - 10 / 2 ^ 53) := by ring
    have hu := units_bounds profit hd hp T e.2 hT
    have ih' := ih fun x hx => hall x (List.mem_cons_of_mem _ hx)
    rw [hsh, split, List.filter_cons, if_pos (hall e List.mem_cons_self)]
    have : (Company.Spec.paid ((e :: l.filter fun e => e.1.dividend).map fun e => (e.1, e.2, (⟨units profit T e.2, profit.valuation⟩ : Price))) : Rat) =
        units profit T e.2 + Company.Spec.paid ((l.filter fun e => e.1.dividend).map fun e => (e.1, e.2, (⟨units profit T e.2, profit.valuation⟩ : Price))) := by
      simp [Company.Spec.paid]
    rw [this]
    push_cast [List.length_cons]
    linarith [hu.2.2]

/-- The exact part of the profit and the units differ by at most one. -/
theorem units_near (profit : Price) (hd : 0 < profit.valuation.denominator) (hp : 0 < profit.value) (hp' : profit.value ≤ 2 ^ 49) (T q : Nat) (hT : 0 < T) (hq : q ≤ T) :
    profit.value * q / T - 1 ≤ units profit T q ∧ units profit T q ≤ profit.value * q / T + 1 := by
  obtain ⟨-, u2, u3⟩ := units_bounds profit hd hp T q hT
  have hpr : (0 : Rat) ≤ profit.value := by exact_mod_cast (le_of_lt hp)
  have hpr' : (profit.value : Rat) ≤ 2 ^ 49 := by exact_mod_cast hp'
  have hTr : (0 : Rat) < T := by exact_mod_cast hT
  have h1 : (profit.value : Rat) * q / T ≤ 2 ^ 49 := by
    rw [div_le_iff₀ hTr]
    calc (profit.value : Rat) * q ≤ 2 ^ 49 * q := mul_le_mul_of_nonneg_right hpr' (by positivity)
      _ ≤ 2 ^ 49 * T := mul_le_mul_of_nonneg_left (by exact_mod_cast hq) (by norm_num)
  have e : ⌊(profit.value : Rat) * q / T⌋ = profit.value * q / T := by
    have := Rat.floor_intCast_div_natCast (profit.value * q) T
    push_cast at this
    exact this
  have f1 := Int.floor_le ((profit.value : Rat) * q / T)
  have f2 := Int.lt_floor_add_one ((profit.value : Rat) * q / T)
  rw [e] at f1 f2
  constructor
  · have : ((profit.value * q / T - 1 : Int) : Rat) < (units profit T q + 1 : Int) := by
      push_cast at f1 ⊢
      linarith
    have : profit.value * q / T - 1 < units profit T q + 1 := by exact_mod_cast this
    omega
  · have : ((units profit T q : Int) : Rat) < ((profit.value * q / T + 2 : Int) : Rat) := by
      push_cast at f2 ⊢
      linarith
    have : units profit T q < profit.value * q / T + 2 := by exact_mod_cast this
    omega

/-! ## C53 -/

/-- **C53, in floating point numbers (partial).** With a positive profit of at most `2^49` units, and any number of shares that can be represented: each class that is eligible, and no other, is listed with its number of shares
and an amount in the company's currency that is not negative and differs by at most one unit from the part of the profit that corresponds to it; together the amounts are at most the profit; and if all classes are eligible,
at most one unit per class is not paid. Missing: larger profits, for which it is false, see below; that the amounts are the corresponding parts rounded down, which is false, see below. -/
theorem C53_binary64_partial (m : Register Nat) (hm : Company.Spec.Ascending m) (profit : Price) (hd : 0 < profit.valuation.denominator) (hs : 0 < Company.Spec.shares m)
    (hs' : Company.Spec.shares m < 2 ^ 64) (hp : 0 < profit.value) (hp' : profit.value ≤ 2 ^ 49) :
    ∃ r, computeDividend binary64 m profit.valuation profit = .ok r ∧
      (r.map fun e => (e.1, e.2.1)) = (m.filter fun e => e.1.dividend) ∧
      (∀ e ∈ r, e.2.2.valuation = profit.valuation ∧ 0 ≤ e.2.2.value ∧
        profit.value * e.2.1 / Company.Spec.shares m - 1 ≤ e.2.2.value ∧ e.2.2.value ≤ profit.value * e.2.1 / Company.Spec.shares m + 1) ∧
      Company.Spec.paid r ≤ profit.value ∧
      ((∀ e ∈ m, e.1.dividend = true) → profit.value ≤ Company.Spec.paid r + m.length) := by
  have hpr : (0 : Rat) < profit.value := by exact_mod_cast hp
  have hpr' : (profit.value : Rat) ≤ 2 ^ 49 := by exact_mod_cast hp'
  have hTr : (Company.Spec.shares m : Rat) ≠ 0 := by exact_mod_cast (by omega : Company.Spec.shares m ≠ 0)
  refine ⟨_, computeDividend_eq m hm profit hd hs hs' hp hp', ?_, ?_, ?_, ?_⟩
  · rw [List.map_map]
    exact List.map_id'' (fun e => rfl) _
  · intro e he
    obtain ⟨x, hx, rfl⟩ := List.mem_map.1 he
    have hle : x.2 ≤ Company.Spec.shares m := le_sum_of_mem _ _ (List.mem_map.2 ⟨x, (List.mem_filter.1 hx).1, rfl⟩)
    exact ⟨rfl, (units_bounds profit hd hp _ _ hs).1, units_near profit hd hp hp' _ _ hs hle⟩
  · have h := paid_upper profit hd hp (Company.Spec.shares m) hs m
    rw [mul_div_assoc, div_self hTr, mul_one] at h
    have : (Company.Spec.paid ((m.filter fun e => e.1.dividend).map fun e => (e.1, e.2, (⟨units profit (Company.Spec.shares m) e.2, profit.valuation⟩ : Price))) : Rat) < (profit.value + 1 : Int) := by
      push_cast
      linarith
    have := Int.cast_lt.1 this
    omega
  · intro hall
    have h := paid_lower profit hd hp (Company.Spec.shares m) hs m hall
    rw [mul_div_assoc, div_self hTr, mul_one] at h
    have : ((profit.value - 1 : Int) : Rat) < (Company.Spec.paid ((m.filter fun e => e.1.dividend).map fun e => (e.1, e.2, (⟨units profit (Company.Spec.shares m) e.2, profit.valuation⟩ : Price))) + m.length : Int) := by
      push_cast
      linarith
    have := Int.cast_lt.1 this
    omega

/-- The conditions can be met, and the result is as computed by the program: of 100.01, seventy out of a hundred shares get 70.00, and thirty 30.00. -/
example : Company.Spec.Ascending (assignAll [(preferred, 30), (common, 70)]) ∧ Company.Spec.shares (assignAll [(preferred, 30), (common, 70)]) = 100 ∧
    computeDividend binary64 (assignAll [(preferred, 30), (common, 70)]) usd ⟨10001, usd⟩ = .ok [(common, 70, ⟨7000, usd⟩), (preferred, 30, ⟨3000, usd⟩)] :=
  ⟨C55_ascending _, by decide +kernel, by decide +kernel⟩

/-- **C53, in floating point numbers, without profit.** A company without a profit pays nothing. -/
theorem C53_binary64_no_profit (m : Register Nat) (tender : Money) (profit : Price) (hp : profit.value ≤ 0) : computeDividend binary64 m tender profit = .ok [] := by
  have h1 : binary64 (profit.value : Rat) ≤ 0 := by
    have := binary64_mono (p := (profit.value : Rat)) (q := 0) (by exact_mod_cast hp)
    rwa [binary64_zero] at this
  have h2 : 0 ≤ binary64 (profit.valuation.denominator : Rat) := binary64_nonneg _ (by exact_mod_cast Nat.zero_le _)
  have : real binary64 profit ≤ 0 := by
    have := binary64_mono (div_nonpos_of_nonpos_of_nonneg h1 h2)
    rwa [binary64_zero] at this
  unfold computeDividend
  rw [if_pos this]

example : (⟨-5, usd⟩ : Price).value ≤ 0 := by decide

/-- **C53, negation.** In floating point numbers, a profit can be paid only in part although it is due to a single class: of one dollar, 49 shares get 99 cents. -/
theorem C53_counterexample_cent : computeDividend binary64 (assignAll [(common, 49)]) usd ⟨100, usd⟩ = .ok [(common, 49, ⟨99, usd⟩)] := by decide +kernel

/-- **C53, negation.** In floating point numbers, dividends can exceed the profit: the whole of the profit is due to a single class of 625 shares, which gets a cent more. -/
theorem C53_counterexample_exceeds : computeDividend binary64 (assignAll [(common, 625)]) usd ⟨4446841305935039, usd⟩ = .ok [(common, 625, ⟨4446841305935040, usd⟩)] := by decide +kernel

end Esl.Payout
