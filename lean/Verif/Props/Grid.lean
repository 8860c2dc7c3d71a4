import Verif.Model.Grid
import Verif.Props.Sampler
import Verif.Props.Payout
/-! C39, C40 in the arithmetic of floating point numbers; C151: samples lie in the intervals of the parameters. -/
namespace Esl.Grid
open Esl.Sampler Esl.Double Esl.Payout

/-! ## C39: every combination of values once -/

/-- All lists with one element of each of the given lists. -/
def Spec.combinations {α : Type} : List (List α) → List (List α)
  | [] => [[]]
  | l :: ls => l.flatMap fun x => (combinations ls).map fun c => x :: c

theorem range_mul (d T : Nat) (hd : 0 < d) : (List.range (d * T)).Perm ((List.range d).flatMap fun a => (List.range T).map fun b => a + d * b) := by
  rw [List.perm_ext_iff_of_nodup List.nodup_range]
  · intro x
    simp only [List.mem_range, List.mem_flatMap, List.mem_map]
    constructor
    · intro hx
      exact ⟨x % d, Nat.mod_lt _ hd, x / d, Nat.div_lt_of_lt_mul hx, Nat.mod_add_div x d⟩
    · rintro ⟨a, ha, b, hb, rfl⟩
      have : d * b + d ≤ d * T := by rw [← Nat.mul_succ]; exact Nat.mul_le_mul_left d hb
      omega
  · rw [List.nodup_flatMap]
    constructor
    · intro a _
      refine List.Nodup.map ?_ List.nodup_range
      intro b c h
      simp only at h
      exact Nat.eq_of_mul_eq_mul_left hd (by omega)
    · have : List.Pairwise (fun a b => a ≠ b ∧ a < d ∧ b < d) (List.range d) := by
        rw [List.pairwise_iff_getElem]
        intro i j hi hj hij
        simp only [List.getElem_range]
        rw [List.length_range] at hi hj
        omega
      refine this.imp ?_
      intro a a' ⟨hne, ha, ha'⟩ x hx hx'
      obtain ⟨b, -, rfl⟩ := List.mem_map.1 hx
      obtain ⟨b', -, h⟩ := List.mem_map.1 hx'
      apply hne
      have h1 : (a + d * b) % d = a := by rw [Nat.add_mul_mod_self_left, Nat.mod_eq_of_lt ha]
      have h2 : (a' + d * b') % d = a' := by rw [Nat.add_mul_mod_self_left, Nat.mod_eq_of_lt ha']
      rw [← h1, ← h2, h]

theorem mixed_perm (fl : Rat → Rat) (ps : List (Param × Nat)) (h0 : ∀ p ∈ ps, p.2 ≠ 0) :
    ((List.range (total ps)).map (mixed fl ps)).Perm (Spec.combinations (ps.map fun p => (List.range p.2).map (gridValue fl p.1 p.2))) := by
  induction ps with
  | nil => simp [total, Spec.combinations, mixed]
  | cons p ps ih =>
    obtain ⟨p, d⟩ := p
    have hd : 0 < d := Nat.pos_of_ne_zero (h0 (p, d) (by simp))
    have ih := ih fun x hx => h0 x (List.mem_cons_of_mem _ hx)
    rw [total_cons]
    refine ((range_mul d (total ps) hd).map _).trans ?_
    rw [List.map_cons, Spec.combinations, List.map_flatMap, List.flatMap_map]
    apply List.Perm.flatMap_left
    intro a ha
    have ha := List.mem_range.1 ha
    rw [List.map_map]
    have : (List.range (total ps)).map (mixed fl ((p, d) :: ps) ∘ fun b => a + d * b) = ((List.range (total ps)).map (mixed fl ps)).map fun c => gridValue fl p d a :: c := by
      rw [List.map_map]
      apply List.map_congr_left
      intro b _
      simp only [Function.comp, mixed]
      rw [Nat.add_mul_mod_self_left, Nat.mod_eq_of_lt ha, Nat.add_mul_div_left _ _ hd, Nat.div_eq_of_lt ha, Nat.zero_add]
    rw [this]
    exact ih.map _

/-- **C39, with any rounding (partial).** If no density is zero and their product is below 2^32, then the samples are all combinations of the values that are computed for the parameters, each as often as it can be formed: exactly once, by
the numbers of the values. Missing: products that do not fit 32 bits. -/
theorem C39_combinations_partial (fl : Rat → Rat) (ps : List (Param × Nat)) (h0 : ∀ p ∈ ps, p.2 ≠ 0) (hs : (ps.map (·.2)).prod < 2 ^ 32) :
    ∃ r, grid fl ps = .ok r ∧ r.length = (ps.map (·.2)).prod ∧ r.Perm (Spec.combinations (ps.map fun p => (List.range p.2).map (gridValue fl p.1 p.2))) := by
  refine ⟨(List.range (total ps)).map (mixed fl ps), ?_, by simp [total], mixed_perm fl ps h0⟩
  unfold grid
  rw [points_eq ps hs h0]
  refine collect_ok _ _ _ fun s _ => ?_
  rw [sample_eq fl s ps 1 (by omega) h0 (by rw [Nat.one_mul]; exact hs), Nat.div_one]

/-- The conditions can be met. -/
example : (∀ p ∈ [((⟨0, 1⟩ : Param), 2), (⟨10, 12⟩, 3)], p.2 ≠ 0) ∧ ([((⟨0, 1⟩ : Param), 2), (⟨10, 12⟩, 3)].map (·.2)).prod = 6 ∧
    (Spec.combinations [[1, 2], [3, 4, 5]]) = [[1, 3], [1, 4], [1, 5], [2, 3], [2, 4], [2, 5]] := by decide

/-- **C40, with any rounding.** For every outcome of the shuffles there are as many samples as the density, and each parameter takes each of the values that are computed for it in exactly one of them. -/
theorem C40_values (fl : Rat → Rat) (ps : List (Param × List Nat)) (density : Nat) (h : ∀ p ∈ ps, p.2.Perm (List.range density)) :
    ∃ r, latin fl ps density = .ok r ∧ r.length = density ∧ ∀ (i : Nat) (hi : i < ps.length),
      (r.map (·[i]?)).Perm ((List.range density).map fun s => some (gridValue fl ps[i].1 density s)) := by
  refine ⟨(List.range density).map fun s => ps.map fun p => gridValue fl p.1 density (p.2.getD s 0), ?_, by simp, ?_⟩
  · unfold latin
    exact collect_ok _ _ _ fun s hs => latinSample_ok fl density s (List.mem_range.1 hs) ps h
  · intro i hi
    have hp := h ps[i] (List.getElem_mem hi)
    have hl : ps[i].2.length = density := by simpa using hp.length_eq
    have e : ((List.range density).map fun s => ps.map fun p => gridValue fl p.1 density (p.2.getD s 0)).map (·[i]?) =
        ps[i].2.map fun j => some (gridValue fl ps[i].1 density j) := by
      rw [List.map_map]
      apply List.ext_getElem
      · simp [hl]
      · intro n h1 h2
        have h2 : n < ps[i].2.length := by simpa using h2
        simp [hi, List.getElem?_eq_getElem h2]
    rw [e]
    exact hp.map _

example : ∀ p ∈ [((⟨0, 2⟩ : Param), [1, 2, 0]), (⟨0, 1⟩, [2, 0, 1])], p.2.Perm (List.range 3) := by decide

/-! ## C151: the values lie in the interval -/

/-- A number that can be represented. -/
def Spec.Number (x : Rat) : Prop := binary64 x = x

/-- The step computed for the value `s`. -/
theorem step_near (w : Rat) (hw : 0 ≤ w) (d s : Nat) (hd : 2 ≤ d) : Near 3 (binary64 (binary64 (binary64 w / ((d : Rat) - 1)) * s)) (w * s / ((d : Rat) - 1)) := by
  have hd' : (0 : Rat) < (d : Rat) - 1 := by
    have : (2 : Rat) ≤ d := by exact_mod_cast hd
    linarith
  have h1 := near_round (near_refl w) hw
  have e1 : Near 0 (1 / ((d : Rat) - 1)) (1 / ((d : Rat) - 1)) := near_refl _
  have h2 := near_round (near_mul h1 e1 hw (by positivity)) (by positivity)
  have h3 := near_round (near_mul h2 (near_refl (s : Rat)) (by positivity) (by positivity)) (by positivity)
  rw [mul_one_div, mul_one_div] at h3
  have e : w / ((d : Rat) - 1) * s = w * s / ((d : Rat) - 1) := by ring
  rw [e] at h3
  exact h3

theorem near_three {x y : Rat} (h : Near 3 x y) (hy : 0 ≤ y) : y * (1 - 4 / 2 ^ 53) ≤ x ∧ x ≤ y * (1 + 4 / 2 ^ 53) := by
  obtain ⟨h1, h2⟩ := h
  constructor
  · refine le_trans ?_ h1
    exact mul_le_mul_of_nonneg_left (by norm_num) hy
  · have hx := near_nonneg ⟨h1, h2⟩ hy
    have : x * ((1 - 1 / 2 ^ 53) ^ 3 * (1 + 4 / 2 ^ 53)) ≤ y * (1 + 4 / 2 ^ 53) := by
      rw [← mul_assoc]
      exact mul_le_mul_of_nonneg_right h2 (by norm_num)
    refine le_trans ?_ this
    calc x = x * 1 := (mul_one x).symm
      _ ≤ _ := mul_le_mul_of_nonneg_left (by norm_num) hx

theorem fraction_le (d s : Nat) (hd : 2 ≤ d) (hs : s < d) (w : Rat) (hw : 0 ≤ w) : 0 ≤ w * s / ((d : Rat) - 1) ∧ w * s / ((d : Rat) - 1) ≤ w := by
  have hd' : (0 : Rat) < (d : Rat) - 1 := by
    have : (2 : Rat) ≤ d := by exact_mod_cast hd
    linarith
  have hs' : (s : Rat) ≤ (d : Rat) - 1 := by
    have : ((s + 1 : Nat) : Rat) ≤ d := by exact_mod_cast hs
    push_cast at this
    linarith
  refine ⟨by positivity, ?_⟩
  rw [div_le_iff₀ hd']
  exact mul_le_mul_of_nonneg_left hs' hw

/-- **C151, the values of a parameter (partial).** With a lower bound that can be represented, and a density of at least two: the first value is the lower bound, no value is below it, values do not decrease, and each differs from the exact
equidistant value only by roundings. Missing: that no value is above the upper bound, and that the last is the upper bound, which are false, see below. -/
theorem C151_values_partial (p : Param) (hl : Spec.Number p.lower) (hp : p.lower ≤ p.upper) (d : Nat) (hd : 2 ≤ d) :
    ∃ value : Nat → Rat, (∀ s, gridValue binary64 p d s = some (value s)) ∧ value 0 = p.lower ∧ (∀ s, p.lower ≤ value s) ∧ (∀ s t, s ≤ t → value s ≤ value t) ∧
      ∀ s < d, |value s - Sampler.Spec.equidistant p d s| ≤ (|p.lower| + 6 * (p.upper - p.lower)) / 2 ^ 53 := by
  have hl' : binary64 p.lower = p.lower := hl
  have hw : 0 ≤ p.upper - p.lower := by linarith
  have hd' : (0 : Rat) < (d : Rat) - 1 := by
    have : (2 : Rat) ≤ d := by exact_mod_cast hd
    linarith
  have hstep : 0 ≤ binary64 (binary64 (p.upper - p.lower) / ((d : Rat) - 1)) := binary64_nonneg _ (div_nonneg (binary64_nonneg _ hw) (le_of_lt hd'))
  refine ⟨fun s => binary64 (p.lower + binary64 (binary64 (binary64 (p.upper - p.lower) / ((d : Rat) - 1)) * s)), ?_, ?_, ?_, ?_, ?_⟩
  · intro s
    unfold gridValue
    rw [if_neg (by omega)]
  · show binary64 (p.lower + binary64 (_ * ((0 : Nat) : Rat))) = _
    rw [Nat.cast_zero, mul_zero, binary64_zero, add_zero, hl']
  · intro s
    have h : 0 ≤ binary64 (binary64 (binary64 (p.upper - p.lower) / ((d : Rat) - 1)) * s) := binary64_nonneg _ (mul_nonneg hstep (by positivity))
    have := binary64_mono (p := p.lower) (q := p.lower + binary64 (binary64 (binary64 (p.upper - p.lower) / ((d : Rat) - 1)) * s)) (by linarith)
    rwa [hl'] at this
  · intro s t hst
    apply binary64_mono
    have : binary64 (binary64 (binary64 (p.upper - p.lower) / ((d : Rat) - 1)) * s) ≤ binary64 (binary64 (binary64 (p.upper - p.lower) / ((d : Rat) - 1)) * t) :=
      binary64_mono (mul_le_mul_of_nonneg_left (by exact_mod_cast hst) hstep)
    linarith
  · intro s hs
    simp only
    have hn := near_three (step_near (p.upper - p.lower) hw d s hd) (fraction_le d s hd hs _ hw).1
    obtain ⟨f0, f1⟩ := fraction_le d s hd hs _ hw
    generalize hx : binary64 (binary64 (binary64 (p.upper - p.lower) / ((d : Rat) - 1)) * s) = x at hn ⊢
    have he := abs_le.1 (binary64_err (p.lower + x))
    have heq : Sampler.Spec.equidistant p d s = p.lower + (p.upper - p.lower) * s / ((d : Rat) - 1) := rfl
    rw [heq]
    generalize (p.upper - p.lower) * s / ((d : Rat) - 1) = y at hn f0 f1 ⊢
    have hb : |p.lower + x| ≤ |p.lower| + 2 * (p.upper - p.lower) := by
      refine le_trans (abs_add_le _ _) ?_
      have h0 : 0 ≤ x := by
        refine le_trans ?_ hn.1
        exact mul_nonneg f0 (by norm_num)
      rw [abs_of_nonneg h0]
      have : y * (1 + 4 / 2 ^ 53) ≤ y * 2 := mul_le_mul_of_nonneg_left (by norm_num) f0
      linarith [hn.2]
    rw [abs_le]
    constructor
    · linarith [hn.1, he.1]
    · linarith [hn.2, he.2]

/-- What is true of every sample: no value is below the lower bound, or above the upper bound by more than roundings. -/
def Spec.Close (p : Param) (x : Option Rat) : Prop := ∃ v, x = some v ∧ p.lower ≤ v ∧ v ≤ p.upper + (|p.lower| + 6 * (p.upper - p.lower)) / 2 ^ 53

theorem value_close (p : Param) (hl : Spec.Number p.lower) (hp : p.lower ≤ p.upper) (d : Nat) (hd : 2 ≤ d) (s : Nat) (hs : s < d) : Spec.Close p (gridValue binary64 p d s) := by
  obtain ⟨value, h1, -, h3, -, h5⟩ := C151_values_partial p hl hp d hd
  refine ⟨value s, h1 s, h3 s, ?_⟩
  have := (abs_le.1 (h5 s hs)).2
  have hb := (C39_bounds p d s hd hs hp).2.2.2
  linarith

theorem mixed_close (ps : List (Param × Nat)) (h : ∀ p ∈ ps, Spec.Number p.1.lower ∧ p.1.lower ≤ p.1.upper ∧ 2 ≤ p.2) (s : Nat) :
    List.Forall₂ (fun x p => Spec.Close p.1 x) (mixed binary64 ps s) ps := by
  induction ps generalizing s with
  | nil => exact List.Forall₂.nil
  | cons p ps ih =>
    obtain ⟨p, d⟩ := p
    obtain ⟨h1, h2, h3⟩ := h (p, d) List.mem_cons_self
    rw [mixed]
    exact List.Forall₂.cons (value_close p h1 h2 d h3 _ (Nat.mod_lt _ (by simp only at h3; omega))) (ih (fun x hx => h x (List.mem_cons_of_mem _ hx)) _)

/-- **C151, grids and latin hypercubes (partial).** In every sample, each parameter has a value that is not below its lower bound, and not above its upper bound by more than roundings. Missing: that no value is above the upper bound, which is
false, see below. -/
theorem C151_samples_partial (ps : List (Param × Nat)) (h : ∀ p ∈ ps, Spec.Number p.1.lower ∧ p.1.lower ≤ p.1.upper ∧ 2 ≤ p.2) (hs : (ps.map (·.2)).prod < 2 ^ 32)
    (qs : List (Param × List Nat)) (density : Nat) (hd : 2 ≤ density) (hq : ∀ q ∈ qs, Spec.Number q.1.lower ∧ q.1.lower ≤ q.1.upper ∧ q.2.Perm (List.range density)) :
    (∃ r, grid binary64 ps = .ok r ∧ ∀ sample ∈ r, List.Forall₂ (fun x p => Spec.Close p.1 x) sample ps) ∧
    (∃ r, latin binary64 qs density = .ok r ∧ ∀ sample ∈ r, List.Forall₂ (fun x q => Spec.Close q.1 x) sample qs) := by
  have h0 : ∀ p ∈ ps, p.2 ≠ 0 := fun p hp => by have := (h p hp).2.2; omega
  constructor
  · refine ⟨(List.range (total ps)).map (mixed binary64 ps), ?_, ?_⟩
    · unfold grid
      rw [points_eq ps hs h0]
      refine collect_ok _ _ _ fun s _ => ?_
      rw [sample_eq binary64 s ps 1 (by omega) h0 (by rw [Nat.one_mul]; exact hs), Nat.div_one]
    · intro v hv
      obtain ⟨s, -, rfl⟩ := List.mem_map.1 hv
      exact mixed_close ps h s
  · refine ⟨(List.range density).map fun s => qs.map fun p => gridValue binary64 p.1 density (p.2.getD s 0), ?_, ?_⟩
    · unfold latin
      exact collect_ok _ _ _ fun s hs => latinSample_ok binary64 density s (List.mem_range.1 hs) qs fun q hm => (hq q hm).2.2
    · intro v hv
      obtain ⟨s, hs, rfl⟩ := List.mem_map.1 hv
      have hs := List.mem_range.1 hs
      have : ∀ l : List (Param × List Nat), (∀ q ∈ l, q ∈ qs) → List.Forall₂ (fun x q => Spec.Close q.1 x) (l.map fun p => gridValue binary64 p.1 density (p.2.getD s 0)) l := by
        intro l
        induction l with
        | nil => intro _; exact List.Forall₂.nil
        | cons q l ih =>
          intro hm
          obtain ⟨h1, h2, h3⟩ := hq q (hm q List.mem_cons_self)
          have hlen : s < q.2.length := by
            have := h3.length_eq
            rw [List.length_range] at this
            omega
          have hi : q.2.getD s 0 < density := by
            have : q.2.getD s 0 ∈ q.2 := by
              rw [List.getD_eq_getElem?_getD, List.getElem?_eq_getElem hlen, Option.getD_some]
              exact List.getElem_mem hlen
            exact List.mem_range.1 (h3.mem_iff.1 this)
          exact List.Forall₂.cons (value_close q.1 h1 h2 density hd _ hi) (ih fun x hx => hm x (List.mem_cons_of_mem _ hx))
      exact this qs fun _ h => h

/-- **C151, where there is no rounding (partial).** If the lower bound is a multiple of a power of two, and so is the distance of the values, and both are not large multiples, then the values are exactly the equidistant values: the first is the
lower bound, the last the upper bound, and all others lie between. This includes all integers with integer distance below 2^53. Missing: other bounds and densities. -/
theorem C151_exact_partial (a b e : Int) (d : Nat) (hd : 2 ≤ d) (hb : 0 ≤ b) (hsize : |a| + b * (d - 1) ≤ 2 ^ 53) (s : Nat) (hs : s < d)
    (p : Param) (hl : p.lower = (a : Rat) * 2 ^ e) (hu : p.upper = ((a + b * (d - 1) : Int) : Rat) * 2 ^ e) :
    gridValue binary64 p d s = some (((a + b * s : Int) : Rat) * 2 ^ e) ∧ gridValue binary64 p d 0 = some p.lower ∧ gridValue binary64 p d (d - 1) = some p.upper := by
  have hd1 : (0 : Rat) < (d : Rat) - 1 := by
    have : (2 : Rat) ≤ d := by exact_mod_cast hd
    linarith
  have ha := abs_nonneg a
  have key : ∀ s : Nat, s < d → gridValue binary64 p d s = some (((a + b * s : Int) : Rat) * 2 ^ e) := by
    intro s hs
    have hbs : 0 ≤ b * s := Int.mul_nonneg hb (by omega)
    have hbd : b * s ≤ b * (d - 1) := Int.mul_le_mul_of_nonneg_left (by omega) hb
    have hb1 : b ≤ b * (d - 1) := by
      have := Int.mul_le_mul_of_nonneg_left (show (1 : Int) ≤ d - 1 by omega) hb
      omega
    have h1 : p.upper - p.lower = ((b * (d - 1) : Int) : Rat) * 2 ^ e := by
      rw [hl, hu]
      push_cast
      ring
    have h2 : binary64 (p.upper - p.lower) = ((b * (d - 1) : Int) : Rat) * 2 ^ e := by
      rw [h1]
      apply binary64_repr
      rw [abs_of_nonneg (by omega)]
      omega
    have h3 : binary64 (binary64 (p.upper - p.lower) / ((d : Rat) - 1)) = (b : Rat) * 2 ^ e := by
      rw [h2]
      have : ((b * (d - 1) : Int) : Rat) * 2 ^ e / ((d : Rat) - 1) = (b : Rat) * 2 ^ e := by
        push_cast
        field_simp
      rw [this]
      apply binary64_repr
      rw [abs_of_nonneg hb]
      omega
    have h4 : binary64 (binary64 (binary64 (p.upper - p.lower) / ((d : Rat) - 1)) * s) = ((b * s : Int) : Rat) * 2 ^ e := by
      rw [h3]
      have : (b : Rat) * 2 ^ e * s = ((b * s : Int) : Rat) * 2 ^ e := by push_cast; ring
      rw [this]
      apply binary64_repr
      rw [abs_of_nonneg hbs]
      omega
    unfold gridValue
    rw [if_neg (by omega), h4, hl]
    have : (a : Rat) * 2 ^ e + ((b * s : Int) : Rat) * 2 ^ e = ((a + b * s : Int) : Rat) * 2 ^ e := by push_cast; ring
    rw [this, binary64_repr]
    have := abs_add_le a (b * s)
    rw [abs_of_nonneg hbs] at this
    omega
  refine ⟨key s hs, ?_, ?_⟩
  · rw [key 0 (by omega), hl]
    simp
  · rw [key (d - 1) (by omega), hu]
    rw [show ((d - 1 : Nat) : Int) = (d : Int) - 1 by omega]

/-- The conditions can be met: from -1/2 to 1 in steps of a quarter. -/
example : (2 : Nat) ≤ 7 ∧ (0 : Int) ≤ 1 ∧ |(-2 : Int)| + 1 * (7 - 1) ≤ 2 ^ 53 ∧ (-1 / 2 : Rat) = ((-2 : Int) : Rat) * 2 ^ (-2 : Int) ∧ (1 : Rat) = ((-2 + 1 * (7 - 1) : Int) : Rat) * 2 ^ (-2 : Int) := by
  norm_num

/-- The number nearest to 0.8. -/
def eightTenths : Rat := 3602879701896397 / 2 ^ 52

example : binary64 (8 / 10) = eightTenths := by decide +kernel

/-- **C151, negation.** A sample can be above the upper bound: twelve values between 0 and 0.8. -/
theorem C151_counterexample_above : ∃ r, grid binary64 [(⟨0, eightTenths⟩, 12)] = .ok r ∧ ∃ v, [some v] ∈ r ∧ eightTenths < v :=
  ⟨_, rfl, 7205759403792795 / 2 ^ 53, by decide +kernel, by decide +kernel⟩

/-- **C151, negation.** The upper bound need not be sampled: none of fifty values between 0 and 1 is 1. -/
theorem C151_counterexample_below : ∃ r, grid binary64 [(⟨0, 1⟩, 50)] = .ok r ∧ [some 1] ∉ r := ⟨_, rfl, by decide +kernel⟩

/-- **C151, negation.** Different values can coincide, if few numbers can be represented in the interval: the second and the first. -/
theorem C151_counterexample_narrow : grid binary64 [(⟨1, 1 + 1 / 2 ^ 52⟩, 3)] = .ok [[some 1], [some 1], [some (1 + 1 / 2 ^ 52)]] := by decide +kernel

/-! ## Integers -/

/-- **C151, integers (partial).** For integer bounds with a distance that is an `int`, and a density of at least two, the values are the multiples of the distance divided by the density minus one, rounded down, added to the lower bound: all lie
in the interval; and the last is the upper bound if and only if the division leaves no remainder. Missing: densities of one, which are undefined. -/
theorem C151_integers_partial (lower upper : Int) (hl : -2 ^ 31 ≤ lower) (hu : upper < 2 ^ 31) (hle : lower ≤ upper) (hd' : upper - lower < 2 ^ 31) (d : Nat) (hd : 2 ≤ d) (s : Nat) (hs : s < d) :
    ∃ v, intValue lower upper d s = .ok v ∧ v = lower + (upper - lower) / (d - 1) * s ∧ lower ≤ v ∧ v ≤ upper ∧
      (s = d - 1 → (v = upper ↔ ((d : Int) - 1) ∣ upper - lower)) := by
  have hw : (upper - lower) % 2 ^ 32 = upper - lower := Int.emod_eq_of_lt (by omega) (by omega)
  have hq : 0 ≤ (upper - lower) / ((d : Int) - 1) := Int.ediv_nonneg (by omega) (by omega)
  have hqs : 0 ≤ (upper - lower) / ((d : Int) - 1) * s := Int.mul_nonneg hq (by omega)
  have hqd : (upper - lower) / ((d : Int) - 1) * s ≤ (upper - lower) / ((d : Int) - 1) * (d - 1) := Int.mul_le_mul_of_nonneg_left (by omega) hq
  have hdm : (upper - lower) / ((d : Int) - 1) * (d - 1) ≤ upper - lower := Int.ediv_mul_le _ (by omega)
  have hm : ((upper - lower) / ((d : Int) - 1) * s) % 2 ^ 32 = (upper - lower) / ((d : Int) - 1) * s := Int.emod_eq_of_lt hqs (by omega)
  refine ⟨lower + (upper - lower) / (d - 1) * s, ?_, rfl, by omega, by omega, ?_⟩
  · unfold intValue
    rw [if_neg (by omega), if_neg (by omega), hw, hm]
    unfold wrapI32
    congr 1
    rw [Int.emod_eq_of_lt (by omega) (by omega)]
    omega
  · intro h
    have e : ((s : Nat) : Int) = (d : Int) - 1 := by omega
    rw [e]
    constructor
    · intro h
      exact ⟨(upper - lower) / ((d : Int) - 1), by rw [Int.mul_comm]; omega⟩
    · intro h
      have := Int.ediv_mul_cancel h
      omega

/-- The conditions can be met, and four values between 0 and 10 do not reach 10. -/
example : intValues 0 10 4 = [.ok 0, .ok 3, .ok 6, .ok 9] ∧ intValues (-5) 10 4 = [.ok (-5), .ok 0, .ok 5, .ok 10] := by decide

/-- **C151, negation.** For integers a density of one is undefined, and so is a distance that is not an `int`, for all bounds. -/
theorem C151_counterexample_integers (lower upper : Int) (d s : Nat) (h : d = 1 ∨ 2 ^ 31 ≤ upper - lower) : intValue lower upper d s = .ub := by
  unfold intValue
  rcases h with h | h
  · split <;> simp [h]
  · rw [if_pos (Or.inr h)]

example : (2 : Int) ^ 31 ≤ 2 ^ 30 - (-2 ^ 30) := by decide

/-- **C151, negation.** With the bounds exchanged, which is no problem for floating point numbers, integers are far outside of the interval, because the difference is divided as an unsigned number. -/
theorem C151_counterexample_exchanged : intValues 10 0 3 = [.ok 10, .ok (-2147483643), .ok 0] ∧ grid id [(⟨10, 0⟩, 3)] = .ok [[some 10], [some 5], [some 0]] := by decide +kernel

end Esl.Grid
