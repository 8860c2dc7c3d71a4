import Verif.Model.Distance
import Verif.Model.Sampler
import Mathlib.Tactic.Ring
import Mathlib.Tactic.Linarith
import Mathlib.Tactic.Positivity
/-!
C159: improved hypercube sampling selects the candidate whose distance from the selected points is closest to the ideal spacing.
-/
namespace Esl.Distance

/-- The square of the Euclidean distance. -/
def Spec.squares : List Nat → List Nat → ℝ
  | a :: c, b :: p => ((a : ℝ) - b) ^ 2 + Spec.squares c p
  | _, _ => 0

/-- The Euclidean distance. -/
noncomputable def Spec.euclidean (c p : List Nat) : ℝ := √(Spec.squares c p)

/-- `d` is the distance of `c` from the nearest of the points. -/
def Spec.Nearest (points : List (List Nat)) (c : List Nat) (d : ℝ) : Prop := IsLeast {x | ∃ p ∈ points, x = Spec.euclidean c p} d

/-- The spacing of `samples` points that fill a cube of `dimensions` dimensions evenly (Beachkofski and Grandhi). -/
noncomputable def Spec.ideal (dimensions samples : Nat) : ℝ := (samples : ℝ) ^ (1 - 1 / (dimensions : ℝ))

theorem squared_eq (a b : Nat) (ha : a < 2 ^ 32) (hb : b < 2 ^ 32) (h : a < b + 2 ^ 16) (h' : b < a + 2 ^ 16) : (squared a b : ℝ) = ((a : ℝ) - b) ^ 2 := by
  have key : ∀ x : Nat, x < 2 ^ 16 → x * x < 2 ^ 32 := by
    intro x hx
    calc x * x < 2 ^ 16 * 2 ^ 16 := Nat.mul_lt_mul'' hx hx
      _ = 2 ^ 32 := by norm_num
  unfold squared
  by_cases c : b ≤ a
  · obtain ⟨x, rfl⟩ : ∃ x, a = b + x := ⟨a - b, by omega⟩
    have e : (b + x + (2 ^ 32 - b)) % 2 ^ 32 = x := by omega
    rw [e, Nat.mod_eq_of_lt (key x (by omega))]
    push_cast; ring
  · obtain ⟨x, rfl⟩ : ∃ x, b = a + x := ⟨b - a, by omega⟩
    have e : (a + (2 ^ 32 - (a + x))) % 2 ^ 32 = 2 ^ 32 - x := by omega
    have hx : x < 2 ^ 16 := by omega
    have e2 : (2 ^ 32 - x) * (2 ^ 32 - x) = x * x + 2 ^ 32 * (2 ^ 32 - 2 * x) := by
      obtain ⟨y, hy⟩ : ∃ y, 2 ^ 32 = 2 * x + y := ⟨2 ^ 32 - 2 * x, by omega⟩
      rw [hy]
      have e3 : 2 * x + y - x = x + y := by omega
      have e4 : 2 * x + y - 2 * x = y := by omega
      rw [e3, e4]; ring
    rw [e, e2, Nat.add_mul_mod_self_left, Nat.mod_eq_of_lt (key x hx)]
    push_cast; ring

theorem squared_lt (a b : Nat) : squared a b < 2 ^ 32 := Nat.mod_lt _ (by norm_num)

theorem distance_le : ∀ c p : List Nat, distance c p ≤ c.length * 2 ^ 32
  | [], _ => by simp [distance]
  | a :: c, [] => by simp [distance]
  | a :: c, b :: p => by
    have h1 := distance_le c p
    have h2 := squared_lt a b
    simp only [distance, List.zipWith_cons_cons, List.sum_cons, List.length_cons] at h1 ⊢
    omega

/-- All coordinates are between 1 and `samples`. -/
def Spec.InCube (dimensions samples : Nat) (c : List Nat) : Prop := c.length = dimensions ∧ ∀ a ∈ c, 1 ≤ a ∧ a ≤ samples

theorem distance_eq (samples : Nat) (h : samples ≤ 2 ^ 16) : ∀ c p : List Nat, (∀ a ∈ c, 1 ≤ a ∧ a ≤ samples) → (∀ a ∈ p, 1 ≤ a ∧ a ≤ samples) → (distance c p : ℝ) = Spec.squares c p
  | [], p, _, _ => by simp [distance, Spec.squares]
  | a :: c, [], _, _ => by simp [distance, Spec.squares]
  | a :: c, b :: p, hc, hp => by
    have ih := distance_eq samples h c p (fun x hx => hc x (List.mem_cons_of_mem _ hx)) (fun x hx => hp x (List.mem_cons_of_mem _ hx))
    have ha := hc a (by simp)
    have hb := hp b (by simp)
    have e := squared_eq a b (by omega) (by omega) (by omega) (by omega)
    simp only [distance, List.zipWith_cons_cons, List.sum_cons, Spec.squares] at ih ⊢
    push_cast
    rw [← ih, ← e]
    push_cast
    rfl

/-- The loop over the selected points finds a least distance. -/
theorem nearest_fold (c : List Nat) : ∀ (chosen : List (List Nat)) (m : Nat),
    let r := chosen.foldl (fun m p => if distance c p < m then distance c p else m) m
    r ≤ m ∧ (∀ p ∈ chosen, r ≤ distance c p) ∧ (r = m ∨ ∃ p ∈ chosen, r = distance c p)
  | [], m => by simp
  | p :: chosen, m => by
    simp only [List.foldl_cons]
    obtain ⟨h1, h2, h3⟩ := nearest_fold c chosen (if distance c p < m then distance c p else m)
    by_cases e : distance c p < m
    · rw [if_pos e] at h1 h2 h3 ⊢
      refine ⟨by omega, ?_, ?_⟩
      · intro q hq
        rcases List.mem_cons.mp hq with rfl | hq
        · exact h1
        · exact h2 q hq
      · rcases h3 with h3 | ⟨q, hq, h3⟩
        · exact Or.inr ⟨p, by simp, h3⟩
        · exact Or.inr ⟨q, List.mem_cons_of_mem _ hq, h3⟩
    · rw [if_neg e] at h1 h2 h3 ⊢
      refine ⟨h1, ?_, ?_⟩
      · intro q hq
        rcases List.mem_cons.mp hq with rfl | hq
        · omega
        · exact h2 q hq
      · rcases h3 with h3 | ⟨q, hq, h3⟩
        · exact Or.inl h3
        · exact Or.inr ⟨q, List.mem_cons_of_mem _ hq, h3⟩

theorem large : 2 ^ 64 < largest := by decide +kernel

theorem nearest_mem (chosen : List (List Nat)) (hn : chosen ≠ []) (c : List Nat) (hd : c.length < 2 ^ 32) :
    (∀ p ∈ chosen, nearest chosen c ≤ distance c p) ∧ ∃ p ∈ chosen, nearest chosen c = distance c p := by
  obtain ⟨h1, h2, h3⟩ := nearest_fold c chosen largest
  refine ⟨h2, ?_⟩
  rcases h3 with h3 | h3
  · obtain ⟨p, hp⟩ := List.exists_mem_of_ne_nil _ hn
    have := h2 p hp
    have := distance_le c p
    have := large
    rw [h3] at *
    omega
  · exact h3

/-- The candidates are numbered from `k`; the result is the old one, or the first best candidate. -/
theorem search_spec (adj : ℝ) (chosen : List (List Nat)) : ∀ (cs : List (List Nat)) (k : Nat) (m : ℝ) (best : Nat),
    (search adj chosen cs k m best = best ∧ ∀ c ∈ cs, m ≤ score adj chosen c) ∨
    ∃ i, ∃ h : i < cs.length, search adj chosen cs k m best = k + i ∧ score adj chosen cs[i] < m ∧ (∀ c ∈ cs, score adj chosen cs[i] ≤ score adj chosen c) ∧
      ∀ j, ∀ hj : j < i, score adj chosen cs[i] < score adj chosen (cs[j]'(by omega))
  | [], k, m, best => by simp [search]
  | c :: cs, k, m, best => by
    simp only [search]
    by_cases e : score adj chosen c < m
    · rw [if_pos e]
      right
      rcases search_spec adj chosen cs (k + 1) (score adj chosen c) k with ⟨h, h'⟩ | ⟨i, hi, h, h', h'', h3⟩
      · exact ⟨0, by simp, by simpa using h, by simpa using e, by simpa using h', by intro j hj; omega⟩
      · refine ⟨i + 1, by simpa using hi, by rw [h]; omega, by simp only [List.getElem_cons_succ]; linarith, ?_, ?_⟩
        · intro q hq
          rcases List.mem_cons.mp hq with rfl | hq
          · simpa using h'.le
          · simpa using h'' q hq
        · intro j hj
          cases j with
          | zero => simpa using h'
          | succ j => simpa using h3 j (by omega)
    · rw [if_neg e]
      rcases search_spec adj chosen cs (k + 1) m best with ⟨h, h'⟩ | ⟨i, hi, h, h', h'', h3⟩
      · exact Or.inl ⟨h, by
          intro q hq
          rcases List.mem_cons.mp hq with rfl | hq
          · exact not_lt.mp e
          · exact h' q hq⟩
      · right
        refine ⟨i + 1, by simpa using hi, by rw [h]; omega, by simpa using h', ?_, ?_⟩
        · intro q hq
          rcases List.mem_cons.mp hq with rfl | hq
          · simp only [List.getElem_cons_succ]; linarith
          · simpa using h'' q hq
        · intro j hj
          cases j with
          | zero => simp only [List.getElem_cons_succ, List.getElem_cons_zero]; linarith
          | succ j => simpa using h3 j (by omega)

theorem nearest_isLeast (dimensions samples : Nat) (hs : samples ≤ 2 ^ 16) (hd : dimensions < 2 ^ 32) (chosen : List (List Nat)) (hn : chosen ≠ []) (hc : ∀ p ∈ chosen, Spec.InCube dimensions samples p)
    (c : List Nat) (h : Spec.InCube dimensions samples c) : Spec.Nearest chosen c √(nearest chosen c : ℝ) := by
  obtain ⟨h1, p, hp, h2⟩ := nearest_mem chosen hn c (by rw [h.1]; exact hd)
  constructor
  · refine ⟨p, hp, ?_⟩
    rw [h2, distance_eq samples hs c p h.2 (hc p hp).2]
    rfl
  · rintro x ⟨q, hq, rfl⟩
    have := h1 q hq
    unfold Spec.euclidean
    rw [← distance_eq samples hs c q h.2 (hc q hq).2]
    exact Real.sqrt_le_sqrt (by exact_mod_cast this)

theorem adjustment_bounds (dimensions samples : Nat) (hd : 1 ≤ dimensions) (h1 : 1 ≤ samples) : 0 ≤ adjustment dimensions samples ∧ adjustment dimensions samples ≤ samples := by
  unfold adjustment
  have h : (1 : ℝ) ≤ samples := by exact_mod_cast h1
  have hd' : (1 : ℝ) ≤ dimensions := by exact_mod_cast hd
  refine ⟨by positivity, ?_⟩
  have h0 : 0 ≤ 1 / (dimensions : ℝ) := by positivity
  calc (samples : ℝ) ^ (1 - 1 / (dimensions : ℝ)) ≤ (samples : ℝ) ^ (1 : ℝ) := Real.rpow_le_rpow_of_exponent_le h (by linarith)
    _ = samples := Real.rpow_one _

theorem score_lt (dimensions samples : Nat) (hd : 1 ≤ dimensions) (hd' : dimensions < 2 ^ 32) (h1 : 1 ≤ samples) (hs : samples < 2 ^ 32) (chosen : List (List Nat)) (hn : chosen ≠ [])
    (c : List Nat) (hc : c.length = dimensions) : score (adjustment dimensions samples) chosen c < largest := by
  obtain ⟨a0, a1⟩ := adjustment_bounds dimensions samples hd h1
  obtain ⟨_, p, _, h2⟩ := nearest_mem chosen hn c (by rw [hc]; exact hd')
  have h3 : nearest chosen c ≤ 2 ^ 64 := by
    rw [h2]
    have := distance_le c p
    rw [hc] at this
    omega
  have h4 : √(nearest chosen c : ℝ) ≤ 2 ^ 32 := by
    rw [Real.sqrt_le_left (by positivity)]
    calc (nearest chosen c : ℝ) ≤ 2 ^ 64 := by exact_mod_cast h3
      _ = (2 ^ 32) ^ 2 := by norm_num
  have h5 := Real.sqrt_nonneg (nearest chosen c : ℝ)
  have h6 : (samples : ℝ) < 2 ^ 32 := by exact_mod_cast hs
  have h7 : ((2 : ℝ) ^ 64) < (largest : ℝ) := by exact_mod_cast large
  have h8 : (2 : ℝ) ^ 32 < 2 ^ 64 := by norm_num
  unfold score
  rw [abs_lt]
  constructor <;> linarith

/-- **C159 (partial).** For up to 65536 samples the function returns the number of the first candidate whose distance from the nearest selected point is closest to the ideal spacing. Missing: larger samples. -/
theorem C159_best_partial (dimensions samples : Nat) (hd : 1 ≤ dimensions) (hd' : dimensions < 2 ^ 32) (h1 : 1 ≤ samples) (hs : samples ≤ 2 ^ 16)
    (chosen candidates : List (List Nat)) (hn : chosen ≠ []) (hm : candidates ≠ []) (hp : ∀ p ∈ chosen, Spec.InCube dimensions samples p) (hc : ∀ c ∈ candidates, Spec.InCube dimensions samples c) :
    ∃ h : bestDistance dimensions samples chosen candidates < candidates.length, ∃ d, Spec.Nearest chosen candidates[bestDistance dimensions samples chosen candidates] d ∧
      ∀ j, ∀ hj : j < candidates.length, ∀ d', Spec.Nearest chosen candidates[j] d' →
        |d - Spec.ideal dimensions samples| ≤ |d' - Spec.ideal dimensions samples| ∧
        (j < bestDistance dimensions samples chosen candidates → |d - Spec.ideal dimensions samples| < |d' - Spec.ideal dimensions samples|) := by
  have near := fun c hcm => nearest_isLeast dimensions samples hs hd' chosen hn hp c (hc c hcm)
  have uniq : ∀ c ∈ candidates, ∀ d', Spec.Nearest chosen c d' → d' = √(nearest chosen c : ℝ) := fun c hcm d' h => h.unique (near c hcm)
  unfold bestDistance
  rcases search_spec (adjustment dimensions samples) chosen candidates 0 largest 0 with ⟨_, h⟩ | ⟨i, hi, e, _, h2, h3⟩
  · exfalso
    obtain ⟨c, hcm⟩ := List.exists_mem_of_ne_nil _ hm
    have := h c hcm
    have := score_lt dimensions samples hd hd' h1 (by omega) chosen hn c (hc c hcm).1
    linarith
  · simp only [Nat.zero_add] at e
    simp only [e]
    refine ⟨hi, _, near _ (List.getElem_mem hi), ?_⟩
    intro j hj d' hd'
    rw [uniq _ (List.getElem_mem hj) d' hd']
    exact ⟨h2 _ (List.getElem_mem hj), fun hji => h3 j hji⟩

/-- **C159.** It always returns the number of a candidate, which is all that the choice of points depends on elsewhere: it is the function of the model of improved hypercube sampling (C41), for some decisions. -/
theorem C159_refines (dimensions samples : Nat) (chosen candidates : List (List Nat)) :
    ∃ improves : Nat → Bool, bestDistance dimensions samples chosen candidates = Sampler.bestDistance improves candidates.length := by
  have pick : ∀ (b n : Nat), (b = 0 ∨ b < n) → (List.range n).foldl (fun best k => if decide (k = b) then k else best) 0 = b ∨ b = 0 ∧ n = 0 := by
    intro b n
    induction n with
    | zero => intro h; rcases h with h | h
              · exact Or.inr ⟨h, rfl⟩
              · omega
    | succ n ih =>
      intro h
      rw [List.range_succ, List.foldl_append]
      simp only [List.foldl_cons, List.foldl_nil]
      left
      by_cases e : n = b
      · simp [e]
      · rw [if_neg (by simpa using e)]
        rcases ih (by omega) with h' | ⟨h1, h2⟩
        · exact h'
        · omega
  refine ⟨fun k => decide (k = bestDistance dimensions samples chosen candidates), ?_⟩
  have hb : bestDistance dimensions samples chosen candidates = 0 ∨ bestDistance dimensions samples chosen candidates < candidates.length := by
    unfold bestDistance
    rcases search_spec (adjustment dimensions samples) chosen candidates 0 largest 0 with ⟨e, _⟩ | ⟨i, hi, e, _⟩
    · exact Or.inl e
    · right; rw [e]; omega
  unfold Sampler.bestDistance
  rcases pick _ _ hb with h | ⟨h1, h2⟩
  · exact h.symm
  · rw [h1, h2]; simp

/-- **C159 (negation).** Points that are a multiple of 65536 apart in every dimension are taken to coincide. -/
theorem C159_counterexample_coincide (c : List Nat) (m : Nat) (h : ∀ a ∈ c, a + 2 ^ 16 * m < 2 ^ 32) : distance c (c.map (· + 2 ^ 16 * m)) = 0 := by
  induction c with
  | nil => simp [distance]
  | cons a c ih =>
    have ih := ih fun x hx => h x (List.mem_cons_of_mem _ hx)
    have ha := h a (by simp)
    simp only [distance, List.map_cons, List.zipWith_cons_cons, List.sum_cons] at ih ⊢
    rw [ih]
    have hm : m < 2 ^ 16 := by omega
    have e : (a + (2 ^ 32 - (a + 2 ^ 16 * m))) % 2 ^ 32 = 2 ^ 16 * (2 ^ 16 - m) % 2 ^ 32 := by congr 1; omega
    have : squared a (a + 2 ^ 16 * m) = 0 := by
      unfold squared
      rw [e, ← Nat.mul_mod]
      apply Nat.mod_eq_zero_of_dvd
      exact ⟨(2 ^ 16 - m) * (2 ^ 16 - m), by ring⟩
    rw [this]

/-- **C159 (negation).** For all numbers of samples from 65538 on, of the candidates 65538 and 401, at distances 65537 and 400 from the selected point 1, the first is returned, although the ideal spacing is 1. -/
theorem C159_counterexample_far (samples : Nat) : bestDistance 1 samples [[1]] [[65538], [401]] = 0 ∧
    Spec.Nearest [[1]] [65538] 65537 ∧ Spec.Nearest [[1]] [401] 400 ∧ Spec.ideal 1 samples = 1 := by
  have adj : adjustment 1 samples = 1 := by simp [adjustment]
  have s0 : score 1 [[1]] [65538] = |√(131073 : ℝ) - 1| := by
    have : nearest [[1]] [65538] = 131073 := by decide +kernel
    unfold score; rw [this]; norm_num
  have s1 : score 1 [[1]] [401] = |√(160000 : ℝ) - 1| := by
    have : nearest [[1]] [401] = 160000 := by decide +kernel
    unfold score; rw [this]; norm_num
  have q1 : √(160000 : ℝ) = 400 := by rw [show (160000 : ℝ) = 400 ^ 2 by norm_num]; exact Real.sqrt_sq (by norm_num)
  have q0 : √(131073 : ℝ) ≤ 400 := by rw [← q1]; exact Real.sqrt_le_sqrt (by norm_num)
  have q0' : 1 ≤ √(131073 : ℝ) := by rw [Real.one_le_sqrt]; norm_num
  have L : ((2 : ℝ) ^ 64) < (largest : ℝ) := by exact_mod_cast large
  have L' : √(131073 : ℝ) - 1 < largest := by
    have : (400 : ℝ) < 2 ^ 64 := by norm_num
    linarith
  have q2 : √(4295098369 : ℝ) = 65537 := by rw [show (4295098369 : ℝ) = 65537 ^ 2 by norm_num]; exact Real.sqrt_sq (by norm_num)
  refine ⟨?_, ?_, ?_, by simp [Spec.ideal]⟩
  · unfold bestDistance
    rw [adj]
    simp only [search]
    rw [s0, s1, abs_of_nonneg (by linarith), q1, if_pos L', if_neg]
    rw [abs_of_nonneg (by norm_num)]
    push Not
    linarith
  all_goals
    constructor
    · refine ⟨[1], by simp, ?_⟩
      simp only [Spec.euclidean, Spec.squares]
      norm_num [q1, q2]
    · rintro x ⟨q, hq, rfl⟩
      simp only [List.mem_singleton] at hq
      subst hq
      simp only [Spec.euclidean, Spec.squares]
      norm_num [q1, q2]

/-- The hypotheses of `C159_best_partial` can be met, in two dimensions. -/
example : bestDistance 2 10 [[1, 1]] [[2, 2], [3, 4]] < 2 := by
  obtain ⟨h, _⟩ := C159_best_partial 2 10 (by norm_num) (by norm_num) (by norm_num) (by norm_num) [[1, 1]] [[2, 2], [3, 4]] (by simp) (by simp)
    (by simp [Spec.InCube]) (by simp [Spec.InCube])
  exact h

example : distance [5, 6] [5 + 2 ^ 16 * 3, 6 + 2 ^ 16 * 3] = 0 := C159_counterexample_coincide [5, 6] 3 (by simp)

end Esl.Distance
