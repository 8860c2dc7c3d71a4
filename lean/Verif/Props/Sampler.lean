import Verif.Model.Sampler
import Mathlib.Data.List.Nodup
import Mathlib.Algebra.Order.Field.Rat
import Mathlib.Tactic.Linarith
import Mathlib.Tactic.FieldSimp
import Mathlib.Tactic.Ring
/-! # C39-C41: samples of a parameter space -/
namespace Esl.Sampler

/-! ## Specification -/

/-- The `s`-th of `d` equidistant points from the lower to the upper bound. -/
def Spec.equidistant (p : Param) (d s : Nat) : Rat := p.lower + (p.upper - p.lower) * s / ((d : Rat) - 1)

/-- A combination of grid values: one for each parameter. -/
def Spec.Combination (v : List (Option Rat)) (ps : List (Param × Nat)) : Prop :=
  List.Forall₂ (fun x p => ∃ s < p.2, x = some (Spec.equidistant p.1 p.2 s)) v ps

theorem collect_ok {α β : Type} (f : α → Outcome β) (g : α → β) (l : List α) (h : ∀ a ∈ l, f a = .ok (g a)) : collect f l = .ok (l.map g) := by
  induction l with
  | nil => rfl
  | cons a l ih =>
    rw [collect, h a (by simp), Outcome.bind_ok, ih fun x hx => h x (List.mem_cons_of_mem _ hx), Outcome.bind_ok]
    rfl

/-! ## Grid -/

/-- Digits of a number in a mixed radix. -/
def mixed (fl : Rat → Rat) : List (Param × Nat) → Nat → List (Option Rat)
  | [], _ => []
  | (p, d) :: ps, s => gridValue fl p d (s % d) :: mixed fl ps (s / d)

def total (ps : List (Param × Nat)) : Nat := (ps.map (·.2)).prod

theorem total_cons (p : Param) (d : Nat) (ps : List (Param × Nat)) : total ((p, d) :: ps) = d * total ps := by simp [total]

theorem total_pos (ps : List (Param × Nat)) (hp : ∀ p ∈ ps, p.2 ≠ 0) : 0 < total ps := by
  induction ps with
  | nil => simp [total]
  | cons p ps ih =>
    obtain ⟨p, d⟩ := p
    rw [total_cons]
    exact Nat.mul_pos (Nat.pos_of_ne_zero (hp (p, d) (by simp))) (ih fun x hx => hp x (List.mem_cons_of_mem _ hx))

theorem points_eq (ps : List (Param × Nat)) (h : total ps < 2 ^ 32) (hp : ∀ p ∈ ps, p.2 ≠ 0) : points ps = total ps := by
  have key : ∀ (ps : List (Param × Nat)) (n : Nat), (∀ p ∈ ps, p.2 ≠ 0) → n * total ps < 2 ^ 32 →
      ps.foldl (fun n p => n * p.2 % 2 ^ 32) n = n * total ps := by
    intro ps
    induction ps with
    | nil => intro n _ _; simp [total]
    | cons p ps ih =>
      intro n hp hn
      obtain ⟨p, d⟩ := p
      rw [total_cons, ← Nat.mul_assoc] at hn
      have ht : 0 < total ps := total_pos ps fun x hx => hp x (List.mem_cons_of_mem _ hx)
      have hl : n * d < 2 ^ 32 := lt_of_le_of_lt (Nat.le_mul_of_pos_right _ ht) hn
      rw [List.foldl_cons, Nat.mod_eq_of_lt hl, ih (n * d) (fun x hx => hp x (List.mem_cons_of_mem _ hx)) hn, total_cons, Nat.mul_assoc]
  have := key ps 1 hp (by omega)
  rw [points, this]; omega

theorem sample_eq (fl : Rat → Rat) (s : Nat) (ps : List (Param × Nat)) (pre : Nat) (hpre : pre ≠ 0) (hp : ∀ p ∈ ps, p.2 ≠ 0) (h : pre * total ps < 2 ^ 32) :
    sample fl s pre ps = .ok (mixed fl ps (s / pre)) := by
  induction ps generalizing pre with
  | nil => rfl
  | cons p ps ih =>
    obtain ⟨p, d⟩ := p
    have hd : d ≠ 0 := hp (p, d) (by simp)
    rw [total_cons, ← Nat.mul_assoc] at h
    have ht : 0 < total ps := total_pos ps fun x hx => hp x (List.mem_cons_of_mem _ hx)
    have hl : pre * d < 2 ^ 32 := lt_of_le_of_lt (Nat.le_mul_of_pos_right _ ht) h
    have hi : s / pre % d < d := Nat.mod_lt _ (Nat.pos_of_ne_zero hd)
    have hg : (gridValues fl p d)[s / pre % d]? = some (gridValue fl p d (s / pre % d)) := by simp [gridValues, hi]
    rw [sample, if_neg (by omega), hg, Nat.mod_eq_of_lt hl, ih (pre * d) (Nat.mul_ne_zero hpre hd) (fun x hx => hp x (List.mem_cons_of_mem _ hx)) h]
    rw [Nat.mul_comm pre d, Nat.mul_comm d pre, ← Nat.div_div_eq_div_mul]
    rfl

theorem gridValue_eq (p : Param) (d s : Nat) (hd : 2 ≤ d) : gridValue id p d s = some (Spec.equidistant p d s) := by
  unfold gridValue Spec.equidistant
  rw [if_neg (by omega)]
  simp only [id]
  congr 2
  ring

theorem equidistant_inj (p : Param) (d : Nat) (hd : 2 ≤ d) (hp : p.lower < p.upper) (s t : Nat) (h : Spec.equidistant p d s = Spec.equidistant p d t) : s = t := by
  unfold Spec.equidistant at h
  have h1 : (0 : Rat) < (d : Rat) - 1 := by
    have : (2 : Rat) ≤ (d : Rat) := by exact_mod_cast hd
    linarith
  have h2 : p.upper - p.lower ≠ 0 := by intro h0; linarith
  have h3 : (p.upper - p.lower) * (s : Rat) = (p.upper - p.lower) * (t : Rat) := by
    have := add_left_cancel h
    rwa [div_left_inj' (ne_of_gt h1)] at this
  exact_mod_cast mul_left_cancel₀ h2 h3

theorem mixed_inj (ps : List (Param × Nat)) (h : ∀ p ∈ ps, 2 ≤ p.2 ∧ p.1.lower < p.1.upper) (s t : Nat) (hs : s < total ps) (ht : t < total ps)
    (he : mixed id ps s = mixed id ps t) : s = t := by
  induction ps generalizing s t with
  | nil => simp [total] at hs ht; omega
  | cons p ps ih =>
    obtain ⟨p, d⟩ := p
    obtain ⟨hd, hp⟩ := h (p, d) (by simp)
    simp only at hd hp
    rw [total_cons] at hs ht
    rw [mixed, mixed, List.cons.injEq, gridValue_eq p d _ hd, gridValue_eq p d _ hd] at he
    have h1 := equidistant_inj p d hd hp _ _ (Option.some.inj he.1)
    have h2 := ih (fun x hx => h x (List.mem_cons_of_mem _ hx)) (s / d) (t / d) (Nat.div_lt_of_lt_mul hs) (Nat.div_lt_of_lt_mul ht) he.2
    rw [← Nat.div_add_mod s d, ← Nat.div_add_mod t d, h1, h2]

theorem mixed_mem (ps : List (Param × Nat)) (h : ∀ p ∈ ps, 2 ≤ p.2) (v : List (Option Rat)) :
    (∃ s < total ps, mixed id ps s = v) ↔ Spec.Combination v ps := by
  induction ps generalizing v with
  | nil =>
    constructor
    · rintro ⟨s, _, rfl⟩; exact List.Forall₂.nil
    · intro hv; cases hv; exact ⟨0, by simp [total], rfl⟩
  | cons p ps ih =>
    obtain ⟨p, d⟩ := p
    have hd : 2 ≤ d := h (p, d) (by simp)
    have ih := fun v => ih (fun x hx => h x (List.mem_cons_of_mem _ hx)) v
    constructor
    · rintro ⟨s, hs, rfl⟩
      rw [total_cons] at hs
      refine List.Forall₂.cons ⟨s % d, Nat.mod_lt _ (by omega), gridValue_eq p d _ hd⟩ ?_
      exact (ih _).1 ⟨s / d, Nat.div_lt_of_lt_mul hs, rfl⟩
    · intro hv
      match v, hv with
      | x :: xs, List.Forall₂.cons hx hxs =>
        obtain ⟨a, ha, rfl⟩ := hx
        obtain ⟨b, hb, rfl⟩ := (ih xs).2 hxs
        simp only at ha
        refine ⟨a + d * b, ?_, ?_⟩
        · rw [total_cons]
          calc a + d * b < d + d * b := by omega
            _ = d * (b + 1) := by ring
            _ ≤ d * total ps := Nat.mul_le_mul_left _ hb
        · rw [mixed, Nat.add_mul_mod_self_left, Nat.mod_eq_of_lt ha, Nat.add_mul_div_left _ _ (by omega), Nat.div_eq_of_lt ha, Nat.zero_add, gridValue_eq p d _ hd]

/-- **C39.** If all densities are at least two, all intervals have positive length and the product of the densities is below 2^32, then the grid consists of as many samples as the product
of the densities, no two equal, and contains a point exactly if it is a combination of grid values. -/
theorem C39_grid_partial (ps : List (Param × Nat)) (h : ∀ p ∈ ps, 2 ≤ p.2 ∧ p.1.lower < p.1.upper) (hs : (ps.map (·.2)).prod < 2 ^ 32) :
    ∃ r, grid id ps = .ok r ∧ r.length = (ps.map (·.2)).prod ∧ r.Nodup ∧ ∀ v, v ∈ r ↔ Spec.Combination v ps := by
  have h0 : ∀ p ∈ ps, p.2 ≠ 0 := fun p hp => by have := (h p hp).1; omega
  refine ⟨(List.range (total ps)).map (mixed id ps), ?_, by simp [total], ?_, ?_⟩
  · unfold grid
    rw [points_eq ps hs h0]
    refine collect_ok _ _ _ fun s _ => ?_
    rw [sample_eq id s ps 1 (by omega) h0 (by rw [Nat.one_mul]; exact hs), Nat.div_one]
  · refine List.Nodup.map_on ?_ List.nodup_range
    intro s hs t ht he
    exact mixed_inj ps h s t (List.mem_range.1 hs) (List.mem_range.1 ht) he
  · intro v
    rw [← mixed_mem ps (fun p hp => (h p hp).1) v]
    simp [List.mem_map]

/-- The grid contains its bounds, and nothing outside. -/
theorem C39_bounds (p : Param) (d s : Nat) (hd : 2 ≤ d) (hs : s < d) (h : p.lower ≤ p.upper) :
    Spec.equidistant p d 0 = p.lower ∧ Spec.equidistant p d (d - 1) = p.upper ∧ p.lower ≤ Spec.equidistant p d s ∧ Spec.equidistant p d s ≤ p.upper := by
  have h1 : (0 : Rat) < (d : Rat) - 1 := by
    have : (2 : Rat) ≤ (d : Rat) := by exact_mod_cast hd
    linarith
  have hc : ((d - 1 : Nat) : Rat) = (d : Rat) - 1 := by rw [Nat.cast_sub (by omega)]; simp
  have hs' : (s : Rat) ≤ (d : Rat) - 1 := by
    rw [← hc]; exact_mod_cast (by omega : s ≤ d - 1)
  have hs0 : (0 : Rat) ≤ (s : Rat) := by exact_mod_cast Nat.zero_le s
  unfold Spec.equidistant
  refine ⟨by simp, ?_, ?_, ?_⟩
  · rw [hc, mul_div_assoc, div_self (ne_of_gt h1)]; ring
  · have : 0 ≤ (p.upper - p.lower) * (s : Rat) / ((d : Rat) - 1) := div_nonneg (mul_nonneg (by linarith) hs0) (le_of_lt h1)
    linarith
  · have : (p.upper - p.lower) * (s : Rat) / ((d : Rat) - 1) ≤ p.upper - p.lower := by
      rw [div_le_iff₀ h1]
      exact mul_le_mul_of_nonneg_left hs' (by linarith)
    linarith

example : grid id [(⟨0, 1⟩, 2), (⟨10, 12⟩, 3)] = .ok [[some 0, some 10], [some 1, some 10], [some 0, some 11], [some 1, some 11], [some 0, some 12], [some 1, some 12]] := by
  decide +kernel

/-- **C39 is violated** by a density of one, for which the only value is not a number, and by two densities of 65536, whose product is zero on 32 bits: there are no samples. -/
theorem C39_counterexample : grid id [(⟨0, 1⟩, 1)] = .ok [[none]] ∧ grid id [(⟨0, 1⟩, 65536), (⟨0, 1⟩, 65536)] = .ok [] := by
  constructor
  · decide +kernel
  · have : points [(⟨0, 1⟩, 65536), (⟨0, 1⟩, 65536)] = 0 := by decide +kernel
    unfold grid
    rw [this]; rfl

/-! ## Latin hypercube -/

theorem latinSample_ok (fl : Rat → Rat) (density s : Nat) (hs : s < density) (ps : List (Param × List Nat)) (h : ∀ p ∈ ps, p.2.Perm (List.range density)) :
    latinSample fl density s ps = .ok (ps.map fun p => gridValue fl p.1 density (p.2.getD s 0)) := by
  induction ps with
  | nil => rfl
  | cons p ps ih =>
    obtain ⟨p, index⟩ := p
    have hp : index.Perm (List.range density) := h (p, index) (by simp)
    have hl : index.length = density := by simpa using hp.length_eq
    have hi : index[s]? = some index[s] := List.getElem?_eq_getElem (by omega)
    have hm : index[s] < density := by
      have := hp.mem_iff.1 (List.getElem_mem (show s < index.length by omega))
      simpa using this
    have hg : (gridValues fl p density)[index[s]]? = some (gridValue fl p density index[s]) := by simp [gridValues, hm]
    rw [latinSample, hi]
    simp only
    rw [hg]
    simp only
    rw [ih fun x hx => h x (List.mem_cons_of_mem _ hx), Outcome.bind_ok]
    simp [List.getD, hi]

/-- **C40.** For every outcome of the shuffles, if the density is at least two there are as many samples as the density, and each parameter takes each of its equidistant values in exactly one of them. -/
theorem C40_latin_partial (ps : List (Param × List Nat)) (density : Nat) (hd : 2 ≤ density) (h : ∀ p ∈ ps, p.2.Perm (List.range density)) :
    ∃ r, latin id ps density = .ok r ∧ r.length = density ∧ ∀ (i : Nat) (hi : i < ps.length),
      (r.map (·[i]?)).Perm ((List.range density).map fun s => some (some (Spec.equidistant ps[i].1 density s))) := by
  refine ⟨(List.range density).map fun s => ps.map fun p => gridValue id p.1 density (p.2.getD s 0), ?_, by simp, ?_⟩
  · unfold latin
    exact collect_ok _ _ _ fun s hs => latinSample_ok id density s (List.mem_range.1 hs) ps h
  · intro i hi
    have hp := h ps[i] (List.getElem_mem hi)
    have hl : ps[i].2.length = density := by simpa using hp.length_eq
    have e : ((List.range density).map fun s => ps.map fun p => gridValue id p.1 density (p.2.getD s 0)).map (·[i]?) =
        (ps[i].2).map fun j => some (some (Spec.equidistant ps[i].1 density j)) := by
      apply List.ext_getElem
      · simp [hl]
      · intro n h1 h2
        simp only [List.length_map] at h2
        simp [hi, gridValue_eq _ _ _ hd, List.getElem?_eq_getElem h2]
    rw [e]
    exact hp.map _

example : latin id [(⟨0, 2⟩, [1, 2, 0]), (⟨0, 1⟩, [2, 0, 1])] 3 = .ok [[some 1, some 1], [some 2, some 0], [some 0, some (1 / 2)]] ∧
    ([1, 2, 0] : List Nat).Perm (List.range 3) := by
  constructor
  · decide +kernel
  · decide

/-- **C40 is violated** by a density of one, for which the value is not a number. -/
theorem C40_counterexample : latin id [(⟨0, 2⟩, [0])] 1 = .ok [[none]] := by decide +kernel

/-! ## Improved hypercube sampling -/

theorem bestDistance_lt (improves : Nat → Bool) (n : Nat) (h : 0 < n) : bestDistance improves n < n := by
  unfold bestDistance
  have key : ∀ (l : List Nat) (b : Nat), b < n → (∀ k ∈ l, k < n) → l.foldl (fun best k => if improves k then k else best) b < n := by
    intro l
    induction l with
    | nil => intro b hb _; exact hb
    | cons a l ih =>
      intro b hb hl
      rw [List.foldl_cons]
      refine ih _ ?_ fun k hk => hl k (List.mem_cons_of_mem _ hk)
      split
      · exact hl a (by simp)
      · exact hb
  exact key _ 0 h fun k hk => List.mem_range.1 hk

theorem drawPoints_ok (draw : Nat → Nat) (hd : ∀ k, 0 < k → draw k < k) (P : Nat → Prop) (k : Nat) (list : List Nat) (hl : k ≤ list.length) (hP : ∀ x ∈ list, P x) :
    ∃ ps, drawPoints draw k list = .ok ps ∧ ps.length = k ∧ ∀ x ∈ ps, P x := by
  induction k generalizing list with
  | zero => exact ⟨[], rfl, rfl, by simp⟩
  | succ k ih =>
    have h1 := hd (k + 1) (by omega)
    have e1 : list[draw (k + 1)]? = some list[draw (k + 1)] := List.getElem?_eq_getElem (by omega)
    have e2 : list[k]? = some list[k] := List.getElem?_eq_getElem (by omega)
    obtain ⟨ps, i1, i2, i3⟩ := ih (list.set (draw (k + 1)) list[k]) (by simp; omega) (by
      intro x hx
      rcases List.mem_or_eq_of_mem_set hx with hx | rfl
      · exact hP x hx
      · exact hP _ (List.getElem_mem _))
    refine ⟨ps ++ [list[draw (k + 1)]], ?_, by simp [i2], ?_⟩
    · rw [drawPoints, e1, e2]
      simp only
      rw [i1, Outcome.bind_ok]
    · intro x hx
      rcases List.mem_append.1 hx with hx | hx
      · exact i3 x hx
      · rw [List.mem_singleton.1 hx]; exact hP _ (List.getElem_mem _)

/-- The invariant of the loop: the values chosen so far, at the end of `result`, and the first `count` options together are the numbers from 1 to `n`. -/
structure Inv (n count : Nat) (r : Row) : Prop where
  res : r.result.length = n
  opt : r.options.length = n
  le : count ≤ n
  perm : (r.result.drop count ++ r.options.take count).Perm (List.range' 1 n)
  single : n = 1 → r.options = [1]
  rev : ∀ j (hj : j < count), r.reverse (r.options[j]'(by omega)) = some j

theorem perm_pick (l : List Nat) (c j : Nat) (hl : l.length = c + 1) (hj : j < c + 1) :
    l.Perm (l[j]'(by omega) :: (l.set j (l[c]'(by omega))).take c) := by
  have hsplit : l = l.take c ++ [l[c]'(by omega)] := by
    rw [List.take_append_getElem (by omega)]
    rw [List.take_of_length_le (by omega)]
  by_cases hjc : j = c
  · subst hjc
    rw [List.take_set_of_le (by omega)]
    conv => lhs; rw [hsplit]
    exact List.perm_append_singleton _ _
  · have hj' : j < c := by omega
    have e : (l.set j (l[c]'(by omega))).take c = l.take j ++ l[c]'(by omega) :: (l.take c).drop (j + 1) := by
      rw [List.take_set, List.set_eq_take_append_cons_drop, if_pos (by simp; omega), List.take_take, Nat.min_eq_left (by omega)]
    rw [e]
    have e2 : l.take c = l.take j ++ l[j]'(by omega) :: (l.take c).drop (j + 1) := by
      have := List.take_append_drop j (l.take c)
      rw [List.take_take, Nat.min_eq_left (by omega), List.drop_eq_getElem_cons (by simp; omega)] at this
      rw [List.getElem_take] at this
      exact this.symm
    conv => lhs; rw [hsplit, e2]
    generalize l.take j = A
    generalize (l.take c).drop (j + 1) = B
    generalize l[j]'(by omega) = x
    generalize l[c]'(by omega) = y
    have h1 : (A ++ x :: B ++ [y]).Perm (y :: (A ++ x :: B)) := List.perm_append_singleton _ _
    have h2 : (A ++ x :: B).Perm (x :: (A ++ B)) := List.perm_middle
    have h3 : (A ++ y :: B).Perm (y :: (A ++ B)) := List.perm_middle
    exact h1.trans ((h2.cons y).trans ((List.Perm.swap x y _).trans (h3.symm.cons x)))

theorem init_inv (n first : Nat) (h1 : 1 ≤ first) (h2 : first ≤ n) : ∃ r, Row.init n first = .ok r ∧ Inv n (n - 1) r := by
  unfold Row.init
  rw [if_neg (by omega)]
  refine ⟨_, rfl, ⟨by simp, by simp, by omega, ?_, ?_, ?_⟩⟩
  · have hp := perm_pick (List.range' 1 n) (n - 1) (first - 1) (by simp; omega) (by omega)
    have e1 : (List.range' 1 n)[n - 1]'(by simp; omega) = n := by simp; omega
    have e2 : (List.range' 1 n)[first - 1]'(by simp; omega) = first := by simp; omega
    rw [e1, e2] at hp
    refine List.Perm.trans ?_ hp.symm
    simp only
    have e3 : ((List.replicate n 0).set (n - 1) first).drop (n - 1) = [first] := by
      rw [List.drop_eq_getElem_cons (by simp; omega)]
      simp
      omega
    rw [e3]
    exact List.Perm.refl _
  · intro hn
    subst hn
    have : first = 1 := by omega
    subst this
    rfl
  · intro j hj
    simp only [List.getElem_set, List.getElem_range']
    by_cases hjf : first - 1 = j
    · rw [if_pos hjf, if_pos rfl, hjf]
    · rw [if_neg hjf, if_neg (by omega), if_pos (by omega)]
      congr 1; omega

theorem choose_inv (n c best : Nat) (hc : 1 ≤ c) (r : Row) (h : Inv n (c + 1) r) (point : List Nat) (hb : best < point.length) (hp : ∀ x ∈ point, x ∈ r.options.take (c + 1)) :
    ∃ r', r.choose (c + 1) best point = .ok r' ∧ Inv n c r' := by
  have hle := h.le
  have hopt := h.opt
  have hres := h.res
  have e0 : point[best]? = some point[best] := List.getElem?_eq_getElem hb
  obtain ⟨j, hj, hv⟩ := List.mem_take_iff_getElem.1 (hp _ (List.getElem_mem hb))
  have hj' : j < c + 1 := by omega
  have hrev := h.rev j hj'
  rw [hv] at hrev
  have e1 : r.options[j]? = some point[best] := by rw [List.getElem?_eq_getElem (by omega), hv]
  have e2 : r.options[c + 1 - 1]? = some (r.options[c]'(by omega)) := List.getElem?_eq_getElem (by omega)
  unfold Row.choose
  rw [e0]
  simp only
  rw [hrev]
  simp only
  rw [e1, e2]
  simp only [ne_eq, not_true, if_false]
  refine ⟨_, rfl, ⟨by simp [hres], by simp [hopt], by omega, ?_, fun _ => by omega, ?_⟩⟩
  · simp only [Nat.add_sub_cancel]
    refine List.Perm.trans ?_ h.perm
    have d1 : (r.result.set c point[best]).drop c = point[best] :: r.result.drop (c + 1) := by
      rw [List.drop_eq_getElem_cons (by simp; omega), List.drop_set_of_lt (by omega)]
      simp
    rw [d1]
    have hpp := perm_pick (r.options.take (c + 1)) c j (by simp; omega) hj'
    have t1 : (r.options.take (c + 1))[j]'(by simp; omega) = point[best] := by simp [hv]
    have t2 : (r.options.take (c + 1))[c]'(by simp; omega) = r.options[c]'(by omega) := by simp
    rw [t1, t2] at hpp
    have t3 : ((r.options.take (c + 1)).set j (r.options[c]'(by omega))).take c = (r.options.set j (r.options[c]'(by omega))).take c := by
      rw [← List.take_set, List.take_take, Nat.min_eq_left (by omega)]
    rw [t3] at hpp
    refine List.Perm.trans ?_ (hpp.symm.append_left (r.result.drop (c + 1)))
    exact List.perm_middle.symm
  · intro i hi
    simp only
    by_cases hij : j = i
    · subst hij
      simp
    · rw [List.getElem_set_ne hij]
      have hri := h.rev i (by omega)
      have hrc := h.rev c (by omega)
      rw [if_neg]
      · exact hri
      · intro he
        rw [he, hrc] at hri
        injection hri with hri
        omega

/-- A choice of random numbers as the distributions deliver them: between 1 and `samples` on line 276 and below `k` on line 326. -/
structure Spec.InRange (rnd : Random) (samples : Nat) : Prop where
  first : ∀ i, 1 ≤ rnd.first i ∧ rnd.first i ≤ samples
  draw : ∀ c i k, 0 < k → rnd.draw c i k < k

theorem collect_inv {α β : Type} (f : α → Outcome β) (P : α → Prop) (Q : β → Prop) (l : List α) (h : ∀ a ∈ l, P a) (hf : ∀ a, P a → ∃ b, f a = .ok b ∧ Q b) :
    ∃ bs, collect f l = .ok bs ∧ bs.length = l.length ∧ ∀ b ∈ bs, Q b := by
  induction l with
  | nil => exact ⟨[], rfl, rfl, by simp⟩
  | cons a l ih =>
    obtain ⟨b, hb, hq⟩ := hf a (h a (by simp))
    obtain ⟨bs, i1, i2, i3⟩ := ih fun x hx => h x (List.mem_cons_of_mem _ hx)
    refine ⟨b :: bs, ?_, by simp [i2], ?_⟩
    · rw [collect, hb, Outcome.bind_ok, i1, Outcome.bind_ok]
    · intro x hx
      rcases List.mem_cons.1 hx with rfl | hx
      · exact hq
      · exact i3 x hx

theorem no_overrun (dimensions n duplication c : Nat) (hc : c ≤ n) (hd : 1 ≤ dimensions) (hs : dimensions * duplication * n < 2 ^ 32) :
    (listOverrun n duplication c || pointOverrun dimensions n duplication c) = false := by
  have h1 : duplication * n < 2 ^ 32 := by
    refine Nat.lt_of_le_of_lt ?_ hs
    rw [Nat.mul_assoc]
    exact Nat.le_mul_of_pos_left _ hd
  have h2 : duplication * c ≤ duplication * n := Nat.mul_le_mul_left _ hc
  have h3 : dimensions * duplication * c ≤ dimensions * duplication * n := Nat.mul_le_mul_left _ hc
  rw [Bool.or_eq_false_iff]
  constructor
  · simp only [listOverrun, List.any_eq_false, List.mem_range]
    intro k hk
    simp only [Bool.not_eq_true, List.any_eq_false, List.mem_range, decide_eq_false_iff_not, decide_eq_true_eq]
    intro j hj
    have h4 : (k + 1) * c ≤ duplication * c := Nat.mul_le_mul_right _ hk
    rw [Nat.add_mul] at h4
    rw [Nat.mod_eq_of_lt h1, Nat.mod_eq_of_lt (by omega)]
    omega
  · simp only [pointOverrun, List.any_eq_false, List.mem_range]
    intro k hk
    simp only [Bool.not_eq_true, List.any_eq_false, List.mem_range, decide_eq_false_iff_not, decide_eq_true_eq]
    intro i hi
    have hk' : k + 1 ≤ c * duplication := Nat.lt_of_lt_of_le hk (Nat.mod_le _ _)
    have h4 : (k + 1) * dimensions ≤ c * duplication * dimensions := Nat.mul_le_mul_right _ hk'
    have h5 : c * duplication * dimensions = dimensions * duplication * c := by ring
    rw [Nat.add_mul] at h4
    rw [Nat.mod_eq_of_lt hs, Nat.mod_eq_of_lt (by omega)]
    omega

theorem iterations_inv (rnd : Random) (n duplication : Nat) (hr : Spec.InRange rnd n) (hd : 1 ≤ duplication) (c : Nat) (rows : List (Nat × Row))
    (hs : rows.length * duplication * n < 2 ^ 32 ∨ c ≤ 1) (h : ∀ r ∈ rows, Inv n c r.2) :
    ∃ rows', iterations rnd n duplication c rows = .ok rows' ∧ rows'.length = rows.length ∧ ∀ r ∈ rows', Inv n (min c 1) r.2 := by
  induction c generalizing rows with
  | zero => exact ⟨rows, rfl, rfl, h⟩
  | succ c ih =>
    match c, ih, h with
    | 0, _, h => exact ⟨rows, rfl, rfl, h⟩
    | c + 1, ih, h =>
      have hs : rows.length * duplication * n < 2 ^ 32 := by omega
      have hstep : ∃ rows1, iteration rnd n duplication (c + 2) rows = .ok rows1 ∧ rows1.length = rows.length ∧ ∀ r ∈ rows1, Inv n (c + 1) r.2 := by
        by_cases h0 : rows.length = 0
        · rw [List.length_eq_zero_iff] at h0
          subst h0
          exact ⟨[], rfl, rfl, by simp⟩
        obtain ⟨r0, hr0⟩ := List.exists_mem_of_length_pos (Nat.pos_of_ne_zero h0)
        have hle := (h r0 hr0).le
        have hover := no_overrun rows.length n duplication (c + 2) hle (by omega) hs
        have hsmall : (c + 2) * duplication < 2 ^ 32 := by
          have h1 : (c + 2) * duplication ≤ n * duplication := Nat.mul_le_mul_right _ hle
          have h2 : n * duplication ≤ rows.length * (n * duplication) := Nat.le_mul_of_pos_left _ (by omega)
          have h3 : rows.length * (n * duplication) = rows.length * duplication * n := by ring
          omega
        rw [iteration, if_neg (by rw [hover]; simp), Nat.mul_comm duplication (c + 2), Nat.mod_eq_of_lt hsmall]
        refine collect_inv _ (fun r : Nat × Row => Inv n (c + 2) r.2) (fun r : Nat × Row => Inv n (c + 1) r.2) rows h ?_
        intro ir hi
        have hpos : 0 < duplication * (c + 2) := Nat.mul_pos (by omega) (by omega)
        have hlen : (ir.2.candidates duplication (c + 2)).length = (c + 2) * duplication := by
          simp only [Row.candidates, List.length_flatten, List.map_replicate, List.sum_replicate, List.length_take, hi.opt, Nat.min_eq_left hi.le]
          exact Nat.mul_comm _ _
        obtain ⟨ps, p1, p2, p3⟩ := drawPoints_ok (rnd.draw (c + 2) ir.1) (hr.draw _ _) (· ∈ ir.2.options.take (c + 2)) ((c + 2) * duplication)
          (ir.2.candidates duplication (c + 2)) (by omega) (by
            intro x hx
            obtain ⟨l, hl, hx⟩ := List.mem_flatten.1 hx
            rw [List.eq_of_mem_replicate hl] at hx
            exact hx)
        obtain ⟨r', q1, q2⟩ := choose_inv n (c + 1) (bestDistance (rnd.improves (c + 2)) ((c + 2) * duplication)) (by omega) ir.2 hi ps (by
          rw [p2]; rw [Nat.mul_comm] at hpos; exact bestDistance_lt _ _ hpos) p3
        refine ⟨(ir.1, r'), ?_, q2⟩
        rw [p1, Outcome.bind_ok, q1, Outcome.bind_ok]
      obtain ⟨rows1, s1, s2, s3⟩ := hstep
      obtain ⟨rows2, t1, t2, t3⟩ := ih rows1 (.inl (by rw [s2]; exact hs)) s3
      refine ⟨rows2, ?_, by omega, ?_⟩
      · rw [iterations, s1, Outcome.bind_ok, t1]
      · intro r hr
        have := t3 r hr
        rw [Nat.min_eq_right (by omega)] at this ⊢
        exact this

/-- **C41.** For all dimensions, sample sizes and duplication factors of at least one, and all random numbers and distances, the improved hypercube sampling succeeds, has one coordinate list for
each dimension, and each of them is a permutation of the numbers from 1 to the sample size. The number of candidate points must fit 32 bits, unless there are at most two samples. -/
theorem C41_permutations_partial (rnd : Random) (dimensions samples duplication : Nat) (hn : 1 ≤ samples) (hd : 1 ≤ duplication) (hr : Spec.InRange rnd samples)
    (hs : dimensions * duplication * samples < 2 ^ 32 ∨ samples ≤ 2) :
    ∃ r, improved rnd dimensions samples duplication = .ok r ∧ r.length = dimensions ∧ ∀ l ∈ r, l.Perm (List.range' 1 samples) := by
  unfold improved
  obtain ⟨rows, a1, a2, a3⟩ := collect_inv (fun i => Row.init samples (rnd.first i) >>= fun r => .ok (i, r)) (fun _ => True) (fun r => Inv samples (samples - 1) r.2)
    (List.range dimensions) (fun _ _ => trivial) (by
      intro i _
      obtain ⟨r, h1, h2⟩ := init_inv samples (rnd.first i) (hr.first i).1 (hr.first i).2
      exact ⟨(i, r), by rw [h1, Outcome.bind_ok], h2⟩)
  obtain ⟨rows', b1, b2, b3⟩ := iterations_inv rnd samples duplication hr hd (samples - 1) rows (by rw [a2, List.length_range]; omega) a3
  rw [a1, Outcome.bind_ok, b1, Outcome.bind_ok]
  obtain ⟨res, c1, c2, c3⟩ := collect_inv (fun ir : Nat × Row => match ir.2.options[0]? with
    | none => .ub
    | some v => .ok (ir.2.result.set 0 v)) (fun ir => Inv samples (min (samples - 1) 1) ir.2) (fun l => l.Perm (List.range' 1 samples)) rows' b3 (by
      intro ir hi
      have hopt := hi.opt
      have hres := hi.res
      have e : ir.2.options[0]? = some (ir.2.options[0]'(by omega)) := List.getElem?_eq_getElem (by omega)
      refine ⟨ir.2.result.set 0 (ir.2.options[0]'(by omega)), by rw [e], ?_⟩
      have key : ∀ (res opt : List Nat) (h0 : 0 < opt.length), 0 < res.length → res.set 0 (opt[0]'h0) = opt[0]'h0 :: res.drop 1 ∧ opt.take 1 = [opt[0]'h0] := by
        intro res opt h0 hr
        match res, hr, opt, h0 with
        | x :: xs, _, y :: ys, _ => simp
      obtain ⟨d, t⟩ := key ir.2.result ir.2.options (by omega) (by omega)
      rw [d]
      by_cases h1 : samples = 1
      · have ho := hi.single h1
        subst h1
        have : ir.2.result.drop 1 = [] := by apply List.drop_of_length_le; omega
        simp [this, ho]
      · have hm : min (samples - 1) 1 = 1 := by omega
        rw [hm] at hi
        refine List.Perm.trans ?_ hi.perm
        rw [t]
        exact (List.perm_append_singleton _ _).symm)
  exact ⟨res, c1, by rw [c2, b2, a2, List.length_range], c3⟩

/-- Random numbers within their ranges, and a sample of four points in two dimensions. -/
example : Spec.InRange ⟨fun _ => 4, fun _ _ k => k - 1, fun _ k => decide (k = 3)⟩ 4 ∧
    improved ⟨fun i => i + 2, fun c i k => (c + i) % k, fun _ k => decide (k = 3)⟩ 2 4 5 = .ok [[3, 1, 4, 2], [2, 4, 1, 3]] :=
  ⟨⟨by simp, by intro c i k h; simp only; omega⟩, by decide +kernel⟩

/-- The first iteration of a sampling of three or more points decides. -/
theorem improved_ub (rnd : Random) (dimensions samples duplication : Nat) (hn : 3 ≤ samples) (hr : Spec.InRange rnd samples)
    (h : ∀ rows : List (Nat × Row), rows.length = dimensions → iteration rnd samples duplication (samples - 1) rows = .ub) :
    improved rnd dimensions samples duplication = .ub := by
  obtain ⟨rows, a1, a2, _⟩ := collect_inv (fun i => Row.init samples (rnd.first i) >>= fun r => .ok (i, r)) (fun _ => True) (fun _ => True)
    (List.range dimensions) (fun _ _ => trivial) (by
      intro i _
      obtain ⟨r, h1, h2⟩ := init_inv samples (rnd.first i) (hr.first i).1 (hr.first i).2
      exact ⟨(i, r), by rw [h1, Outcome.bind_ok], trivial⟩)
  obtain ⟨c, rfl⟩ : ∃ c, samples = c + 3 := ⟨samples - 3, by omega⟩
  have h2 := h rows (by rw [a2, List.length_range])
  have e : c + 3 - 1 = c + 2 := by omega
  rw [e] at h2
  unfold improved
  rw [a1, Outcome.bind_ok, e, iterations, h2]
  rfl

/-- **C41, negation.** If there are three or more samples and the number of candidate points does not fit 32 bits then the function writes beyond the end of a vector, for all random numbers. -/
theorem C41_counterexample_overflow (rnd : Random) (dimensions samples duplication : Nat) (hd : 1 ≤ dimensions) (hn : 3 ≤ samples) (hr : Spec.InRange rnd samples)
    (h32 : duplication < 2 ^ 32) (hs : 2 ^ 32 ≤ dimensions * duplication * samples) : improved rnd dimensions samples duplication = .ub := by
  refine improved_ub rnd dimensions samples duplication hn hr fun rows hl => ?_
  obtain ⟨c, rfl⟩ : ∃ c, samples = c + 1 := ⟨samples - 1, by omega⟩
  have hover : (listOverrun (c + 1) duplication c || pointOverrun dimensions (c + 1) duplication c) = true := by
    rw [Bool.or_eq_true]
    by_cases h1 : 2 ^ 32 ≤ duplication * (c + 1)
    · left
      have hlt : duplication * (c + 1) % 2 ^ 32 < duplication * c := by
        have e : duplication * (c + 1) = duplication * c + duplication := by ring
        rw [e] at h1 ⊢
        by_cases h2 : 2 ^ 32 ≤ duplication * c
        · exact Nat.lt_of_lt_of_le (Nat.mod_lt _ (by decide)) h2
        · omega
      simp only [listOverrun, List.any_eq_true, List.mem_range, decide_eq_true_eq]
      refine ⟨duplication * (c + 1) % 2 ^ 32 / c, (Nat.div_lt_iff_lt_mul (by omega)).2 hlt, duplication * (c + 1) % 2 ^ 32 % c, Nat.mod_lt _ (by omega), ?_⟩
      rw [Nat.mul_comm (_ / c) c, Nat.mod_add_div, Nat.mod_mod]
    · right
      have hlt : dimensions * duplication * (c + 1) % 2 ^ 32 < c * duplication * dimensions := by
        have e : dimensions * duplication * (c + 1) = c * duplication * dimensions + dimensions * duplication := by ring
        have h3 : 2 * (dimensions * duplication) ≤ c * duplication * dimensions := by
          have : 2 * (duplication * dimensions) ≤ c * (duplication * dimensions) := Nat.mul_le_mul_right _ (by omega)
          rw [Nat.mul_assoc c, Nat.mul_comm dimensions duplication]
          exact this
        rw [e] at hs ⊢
        by_cases h2 : 2 ^ 32 ≤ c * duplication * dimensions
        · exact Nat.lt_of_lt_of_le (Nat.mod_lt _ (by decide)) h2
        · omega
      have h4 : c * duplication < 2 ^ 32 := by
        have : duplication * (c + 1) = c * duplication + duplication := by ring
        omega
      simp only [pointOverrun, List.any_eq_true, List.mem_range, decide_eq_true_eq]
      rw [Nat.mod_eq_of_lt h4]
      refine ⟨dimensions * duplication * (c + 1) % 2 ^ 32 / dimensions, (Nat.div_lt_iff_lt_mul (by omega)).2 hlt, dimensions * duplication * (c + 1) % 2 ^ 32 % dimensions,
        Nat.mod_lt _ (by omega), ?_⟩
      rw [Nat.mul_comm (_ / dimensions) dimensions, Nat.mod_add_div, Nat.mod_mod]
  rw [Nat.add_sub_cancel, iteration, hl, if_pos ⟨by omega, hover⟩]

/-- A hundred parameters, ten million samples and the default duplication. -/
example : (1 ≤ 100) ∧ (3 ≤ 10 ^ 7) ∧ 5 < 2 ^ 32 ∧ 2 ^ 32 ≤ 100 * 5 * 10 ^ 7 ∧ Spec.InRange ⟨fun _ => 4, fun _ _ k => k - 1, fun _ _ => true⟩ (10 ^ 7) :=
  ⟨by decide, by decide, by decide, by decide, ⟨by simp, by intro c i k h; simp only; omega⟩⟩

/-- **C41, negation.** With a duplication of zero, three or more samples are undefined, for all random numbers: there are no candidates, and the first is read. -/
theorem C41_counterexample_duplication (rnd : Random) (dimensions samples : Nat) (hd : 1 ≤ dimensions) (hn : 3 ≤ samples) (hr : Spec.InRange rnd samples) :
    improved rnd dimensions samples 0 = .ub := by
  refine improved_ub rnd dimensions samples 0 hn hr fun rows hl => ?_
  match rows, hl with
  | [], hl => simp at hl; omega
  | ir :: rows, hl =>
    have : (listOverrun samples 0 (samples - 1) || pointOverrun (ir :: rows).length samples 0 (samples - 1)) = false := by simp [listOverrun, pointOverrun]
    rw [iteration, if_neg (by rw [this]; simp)]
    simp only [Nat.mul_zero, Nat.zero_mul, Nat.zero_mod, collect, drawPoints, Outcome.bind_ok]
    rfl

example : (1 ≤ 2) ∧ (3 ≤ 4) ∧ Spec.InRange ⟨fun _ => 4, fun _ _ k => k - 1, fun _ _ => true⟩ 4 :=
  ⟨by decide, by decide, ⟨by simp, by intro c i k h; simp only; omega⟩⟩

end Esl.Sampler
