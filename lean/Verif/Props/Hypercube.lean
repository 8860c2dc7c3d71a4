import Verif.Model.Hypercube
import Verif.Lemmas.Exchange
import Mathlib.Data.List.Perm.Basic
import Mathlib.Data.List.Nodup


/-! # Latin hypercubes of any list of parameters (C40) -/

namespace Esl.Hypercube
open Esl.Sampler Esl.Exchange

/-- What is known of the entry of a parameter that was met `n` times. -/
def Good (fl : Rat → Rat) (param : Nat → Param) (density : Nat) (n : Nat) (p : Nat) (e : List (Option Rat) × List Nat) : Prop :=
  e.1 = (List.replicate n (gridValues fl (param p) density)).flatten ∧ e.2.Perm (List.replicate n (List.range density)).flatten

theorem flatten_succ {α : Type} (n : Nat) (l : List α) : (List.replicate n l).flatten ++ l = (List.replicate (n + 1) l).flatten := by
  rw [List.replicate_succ', List.flatten_append, List.flatten_singleton]

theorem lookup_addParam (fl : Rat → Rat) (param : Nat → Param) (density : Nat) (shuffle : List Nat → List Nat) (t : Tables) (p q : Nat) :
    (addParam fl param density shuffle t p).lookup q =
      if q = p then some (((t.lookup p).getD ([], [])).1 ++ gridValues fl (param p) density, shuffle (((t.lookup p).getD ([], [])).2 ++ List.range density)) else t.lookup q := by
  unfold addParam
  simp only [lookup_assignKey, lookup_emplaceKey]
  by_cases h : q = p
  · subst h
    cases ht : t.lookup q <;> simp
  · simp [h]

theorem mem_addParam (fl : Rat → Rat) (param : Nat → Param) (density : Nat) (shuffle : List Nat → List Nat) (t : Tables) (p : Nat) (e : Nat × (List (Option Rat) × List Nat))
    (he : e ∈ addParam fl param density shuffle t p) :
    (e.1 = p ∧ e.2 = (((t.lookup p).getD ([], [])).1 ++ gridValues fl (param p) density, shuffle (((t.lookup p).getD ([], [])).2 ++ List.range density))) ∨ (e.1 ≠ p ∧ e ∈ t) := by
  unfold addParam at he
  simp only [assignKey, lookup_emplaceKey, if_true, List.mem_map] at he
  obtain ⟨f, hf, rfl⟩ := he
  by_cases h : f.1 = p
  · left
    rw [if_pos h]
    refine ⟨h, ?_⟩
    cases ht : t.lookup p <;> simp
  · right
    rw [if_neg h]
    refine ⟨h, ?_⟩
    unfold emplaceKey at hf
    split at hf
    · exact hf
    · rcases List.mem_append.mp hf with hf | hf
      · exact hf
      · rw [List.mem_singleton.mp hf] at h
        exact absurd rfl h

/-- The tables after the parameters `qs`: the entries are those of the parameters met, as often as they were met. -/
def Inv (fl : Rat → Rat) (param : Nat → Param) (density : Nat) (qs : List Nat) (t : Tables) : Prop :=
  (∀ e ∈ t, 0 < qs.count e.1 ∧ Good fl param density (qs.count e.1) e.1 e.2) ∧
  ∀ p, (p ∈ qs → ∃ e, t.lookup p = some e ∧ Good fl param density (qs.count p) p e) ∧ (p ∉ qs → t.lookup p = none)

theorem inv_add (fl : Rat → Rat) (param : Nat → Param) (density : Nat) (shuffle : List Nat → List Nat) (hs : ∀ l, (shuffle l).Perm l) (qs : List Nat) (t : Tables) (p : Nat)
    (h : Inv fl param density qs t) : Inv fl param density (qs ++ [p]) (addParam fl param density shuffle t p) := by
  obtain ⟨h1, h2⟩ := h
  have hn : Good fl param density ((qs ++ [p]).count p) p
      (((t.lookup p).getD ([], [])).1 ++ gridValues fl (param p) density, shuffle (((t.lookup p).getD ([], [])).2 ++ List.range density)) := by
    have hc : (qs ++ [p]).count p = qs.count p + 1 := by simp
    have hg : Good fl param density (qs.count p) p ((t.lookup p).getD ([], [])) := by
      by_cases hp : p ∈ qs
      · obtain ⟨e, he, hg⟩ := (h2 p).1 hp
        rw [he]; exact hg
      · rw [(h2 p).2 hp, List.count_eq_zero_of_not_mem hp]
        exact ⟨rfl, List.Perm.refl _⟩
    rw [hc]
    refine ⟨?_, ?_⟩
    · simp only
      rw [hg.1, flatten_succ]
    · simp only
      refine (hs _).trans ?_
      rw [← flatten_succ]
      exact hg.2.append_right _
  constructor
  · intro e he
    rcases mem_addParam fl param density shuffle t p e he with ⟨hk, hv⟩ | ⟨hk, hm⟩
    · rw [hk, hv]
      exact ⟨by simp, hn⟩
    · obtain ⟨g1, g2⟩ := h1 e hm
      have hc : (qs ++ [p]).count e.1 = qs.count e.1 := by
        rw [List.count_append, List.count_eq_zero_of_not_mem (l := [p]) (by simpa using hk), Nat.add_zero]
      rw [hc]
      exact ⟨g1, g2⟩
  · intro q
    rw [lookup_addParam]
    by_cases hq : q = p
    · subst hq
      rw [if_pos rfl]
      exact ⟨fun _ => ⟨_, rfl, hn⟩, fun hc => absurd (List.mem_append_right _ (List.mem_singleton.mpr rfl)) hc⟩
    · rw [if_neg hq]
      have hc : (qs ++ [p]).count q = qs.count q := by
        rw [List.count_append, List.count_eq_zero_of_not_mem (l := [p]) (by simpa using hq), Nat.add_zero]
      have hm : q ∈ qs ++ [p] ↔ q ∈ qs := by simp [hq]
      rw [hc, hm]
      exact h2 q

theorem inv_tables (fl : Rat → Rat) (param : Nat → Param) (density : Nat) (ps : List Nat) (shuffle : Nat → List Nat → List Nat) (hs : ∀ k l, (shuffle k l).Perm l) (qs : List Nat) (t : Tables)
    (h : Inv fl param density qs t) : Inv fl param density (qs ++ ps) (tables fl param density shuffle t ps) := by
  induction ps generalizing shuffle qs t with
  | nil => rw [List.append_nil]; exact h
  | cons p ps ih =>
    rw [tables, ← List.singleton_append, ← List.append_assoc]
    exact ih _ (fun k l => hs (k + 1) l) _ _ (inv_add fl param density (shuffle 0) (hs 0) qs t p h)

theorem mem_flatten_replicate {α : Type} (n : Nat) (l : List α) (a : α) (h : a ∈ (List.replicate n l).flatten) : a ∈ l := by
  obtain ⟨m, hm, ha⟩ := List.mem_flatten.mp h
  rw [List.eq_of_mem_replicate hm] at ha
  exact ha

theorem gridValues_length (fl : Rat → Rat) (p : Param) (d : Nat) : (gridValues fl p d).length = d := by simp [gridValues]

/-- The value that an entry gives to the sample `s`. -/
theorem good_get (fl : Rat → Rat) (param : Nat → Param) (density n p s : Nat) (e : List (Option Rat) × List Nat) (hn : 0 < n) (hg : Good fl param density n p e) (hs : s < density) :
    ∃ i, e.2[s]? = some i ∧ i < density ∧ e.1[i]? = (gridValues fl (param p) density)[i]? := by
  obtain ⟨h1, h2⟩ := hg
  have hl : e.2.length = n * density := by rw [h2.length_eq]; simp
  have hsl : s < e.2.length := by rw [hl]; exact Nat.lt_of_lt_of_le hs (Nat.le_mul_of_pos_left _ hn)
  have hi : e.2[s] < density := by
    have := mem_flatten_replicate _ _ _ (h2.mem_iff.mp (List.getElem_mem hsl))
    simpa using this
  refine ⟨e.2[s], List.getElem?_eq_getElem hsl, hi, ?_⟩
  rw [h1]
  obtain ⟨m, rfl⟩ : ∃ m, n = m + 1 := ⟨n - 1, by omega⟩
  rw [List.replicate_succ, List.flatten_cons, List.getElem?_append_left (by rw [gridValues_length]; exact hi)]

theorem sampleAt_ok (fl : Rat → Rat) (param : Nat → Param) (density s : Nat) (hs : s < density) (c : Nat → Nat) (t : Tables)
    (h : ∀ e ∈ t, 0 < c e.1 ∧ Good fl param density (c e.1) e.1 e.2) :
    ∃ r, sampleAt s t = .ok r ∧ ∀ p, r.lookup p = (t.lookup p).bind fun e => (e.2[s]?).bind fun i => (gridValues fl (param p) density)[i]? := by
  induction t with
  | nil => exact ⟨[], rfl, fun p => rfl⟩
  | cons e t ih =>
    obtain ⟨q, values, index⟩ := e
    obtain ⟨r, hr, hl⟩ := ih fun e he => h e (List.mem_cons_of_mem _ he)
    obtain ⟨g1, g2⟩ := h (q, values, index) List.mem_cons_self
    obtain ⟨i, e1, e2, e3⟩ := good_get fl param density _ q s (values, index) g1 g2 hs
    simp only at e1 e3
    have hv : (gridValues fl (param q) density)[i]? = some ((gridValues fl (param q) density)[i]'(by rw [gridValues_length]; exact e2)) := List.getElem?_eq_getElem _
    rw [hv] at e3
    refine ⟨_, by rw [sampleAt, e1]; simp only [e3, hr, Outcome.bind_ok]; rfl, fun p => ?_⟩
    rw [List.lookup, List.lookup]
    by_cases hp : p = q
    · subst hp
      simp only [beq_self_eq_true, Option.bind_some, e1, hv]
    · have : (p == q) = false := by simpa using hp
      rw [this]
      exact hl p

theorem collect_ok {α β : Type} (f : α → Outcome β) (g : α → β) (l : List α) (h : ∀ a ∈ l, f a = .ok (g a)) : collect f l = .ok (l.map g) := by
  induction l with
  | nil => rfl
  | cons a l ih =>
    rw [collect, h a List.mem_cons_self, ih fun b hb => h b (List.mem_cons_of_mem _ hb)]
    rfl

/-! ## Specification -/

/-- The values that the samples give to a parameter, in the order of the samples. -/
def Spec.column (p : Nat) (samples : List (List (Nat × Option Rat))) : List (Option (Option Rat)) := samples.map fun r => r.lookup p

theorem hypercube_columns (fl : Rat → Rat) (param : Nat → Param) (density : Nat) (shuffle : Nat → List Nat → List Nat) (hs : ∀ k l, (shuffle k l).Perm l) (ps : List Nat) :
    ∃ samples, hypercube fl param density shuffle ps = .ok samples ∧ samples.length = density ∧
      ∀ p ∈ ps, ∃ values index, (tables fl param density shuffle [] ps).lookup p = some (values, index) ∧ index.Perm (List.replicate (ps.count p) (List.range density)).flatten ∧
        Spec.column p samples = (index.take density).map fun i => (gridValues fl (param p) density)[i]? := by
  have hinv := inv_tables fl param density ps shuffle hs [] [] ⟨fun e he => absurd he List.not_mem_nil, fun p => ⟨fun h => absurd h List.not_mem_nil, fun _ => rfl⟩⟩
  rw [List.nil_append] at hinv
  generalize htt : tables fl param density shuffle [] ps = t at hinv
  obtain ⟨h1, h2⟩ := hinv
  have hex : ∀ s, ∃ r, s < density → sampleAt s t = .ok r ∧ ∀ p, r.lookup p = (t.lookup p).bind fun e => (e.2[s]?).bind fun i => (gridValues fl (param p) density)[i]? := by
    intro s
    by_cases hsd : s < density
    · obtain ⟨r, hr⟩ := sampleAt_ok fl param density s hsd (fun p => ps.count p) t h1
      exact ⟨r, fun _ => hr⟩
    · exact ⟨[], fun h => absurd h hsd⟩
  choose g hg using hex
  refine ⟨(List.range density).map g, ?_, by simp, ?_⟩
  · unfold hypercube
    rw [htt]
    exact collect_ok _ g _ fun s hm => (hg s (by simpa using hm)).1
  · intro p hp
    obtain ⟨e, he, hgood⟩ := (h2 p).1 hp
    refine ⟨e.1, e.2, he, hgood.2, ?_⟩
    have hc : 0 < ps.count p := List.count_pos_iff.mpr hp
    have hl : density ≤ e.2.length := by
      rw [hgood.2.length_eq]
      simp only [List.length_flatten, List.map_replicate, List.length_range, List.sum_replicate_nat]
      exact Nat.le_mul_of_pos_left _ hc
    apply List.ext_getElem
    · simp [Spec.column, hl]
    · intro s a1 a2
      have hsd : s < density := by simpa [Spec.column] using a1
      simp only [Spec.column, List.getElem_map, List.getElem_range, List.getElem_take]
      rw [(hg s hsd).2 p, he]
      simp only [Option.bind_some]
      rw [List.getElem?_eq_getElem (by omega)]
      rfl

/-- C40: for any list of distinct parameters and any shuffles, there are as many samples as the density says, and over these each parameter takes each of its values exactly once. -/
theorem C40_distinct (fl : Rat → Rat) (param : Nat → Param) (density : Nat) (shuffle : Nat → List Nat → List Nat) (hs : ∀ k l, (shuffle k l).Perm l) (ps : List Nat) (hd : ps.Nodup) :
    ∃ samples, hypercube fl param density shuffle ps = .ok samples ∧ samples.length = density ∧
      ∀ p ∈ ps, (Spec.column p samples).Perm ((gridValues fl (param p) density).map some) := by
  obtain ⟨samples, h1, h2, h3⟩ := hypercube_columns fl param density shuffle hs ps
  refine ⟨samples, h1, h2, fun p hp => ?_⟩
  obtain ⟨_, index, _, i1, i2⟩ := h3 p hp
  rw [List.count_eq_one_of_mem hd hp] at i1
  simp only [List.replicate_one, List.flatten_singleton] at i1
  have hl : index.length = density := by rw [i1.length_eq, List.length_range]
  rw [i2, List.take_of_length_le (by omega)]
  refine (i1.map _).trans (List.Perm.of_eq ?_)
  apply List.ext_getElem
  · simp [gridValues]
  · intro i a1 a2
    have hi : i < (gridValues fl (param p) density).length := by simpa using a2
    simp only [List.getElem_map, List.getElem_range]
    exact List.getElem?_eq_getElem hi

example : ∃ samples, hypercube id (fun p => ⟨p, p + 2⟩) 3 (fun _ l => l.reverse) [4, 7] = .ok samples ∧ Spec.column 7 samples = [some (some 9), some (some 8), some (some 7)] :=
  ⟨[[(4, some 6), (7, some 9)], [(4, some 5), (7, some 8)], [(4, some 4), (7, some 7)]], by decide +kernel, by decide +kernel⟩

/-- C40 (part): if parameters are listed repeatedly, each still takes no value more often than it is listed times the number of times that the value is on its grid. -/
theorem C40_repeated_partial (fl : Rat → Rat) (param : Nat → Param) (density : Nat) (shuffle : Nat → List Nat → List Nat) (hs : ∀ k l, (shuffle k l).Perm l) (ps : List Nat) :
    ∃ samples, hypercube fl param density shuffle ps = .ok samples ∧ samples.length = density ∧
      ∀ p ∈ ps, ∀ v, (Spec.column p samples).count v ≤ ps.count p * ((gridValues fl (param p) density).map some).count v := by
  obtain ⟨samples, h1, h2, h3⟩ := hypercube_columns fl param density shuffle hs ps
  refine ⟨samples, h1, h2, fun p hp v => ?_⟩
  obtain ⟨_, index, _, i1, i2⟩ := h3 p hp
  have hgrid : (List.range density).map (fun i => (gridValues fl (param p) density)[i]?) = (gridValues fl (param p) density).map some := by
    apply List.ext_getElem
    · simp [gridValues]
    · intro i a1 a2
      have hi : i < (gridValues fl (param p) density).length := by simpa using a2
      simp only [List.getElem_map, List.getElem_range]
      exact List.getElem?_eq_getElem hi
  rw [i2]
  refine Nat.le_trans (((List.take_sublist density index).map _).count_le v) ?_
  rw [(i1.map _).count_eq, List.map_flatten, List.map_replicate, hgrid, List.count_flatten, List.map_replicate, List.sum_replicate_nat]
  exact Nat.le_refl _

/-- The shuffle that puts two zeros in front if the indices are those of a parameter that is listed twice. -/
def zerosFirst (density : Nat) (l : List Nat) : List Nat :=
  if l = List.range density ++ List.range density then 0 :: 0 :: (List.range' 1 (density - 1) ++ List.range' 1 (density - 1)) else l

theorem range_split (density : Nat) (h : 0 < density) : List.range density = 0 :: List.range' 1 (density - 1) := by
  obtain ⟨m, rfl⟩ : ∃ m, density = m + 1 := ⟨density - 1, by omega⟩
  rw [List.range_eq_range', List.range'_succ]
  rfl

theorem zerosFirst_perm (density : Nat) (h : 0 < density) (l : List Nat) : (zerosFirst density l).Perm l := by
  unfold zerosFirst
  split
  · rename_i hl
    rw [hl, range_split density h, List.cons_append]
    exact List.Perm.cons _ List.perm_middle.symm
  · exact List.Perm.refl _

/-- C40 fails for a parameter that is listed twice, for any density of at least two: there are shuffles for which its first value is in two samples, so that another is in none. -/
theorem C40_counterexample_repeated (fl : Rat → Rat) (param : Nat → Param) (density : Nat) (h : 2 ≤ density) (p : Nat) :
    ∃ shuffle : Nat → List Nat → List Nat, (∀ k l, (shuffle k l).Perm l) ∧ ∃ r₀ r₁ samples, hypercube fl param density shuffle [p, p] = .ok (r₀ :: r₁ :: samples) ∧
      r₀.lookup p = some (gridValue fl (param p) density 0) ∧ r₁.lookup p = some (gridValue fl (param p) density 0) := by
  refine ⟨fun _ => zerosFirst density, fun _ => zerosFirst_perm density (by omega), ?_⟩
  have hne : List.range density ≠ List.range density ++ List.range density := by
    intro he
    have := congrArg List.length he
    simp at this
    omega
  have ht : tables fl param density (fun _ => zerosFirst density) [] [p, p] =
      [(p, (gridValues fl (param p) density ++ gridValues fl (param p) density, 0 :: 0 :: (List.range' 1 (density - 1) ++ List.range' 1 (density - 1))))] := by
    simp [tables, addParam, emplaceKey, assignKey, zerosFirst, hne]
  obtain ⟨samples, h1, h2, h3⟩ := hypercube_columns fl param density (fun _ => zerosFirst density) (fun _ => zerosFirst_perm density (by omega)) [p, p]
  obtain ⟨values, index, i0, _, i2⟩ := h3 p List.mem_cons_self
  rw [ht] at i0
  simp only [List.lookup, beq_self_eq_true, Option.some.injEq, Prod.mk.injEq] at i0
  rw [← i0.2] at i2
  have hz : (gridValues fl (param p) density)[0]? = some (gridValue fl (param p) density 0) := by
    simp [gridValues, show 0 < density by omega]
  obtain ⟨m, rfl⟩ : ∃ m, density = m + 2 := ⟨density - 2, by omega⟩
  match samples, h2 with
  | r₀ :: r₁ :: samples, _ =>
    simp only [Spec.column, List.map_cons, List.take_succ_cons, List.cons.injEq, hz] at i2
    exact ⟨r₀, r₁, samples, h1, i2.1, i2.2.1⟩
  | [r], h2 => simp at h2
  | [], h2 => simp at h2

/-- The parameter 4 is listed twice; with these shuffles its lowest value is taken twice, and its highest not at all. -/
example : hypercube id (fun p => ⟨p, p + 2⟩) 3 (fun _ => zerosFirst 3) [4, 4] = .ok [[(4, some 4)], [(4, some 4)], [(4, some 5)]] := by decide +kernel

end Esl.Hypercube
