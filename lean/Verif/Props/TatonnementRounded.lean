import Verif.Lemmas.TatonnementRounded
import Verif.Lemmas.Double
import Verif.Props.Tatonnement

/-!
# C171: the tatonnement with rounded arithmetic

The properties C59, C90 and C91 of the tatonnement, for arithmetic that rounds.
-/

namespace Esl.TatFl

open Esl.Tat (Demand Status Iter Method Model collect cmax cmin cabs linear)

/-! ## Specification -/

/-- Operations are rounded: the result differs from the exact one by at most `ε` times its size, and `η` (for underflow; zero for additions). -/
structure Spec.Rounding (fl : Rat → Rat) (ε η : Rat) : Prop where
  relative : 0 ≤ ε
  absolute : 0 ≤ η
  close : ∀ q, |fl q - q| ≤ ε * |q| + η

/-- What the participants want of a property at given multipliers of the quotes, one number for each order that mentions it. The total excess demand is the sum. -/
def Spec.wanted (fs : List Demand) (keys : List Nat) (x : List Rat) (k : Nat) : List Rat :=
  fs.flatMap fun f => ((f (keys.zip x)).filter fun e => e.1 = k).map (·.2)

/-- A bound on the error of adding up numbers: with `n` numbers, `(1 + ε) ^ n - 1` times the sum of their absolute values, and `n (1 + ε) ^ n` times `η`. -/
def Spec.error (ε η : Rat) (l : List Rat) : Rat := ((1 + ε) ^ l.length - 1) * (l.map abs).sum + l.length * (1 + ε) ^ l.length * η

/-- The properties that are mentioned by anyone, each once. -/
def Spec.properties (fs : List Demand) (keys : List Nat) (x : List Rat) : List Nat := ((fs.flatMap fun f => f (keys.zip x)).map (·.1)).dedup

/-! ## Values -/

theorem wanted_eq (fs : List Demand) (keys : List Nat) (x : List Rat) (k : Nat) : Spec.wanted fs keys x k = valuesOf k (fs.flatMap fun f => f (keys.zip x)) := by
  unfold Spec.wanted valuesOf
  rw [List.filter_flatMap, List.map_flatMap]

/-- The total excess demand is that of C90. -/
theorem wanted_sum (fs : List Demand) (keys : List Nat) (x : List Rat) (k : Nat) : (Spec.wanted fs keys x k).sum = Tat.Spec.total fs keys x k := by
  unfold Spec.wanted Tat.Spec.total
  induction fs with
  | nil => rfl
  | cons f fs ih => rw [List.flatMap_cons, List.sum_append, List.map_cons, List.sum_cons, ih]

theorem collect_values (m : List (Nat × Rat)) (keys : List Nat) (r : List Rat) (h : collect m keys = .ok r) :
    r = keys.map (fun k => (m.lookup k).getD 0) ∧ ∀ k ∈ keys, m.lookup k ≠ none := by
  induction keys generalizing r with
  | nil => simp [collect] at h; simp [h]
  | cons k ks ih =>
    rw [collect] at h
    cases hk : m.lookup k with
    | none => rw [hk] at h; simp at h
    | some v =>
      rw [hk] at h
      simp only [Outcome.bind_eq_ok, Outcome.ok.injEq] at h
      obtain ⟨r', h1, h2⟩ := h
      obtain ⟨i1, i2⟩ := ih r' h1
      refine ⟨by rw [← h2, List.map_cons, hk, i1]; rfl, ?_⟩
      intro j hj
      rcases List.mem_cons.1 hj with rfl | hj
      · rw [hk]; simp
      · exact i2 j hj

theorem collect_defined (m : List (Nat × Rat)) (keys : List Nat) (h : ∀ k ∈ keys, m.lookup k ≠ none) : ∃ r, collect m keys = .ok r := by
  induction keys with
  | nil => exact ⟨[], rfl⟩
  | cons k ks ih =>
    obtain ⟨r, hr⟩ := ih fun j hj => h j (List.mem_cons_of_mem _ hj)
    cases hk : m.lookup k with
    | none => exact absurd hk (h k List.mem_cons_self)
    | some v => exact ⟨v :: r, by rw [collect, hk]; simp [hr]⟩

variable {fl : Rat → Rat} {ε η : Rat}

theorem zero_first (R : Spec.Rounding fl ε η) : ∀ q, |fl (0 + q) - q| ≤ ε * |q| + η := fun q => by rw [zero_add]; exact R.close q
theorem id_first (R : Spec.Rounding fl ε η) : ∀ q, |id q - q| ≤ ε * |q| + η := fun q => by
  have := mul_nonneg R.relative (abs_nonneg q); have := R.absolute
  simp; linarith

/-- The entry of a property. -/
theorem entry {first : Rat → Rat} (R : Spec.Rounding fl ε η) (hfirst : ∀ q, |first q - q| ≤ ε * |q| + η) (fs : List Demand) (keys : List Nat) (x : List Rat) (k : Nat) :
    ((terms fl first fs keys x).lookup k = none ↔ Spec.wanted fs keys x k = []) ∧
    |((terms fl first fs keys x).lookup k).getD 0 - (Spec.wanted fs keys x k).sum| ≤ Spec.error ε η (Spec.wanted fs keys x k) := by
  have h := terms_error R.relative R.absolute R.close hfirst fs keys x k
  have h2 := (terms_lookup fl first fs keys x).2 k
  rw [fold_update] at h2
  rw [wanted_eq]
  generalize valuesOf k (fs.flatMap fun f => f (keys.zip x)) = l at h h2 ⊢
  rw [h2] at h ⊢
  cases l with
  | nil => simp [Spec.error]
  | cons v vs => exact ⟨by simp, h⟩

/-- **C171, values.** With rounding, the root-finding formulation has a value exactly if every traded property is in somebody's order, and gives every traded property, in order, its total excess demand up to the error of adding up. -/
theorem C171_values (R : Spec.Rounding fl ε η) (fs : List Demand) (keys : List Nat) (x : List Rat) :
    ((∃ r, excessDemand fl fs keys x = .ok r) ↔ ∀ k ∈ keys, Spec.wanted fs keys x k ≠ []) ∧
    ∀ r, excessDemand fl fs keys x = .ok r → r.length = keys.length ∧
      ∀ (i : Nat) (k : Nat) (v : Rat), keys[i]? = some k → r[i]? = some v → |v - (Spec.wanted fs keys x k).sum| ≤ Spec.error ε η (Spec.wanted fs keys x k) := by
  refine ⟨⟨?_, ?_⟩, ?_⟩
  · rintro ⟨r, hr⟩ k hk hw
    exact (collect_values _ _ _ hr).2 k hk ((entry R (zero_first R) fs keys x k).1.2 hw)
  · intro h
    exact collect_defined _ _ fun k hk hn => h k hk ((entry R (zero_first R) fs keys x k).1.1 hn)
  · intro r hr
    obtain ⟨rfl, h2⟩ := collect_values _ _ _ hr
    refine ⟨by simp, fun i k v hk hv => ?_⟩
    rw [List.getElem?_map, hk] at hv
    simp only [Option.map_some, Option.some.injEq] at hv
    rw [← hv]
    exact (entry R (zero_first R) fs keys x k).2

example : excessDemand Double.binary64 [linear 1 10 (1 / 2), linear 2 6 3, linear 1 0 1] [1, 2] [2, 2] = .ok [7, 0] ∧ Spec.wanted [linear 1 10 (1 / 2), linear 2 6 3, linear 1 0 1] [1, 2] [2, 2] 1 = [9, -2] := by decide +kernel

/-- Arithmetic of `double`s, as long as nothing overflows or underflows. -/
theorem rounding_binary64 : Spec.Rounding Double.binary64 (1 / 2 ^ 53) 0 :=
  ⟨by norm_num, le_refl _, fun q => by have := Double.binary64_err q; rw [div_eq_mul_inv, mul_comm] at this; rw [one_div, add_zero]; exact this⟩

/-- Exact arithmetic. -/
theorem rounding_exact : Spec.Rounding id 0 0 := ⟨le_refl _, le_refl _, fun q => by simp⟩

/-! ## Root finding for several properties -/

theorem sum_map_le {α : Type} (l : List α) (f g h : α → Rat) (hle : ∀ a ∈ l, f a ≤ g a + h a) : (l.map f).sum ≤ (l.map g).sum + (l.map h).sum := by
  induction l with
  | nil => simp
  | cons a l ih =>
    have h1 := hle a List.mem_cons_self
    have h2 := ih fun b hb => hle b (List.mem_cons_of_mem _ hb)
    simp only [List.map_cons, List.sum_cons]
    linarith

theorem single {M : Model} {m : Method} {maxIt : Nat} {its : Nat → Nat → Iter} {r : List (Nat × Rat)} (h : computeClearingQuotes fl M [m] maxIt its = .ok (some r)) :
    ∃ x, attempt fl M maxIt (its 0) m = .ok (some x) ∧ r = M.keys.zip x := by
  unfold computeClearingQuotes at h
  rw [if_neg (by simp), tryMethods] at h
  cases ha : attempt fl M maxIt (its 0) m with
  | throws => rw [ha] at h; simp at h
  | ub => rw [ha] at h; simp at h
  | ok y =>
    rw [ha] at h
    cases y with
    | none => simp [tryMethods] at h
    | some x =>
      simp only [Outcome.bind_ok, Option.map_some, Outcome.ok.injEq, Option.some.injEq] at h
      exact ⟨x, rfl, h.symm⟩

theorem multiLoop_success {M : Model} (it : Nat → Iter) (left i : Nat) (x y : List Rat) (h : multiLoop fl M it left i x = .ok (.success, y)) :
    (∃ j, y = (it j).x) ∧ ∃ f, excessDemand fl M.fs M.keys y = .ok f ∧ total fl (f.map cabs) < 1 / 10000 := by
  induction left generalizing i x with
  | zero => simp [multiLoop] at h
  | succ left ih =>
    rw [multiLoop] at h
    split at h
    · rename_i hne
      simp only [Outcome.ok.injEq, Prod.mk.injEq] at h
      exact absurd h.1 hne
    · simp only [Outcome.bind_eq_ok] at h
      obtain ⟨f, h1, h2⟩ := h
      unfold testResidual at h2
      split at h2
      · rename_i hs
        split at hs
        · rename_i hlt
          simp only [Outcome.ok.injEq, Prod.mk.injEq, true_and] at h2
          subst h2
          exact ⟨⟨i, rfl⟩, f, h1, hlt⟩
        · simp at hs
      · exact ih _ _ h2

/-- Multipliers strictly within the circuit breaker are those of the solver. -/
theorem inside {keys : List Nat} {lo hi : Rat} {x y : List Rat} (hlen : y.length = keys.length) (hxy : (y.map fun v => cmax (cmin v hi) lo) = x) (hin : ∀ e ∈ keys.zip x, lo < e.2 ∧ e.2 < hi) : x = y := by
  have hxlen : x.length = keys.length := by rw [← hxy, List.length_map]; exact hlen
  have hv : ∀ v ∈ x, lo < v ∧ v < hi := by
    intro v hv
    obtain ⟨i, hi', rfl⟩ := List.mem_iff_getElem.1 hv
    apply hin (keys[i]'(by omega), x[i])
    rw [List.mem_iff_getElem]
    exact ⟨i, by rw [List.length_zip]; omega, by rw [List.getElem_zip]⟩
  rw [← hxy]
  conv_rhs => rw [← List.map_id y]
  apply List.map_congr_left
  intro v hvy
  have hv' := hv (cmax (cmin v hi) lo) (by rw [← hxy]; exact List.mem_map.2 ⟨v, hvy, rfl⟩)
  rw [Tat.cmax_eq, Tat.cmin_eq] at hv' ⊢
  simp only [id]
  rcases le_total v hi with hv2 | hv2
  · rw [min_eq_left hv2] at hv' ⊢
    rcases le_total v lo with hv1 | hv1
    · rw [max_eq_right hv1] at hv'; exact absurd hv'.1 (lt_irrefl _)
    · exact max_eq_left hv1
  · rw [min_eq_right hv2] at hv'
    exact absurd hv'.2 (not_lt.2 (le_max_left _ _))

/-- **C171, root finding for several properties (partial).** Multipliers that are strictly within the circuit breaker clear the market, up to the tolerance of 1e-4, and the errors of adding up the orders for each property and of adding up the residual.
Missing: one property, multipliers at the circuit breaker, and minimization. -/
theorem C171_several_partial (R : Spec.Rounding fl ε η) (M : Model) (hn : M.keys.length ≠ 1) (hm : (1 + ε) ^ M.keys.length ≤ 2) (maxIt : Nat) (its : Nat → Nat → Iter) (hsize : ∀ i, (its 0 i).x.length = M.keys.length)
    (r : List (Nat × Rat)) (h : computeClearingQuotes fl M [.root] maxIt its = .ok (some r)) (hin : ∀ e ∈ r, M.breaker.1 < e.2 ∧ e.2 < M.breaker.2) :
    let wanted := Spec.wanted M.fs M.keys (r.map (·.2))
    r.map (·.1) = M.keys ∧ (2 - (1 + ε) ^ M.keys.length) * ((M.keys.map fun k => |(wanted k).sum|).sum - (M.keys.map fun k => Spec.error ε η (wanted k)).sum) <
      1 / 10000 + M.keys.length * (1 + ε) ^ M.keys.length * η := by
  obtain ⟨x, h1, rfl⟩ := single h
  rw [attempt, if_neg hn] at h1
  unfold multiRoot at h1
  simp only [Outcome.bind_eq_ok] at h1
  obtain ⟨e, -, ⟨st, y⟩, h3, h4⟩ := h1
  simp only at h4
  split at h4
  · rename_i hst
    subst hst
    simp only [Outcome.ok.injEq, Option.some.injEq] at h4
    obtain ⟨⟨j, hj⟩, f, h5, h6⟩ := multiLoop_success _ _ _ _ _ h3
    have hlen : y.length = M.keys.length := by rw [hj]; exact hsize j
    have hxlen : x.length = M.keys.length := by rw [← h4, List.length_map]; exact hlen
    have hx : x = y := inside hlen h4 hin
    have hmap : (M.keys.zip x).map (·.2) = y := by rw [← hx]; exact List.map_snd_zip (by omega)
    intro wanted
    refine ⟨List.map_fst_zip (by omega), ?_⟩
    have hw : wanted = Spec.wanted M.fs M.keys y := by rw [← hmap]
    rw [hw]
    obtain ⟨hf, -⟩ := collect_values _ _ _ h5
    have hr := total_error R.relative R.absolute R.close (f.map cabs)
    have habs : (f.map cabs).map abs = f.map cabs := by
      rw [List.map_map]
      apply List.map_congr_left
      intro v _
      simp [Function.comp, Tat.cabs_eq]
    rw [habs, List.length_map] at hr
    have hfl : f.length = M.keys.length := by rw [hf, List.length_map]
    rw [hfl] at hr
    have hS : (M.keys.map fun k => |(Spec.wanted M.fs M.keys y k).sum|).sum ≤ (f.map cabs).sum + (M.keys.map fun k => Spec.error ε η (Spec.wanted M.fs M.keys y k)).sum := by
      rw [hf, List.map_map]
      refine sum_map_le _ _ _ _ fun k _ => ?_
      simp only [Function.comp, Tat.cabs_eq]
      have h7 := (entry R (zero_first R) M.fs M.keys y k).2
      rw [abs_sub_comm] at h7
      have h8 := abs_sub_abs_le_abs_sub (Spec.wanted M.fs M.keys y k).sum (((terms fl (fun v => fl (0 + v)) M.fs M.keys y).lookup k).getD 0)
      linarith
    generalize (f.map cabs).sum = S at hr hS
    unfold bound at hr
    have h9 := (abs_le.1 hr).1
    have h10 : (2 - (1 + ε) ^ M.keys.length) * S < 1 / 10000 + M.keys.length * (1 + ε) ^ M.keys.length * η := by nlinarith
    refine lt_of_le_of_lt (mul_le_mul_of_nonneg_left ?_ (by linarith)) h10
    linarith
  · simp at h4

/-! ## Minimization -/

theorem minLoop_success (M : Model) (it : Nat → Iter) (stop : Iter → Bool) (left i : Nat) (h : (minLoop fl M it stop left i).1 = .success) :
    ∃ j, (minLoop fl M it stop left i).2 = (it j).x ∧ (mismatch fl M.fs M.keys (it j).x ≤ 1 / 10000 ∨ stop (it j) = true) := by
  induction left generalizing i with
  | zero =>
    rw [minLoop] at h ⊢
    split
    · rename_i hle; exact ⟨i, rfl, .inl hle⟩
    · rename_i hle
      rw [if_neg hle] at h
      split
      · rename_i hs; rw [if_pos hs] at h; exact absurd h hs
      · rename_i hs
        rw [if_neg hs] at h
        split
        · rename_i hst; exact ⟨i, rfl, .inr hst⟩
        · rename_i hst; rw [if_neg hst] at h; simp at h
  | succ left ih =>
    rw [minLoop] at h ⊢
    split
    · rename_i hle; exact ⟨i, rfl, .inl hle⟩
    · rename_i hle
      rw [if_neg hle] at h
      split
      · rename_i hs; rw [if_pos hs] at h; exact absurd h hs
      · rename_i hs
        rw [if_neg hs] at h
        split
        · rename_i hst; exact ⟨i, rfl, .inr hst⟩
        · rename_i hst
          rw [if_neg hst] at h
          exact ih _ h

theorem lookup_mem {m : List (Nat × Rat)} {k : Nat} {v : Rat} (h : m.lookup k = some v) : (k, v) ∈ m := by
  induction m with
  | nil => simp at h
  | cons e m ih =>
    rw [List.lookup_cons] at h
    by_cases hk : k = e.1
    · subst hk
      simp at h
      subst h
      exact List.mem_cons_self
    · rw [show (k == e.1) = false by simpa using hk] at h
      exact List.mem_cons_of_mem _ (ih h)

/-- A sum over keys of a nonnegative function of the entries is at most the sum over the entries. -/
theorem sum_keys_le (m : List (Nat × Rat)) (hm : Ordered m) (keys : List Nat) (hk : keys.Nodup) (g : Nat → Rat → Rat) (hg : ∀ k v, 0 ≤ g k v) :
    (keys.map fun k => match m.lookup k with | none => 0 | some v => g k v).sum ≤ (m.map fun e => g e.1 e.2).sum := by
  induction m generalizing keys with
  | nil =>
    have : (keys.map fun k => match ([] : List (Nat × Rat)).lookup k with | none => (0 : Rat) | some v => g k v) = keys.map fun _ => 0 := rfl
    rw [this]
    simp
  | cons e m ih =>
    obtain ⟨j, u⟩ := e
    obtain ⟨h1, h2⟩ := List.pairwise_cons.1 hm
    have hj : m.lookup j = none := lookup_none fun hmem => by
      obtain ⟨b, hb, hbj⟩ := List.mem_map.1 hmem
      have := h1 b hb
      simp only at this hbj
      omega
    have hsplit : (keys.map fun k => match ((j, u) :: m).lookup k with | none => 0 | some v => g k v).sum ≤
        g j u + (keys.map fun k => match m.lookup k with | none => 0 | some v => g k v).sum := by
      clear ih
      induction keys with
      | nil => simpa using hg j u
      | cons k ks ihk =>
        obtain ⟨hk1, hk2⟩ := List.nodup_cons.1 hk
        simp only [List.map_cons, List.sum_cons]
        by_cases hkj : k = j
        · subst hkj
          have : (ks.map fun i => match ((k, u) :: m).lookup i with | none => (0 : Rat) | some v => g i v) = ks.map fun i => match m.lookup i with | none => 0 | some v => g i v := by
            apply List.map_congr_left
            intro i hi
            have : (i == k) = false := by
              have : i ≠ k := fun h => hk1 (h ▸ hi)
              simpa using this
            rw [List.lookup_cons, this]
          rw [this, hj]
          simp
        · have := ihk hk2
          have h3 : ((j, u) :: m).lookup k = m.lookup k := by
            rw [List.lookup_cons, show (k == j) = false by simpa using hkj]
          rw [h3]
          linarith
    have := ih h2 keys hk
    simp only [List.map_cons, List.sum_cons] at *
    linarith

theorem terms_keys (fl first : Rat → Rat) (fs : List Demand) (keys : List Nat) (x : List Rat) : (terms fl first fs keys x).length = (Spec.properties fs keys x).length := by
  have hmem : ∀ (l m : List (Nat × Rat)) (i : Nat), i ∈ (l.foldl (addTerm fl first) m).map (·.1) ↔ i ∈ m.map (·.1) ∨ i ∈ l.map (·.1) := by
    intro l
    induction l with
    | nil => simp
    | cons e l ih =>
      intro m i
      rw [List.foldl_cons, ih, addTerm_mem, List.map_cons, List.mem_cons]
      tauto
  have hperm : ((terms fl first fs keys x).map (·.1)).Perm (Spec.properties fs keys x) := by
    rw [List.perm_ext_iff_of_nodup]
    · intro i
      unfold Spec.properties
      rw [terms_flat, hmem, List.mem_dedup]
      simp
    · have h1 : ((terms fl first fs keys x).map (·.1)).Pairwise (· < ·) := by
        rw [List.pairwise_map]
        exact (terms_lookup fl first fs keys x).1
      exact h1.imp fun hab => ne_of_lt hab
    · exact List.nodup_dedup _
  have := hperm.length_eq
  rwa [List.length_map] at this

/-- Squares that add up to little, with rounding, are small. -/
theorem squares (R : Spec.Rounding fl ε η) (l : List Rat) (t : Rat) (h : total fl (l.map fun v => fl (v * v)) ≤ t) :
    (2 - (1 + ε) ^ (l.length + 1)) * (l.map fun v => v ^ 2).sum ≤ t + 2 * l.length * (1 + ε) ^ l.length * η := by
  have h1 := total_error R.relative R.absolute R.close (l.map fun v => fl (v * v))
  rw [List.length_map] at h1
  unfold bound at h1
  have h2 := (abs_le.1 h1).1
  have hlow : (1 - ε) * (l.map fun v => v ^ 2).sum - l.length * η ≤ (l.map fun v => fl (v * v)).sum ∧
      ((l.map fun v => fl (v * v)).map abs).sum ≤ (1 + ε) * (l.map fun v => v ^ 2).sum + l.length * η := by
    clear h h1 h2
    induction l with
    | nil => simp
    | cons v l ih =>
      obtain ⟨i1, i2⟩ := ih
      simp only [List.map_cons, List.sum_cons, List.length_cons]
      push_cast
      have h3 := R.close (v * v)
      have hvv : |v * v| = v ^ 2 := by rw [abs_mul_self]; ring
      rw [hvv] at h3
      have h4 := (abs_le.1 h3).1
      have h5 : |fl (v * v)| ≤ (1 + ε) * v ^ 2 + η := by
        calc |fl (v * v)| = |(fl (v * v) - v * v) + v * v| := by ring_nf
          _ ≤ |fl (v * v) - v * v| + |v * v| := abs_add_le _ _
          _ ≤ _ := by rw [hvv]; linarith
      constructor
      · linarith
      · linarith
  obtain ⟨h3, h4⟩ := hlow
  have hg := power_ge R.relative l.length
  have h5 := mul_le_mul_of_nonneg_left h4 (show 0 ≤ (1 + ε) ^ l.length - 1 by linarith)
  rw [pow_succ]
  nlinarith

/-- What a small target of the minimization says about the excess demands. -/
theorem small_target (R : Spec.Rounding fl ε η) (fs : List Demand) (keys : List Nat) (hk : keys.Nodup) (x : List Rat) (t : Rat)
    (hm : (1 + ε) ^ ((Spec.properties fs keys x).length + 1) ≤ 2) (h : mismatch fl fs keys x ≤ t) :
    (2 - (1 + ε) ^ ((Spec.properties fs keys x).length + 1)) * (keys.map fun k => max 0 (|(Spec.wanted fs keys x k).sum| - Spec.error ε η (Spec.wanted fs keys x k)) ^ 2).sum ≤
      t + 2 * (Spec.properties fs keys x).length * (1 + ε) ^ (Spec.properties fs keys x).length * η := by
  have h1 := squares R ((terms fl id fs keys x).map (·.2)) t (by rw [List.map_map]; exact h)
  rw [List.length_map, terms_keys, List.map_map] at h1
  refine le_trans (mul_le_mul_of_nonneg_left ?_ (by linarith)) h1
  have h2 := sum_keys_le (terms fl id fs keys x) (terms_lookup fl id fs keys x).1 keys hk (fun _ v => v ^ 2) (fun _ v => sq_nonneg v)
  refine le_trans ?_ h2
  apply List.sum_le_sum
  intro k _
  have h3 := entry R (id_first R) fs keys x k
  cases hl : (terms fl id fs keys x).lookup k with
  | none =>
    rw [hl] at h3
    rw [h3.1.1 rfl]
    simp [Spec.error]
  | some v =>
    rw [hl] at h3
    have h4 := h3.2
    simp only [Option.getD_some] at h4
    rw [abs_sub_comm] at h4
    have h5 := abs_sub_abs_le_abs_sub (Spec.wanted fs keys x k).sum v
    have h6 : max 0 (|(Spec.wanted fs keys x k).sum| - Spec.error ε η (Spec.wanted fs keys x k)) ≤ |v| := max_le (abs_nonneg _) (by linarith)
    simp only
    rw [← sq_abs v]
    exact pow_le_pow_left₀ (le_max_left _ _) h6 2

/-- **C171, minimization without derivatives.** The squares of the excess demands, beyond the errors of adding them up, add up to at most 1e-4, up to the error of that. -/
theorem C171_derivative_free_minimization (R : Spec.Rounding fl ε η) (M : Model) (hne : M.keys ≠ []) (hk : M.keys.Nodup) (maxIt : Nat) (its : Nat → Nat → Iter)
    (hsize : ∀ i, (its 0 i).x.length = M.keys.length) (r : List (Nat × Rat))
    (h : computeClearingQuotes fl M [.derivativeFreeMinimization] maxIt its = .ok (some r)) :
    let wanted := Spec.wanted M.fs M.keys (r.map (·.2))
    let n := (Spec.properties M.fs M.keys (r.map (·.2))).length
    r.map (·.1) = M.keys ∧ ((1 + ε) ^ (n + 1) ≤ 2 → (2 - (1 + ε) ^ (n + 1)) * (M.keys.map fun k => max 0 (|(wanted k).sum| - Spec.error ε η (wanted k)) ^ 2).sum ≤
      1 / 10000 + 2 * n * (1 + ε) ^ n * η) := by
  obtain ⟨x, h1, rfl⟩ := single h
  rw [attempt] at h1
  simp only [Outcome.ok.injEq] at h1
  unfold minimizeFree at h1
  simp only at h1
  split at h1
  · rename_i hs
    obtain ⟨j, h2, h3⟩ := minLoop_success M (its 0) _ _ _ hs
    simp only [Option.some.injEq] at h1
    have hxj : x = (its 0 j).x := by rw [← h1, h2]
    have hlen : x.length = M.keys.length := by rw [hxj]; exact hsize j
    have hmap : (M.keys.zip x).map (·.2) = x := List.map_snd_zip (by omega)
    intro wanted n
    refine ⟨List.map_fst_zip (by omega), fun hm => ?_⟩
    have hw : wanted = Spec.wanted M.fs M.keys x := by rw [← hmap]
    have hn : n = (Spec.properties M.fs M.keys x).length := by rw [← hmap]
    rw [hw, hn]
    rw [hn] at hm
    rcases h3 with h3 | h3
    · exact small_target R M.fs M.keys hk x _ hm (by rw [hxj]; exact h3)
    · exfalso
      have h4 : (M.keys.length : Rat) < 1 / 10000 := by simpa using h3
      have h5 : 1 ≤ M.keys.length := by
        cases hkk : M.keys with
        | nil => exact absurd hkk hne
        | cons a l => simp
      have h6 : (1 : Rat) ≤ M.keys.length := by exact_mod_cast h5
      linarith
  · simp at h1

/-- **C171, minimization with derivatives (partial).** As without derivatives, unless the solver reports a vanishing gradient. -/
theorem C171_minimization_partial (R : Spec.Rounding fl ε η) (M : Model) (hk : M.keys.Nodup) (maxIt : Nat) (its : Nat → Nat → Iter)
    (hsize : ∀ i, (its 0 i).x.length = M.keys.length) (r : List (Nat × Rat))
    (h : computeClearingQuotes fl M [.minimization] maxIt its = .ok (some r)) :
    let wanted := Spec.wanted M.fs M.keys (r.map (·.2))
    let n := (Spec.properties M.fs M.keys (r.map (·.2))).length
    r.map (·.1) = M.keys ∧ (((1 + ε) ^ (n + 1) ≤ 2 → (2 - (1 + ε) ^ (n + 1)) * (M.keys.map fun k => max 0 (|(wanted k).sum| - Spec.error ε η (wanted k)) ^ 2).sum ≤
      1 / 10000 + 2 * n * (1 + ε) ^ n * η) ∨
      ∃ j, (its 0 j).x = r.map (·.2) ∧ ((its 0 j).gradient.map fun v => v ^ 2).sum < (1 / 10000) ^ 2) := by
  obtain ⟨x, h1, rfl⟩ := single h
  rw [attempt] at h1
  simp only [Outcome.ok.injEq] at h1
  unfold minimize at h1
  simp only at h1
  split at h1
  · rename_i hs
    obtain ⟨j, h2, h3⟩ := minLoop_success M (its 0) _ _ _ hs
    simp only [Option.some.injEq] at h1
    have hxj : x = (its 0 j).x := by rw [← h1, h2]
    have hlen : x.length = M.keys.length := by rw [hxj]; exact hsize j
    have hmap : (M.keys.zip x).map (·.2) = x := List.map_snd_zip (by omega)
    intro wanted n
    refine ⟨List.map_fst_zip (by omega), ?_⟩
    have hw : wanted = Spec.wanted M.fs M.keys x := by rw [← hmap]
    have hn : n = (Spec.properties M.fs M.keys x).length := by rw [← hmap]
    rw [hw, hn, hmap]
    rcases h3 with h3 | h3
    · exact .inl fun hm => small_target R M.fs M.keys hk x _ hm (by rw [hxj]; exact h3)
    · right
      refine ⟨j, hxj.symm, ?_⟩
      unfold Tat.testGradient at h3
      simp only [decide_eq_true_eq] at h3
      have h4 : ((its 0 j).gradient.map fun v => v ^ 2) = (its 0 j).gradient.map fun v => v * v := by
        apply List.map_congr_left
        intro v _
        ring
      rw [h4]
      norm_num
      norm_num at h3
      exact h3
  · simp at h1

/-! ## Root finding for one property -/

theorem uniValue_error (R : Spec.Rounding fl ε η) {M : Model} {k : Nat} (hk : M.keys = [k]) {x e : Rat} (h : uniValue fl M x = .ok e) :
    |e - (Spec.wanted M.fs [k] [x] k).sum| ≤ Spec.error ε η (Spec.wanted M.fs [k] [x] k) := by
  unfold uniValue at h
  rw [hk] at h
  simp only [Outcome.bind_eq_ok] at h
  obtain ⟨r, h1, h2⟩ := h
  obtain ⟨rfl, -⟩ := collect_values _ _ _ h1
  simp only [List.map_cons, List.map_nil, Outcome.ok.injEq] at h2
  rw [← h2]
  exact (entry R (zero_first R) M.fs [k] [x] k).2

theorem uniStep_best {M : Model} (j : Iter) (best e : Rat) (r : Bool × Rat × Rat) (he : uniValue fl M best = .ok e) (h : uniStep fl M j best e = .ok r) :
    |r.2.2| ≤ |e| ∧ uniValue fl M r.2.1 = .ok r.2.2 := by
  unfold uniStep at h
  simp only [Outcome.bind_eq_ok] at h
  obtain ⟨v, h1, h2⟩ := h
  simp only [Outcome.ok.injEq] at h2
  subst h2
  simp only
  split
  · rename_i hlt
    rw [Tat.cabs_eq, Tat.cabs_eq] at hlt
    exact ⟨hlt.le, h1⟩
  · exact ⟨le_refl _, he⟩

theorem uniLoop_best {M : Model} (it : Nat → Iter) (left i : Nat) (best e : Rat) (st : Status) (b : Rat) (he : uniValue fl M best = .ok e) (h : uniLoop fl M it left i best e = .ok (st, b)) :
    ∃ e', uniValue fl M b = .ok e' ∧ |e'| ≤ |e| := by
  induction left generalizing i best e with
  | zero =>
    rw [uniLoop] at h
    simp only [Outcome.bind_eq_ok] at h
    obtain ⟨r, h1, h2⟩ := h
    simp only [Outcome.ok.injEq, Prod.mk.injEq] at h2
    rw [← h2.2]
    obtain ⟨g1, g2⟩ := uniStep_best _ _ _ _ he h1
    exact ⟨_, g2, g1⟩
  | succ left ih =>
    rw [uniLoop] at h
    simp only [Outcome.bind_eq_ok] at h
    obtain ⟨r, h1, h2⟩ := h
    obtain ⟨g1, g2⟩ := uniStep_best _ _ _ _ he h1
    split at h2
    · simp only [Outcome.ok.injEq, Prod.mk.injEq] at h2
      rw [← h2.2]; exact ⟨_, g2, g1⟩
    · split at h2
      · obtain ⟨e', k1, k2⟩ := ih _ _ _ g2 h2
        exact ⟨e', k1, le_trans k2 g1⟩
      · simp only [Outcome.ok.injEq, Prod.mk.injEq] at h2
        rw [← h2.2]; exact ⟨_, g2, g1⟩

/-- **C171, root finding for one property (partial).** The reported quote is no worse than the starting quote, up to the errors of adding up the orders at both, or it is one of the bounds of the circuit breaker. Missing: that it clears the market (C91). -/
theorem C171_no_worse_partial (R : Spec.Rounding fl ε η) (M : Model) (k : Nat) (hk : M.keys = [k]) (maxIt : Nat) (its : Nat → Nat → Iter)
    (r : List (Nat × Rat)) (h : computeClearingQuotes fl M [.root] maxIt its = .ok (some r)) :
    let wanted := fun x => Spec.wanted M.fs [k] [x] k
    ∃ x, r = [(k, x)] ∧ (|(wanted x).sum| ≤ |(wanted 1).sum| + Spec.error ε η (wanted x) + Spec.error ε η (wanted 1) ∨ x = M.breaker.1 ∨ x = M.breaker.2) := by
  intro wanted
  obtain ⟨x, h1, rfl⟩ := single h
  rw [attempt, if_pos (by rw [hk]; rfl)] at h1
  unfold uniRoot at h1
  simp only [Outcome.bind_eq_ok] at h1
  obtain ⟨e, h2, ⟨st, best⟩, h3, h4⟩ := h1
  simp only at h4
  split at h4
  · simp only [Outcome.ok.injEq, Option.some.injEq] at h4
    subst h4
    obtain ⟨e', g1, g2⟩ := uniLoop_best _ _ _ _ _ _ _ h2 h3
    have k1 := uniValue_error R hk g1
    have k2 := uniValue_error R hk h2
    have hle : |(wanted best).sum| ≤ |(wanted 1).sum| + Spec.error ε η (wanted best) + Spec.error ε η (wanted 1) := by
      rw [abs_sub_comm] at k1
      have l1 := abs_sub_abs_le_abs_sub (wanted best).sum e'
      have l2 := abs_sub_abs_le_abs_sub e (wanted 1).sum
      linarith
    refine ⟨_, by rw [hk, Tat.cmin_eq, Tat.cmax_eq]; rfl, ?_⟩
    rcases le_total best M.breaker.1 with h1 | h1
    · rw [max_eq_right h1]
      rcases le_total M.breaker.1 M.breaker.2 with h2 | h2
      · rw [min_eq_left h2]; exact .inr (.inl rfl)
      · rw [min_eq_right h2]; exact .inr (.inr rfl)
    · rw [max_eq_left h1]
      rcases le_total best M.breaker.2 with h2 | h2
      · rw [min_eq_left h2]; exact .inl hle
      · rw [min_eq_right h2]; exact .inr (.inr rfl)
  · simp at h4

/-! ## Without rounding -/

theorem mem_lookup {m : List (Nat × Rat)} (h : (m.map (·.1)).Nodup) (e : Nat × Rat) : e ∈ m ↔ m.lookup e.1 = some e.2 := by
  refine ⟨fun he => ?_, fun he => lookup_mem he⟩
  rw [Tat.lookup_valueOf m h, if_pos (List.mem_map.2 ⟨e, he, rfl⟩), Tat.valueOf_mem m h he]

theorem ordered_nodup {m : List (Nat × Rat)} (h : Ordered m) : (m.map (·.1)).Nodup := by
  have h1 : (m.map (·.1)).Pairwise (· < ·) := by rw [List.pairwise_map]; exact h
  exact h1.imp fun hab => ne_of_lt hab

theorem fold_add (vs : List Rat) (s : Rat) : vs.foldl (fun s v => id (s + v)) s = s + vs.sum := by
  induction vs generalizing s with
  | nil => simp
  | cons v vs ih => rw [List.foldl_cons, ih, List.sum_cons]; simp; ring

theorem total_exact (vs : List Rat) : total id vs = vs.sum := by
  unfold total
  rw [fold_add]; ring

theorem valuesOf_sum (k : Nat) (l : List (Nat × Rat)) : (valuesOf k l).sum = Tat.valueOf k l := by
  induction l with
  | nil => rfl
  | cons e l ih =>
    rw [Tat.valueOf_cons, ← ih]
    by_cases h : e.1 = k
    · simp [valuesOf, h]
    · simp [valuesOf, h]

theorem lookup_exact {first : Rat → Rat} (hf : ∀ v, first v = v) (fs : List Demand) (keys : List Nat) (x : List Rat) (k : Nat) :
    (terms id first fs keys x).lookup k = (Tat.terms fs keys x).lookup k := by
  obtain ⟨t1, t2, t3⟩ := Tat.terms_spec fs keys x
  rw [Tat.lookup_valueOf _ t1, (terms_lookup id first fs keys x).2 k, fold_update]
  have hsum : (valuesOf k (fs.flatMap fun f => f (keys.zip x))).sum = Tat.valueOf k (Tat.terms fs keys x) := by
    rw [t3 k, valuesOf_sum]
    clear t1 t2 t3
    induction fs with
    | nil => rfl
    | cons f fs ih => rw [List.flatMap_cons, Tat.valueOf_append, ih, List.map_cons, List.sum_cons]
  have hmem : k ∈ (Tat.terms fs keys x).map (·.1) ↔ valuesOf k (fs.flatMap fun f => f (keys.zip x)) ≠ [] := by
    rw [t2 k]
    unfold valuesOf
    simp only [ne_eq, List.map_eq_nil_iff, List.filter_eq_nil_iff, List.mem_flatMap, List.mem_map]
    constructor
    · rintro ⟨f, hf, e, he, rfl⟩ h
      exact h e ⟨f, hf, he⟩ (by simp)
    · intro h
      by_contra hc
      apply h
      rintro e ⟨f, hf, he⟩
      simp only [decide_eq_true_eq]
      intro hek
      exact hc ⟨f, hf, e, he, hek⟩
  cases h : valuesOf k (fs.flatMap fun f => f (keys.zip x)) with
  | nil => rw [if_neg (by rw [hmem, h]; simp)]
  | cons v vs =>
    rw [if_pos (by rw [hmem, h]; simp), ← hsum, h]
    simp only
    rw [fold_add, hf, List.sum_cons]

theorem collect_congr (m m' : List (Nat × Rat)) (h : ∀ k, m.lookup k = m'.lookup k) (keys : List Nat) : collect m keys = collect m' keys := by
  induction keys with
  | nil => rfl
  | cons k ks ih => rw [collect, collect, h k, ih]

theorem excessDemand_exact : excessDemand id = Tat.excessDemand := by
  funext fs keys x
  exact collect_congr _ _ (lookup_exact (fun v => by simp) fs keys x) keys

theorem mismatch_exact : mismatch id = Tat.mismatch := by
  funext fs keys x
  unfold mismatch Tat.mismatch
  rw [total_exact]
  simp only [id]
  apply List.Perm.sum_eq
  apply List.Perm.map
  have n1 := ordered_nodup (terms_lookup id id fs keys x).1
  have n2 := (Tat.terms_spec fs keys x).1
  rw [List.perm_ext_iff_of_nodup n1.of_map n2.of_map]
  intro e
  rw [mem_lookup n1, mem_lookup n2, lookup_exact (first := id) (fun v => rfl)]

theorem uniValue_exact : uniValue id = Tat.uniValue := by
  funext M x
  unfold uniValue Tat.uniValue
  rw [excessDemand_exact]
  rfl

theorem uniLoop_exact (M : Model) (it : Nat → Iter) (left i : Nat) (b e : Rat) : uniLoop id M it left i b e = Tat.uniLoop M it left i b e := by
  have hs : ∀ j b e, uniStep id M j b e = Tat.uniStep M j b e := by
    intro j b e
    unfold uniStep Tat.uniStep
    rw [uniValue_exact]
  induction left generalizing i b e with
  | zero => rw [uniLoop, Tat.uniLoop, hs]
  | succ left ih =>
    rw [uniLoop, Tat.uniLoop, hs]
    simp only [ih]

theorem testResidual_exact (f : List Rat) : testResidual id f = Tat.testResidual f := by
  unfold testResidual Tat.testResidual
  rw [total_exact]

theorem multiLoop_exact (M : Model) (it : Nat → Iter) (left i : Nat) (x : List Rat) : multiLoop id M it left i x = Tat.multiLoop M it left i x := by
  induction left generalizing i x with
  | zero => rfl
  | succ left ih =>
    rw [multiLoop, Tat.multiLoop, excessDemand_exact]
    simp only [ih, testResidual_exact]
    rfl

theorem minLoop_exact (M : Model) (it : Nat → Iter) (stop : Iter → Bool) (left i : Nat) : minLoop id M it stop left i = Tat.minLoop M it stop left i := by
  induction left generalizing i with
  | zero => rw [minLoop, Tat.minLoop, mismatch_exact]
  | succ left ih =>
    rw [minLoop, Tat.minLoop, mismatch_exact]
    simp only [ih]

theorem freeLoop_exact (M : Model) (it : Nat → Iter) (left i : Nat) (x : List Rat) (e : Rat) : freeLoop id M it left i x e = Tat.freeLoop M it left i x e := by
  induction left generalizing i x e with
  | zero => rfl
  | succ left ih =>
    rw [freeLoop, Tat.freeLoop, excessDemand_exact]
    simp only [ih, testResidual_exact, total_exact]
    rfl

theorem attempt_exact (M : Model) (maxIt : Nat) (it : Nat → Iter) (m : Method) : attempt id M maxIt it m = Tat.attempt M maxIt it m := by
  cases m with
  | root =>
    simp only [attempt, Tat.attempt, uniRoot, Tat.uniRoot, multiRoot, Tat.multiRoot, uniValue_exact, uniLoop_exact, excessDemand_exact, multiLoop_exact]
  | minimization => simp only [attempt, Tat.attempt, minimize, Tat.minimize, minLoop_exact]
  | derivativeFreeMinimization => simp only [attempt, Tat.attempt, minimizeFree, Tat.minimizeFree, minLoop_exact]
  | derivativeFreeRoot => simp only [attempt, Tat.attempt, freeRoot, Tat.freeRoot, excessDemand_exact, freeLoop_exact, total_exact]

/-- **C171, exact arithmetic.** Without rounding, this is the computation of C59, C90, C91 and C92. -/
theorem C171_exact (M : Model) (ms : List Method) (maxIt : Nat) (its : Nat → Nat → Iter) :
    computeClearingQuotes id M ms maxIt its = Tat.computeClearingQuotes M ms maxIt its := by
  have key : ∀ n, tryMethods id M maxIt its n ms = Tat.tryMethods M maxIt its n ms := by
    induction ms with
    | nil => intro n; rfl
    | cons m ms ih =>
      intro n
      rw [tryMethods, Tat.tryMethods, attempt_exact]
      simp only [ih]
      rfl
  unfold computeClearingQuotes Tat.computeClearingQuotes
  rw [key]

/-! ## `double`s -/

theorem power_le (n : Nat) (hn : n ≤ 1000001) : (1 + 1 / 2 ^ 53 : Rat) ^ n ≤ 1 + 12 / 10 ^ 11 := by
  have h1 : (1 : Rat) + n * (-(1 / 2 ^ 53)) ≤ (1 + -(1 / 2 ^ 53)) ^ n := one_add_mul_le_pow (by norm_num) n
  have h2 : (1 + 1 / 2 ^ 53 : Rat) ^ n * (1 + -(1 / 2 ^ 53)) ^ n ≤ 1 := by
    rw [← mul_pow]
    exact pow_le_one₀ (by norm_num) (by norm_num)
  have h3 : (n : Rat) ≤ 1000001 := by exact_mod_cast hn
  have h4 : (1 : Rat) - 1000001 / 2 ^ 53 ≤ (1 + -(1 / 2 ^ 53)) ^ n := by
    refine le_trans ?_ h1
    have : (n : Rat) * (1 / 2 ^ 53) ≤ 1000001 * (1 / 2 ^ 53) := mul_le_mul_of_nonneg_right h3 (by norm_num)
    linarith
  have hp : (0 : Rat) < (1 + 1 / 2 ^ 53) ^ n := by positivity
  have h5 : (1 + 1 / 2 ^ 53 : Rat) ^ n * (1 - 1000001 / 2 ^ 53) ≤ 1 := le_trans (mul_le_mul_of_nonneg_left h4 hp.le) h2
  have h6 : (1 : Rat) ≤ (1 + 12 / 10 ^ 11) * (1 - 1000001 / 2 ^ 53) := by norm_num
  have h7 : (0 : Rat) < 1 - 1000001 / 2 ^ 53 := by norm_num
  exact le_of_mul_le_mul_right (le_trans h5 h6) h7

theorem error_le (l : List Rat) (hl : l.length ≤ 1000000) : Spec.error (1 / 2 ^ 53) 0 l ≤ 12 / 10 ^ 11 * (l.map abs).sum := by
  unfold Spec.error
  have h1 := power_le l.length (by omega)
  have h2 : 0 ≤ (l.map abs).sum := List.sum_nonneg fun v hv => by
    obtain ⟨u, -, rfl⟩ := List.mem_map.1 hv
    exact abs_nonneg u
  rw [mul_zero, add_zero]
  exact mul_le_mul_of_nonneg_right (by linarith) h2

/-- **C171, root finding with `double`s (partial).** With at most a million properties and orders for each, the total absolute excess demand at quotes strictly within the circuit breaker is at most 1.0001e-4, and a bit more than 1e-10 of all that is wanted. -/
theorem C171_several_double_partial (M : Model) (hn : M.keys.length ≠ 1) (hm : M.keys.length ≤ 1000000) (maxIt : Nat) (its : Nat → Nat → Iter) (hsize : ∀ i, (its 0 i).x.length = M.keys.length)
    (r : List (Nat × Rat)) (h : computeClearingQuotes Double.binary64 M [.root] maxIt its = .ok (some r)) (hin : ∀ e ∈ r, M.breaker.1 < e.2 ∧ e.2 < M.breaker.2)
    (hw : ∀ k ∈ M.keys, (Spec.wanted M.fs M.keys (r.map (·.2)) k).length ≤ 1000000) :
    (M.keys.map fun k => |(Spec.wanted M.fs M.keys (r.map (·.2)) k).sum|).sum ≤
      10001 / 10 ^ 8 + 12 / 10 ^ 11 * (M.keys.map fun k => ((Spec.wanted M.fs M.keys (r.map (·.2)) k).map abs).sum).sum := by
  have hg := power_le M.keys.length (by omega)
  have hd : (12 : Rat) / 10 ^ 11 ≤ 1 / 10 ^ 9 := by norm_num
  obtain ⟨-, h1⟩ := C171_several_partial rounding_binary64 M hn (by linarith) maxIt its hsize r h hin
  have h2 : (M.keys.map fun k => Spec.error (1 / 2 ^ 53) 0 (Spec.wanted M.fs M.keys (r.map (·.2)) k)).sum ≤
      12 / 10 ^ 11 * (M.keys.map fun k => ((Spec.wanted M.fs M.keys (r.map (·.2)) k).map abs).sum).sum := by
    have : ∀ l : List Nat, (∀ k ∈ l, k ∈ M.keys) → (l.map fun k => Spec.error (1 / 2 ^ 53) 0 (Spec.wanted M.fs M.keys (r.map (·.2)) k)).sum ≤
        12 / 10 ^ 11 * (l.map fun k => ((Spec.wanted M.fs M.keys (r.map (·.2)) k).map abs).sum).sum := by
      intro l hl
      induction l with
      | nil => simp
      | cons k l ih =>
        have i1 := ih fun j hj => hl j (List.mem_cons_of_mem _ hj)
        have i2 := error_le _ (hw k (hl k List.mem_cons_self))
        simp only [List.map_cons, List.sum_cons]
        rw [mul_add]
        linarith
    exact this _ fun _ hk => hk
  rw [mul_zero, add_zero] at h1
  generalize (M.keys.map fun k => |(Spec.wanted M.fs M.keys (r.map (·.2)) k).sum|).sum = S at h1 ⊢
  generalize (M.keys.map fun k => Spec.error (1 / 2 ^ 53) 0 (Spec.wanted M.fs M.keys (r.map (·.2)) k)).sum = E at h1 h2
  by_contra hc
  rw [not_le] at hc
  have h3 : (10001 : Rat) / 10 ^ 8 < S - E := by linarith
  have h4 : (1 - 12 / 10 ^ 11) * (S - E) ≤ (2 - (1 + 1 / 2 ^ 53) ^ M.keys.length) * (S - E) := mul_le_mul_of_nonneg_right (by linarith) (by linarith)
  have h5 : (1 - 12 / 10 ^ 11) * (10001 / 10 ^ 8) < (1 - 12 / 10 ^ 11) * (S - E) := mul_lt_mul_of_pos_left h3 (by norm_num)
  norm_num at h1 h4 h5
  linarith

/-- **C171, minimization with `double`s.** With at most a million properties and orders for each, the excess demand of every property is at most 0.0101, and a bit more than 1e-10 of all that is wanted of it. -/
theorem C171_minimization_double (M : Model) (hk : M.keys.Nodup) (maxIt : Nat) (its : Nat → Nat → Iter)
    (hsize : ∀ i, (its 0 i).x.length = M.keys.length) (r : List (Nat × Rat))
    (h : computeClearingQuotes Double.binary64 M [.derivativeFreeMinimization] maxIt its = .ok (some r))
    (hp : (Spec.properties M.fs M.keys (r.map (·.2))).length ≤ 1000000) (k : Nat) (hmem : k ∈ M.keys) (hw : (Spec.wanted M.fs M.keys (r.map (·.2)) k).length ≤ 1000000) :
    |(Spec.wanted M.fs M.keys (r.map (·.2)) k).sum| ≤ 101 / 10 ^ 4 + 12 / 10 ^ 11 * ((Spec.wanted M.fs M.keys (r.map (·.2)) k).map abs).sum := by
  have hg := power_le ((Spec.properties M.fs M.keys (r.map (·.2))).length + 1) (by omega)
  have hd : (12 : Rat) / 10 ^ 11 ≤ 1 / 10 ^ 9 := by norm_num
  obtain ⟨-, h1⟩ := C171_derivative_free_minimization rounding_binary64 M (List.ne_nil_of_mem hmem) hk maxIt its hsize r h
  have h1 := h1 (by linarith)
  rw [mul_zero, add_zero] at h1
  have h2 := error_le _ hw
  have h3 : max 0 (|(Spec.wanted M.fs M.keys (r.map (·.2)) k).sum| - Spec.error (1 / 2 ^ 53) 0 (Spec.wanted M.fs M.keys (r.map (·.2)) k)) ^ 2 ≤
      (M.keys.map fun k => max 0 (|(Spec.wanted M.fs M.keys (r.map (·.2)) k).sum| - Spec.error (1 / 2 ^ 53) 0 (Spec.wanted M.fs M.keys (r.map (·.2)) k)) ^ 2).sum :=
    List.single_le_sum (fun v hv => by obtain ⟨u, -, rfl⟩ := List.mem_map.1 hv; exact sq_nonneg _) _ (List.mem_map.2 ⟨k, hmem, rfl⟩)
  generalize (M.keys.map fun k => max 0 (|(Spec.wanted M.fs M.keys (r.map (·.2)) k).sum| - Spec.error (1 / 2 ^ 53) 0 (Spec.wanted M.fs M.keys (r.map (·.2)) k)) ^ 2).sum = S at h1 h3
  generalize |(Spec.wanted M.fs M.keys (r.map (·.2)) k).sum| = a at h3 ⊢
  generalize Spec.error (1 / 2 ^ 53) 0 (Spec.wanted M.fs M.keys (r.map (·.2)) k) = E at h2 h3
  by_contra hc
  rw [not_le] at hc
  have h4 : (101 : Rat) / 10 ^ 4 < a - E := by linarith
  rw [max_eq_right (by linarith)] at h3
  have h5 : ((101 : Rat) / 10 ^ 4) ^ 2 < (a - E) ^ 2 := pow_lt_pow_left₀ h4 (by norm_num) (by norm_num)
  have h6 : (1 - 12 / 10 ^ 11) * S ≤ (2 - (1 + 1 / 2 ^ 53) ^ ((Spec.properties M.fs M.keys (r.map (·.2))).length + 1)) * S := mul_le_mul_of_nonneg_right (by linarith) (by nlinarith)
  have h7 : (1 - 12 / 10 ^ 11) * ((101 : Rat) / 10 ^ 4) ^ 2 < (1 - 12 / 10 ^ 11) * S := mul_lt_mul_of_pos_left (by linarith) (by norm_num)
  norm_num at h1 h6 h7
  linarith

/-- A participant that wants a fixed amount of property `k`. -/
def fixed (k : Nat) (v : Rat) : Demand := fun _ => [(k, v)]

/-- **C171 (negation).** Among orders of more than 2^53, small ones are not noticed: two properties, an excess demand of two for the first at every quote, and quotes that are reported to clear the market. -/
theorem C171_counterexample_absorbed :
    computeClearingQuotes Double.binary64 ⟨[1, 2], [fixed 1 (2 ^ 53), fixed 1 1, fixed 1 1, fixed 1 (-2 ^ 53), linear 2 6 3], (1 / 11, 11)⟩ [.root] 16 (fun _ _ => ⟨.success, [1, 2], []⟩) = .ok (some [(1, 1), (2, 2)]) ∧
    (Spec.wanted [fixed 1 (2 ^ 53), fixed 1 1, fixed 1 1, fixed 1 (-2 ^ 53), linear 2 6 3] [1, 2] [1, 2] 1).sum = 2 := by decide +kernel

/-- **C171 (negation).** Whether quotes are reported to clear the market depends on the order of the participants. -/
theorem C171_counterexample_order :
    computeClearingQuotes Double.binary64 ⟨[1, 2], [fixed 1 (2 ^ 53), fixed 1 (-2 ^ 53), fixed 1 1, fixed 1 1, linear 2 6 3], (1 / 11, 11)⟩ [.root] 16 (fun _ _ => ⟨.success, [1, 2], []⟩) = .ok none := by decide +kernel

/-! ## Examples -/

/-- The hypotheses of `C171_several_partial` and `C171_several_double_partial`, with amounts that are rounded. -/
example : computeClearingQuotes Double.binary64 ⟨[1, 2], [linear 1 (1 / 3) (1 / 7), linear 1 (-1 / 3) (-1 / 7), linear 2 6 2], (1 / 11, 11)⟩ [.root] 16
    (fun _ i => if i < 3 then ⟨.success, [1, 1], []⟩ else ⟨.success, [2, 3], []⟩) = .ok (some [(1, 2), (2, 3)]) ∧ (1 + 1 / 2 ^ 53 : Rat) ^ 2 ≤ 2 := by decide +kernel

/-- The hypotheses of `C171_derivative_free_minimization`, `C171_minimization_double` and `C171_minimization_partial`. -/
example : computeClearingQuotes Double.binary64 ⟨[1, 2], [linear 1 10 5, linear 2 6 2], (1 / 11, 11)⟩ [.derivativeFreeMinimization] 16
    (fun _ i => if i < 3 then ⟨.success, [1, 1], []⟩ else ⟨.success, [2, 3 + 1 / 1000], []⟩) = .ok (some [(1, 2), (2, 3 + 1 / 1000)]) ∧
    computeClearingQuotes Double.binary64 ⟨[1, 2], [linear 1 10 5, linear 2 6 2], (1 / 11, 11)⟩ [.minimization] 16
    (fun _ i => if i < 3 then ⟨.success, [1, 1], [50, 30]⟩ else ⟨.success, [2, 3 + 1 / 1000], [0, 1]⟩) = .ok (some [(1, 2), (2, 3 + 1 / 1000)]) ∧
    Spec.properties [linear 1 10 5, linear 2 6 2] [1, 2] [2, 3 + 1 / 1000] = [1, 2] := by decide +kernel

/-- The hypotheses of `C171_no_worse_partial`. -/
example : computeClearingQuotes Double.binary64 ⟨[1], [linear 1 6 2, linear 1 (1 / 3) 0], (1 / 11, 11)⟩ [.root] 16 (fun _ i => if i = 0 then ⟨.continue_, [5], []⟩ else ⟨.success, [3], []⟩) =
    .ok (some [(1, 3)]) := by decide +kernel

end Esl.TatFl
