import Verif.Lemmas.Tatonnement

/-!
# Properties of the tatonnement

* C90: the two formulations of the clearing problem agree, and give every traded property its total excess demand.
* C59 (solvers): the circuit breaker, and no worse than the quotes the solver started from.
* C91: reported clearing quotes clear the market.
* C92: methods are tried in the given order until one succeeds.
-/

namespace Esl.Tat

/-! ## C90: aggregate excess demand -/

/-- What everybody together wants of a property, at given multipliers of the quotes. -/
def Spec.total (fs : List Demand) (keys : List Nat) (x : List Rat) (k : Nat) : Rat :=
  (fs.map fun f => (((f (keys.zip x)).filter fun e => e.1 = k).map (·.2)).sum).sum

/-- Somebody's order concerns the property. -/
def Spec.Mentioned (fs : List Demand) (keys : List Nat) (x : List Rat) (k : Nat) : Prop := ∃ f ∈ fs, k ∈ (f (keys.zip x)).map (·.1)

theorem total_eq (fs : List Demand) (keys : List Nat) (x : List Rat) (k : Nat) : Spec.total fs keys x k = valueOf k (terms fs keys x) := by
  rw [(terms_spec fs keys x).2.2 k]
  unfold Spec.total
  congr 1
  apply List.map_congr_left
  intro f _
  generalize f (keys.zip x) = l
  induction l with
  | nil => rfl
  | cons e l ih =>
    rw [valueOf_cons, List.filter_cons]
    by_cases h : e.1 = k
    · simp only [h, decide_true, if_true, List.map_cons, List.sum_cons, ih]
    · simp only [h, decide_false, Bool.false_eq_true, if_false, ih, zero_add]

/-- **C90.** If every traded property is in somebody's order, the root-finding formulation evaluates to the total excess demand of each traded property, in order. -/
theorem C90_root_value (fs : List Demand) (keys : List Nat) (x : List Rat) (h : ∀ k ∈ keys, Spec.Mentioned fs keys x k) :
    excessDemand fs keys x = .ok (keys.map (Spec.total fs keys x)) := by
  obtain ⟨h1, h2, -⟩ := terms_spec fs keys x
  unfold excessDemand
  rw [collect_ok _ h1, if_pos (fun k hk => (h2 k).2 (h k hk))]
  congr 1
  apply List.map_congr_left
  intro k _
  exact (total_eq fs keys x k).symm

/-- **C90.** The minimization formulation is zero at exactly the quotes at which the total excess demand of every property is zero. -/
theorem C90_minimum_value (fs : List Demand) (keys : List Nat) (x : List Rat) :
    mismatch fs keys x = 0 ↔ ∀ k, Spec.total fs keys x k = 0 := by
  obtain ⟨h1, h2, -⟩ := terms_spec fs keys x
  unfold mismatch
  rw [sum_squares_zero]
  constructor
  · intro h k
    rw [total_eq]
    by_cases hk : k ∈ (terms fs keys x).map (·.1)
    · obtain ⟨e, he, rfl⟩ := List.mem_map.1 hk
      rw [valueOf_mem _ h1 he, h e he]
    · exact valueOf_absent _ _ hk
  · intro h e he
    rw [← valueOf_mem _ h1 he, ← total_eq, h]

/-- **C90.** If all orders concern traded properties only, the minimization formulation is the sum of the squares of the excess demands. -/
theorem C90_sum_of_squares (fs : List Demand) (keys : List Nat) (x : List Rat) (hk : keys.Nodup)
    (hm : ∀ k, Spec.Mentioned fs keys x k → k ∈ keys) :
    mismatch fs keys x = (keys.map fun k => Spec.total fs keys x k ^ 2).sum := by
  obtain ⟨h1, h2, -⟩ := terms_spec fs keys x
  unfold mismatch
  rw [sum_over_keys _ h1 keys hk (fun k h => hm k ((h2 k).1 h))]
  congr 1
  apply List.map_congr_left
  intro k _
  rw [total_eq]; ring

/-- **C90 (partial).** The two formulations have the same solutions. Missing: orders for properties that are not traded, and traded properties without orders. -/
theorem C90_agree_partial (fs : List Demand) (keys : List Nat) (x : List Rat) (hm : ∀ k, Spec.Mentioned fs keys x k ↔ k ∈ keys) :
    ∃ r, excessDemand fs keys x = .ok r ∧ (mismatch fs keys x = 0 ↔ ∀ v ∈ r, v = 0) := by
  refine ⟨_, C90_root_value fs keys x (fun k hk => (hm k).2 hk), ?_⟩
  rw [C90_minimum_value]
  constructor
  · intro h v hv
    obtain ⟨k, -, rfl⟩ := List.mem_map.1 hv
    exact h k
  · intro h k
    by_cases hk : k ∈ keys
    · exact h _ (List.mem_map.2 ⟨k, hk, rfl⟩)
    · have hn : k ∉ (terms fs keys x).map (·.1) := fun h' => hk ((hm k).1 (((terms_spec fs keys x).2.1 k).1 h'))
      rw [total_eq]; exact valueOf_absent _ _ hn

/-- **C90 (negation).** A traded property that nobody's order mentions: evaluating the root-finding formulation is undefined behaviour. -/
theorem C90_counterexample_unmentioned (fs : List Demand) (keys : List Nat) (x : List Rat) (k : Nat) (hk : k ∈ keys) (h : ¬ Spec.Mentioned fs keys x k) :
    excessDemand fs keys x = .ub := by
  obtain ⟨h1, h2, -⟩ := terms_spec fs keys x
  unfold excessDemand
  rw [collect_ok _ h1, if_neg (fun hall => h ((h2 k).1 (hall k hk)))]

/-- **C90 (negation).** One participant has no demand for the traded property 1 and wants property 2, which is not traded: the quotes are a root, but not a minimum of zero. -/
theorem C90_counterexample_untraded :
    excessDemand [fun _ => [(1, 0), (2, 3)]] [1] [1] = .ok [0] ∧ mismatch [fun _ => [(1, 0), (2, 3)]] [1] [1] = 9 := by decide +kernel

/-- A participant that wants `a - b x` of property `k` at multiplier `x`. -/
def linear (k : Nat) (a b : Rat) : Demand := fun q => [(k, a - b * ((q.lookup k).getD 0))]

example : excessDemand [linear 1 10 4, linear 2 6 3, linear 1 0 1] [1, 2] [2, 2] = .ok [0, 0] ∧
    mismatch [linear 1 10 4, linear 2 6 3, linear 1 0 1] [1, 2] [2, 2] = 0 ∧
    mismatch [linear 1 10 4, linear 2 6 3, linear 1 0 1] [1, 2] [1, 1] = 34 := by decide +kernel
example : ¬ Spec.Mentioned [linear 1 10 4] [1, 2] [2, 2] 2 := by simp [Spec.Mentioned, linear]

/-! ## C92: the methods are tried in order -/

/-- **C92.** The result is that of the first method, and if that finds nothing, that of the remaining methods. -/
theorem C92_fallback (M : Model) (m : Method) (ms : List Method) (maxIt : Nat) (its : Nat → Nat → Iter) :
    computeClearingQuotes M (m :: ms) maxIt its =
      if computeClearingQuotes M [m] maxIt its = .ok none ∧ ms ≠ [] then computeClearingQuotes M ms maxIt (fun n => its (n + 1))
      else computeClearingQuotes M [m] maxIt its := by
  have hshift : ∀ (ms : List Method) n, tryMethods M maxIt its (n + 1) ms = tryMethods M maxIt (fun n => its (n + 1)) n ms := by
    intro ms
    induction ms with
    | nil => intro n; rfl
    | cons a ms ih => intro n; rw [tryMethods, tryMethods, ih]
  have hcons : ∀ ms, computeClearingQuotes M (m :: ms) maxIt its = (do
      let r ← attempt M maxIt (its 0) m
      match r with
      | some x => .ok (some (M.keys.zip x))
      | none => do
        let r ← tryMethods M maxIt (fun n => its (n + 1)) 0 ms
        .ok (r.map fun x => M.keys.zip x)) := by
    intro ms
    unfold computeClearingQuotes
    rw [if_neg (by simp), tryMethods, hshift]
    cases attempt M maxIt (its 0) m with
    | throws => rfl
    | ub => rfl
    | ok r => cases r <;> rfl
  rw [hcons ms, hcons []]
  cases attempt M maxIt (its 0) m with
  | throws => simp
  | ub => simp
  | ok r =>
    cases r with
    | some x => simp
    | none =>
      simp only [Outcome.bind_ok, tryMethods, Option.map_none, true_and]
      by_cases hms : ms = []
      · subst hms; simp [tryMethods]
      · rw [if_pos hms]
        unfold computeClearingQuotes
        rw [if_neg hms]

/-- **C92.** Without methods the function throws. -/
theorem C92_no_methods (M : Model) (maxIt : Nat) (its : Nat → Nat → Iter) : computeClearingQuotes M [] maxIt its = .throws := by simp [computeClearingQuotes]

/-- **C92 (negation).** The derivative-free root finder always reports a result, so the methods listed after it are never tried; the default list has one. -/
theorem C92_counterexample_unreachable (M : Model) (ms ms' : List Method) (maxIt : Nat) (its : Nat → Nat → Iter) :
    computeClearingQuotes M (ms ++ [.derivativeFreeRoot] ++ ms') maxIt its = computeClearingQuotes M (ms ++ [.derivativeFreeRoot]) maxIt its ∧
    computeClearingQuotes M (ms ++ [.derivativeFreeRoot]) maxIt its ≠ .ok none := by
  have key : ∀ (ms : List Method) n, tryMethods M maxIt its n (ms ++ [.derivativeFreeRoot] ++ ms') = tryMethods M maxIt its n (ms ++ [.derivativeFreeRoot]) ∧
      tryMethods M maxIt its n (ms ++ [.derivativeFreeRoot]) ≠ .ok none := by
    intro ms
    induction ms with
    | nil =>
      intro n
      simp only [List.nil_append, List.cons_append]
      rw [tryMethods, tryMethods]
      cases h : attempt M maxIt (its n) .derivativeFreeRoot with
      | throws => simp
      | ub => simp
      | ok r =>
        cases r with
        | some x => simp
        | none =>
          exfalso
          simp only [attempt, Outcome.bind_eq_ok] at h
          obtain ⟨x, -, hx⟩ := h
          simp at hx
    | cons m ms ih =>
      intro n
      simp only [List.cons_append]
      rw [tryMethods, tryMethods]
      cases h : attempt M maxIt (its n) m with
      | throws => simp
      | ub => simp
      | ok r =>
        cases r with
        | some x => simp
        | none => simpa only [Outcome.bind_ok] using ih (n + 1)
  unfold computeClearingQuotes
  rw [if_neg (by simp), if_neg (by simp), (key ms 0).1]
  refine ⟨rfl, ?_⟩
  have h2 := (key ms 0).2
  cases h : tryMethods M maxIt its 0 (ms ++ [.derivativeFreeRoot]) with
  | throws => simp
  | ub => simp
  | ok r =>
    cases r with
    | none => exact absurd h h2
    | some x => simp

example (M : Model) (maxIt : Nat) (its : Nat → Nat → Iter) :
    computeClearingQuotes M defaultMethods maxIt its = computeClearingQuotes M [.root, .minimization, .derivativeFreeRoot] maxIt its :=
  (C92_counterexample_unreachable M [.root, .minimization] [.derivativeFreeMinimization] maxIt its).1

/-! ## C59: circuit breaker -/

theorem single {M : Model} {m : Method} {maxIt : Nat} {its : Nat → Nat → Iter} {r : List (Nat × Rat)} (h : computeClearingQuotes M [m] maxIt its = .ok (some r)) :
    ∃ x, attempt M maxIt (its 0) m = .ok (some x) ∧ r = M.keys.zip x := by
  unfold computeClearingQuotes at h
  rw [if_neg (by simp), tryMethods] at h
  cases ha : attempt M maxIt (its 0) m with
  | throws => rw [ha] at h; simp at h
  | ub => rw [ha] at h; simp at h
  | ok y =>
    rw [ha] at h
    cases y with
    | none => simp [tryMethods] at h
    | some x =>
      simp only [Outcome.bind_ok, Option.map_some, Outcome.ok.injEq, Option.some.injEq] at h
      exact ⟨x, rfl, h.symm⟩

/-- The property that a method produced the result. -/
theorem produced {M : Model} {ms : List Method} {maxIt : Nat} {its : Nat → Nat → Iter} {r : List (Nat × Rat)}
    (h : computeClearingQuotes M ms maxIt its = .ok (some r)) : ∃ m ∈ ms, ∃ n x, attempt M maxIt (its n) m = .ok (some x) ∧ r = M.keys.zip x := by
  unfold computeClearingQuotes at h
  split at h
  · simp at h
  · simp only [Outcome.bind_eq_ok] at h
    obtain ⟨y, h1, h2⟩ := h
    simp only [Outcome.ok.injEq] at h2
    cases y with
    | none => simp at h2
    | some x =>
      simp only [Option.map_some, Option.some.injEq] at h2
      have key : ∀ (ms : List Method) n, tryMethods M maxIt its n ms = .ok (some x) → ∃ m ∈ ms, ∃ n, attempt M maxIt (its n) m = .ok (some x) := by
        intro ms
        induction ms with
        | nil => intro n h; simp [tryMethods] at h
        | cons m ms ih =>
          intro n h
          rw [tryMethods] at h
          simp only [Outcome.bind_eq_ok] at h
          obtain ⟨y, h3, h4⟩ := h
          cases y with
          | none =>
            obtain ⟨m', hm', n', h'⟩ := ih _ h4
            exact ⟨m', List.mem_cons_of_mem _ hm', n', h'⟩
          | some z =>
            simp only [Outcome.ok.injEq, Option.some.injEq] at h4
            subst h4
            exact ⟨m, by simp, n, h3⟩
      obtain ⟨m, hm, n, h3⟩ := key ms 0 h1
      exact ⟨m, hm, n, x, h3, h2.symm⟩

/-- **C59 (partial).** With root finding only, all multipliers are within the circuit breaker, for every behaviour of the solver. Missing: the other three methods,
that ignore the circuit breaker. -/
theorem C59_breaker_partial (M : Model) (hb : M.breaker.1 ≤ M.breaker.2) (ms : List Method) (hms : ∀ m ∈ ms, m = .root) (maxIt : Nat) (its : Nat → Nat → Iter)
    (r : List (Nat × Rat)) (h : computeClearingQuotes M ms maxIt its = .ok (some r)) : ∀ e ∈ r, M.breaker.1 ≤ e.2 ∧ e.2 ≤ M.breaker.2 := by
  obtain ⟨m, hm, n, x, h1, rfl⟩ := produced h
  rw [hms m hm] at h1
  have hx : ∀ v ∈ x, M.breaker.1 ≤ v ∧ v ≤ M.breaker.2 := by
    rw [attempt] at h1
    split at h1
    · unfold uniRoot at h1
      simp only [Outcome.bind_eq_ok] at h1
      obtain ⟨e, -, ⟨st, best⟩, -, h2⟩ := h1
      simp only at h2
      split at h2
      · simp only [Outcome.ok.injEq, Option.some.injEq] at h2
        subst h2
        intro v hv
        simp at hv
        subst hv
        rw [cmin_eq, cmax_eq]
        exact ⟨le_min (le_max_right _ _) hb, min_le_right _ _⟩
      · simp at h2
    · unfold multiRoot at h1
      simp only [Outcome.bind_eq_ok] at h1
      obtain ⟨e, -, ⟨st, best⟩, -, h2⟩ := h1
      simp only at h2
      split at h2
      · simp only [Outcome.ok.injEq, Option.some.injEq] at h2
        subst h2
        intro v hv
        obtain ⟨u, -, rfl⟩ := List.mem_map.1 hv
        rw [cmax_eq, cmin_eq]
        exact ⟨le_max_right _ _, max_le (min_le_right _ _) hb⟩
      · simp at h2
  intro e he
  exact hx e.2 (List.of_mem_zip he).2

/-- **C59 (negation).** Supply of 1 unit, demand of 101 - x at multiplier x. The minimizer reaches 100, which is reported although the circuit breaker is 11. -/
theorem C59_counterexample_minimization :
    computeClearingQuotes ⟨[1], [linear 1 100 1], (1 / 11, 11)⟩ [.minimization] 16 (fun _ _ => ⟨.success, [100], []⟩) = .ok (some [(1, 100)]) := by decide +kernel

/-- **C59 (negation).** The same for the two methods without derivatives. -/
theorem C59_counterexample_derivative_free :
    computeClearingQuotes ⟨[1], [linear 1 100 1], (1 / 11, 11)⟩ [.derivativeFreeMinimization] 16 (fun _ _ => ⟨.success, [100], []⟩) = .ok (some [(1, 100)]) ∧
    computeClearingQuotes ⟨[1], [linear 1 100 1], (1 / 11, 11)⟩ [.derivativeFreeRoot] 16 (fun _ _ => ⟨.success, [100], []⟩) = .ok (some [(1, 100)]) := by decide +kernel

/-- **C59 (negation).** With the default methods: root finding breaks down, minimization then reports a negative multiplier. -/
theorem C59_counterexample_default :
    computeClearingQuotes ⟨[1], [linear 1 (-5) 5], (1 / 11, 11)⟩ defaultMethods 16
      (fun n _ => if n = 0 then ⟨.failure, [1], []⟩ else ⟨.success, [-1], []⟩) = .ok (some [(1, -1)]) := by decide +kernel

example : computeClearingQuotes ⟨[1], [linear 1 100 1], (1 / 11, 11)⟩ [.root] 16 (fun _ _ => ⟨.success, [100], []⟩) = .ok (some [(1, 11)]) ∧
    computeClearingQuotes ⟨[1, 2], [linear 1 100 1, linear 2 0 1], (1 / 11, 11)⟩ [.root] 16 (fun _ _ => ⟨.success, [100, 0], []⟩) =
      .ok (some [(1, 11), (2, 1 / 11)]) := by decide +kernel

/-! ## C59: no worse than the starting quotes -/

theorem uniValue_eq {M : Model} {k : Nat} (hk : M.keys = [k]) {x e : Rat} (h : uniValue M x = .ok e) : e = Spec.total M.fs [k] [x] k := by
  unfold uniValue at h
  rw [hk] at h
  simp only [Outcome.bind_eq_ok] at h
  obtain ⟨r, h1, h2⟩ := h
  obtain ⟨t1, -, -⟩ := terms_spec M.fs [k] [x]
  unfold excessDemand at h1
  rw [collect_ok _ t1] at h1
  split at h1
  · simp only [Outcome.ok.injEq] at h1
    subst h1
    simp only [List.map_cons, List.map_nil, Outcome.ok.injEq] at h2
    rw [← h2, total_eq]
  · simp at h1

theorem uniStep_best {M : Model} {k : Nat} (hk : M.keys = [k]) (j : Iter) (best e : Rat) (r : Bool × Rat × Rat)
    (he : e = Spec.total M.fs [k] [best] k) (h : uniStep M j best e = .ok r) :
    |Spec.total M.fs [k] [r.2.1] k| ≤ |Spec.total M.fs [k] [best] k| ∧ r.2.2 = Spec.total M.fs [k] [r.2.1] k := by
  unfold uniStep at h
  simp only [Outcome.bind_eq_ok] at h
  obtain ⟨v, h1, h2⟩ := h
  have hv := uniValue_eq hk h1
  simp only [Outcome.ok.injEq] at h2
  subst h2
  simp only
  split
  · rename_i hlt
    rw [cabs_eq, cabs_eq] at hlt
    simp only
    rw [← hv, ← he]; exact ⟨hlt.le, rfl⟩
  · exact ⟨le_refl _, he⟩

theorem uniLoop_best {M : Model} {k : Nat} (hk : M.keys = [k]) (it : Nat → Iter) (left i : Nat) (best e : Rat) (st : Status) (b : Rat)
    (he : e = Spec.total M.fs [k] [best] k) (h : uniLoop M it left i best e = .ok (st, b)) :
    |Spec.total M.fs [k] [b] k| ≤ |Spec.total M.fs [k] [best] k| := by
  induction left generalizing i best e with
  | zero =>
    rw [uniLoop] at h
    simp only [Outcome.bind_eq_ok] at h
    obtain ⟨r, h1, h2⟩ := h
    simp only [Outcome.ok.injEq, Prod.mk.injEq] at h2
    rw [← h2.2]
    exact (uniStep_best hk _ _ _ _ he h1).1
  | succ left ih =>
    rw [uniLoop] at h
    simp only [Outcome.bind_eq_ok] at h
    obtain ⟨r, h1, h2⟩ := h
    obtain ⟨g1, g2⟩ := uniStep_best hk _ _ _ _ he h1
    split at h2
    · simp only [Outcome.ok.injEq, Prod.mk.injEq] at h2
      rw [← h2.2]; exact g1
    · split at h2
      · exact le_trans (ih _ _ _ g2 h2) g1
      · simp only [Outcome.ok.injEq, Prod.mk.injEq] at h2
        rw [← h2.2]; exact g1

theorem uniRoot_result {M : Model} {k : Nat} (hk : M.keys = [k]) {maxIt : Nat} {its : Nat → Nat → Iter} {r : List (Nat × Rat)}
    (h : computeClearingQuotes M [.root] maxIt its = .ok (some r)) :
    ∃ b, r = [(k, min (max b M.breaker.1) M.breaker.2)] ∧ |Spec.total M.fs [k] [b] k| ≤ |Spec.total M.fs [k] [1] k| := by
  obtain ⟨x, h1, rfl⟩ := single h
  rw [attempt, if_pos (by rw [hk]; rfl)] at h1
  unfold uniRoot at h1
  simp only [Outcome.bind_eq_ok] at h1
  obtain ⟨e, h2, ⟨st, best⟩, h3, h4⟩ := h1
  simp only at h4
  split at h4
  · simp only [Outcome.ok.injEq, Option.some.injEq] at h4
    subst h4
    refine ⟨best, by rw [hk, cmin_eq, cmax_eq]; rfl, ?_⟩
    exact uniLoop_best hk _ _ _ _ _ _ _ (uniValue_eq hk h2) h3
  · simp at h4

/-- **C59 (partial).** With root finding for one property whose excess demand is monotone in its price, the reported quote is at least as good as the starting quote.
Missing: excess demands that are not monotone, and the other methods. -/
theorem C59_no_worse_partial (M : Model) (k : Nat) (hk : M.keys = [k]) (hb : M.breaker.1 ≤ 1 ∧ 1 ≤ M.breaker.2) (maxIt : Nat) (its : Nat → Nat → Iter)
    (hmono : (∀ x y, x ≤ y → Spec.total M.fs [k] [x] k ≤ Spec.total M.fs [k] [y] k) ∨ (∀ x y, x ≤ y → Spec.total M.fs [k] [y] k ≤ Spec.total M.fs [k] [x] k))
    (r : List (Nat × Rat)) (h : computeClearingQuotes M [.root] maxIt its = .ok (some r)) :
    ∃ x, r = [(k, x)] ∧ |Spec.total M.fs [k] [x] k| ≤ |Spec.total M.fs [k] [1] k| := by
  obtain ⟨b, rfl, hle⟩ := uniRoot_result hk h
  refine ⟨_, rfl, ?_⟩
  have hx : ∃ x, min (max b M.breaker.1) M.breaker.2 = x ∧ ((1 ≤ x ∧ x ≤ b) ∨ (b ≤ x ∧ x ≤ 1) ∨ x = b) := by
    refine ⟨_, rfl, ?_⟩
    rcases le_total b M.breaker.1 with h1 | h1
    · rw [max_eq_right h1, min_eq_left (le_trans hb.1 hb.2)]
      exact .inr (.inl ⟨h1, hb.1⟩)
    · rw [max_eq_left h1]
      rcases le_total b M.breaker.2 with h2 | h2
      · rw [min_eq_left h2]; exact .inr (.inr rfl)
      · rw [min_eq_right h2]; exact .inl ⟨hb.2, h2⟩
  obtain ⟨x, rfl, hx⟩ := hx
  generalize min (max b M.breaker.1) M.breaker.2 = x at hx ⊢
  rw [abs_le] at hle ⊢
  rcases hx with ⟨h1, h2⟩ | ⟨h1, h2⟩ | rfl
  · rcases hmono with hm | hm
    · have := hm _ _ h1; have := hm _ _ h2
      have := abs_nonneg (Spec.total M.fs [k] [1] k); have := neg_abs_le (Spec.total M.fs [k] [1] k); have := le_abs_self (Spec.total M.fs [k] [1] k)
      constructor <;> linarith
    · have := hm _ _ h1; have := hm _ _ h2
      have := abs_nonneg (Spec.total M.fs [k] [1] k); have := neg_abs_le (Spec.total M.fs [k] [1] k); have := le_abs_self (Spec.total M.fs [k] [1] k)
      constructor <;> linarith
  · rcases hmono with hm | hm
    · have := hm _ _ h1; have := hm _ _ h2
      have := abs_nonneg (Spec.total M.fs [k] [1] k); have := neg_abs_le (Spec.total M.fs [k] [1] k); have := le_abs_self (Spec.total M.fs [k] [1] k)
      constructor <;> linarith
    · have := hm _ _ h1; have := hm _ _ h2
      have := abs_nonneg (Spec.total M.fs [k] [1] k); have := neg_abs_le (Spec.total M.fs [k] [1] k); have := le_abs_self (Spec.total M.fs [k] [1] k)
      constructor <;> linarith
  · exact hle

/-- **C59.** In general, root finding for one property reports a quote that is no worse than the starting quote, or one of the bounds of the circuit breaker. -/
theorem C59_no_worse_or_bound (M : Model) (k : Nat) (hk : M.keys = [k]) (maxIt : Nat) (its : Nat → Nat → Iter)
    (r : List (Nat × Rat)) (h : computeClearingQuotes M [.root] maxIt its = .ok (some r)) :
    ∃ x, r = [(k, x)] ∧ (|Spec.total M.fs [k] [x] k| ≤ |Spec.total M.fs [k] [1] k| ∨ x = M.breaker.1 ∨ x = M.breaker.2) := by
  obtain ⟨b, rfl, hle⟩ := uniRoot_result hk h
  refine ⟨_, rfl, ?_⟩
  rcases le_total b M.breaker.1 with h1 | h1
  · rw [max_eq_right h1]
    rcases le_total M.breaker.1 M.breaker.2 with h2 | h2
    · rw [min_eq_left h2]; exact .inr (.inl rfl)
    · rw [min_eq_right h2]; exact .inr (.inr rfl)
  · rw [max_eq_left h1]
    rcases le_total b M.breaker.2 with h2 | h2
    · rw [min_eq_left h2]; exact .inl hle
    · rw [min_eq_right h2]; exact .inr (.inr rfl)

/-- Excess demand that is 1 at the starting quote, 0 at twenty times that, and 50 in between. -/
def humped : Demand := fun q => let x := (q.lookup 1).getD 0; [(1, if x = 1 then 1 else if x = 20 then 0 else 50)]

/-- **C59 (negation).** The best quote is outside the circuit breaker, and the bound that is reported instead is worse than the starting quote. -/
theorem C59_counterexample_worse :
    computeClearingQuotes ⟨[1], [humped], (1 / 11, 11)⟩ [.root] 16 (fun _ _ => ⟨.success, [20], []⟩) = .ok (some [(1, 11)]) ∧
    Spec.total [humped] [1] [11] 1 = 50 ∧ Spec.total [humped] [1] [1] 1 = 1 := by decide +kernel

/-- **C59 (negation).** The derivative-free root finder compares with the sum of the starting multipliers instead of the excess demand there: it reports a multiplier of 3, with
excess demand 9/10, although the excess demand at the starting quote was 1/10. -/
theorem C59_counterexample_derivative_free_worse :
    computeClearingQuotes ⟨[1], [linear 1 (-3 / 10) (-4 / 10)], (1 / 11, 11)⟩ [.derivativeFreeRoot] 1 (fun _ _ => ⟨.success, [3], []⟩) = .ok (some [(1, 3)]) ∧
    Spec.total [linear 1 (-3 / 10) (-4 / 10)] [1] [3] 1 = 9 / 10 ∧ Spec.total [linear 1 (-3 / 10) (-4 / 10)] [1] [1] 1 = 1 / 10 := by decide +kernel

example : computeClearingQuotes ⟨[1], [linear 1 6 2], (1 / 11, 11)⟩ [.root] 16 (fun _ i => if i = 0 then ⟨.continue_, [5], []⟩ else ⟨.success, [3], []⟩) =
    .ok (some [(1, 3)]) := by decide +kernel

/-! ## C91: reported quotes clear the market -/

theorem multiLoop_success {M : Model} (it : Nat → Iter) (left i : Nat) (x y : List Rat) (h : multiLoop M it left i x = .ok (.success, y)) :
    (∃ j, y = (it j).x) ∧ ∃ f, excessDemand M.fs M.keys y = .ok f ∧ (f.map cabs).sum < 1 / 10000 := by
  induction left generalizing i x with
  | zero => simp [multiLoop] at h
  | succ left ih =>
    rw [multiLoop] at h
    split at h
    · rename_i hne
      simp only [Outcome.ok.injEq, Prod.mk.injEq] at h
      exact absurd h.1 hne
    · simp only [Outcome.bind_eq_ok] at h
      obtain ⟨f, h1, h2⟩ := h
      unfold testResidual at h2
      split at h2
      · rename_i hs
        split at hs
        · rename_i hlt
          simp only [Outcome.ok.injEq, Prod.mk.injEq, true_and] at h2
          subst h2
          exact ⟨⟨i, rfl⟩, f, h1, hlt⟩
        · simp at hs
      · exact ih _ _ h2

theorem excess_values {fs : List Demand} {keys : List Nat} {x f : List Rat} (h : excessDemand fs keys x = .ok f) : f = keys.map (Spec.total fs keys x) := by
  obtain ⟨t1, -, -⟩ := terms_spec fs keys x
  unfold excessDemand at h
  rw [collect_ok _ t1] at h
  split at h
  · simp only [Outcome.ok.injEq] at h
    rw [← h]
    apply List.map_congr_left
    intro k _
    exact (total_eq fs keys x k).symm
  · simp at h

/-- **C91 (partial).** Root finding for several properties: multipliers that are strictly within the circuit breaker clear the market, to a total absolute excess demand
less than 1e-4, for every behaviour of the solver. Missing: one property, multipliers at the circuit breaker, and minimization. -/
theorem C91_several_partial (M : Model) (hn : M.keys.length ≠ 1) (maxIt : Nat) (its : Nat → Nat → Iter) (hsize : ∀ i, (its 0 i).x.length = M.keys.length)
    (r : List (Nat × Rat)) (h : computeClearingQuotes M [.root] maxIt its = .ok (some r)) (hin : ∀ e ∈ r, M.breaker.1 < e.2 ∧ e.2 < M.breaker.2) :
    r.map (·.1) = M.keys ∧ (M.keys.map fun k => |Spec.total M.fs M.keys (r.map (·.2)) k|).sum < 1 / 10000 := by
  obtain ⟨x, h1, rfl⟩ := single h
  rw [attempt, if_neg hn] at h1
  unfold multiRoot at h1
  simp only [Outcome.bind_eq_ok] at h1
  obtain ⟨e, -, ⟨st, y⟩, h3, h4⟩ := h1
  simp only at h4
  split at h4
  · rename_i hst
    subst hst
    simp only [Outcome.ok.injEq, Option.some.injEq] at h4
    obtain ⟨⟨j, hj⟩, f, h5, h6⟩ := multiLoop_success _ _ _ _ _ h3
    have hlen : y.length = M.keys.length := by rw [hj]; exact hsize j
    have hxlen : x.length = M.keys.length := by rw [← h4, List.length_map]; exact hlen
    have hx : x = y := by
      have : ∀ v ∈ x, M.breaker.1 < v ∧ v < M.breaker.2 := by
        intro v hv
        obtain ⟨i, hi, rfl⟩ := List.mem_iff_getElem.1 hv
        apply hin (M.keys[i]'(by omega), x[i])
        rw [List.mem_iff_getElem]
        exact ⟨i, by rw [List.length_zip]; omega, by rw [List.getElem_zip]⟩
      rw [← h4]
      conv_rhs => rw [← List.map_id y]
      apply List.map_congr_left
      intro v hv
      have hv' := this (cmax (cmin v M.breaker.2) M.breaker.1) (by rw [← h4]; exact List.mem_map.2 ⟨v, hv, rfl⟩)
      rw [cmax_eq, cmin_eq] at hv' ⊢
      simp only [id]
      rcases le_total v M.breaker.2 with hv2 | hv2
      · rw [min_eq_left hv2] at hv' ⊢
        rcases le_total v M.breaker.1 with hv1 | hv1
        · rw [max_eq_right hv1] at hv'; exact absurd hv'.1 (lt_irrefl _)
        · exact max_eq_left hv1
      · rw [min_eq_right hv2] at hv'
        exact absurd hv'.2 (not_lt.2 (le_max_left _ _))
    have hmap : (M.keys.zip x).map (·.2) = y := by
      rw [← hx]; exact List.map_snd_zip (by omega)
    refine ⟨List.map_fst_zip (by omega), ?_⟩
    rw [hmap]
    rw [excess_values h5, List.map_map] at h6
    have : (M.keys.map (cabs ∘ Spec.total M.fs M.keys y)) = M.keys.map fun k => |Spec.total M.fs M.keys y k| := by
      apply List.map_congr_left
      intro k _
      simp only [Function.comp, cabs_eq]
    rw [this] at h6
    exact h6
  · simp at h4

theorem minLoop_success (M : Model) (it : Nat → Iter) (stop : Iter → Bool) (left i : Nat) (h : (minLoop M it stop left i).1 = .success) :
    ∃ j, (minLoop M it stop left i).2 = (it j).x ∧ (mismatch M.fs M.keys (it j).x ≤ 1 / 10000 ∨ stop (it j) = true) := by
  induction left generalizing i with
  | zero =>
    rw [minLoop] at h ⊢
    split
    · rename_i hle; exact ⟨i, rfl, .inl hle⟩
    · rename_i hle
      rw [if_neg hle] at h
      split
      · rename_i hs; rw [if_pos hs] at h; exact absurd h hs
      · rename_i hs
        rw [if_neg hs] at h
        split
        · rename_i hst; exact ⟨i, rfl, .inr hst⟩
        · rename_i hst; rw [if_neg hst] at h; simp at h
  | succ left ih =>
    rw [minLoop] at h ⊢
    split
    · rename_i hle; exact ⟨i, rfl, .inl hle⟩
    · rename_i hle
      rw [if_neg hle] at h
      split
      · rename_i hs; rw [if_pos hs] at h; exact absurd h hs
      · rename_i hs
        rw [if_neg hs] at h
        split
        · rename_i hst; exact ⟨i, rfl, .inr hst⟩
        · rename_i hst
          rw [if_neg hst] at h
          exact ih _ h

/-- The squares of the excess demands of the traded properties add up to at most what is minimized. -/
theorem traded_le_mismatch (fs : List Demand) (keys : List Nat) (x : List Rat) (hk : keys.Nodup) :
    (keys.map fun k => Spec.total fs keys x k ^ 2).sum ≤ mismatch fs keys x := by
  obtain ⟨h1, h2, -⟩ := terms_spec fs keys x
  unfold mismatch
  rw [sum_over_keys _ h1 (keys ++ ((terms fs keys x).map (·.1)).filter (· ∉ keys)) _ _]
  · rw [List.map_append, List.sum_append]
    have h3 : (keys.map fun k => Spec.total fs keys x k ^ 2) = keys.map fun k => valueOf k (terms fs keys x) * valueOf k (terms fs keys x) := by
      apply List.map_congr_left
      intro k _
      rw [total_eq]; ring
    rw [h3]
    have h4 : ∀ l : List Nat, 0 ≤ (l.map fun k => valueOf k (terms fs keys x) * valueOf k (terms fs keys x)).sum := by
      intro l
      induction l with
      | nil => simp
      | cons k l ih => rw [List.map_cons, List.sum_cons]; nlinarith [mul_self_nonneg (valueOf k (terms fs keys x))]
    linarith [h4 (((terms fs keys x).map (·.1)).filter (· ∉ keys))]
  · rw [List.nodup_append]
    refine ⟨hk, h1.filter _, ?_⟩
    intro a ha b hb
    rintro rfl
    have := (List.mem_filter.1 hb).2
    simp at this
    exact this ha
  · intro k hkm
    rw [List.mem_append]
    by_cases hkk : k ∈ keys
    · exact .inl hkk
    · exact .inr (List.mem_filter.2 ⟨hkm, by simpa using hkk⟩)

/-- **C91.** Quotes reported by the minimizer without derivatives clear the market: the squares of the excess demands add up to at most 1e-4. -/
theorem C91_derivative_free_minimization (M : Model) (hne : M.keys ≠ []) (hk : M.keys.Nodup) (maxIt : Nat) (its : Nat → Nat → Iter)
    (hsize : ∀ i, (its 0 i).x.length = M.keys.length) (r : List (Nat × Rat))
    (h : computeClearingQuotes M [.derivativeFreeMinimization] maxIt its = .ok (some r)) :
    r.map (·.1) = M.keys ∧ (M.keys.map fun k => Spec.total M.fs M.keys (r.map (·.2)) k ^ 2).sum ≤ 1 / 10000 := by
  obtain ⟨x, h1, rfl⟩ := single h
  rw [attempt] at h1
  simp only [Outcome.ok.injEq] at h1
  unfold minimizeFree at h1
  simp only at h1
  split at h1
  · rename_i hs
    obtain ⟨j, h2, h3⟩ := minLoop_success M (its 0) _ _ _ hs
    simp only [Option.some.injEq] at h1
    have hxj : x = (its 0 j).x := by rw [← h1, h2]
    have hlen : x.length = M.keys.length := by rw [hxj]; exact hsize j
    have hmap : (M.keys.zip x).map (·.2) = x := List.map_snd_zip (by omega)
    refine ⟨List.map_fst_zip (by omega), ?_⟩
    rw [hmap]
    apply le_trans (traded_le_mismatch _ _ _ hk)
    rcases h3 with h3 | h3
    · rw [hxj]; exact h3
    · exfalso
      have h4 : (M.keys.length : Rat) < 1 / 10000 := by simpa using h3
      have h5 : 1 ≤ M.keys.length := by
        cases hkk : M.keys with
        | nil => exact absurd hkk hne
        | cons a l => simp
      have h6 : (1 : Rat) ≤ M.keys.length := by exact_mod_cast h5
      linarith
  · simp at h1

/-- **C91 (partial).** Quotes reported by the minimizer with derivatives clear the market, unless the solver reports a vanishing gradient. -/
theorem C91_minimization_partial (M : Model) (hk : M.keys.Nodup) (maxIt : Nat) (its : Nat → Nat → Iter)
    (hsize : ∀ i, (its 0 i).x.length = M.keys.length) (r : List (Nat × Rat))
    (h : computeClearingQuotes M [.minimization] maxIt its = .ok (some r)) :
    r.map (·.1) = M.keys ∧ ((M.keys.map fun k => Spec.total M.fs M.keys (r.map (·.2)) k ^ 2).sum ≤ 1 / 10000 ∨
      ∃ j, (its 0 j).x = r.map (·.2) ∧ ((its 0 j).gradient.map fun v => v ^ 2).sum < (1 / 10000) ^ 2) := by
  obtain ⟨x, h1, rfl⟩ := single h
  rw [attempt] at h1
  simp only [Outcome.ok.injEq] at h1
  unfold minimize at h1
  simp only at h1
  split at h1
  · rename_i hs
    obtain ⟨j, h2, h3⟩ := minLoop_success M (its 0) _ _ _ hs
    simp only [Option.some.injEq] at h1
    have hxj : x = (its 0 j).x := by rw [← h1, h2]
    have hlen : x.length = M.keys.length := by rw [hxj]; exact hsize j
    have hmap : (M.keys.zip x).map (·.2) = x := List.map_snd_zip (by omega)
    refine ⟨List.map_fst_zip (by omega), ?_⟩
    rw [hmap]
    rcases h3 with h3 | h3
    · left
      apply le_trans (traded_le_mismatch _ _ _ hk)
      rw [hxj]; exact h3
    · right
      refine ⟨j, hxj.symm, ?_⟩
      unfold testGradient at h3
      simp only [decide_eq_true_eq] at h3
      have h4 : ((its 0 j).gradient.map fun v => v ^ 2) = (its 0 j).gradient.map fun v => v * v := by
        apply List.map_congr_left
        intro v _
        ring
      rw [h4]
      norm_num
      norm_num at h3
      exact h3
  · simp at h1

/-- **C91 (negation).** One property, with excess demand 999 at the starting quote. The solver makes one successful step and has not converged; the quote is reported as a solution
although there is still an excess demand of 990, and 15 iterations are left. -/
theorem C91_counterexample_one_step :
    computeClearingQuotes ⟨[1], [linear 1 1000 1], (1 / 11, 11)⟩ [.root] 16 (fun _ _ => ⟨.success, [10], []⟩) = .ok (some [(1, 10)]) ∧
    Spec.total [linear 1 1000 1] [1] [10] 1 = 990 := by decide +kernel

/-- **C91 (negation, in general).** For one property, the univariate solver is stopped by its first successful step: the quotes reported are those after one step. -/
theorem C91_counterexample_stops (M : Model) (k : Nat) (hk : M.keys = [k]) (maxIt : Nat) (its : Nat → Nat → Iter) (hs : (its 0 0).status = .success)
    (it' : Nat → Iter) (h0 : it' 0 = its 0 0) :
    computeClearingQuotes M [.root] maxIt its = computeClearingQuotes M [.root] 1 (fun _ => it') := by
  have key : ∀ left best e, uniLoop M (its 0) left 0 best e = uniLoop M it' 0 0 best e := by
    intro left best e
    cases left with
    | zero => rw [uniLoop, uniLoop, h0]
    | succ left =>
      rw [uniLoop, uniLoop, h0]
      congr 1
      funext r
      simp only [hs, reduceCtorEq, if_false]
      split <;> rfl
  have h1 : attempt M maxIt (its 0) .root = attempt M 1 it' .root := by
    rw [attempt, attempt, if_pos (by rw [hk]; rfl), if_pos (by rw [hk]; rfl)]
    unfold uniRoot
    congr 1
    funext e
    rw [key]
  unfold computeClearingQuotes
  rw [if_neg (by simp), if_neg (by simp)]
  simp only [tryMethods, h1]

/-- **C91 (negation).** A minimum at which the market does not clear, and a derivative-free root finder that gives up in the first step: both are reported as clearing quotes. -/
theorem C91_counterexample_others :
    computeClearingQuotes ⟨[1], [fun _ => [(1, 5)]], (1 / 11, 11)⟩ [.minimization] 16 (fun _ _ => ⟨.success, [2], [0]⟩) = .ok (some [(1, 2)]) ∧
    computeClearingQuotes ⟨[1], [fun _ => [(1, 5)]], (1 / 11, 11)⟩ [.derivativeFreeRoot] 16 (fun _ _ => ⟨.failure, [2], []⟩) = .ok (some [(1, 1)]) := by decide +kernel

example : computeClearingQuotes ⟨[1, 2], [linear 1 10 5, linear 2 6 2], (1 / 11, 11)⟩ [.root] 16
    (fun _ i => if i < 3 then ⟨.success, [1, 1], []⟩ else ⟨.success, [2, 3], []⟩) = .ok (some [(1, 2), (2, 3)]) := by decide +kernel
example : computeClearingQuotes ⟨[1], [linear 1 10 5], (1 / 11, 11)⟩ [.derivativeFreeMinimization] 16
    (fun _ i => if i < 3 then ⟨.success, [1], []⟩ else ⟨.success, [2], []⟩) = .ok (some [(1, 2)]) := by decide +kernel

/-- The hypotheses of `C91_minimization_partial`, with two properties. -/
example : computeClearingQuotes ⟨[1, 2], [linear 1 10 5, linear 2 6 2], (1 / 11, 11)⟩ [.minimization] 16
    (fun _ i => if i < 3 then ⟨.success, [1, 1], [8, 4]⟩ else ⟨.success, [2, 3], [0, 0]⟩) = .ok (some [(1, 2), (2, 3)]) := by decide +kernel

end Esl.Tat
