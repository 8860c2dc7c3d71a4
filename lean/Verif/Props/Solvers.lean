import Verif.Model.Solvers
import Mathlib.Tactic.Ring
import Mathlib.Tactic.Linarith
import Mathlib.Tactic.FieldSimp
import Mathlib.Tactic.FinCases
/-!
* C156: the derivatives that the solvers are given are the derivatives of the excess demand.
* C157: computing clearing quotes uses memory correctly, and leaves the error handler of GSL as it was.
-/
namespace Esl.Solvers
open MvPolynomial

/-- What the documentation of GSL, repeated at tatonnement.cpp:95-96, requires in row `i` and column `j`: the derivative of the excess demand of property `i` by the multiplier of property `j`. -/
noncomputable def Spec.jacobian {n : Nat} (E : Demands n) (x : Fin n → ℚ) (i j : Fin n) : ℚ := eval x (pderiv j (E i))

/-- The solver can be given its matrix: every entry is as required. -/
def Spec.Correct {n : Nat} (E : Demands n) (x : Fin n → ℚ) : Prop := ∀ i j, gslMatrix (jacobianCallback E x) i j = Spec.jacobian E x i j

/-- Entries of a list that consists of `n` blocks of equal length. -/
theorem getElem?_blocks {α β : Type} (f : α → List β) (m : Nat) (hf : ∀ a, (f a).length = m) : ∀ (l : List α) (j i : Nat), i < m → (l.flatMap f)[j * m + i]? = l[j]?.bind fun a => (f a)[i]?
  | [], j, i, _ => by simp
  | a :: l, 0, i, hi => by
    simp only [List.flatMap_cons, Nat.zero_mul, Nat.zero_add, List.getElem?_cons_zero, Option.bind_some]
    rw [List.getElem?_append_left (by rw [hf]; exact hi)]
  | a :: l, j + 1, i, hi => by
    simp only [List.flatMap_cons, List.getElem?_cons_succ]
    rw [List.getElem?_append_right (by rw [hf]; nlinarith), hf, ← getElem?_blocks f m hf l j i hi]
    congr 1
    have : (j + 1) * m = j * m + m := by ring
    omega

/-! ## C156: derivatives -/

/-- **C156.** What the solver finds in row `i` and column `j`: the derivative of the excess demand of property `j` by the multiplier of property `i`. -/
theorem C156_layout {n : Nat} (E : Demands n) (x : Fin n → ℚ) (i j : Fin n) : gslMatrix (jacobianCallback E x) i j = Spec.jacobian E x j i := by
  unfold gslMatrix jacobianCallback functionJacobian adeptJacobian Spec.jacobian
  rw [getElem?_blocks _ n (by simp) _ _ _ j.isLt]
  simp

/-- **C156 (partial).** The matrix is as required exactly if cross effects are symmetric: the multiplier of one property has the same effect on the excess demand of another as the other way around. Missing: all other demands. -/
theorem C156_symmetric_partial {n : Nat} (E : Demands n) (x : Fin n → ℚ) : Spec.Correct E x ↔ ∀ i j, Spec.jacobian E x i j = Spec.jacobian E x j i := by
  constructor
  · intro h i j
    rw [← h i j, C156_layout]
  · intro h i j
    rw [C156_layout, h]

/-- **C156 (partial).** It is as required if the excess demand of every property depends on its own multiplier only. -/
theorem C156_separable_partial {n : Nat} (E : Demands n) (x : Fin n → ℚ) (h : ∀ i, (E i).vars ⊆ {i}) : Spec.Correct E x := by
  rw [C156_symmetric_partial]
  intro i j
  by_cases e : i = j
  · rw [e]
  · unfold Spec.jacobian
    rw [pderiv_eq_zero_of_notMem_vars, pderiv_eq_zero_of_notMem_vars]
    · intro h'; exact e (Finset.mem_singleton.mp (h _ h'))
    · intro h'; exact e (Finset.mem_singleton.mp (h _ h')).symm

/-- **C156.** With one property, the solver in one variable is given the derivative of its excess demand. -/
theorem C156_one (E : Demands 1) (x : Fin 1 → ℚ) : uniDerivative E x = Spec.jacobian E x 0 0 := by
  simp [uniDerivative, functionJacobian, adeptJacobian, Spec.jacobian, List.finRange_succ]

/-- **C156.** The minimizer is given, for each multiplier, the derivative of the sum of the squares of the excess demands. -/
theorem C156_gradient {n : Nat} (E : Demands n) (x : Fin n → ℚ) (j : Fin n) :
    (minimizerGradient E x)[j.val]? = some (∑ i, 2 * eval x (E i) * Spec.jacobian E x i j) := by
  simp only [minimizerGradient, List.getElem?_map, Spec.jacobian]
  rw [List.getElem?_eq_getElem (by simp)]
  simp only [List.getElem_finRange, Option.map_some, Option.some.injEq, map_sum]
  refine Finset.sum_congr rfl fun i _ => ?_
  simp only [pderiv_pow, map_mul, map_pow, map_natCast]
  simp

/-- **C156 (negation).** Wherever a cross effect is not symmetric, the solver is given a wrong derivative, in both places. -/
theorem C156_counterexample_transposed {n : Nat} (E : Demands n) (x : Fin n → ℚ) (i j : Fin n) (h : Spec.jacobian E x i j ≠ Spec.jacobian E x j i) :
    gslMatrix (jacobianCallback E x) i j ≠ Spec.jacobian E x i j ∧ gslMatrix (jacobianCallback E x) j i ≠ Spec.jacobian E x j i := by
  rw [C156_layout, C156_layout]
  exact ⟨fun e => h e.symm, h⟩

/-- Two properties, the excess demand of each depends on the multiplier of the other; the market clears at `r`. -/
noncomputable def Spec.crossed (a : ℚ) (r : Fin 2 → ℚ) : Demands 2 := ![C a * (X 1 - C (r 1)), - (C a * (X 0 - C (r 0)))]

/-- A step of Newton's method with the matrix `J`: from `x` to `y`. -/
def Spec.Newton {n : Nat} (E : Demands n) (J : Fin n → Fin n → ℚ) (x y : Fin n → ℚ) : Prop := ∀ i, ∑ j, J i j * (y j - x j) = - eval x (E i)

theorem crossed_values (a : ℚ) (r x : Fin 2 → ℚ) : eval x (Spec.crossed a r 0) = a * (x 1 - r 1) ∧ eval x (Spec.crossed a r 1) = -(a * (x 0 - r 0)) := by
  simp [Spec.crossed]

theorem crossed_jacobian (a : ℚ) (r x : Fin 2 → ℚ) :
    Spec.jacobian (Spec.crossed a r) x 0 0 = 0 ∧ Spec.jacobian (Spec.crossed a r) x 0 1 = a ∧ Spec.jacobian (Spec.crossed a r) x 1 0 = -a ∧ Spec.jacobian (Spec.crossed a r) x 1 1 = 0 := by
  simp [Spec.jacobian, Spec.crossed, pderiv_X, Pi.single_apply]

/-- **C156 (negation).** For such demands a step of Newton's method with the required matrix clears the market, whatever the starting point. With the matrix that the solver is given it doubles all excess demands, at every step. -/
theorem C156_counterexample_diverges (a : ℚ) (r : Fin 2 → ℚ) :
    (∀ x y, Spec.Newton (Spec.crossed a r) (Spec.jacobian (Spec.crossed a r) x) x y → ∀ i, eval y (Spec.crossed a r i) = 0) ∧
    (∀ xs : Nat → Fin 2 → ℚ, (∀ k, Spec.Newton (Spec.crossed a r) (gslMatrix (jacobianCallback (Spec.crossed a r) (xs k))) (xs k) (xs (k + 1))) →
      ∀ k i, eval (xs k) (Spec.crossed a r i) = 2 ^ k * eval (xs 0) (Spec.crossed a r i)) := by
  constructor
  · intro x y h i
    have h0 := h 0
    have h1 := h 1
    obtain ⟨j00, j01, j10, j11⟩ := crossed_jacobian a r x
    obtain ⟨v0, v1⟩ := crossed_values a r x
    obtain ⟨w0, w1⟩ := crossed_values a r y
    simp only [Fin.sum_univ_two] at h0 h1
    rw [j00, j01, v0] at h0
    rw [j10, j11, v1] at h1
    fin_cases i
    · show eval y (Spec.crossed a r 0) = 0
      rw [w0]; linarith
    · show eval y (Spec.crossed a r 1) = 0
      rw [w1]; linarith
  · intro xs h k
    induction k with
    | zero => intro i; simp
    | succ k ih =>
      have h0 := h k 0
      have h1 := h k 1
      obtain ⟨j00, j01, j10, j11⟩ := crossed_jacobian a r (xs k)
      obtain ⟨v0, v1⟩ := crossed_values a r (xs k)
      obtain ⟨w0, w1⟩ := crossed_values a r (xs (k + 1))
      simp only [Fin.sum_univ_two, C156_layout] at h0 h1
      rw [j00, j10, v0] at h0
      rw [j01, j11, v1] at h1
      intro i
      fin_cases i
      · show eval (xs (k + 1)) (Spec.crossed a r 0) = _ * eval (xs 0) (Spec.crossed a r 0)
        have := ih 0
        rw [pow_succ, mul_comm (2 ^ k) (2 : ℚ), mul_assoc, ← this, w0, v0]; linarith
      · show eval (xs (k + 1)) (Spec.crossed a r 1) = _ * eval (xs 0) (Spec.crossed a r 1)
        have := ih 1
        rw [pow_succ, mul_comm (2 ^ k) (2 : ℚ), mul_assoc, ← this, w1, v1]; linarith

/-- The hypotheses can be met: from any point there is a step with either matrix. -/
example (a : ℚ) (r x : Fin 2 → ℚ) :
    (∃ y, Spec.Newton (Spec.crossed a r) (Spec.jacobian (Spec.crossed a r) x) x y) ∧ ∃ y, Spec.Newton (Spec.crossed a r) (gslMatrix (jacobianCallback (Spec.crossed a r) x)) x y := by
  obtain ⟨j00, j01, j10, j11⟩ := crossed_jacobian a r x
  obtain ⟨v0, v1⟩ := crossed_values a r x
  refine ⟨⟨r, ?_⟩, ⟨fun i => x i + (x i - r i), ?_⟩⟩
  · intro i
    fin_cases i
    · show ∑ j, _ = - eval x (Spec.crossed a r 0)
      rw [Fin.sum_univ_two, v0]; show Spec.jacobian _ x 0 0 * _ + Spec.jacobian _ x 0 1 * _ = _; rw [j00, j01]; ring
    · show ∑ j, _ = - eval x (Spec.crossed a r 1)
      rw [Fin.sum_univ_two, v1]; show Spec.jacobian _ x 1 0 * _ + Spec.jacobian _ x 1 1 * _ = _; rw [j10, j11]; ring
  · intro i
    simp only [Fin.sum_univ_two, C156_layout]
    fin_cases i
    · show Spec.jacobian _ x 0 0 * _ + Spec.jacobian _ x 1 0 * _ = - eval x (Spec.crossed a r 0)
      rw [v0, j00, j10]; ring
    · show Spec.jacobian _ x 0 1 * _ + Spec.jacobian _ x 1 1 * _ = - eval x (Spec.crossed a r 1)
      rw [v1, j01, j11]; ring

/-- The hypothesis of `C156_counterexample_transposed`, and with it a wrong matrix. -/
example (x : Fin 2 → ℚ) : ¬ Spec.Correct (Spec.crossed 3 ![1, 2]) x := by
  intro h
  obtain ⟨_, j01, j10, _⟩ := crossed_jacobian 3 ![1, 2] x
  exact (C156_counterexample_transposed _ x 0 1 (by rw [j01, j10]; norm_num)).1 (h 0 1)

/-- The hypothesis of `C156_separable_partial`: each demand is a power of its own multiplier. -/
example (x : Fin 3 → ℚ) : Spec.Correct (fun i : Fin 3 => (X i : MvPolynomial (Fin 3) ℚ) ^ 2) x :=
  C156_separable_partial _ x fun i => (vars_pow (X i) 2).trans (by rw [vars_X])

/-! ## C157: memory and the error handler -/

/-- No objects of the library remain. -/
def Spec.Released (s : State) : Prop := s.objects = []

/-- One method that is not `derivative_free_minimization`. -/
theorem steps_effects (h o : Nat) (one success : Bool) (m : Tat.Method) (hm : m ≠ .derivativeFreeMinimization) :
    ∃ s', steps ⟨[], h, o⟩ (effects one success m) = .ok s' ∧ s'.objects = [] ∧ s'.handler = if m = .root ∧ one = true ∧ success = true then 0 else h := by
  cases m <;> cases one <;> cases success <;> simp [effects, steps, step] at hm ⊢

theorem attempt_freeRoot (M : Tat.Model) (maxIt : Nat) (it : Nat → Tat.Iter) (r : Option (List Rat)) (h : Tat.attempt M maxIt it .derivativeFreeRoot = .ok r) : r.isSome := by
  simp only [Tat.attempt] at h
  cases e : Tat.freeRoot M maxIt it with
  | ok v => rw [e] at h; cases h; rfl
  | throws => rw [e] at h; cases h
  | ub => rw [e] at h; cases h

/-- The loop, if `derivative_free_minimization` is not reached. -/
theorem loop_ok (M : Tat.Model) (maxIt : Nat) (its : Nat → Nat → Tat.Iter) : ∀ (ms : List Tat.Method) (n : Nat) (s : State) (r : Option (List Rat)),
    s.objects = [] → (.derivativeFreeMinimization ∉ ms ∨ ∃ p q, ms = p ++ .derivativeFreeRoot :: q ∧ .derivativeFreeMinimization ∉ p) →
    Tat.tryMethods M maxIt its n ms = .ok r →
    ∃ s', loop M maxIt its s n ms = .ok s' ∧ s'.objects = [] ∧
      (s'.handler = s.handler ∨ (M.keys.length = 1 ∧ .root ∈ ms ∧ r.isSome ∧ s'.handler = 0))
  | [], n, s, r, hs, _, _ => ⟨s, rfl, hs, Or.inl rfl⟩
  | m :: ms, n, s, r, hs, hm, ht => by
    have hne : m ≠ .derivativeFreeMinimization := by
      rcases hm with hm | ⟨p, q, e, hp⟩
      · intro e; exact hm (by simp [e])
      · cases p with
        | nil => simp only [List.nil_append, List.cons.injEq] at e; rw [e.1]; decide
        | cons a p => simp only [List.cons_append, List.cons.injEq] at e; intro e'; exact hp (by simp [← e.1, e'])
    simp only [Tat.tryMethods] at ht
    cases ha : Tat.attempt M maxIt (its n) m with
    | throws => rw [ha] at ht; cases ht
    | ub => rw [ha] at ht; cases ht
    | ok v =>
      rw [ha] at ht
      simp only [Outcome.bind_ok] at ht
      obtain ⟨obj, h, o⟩ := s
      simp only at hs
      subst hs
      obtain ⟨s1, e1, o1, h1⟩ := steps_effects h o (M.keys.length == 1) v.isSome m hne
      simp only [loop, ha, Outcome.bind_ok, e1]
      cases v with
      | some x =>
        simp only [Outcome.ok.injEq] at ht
        subst ht
        refine ⟨s1, by simp, o1, ?_⟩
        simp only [h1, Option.isSome_some, beq_iff_eq]
        by_cases c : m = .root ∧ M.keys.length = 1 ∧ True = True
        · exact Or.inr ⟨c.2.1, by simp [c.1], trivial, by simp [c.1, c.2.1]⟩
        · left
          rw [if_neg]
          intro c'
          exact c ⟨c'.1, c'.2.1, rfl⟩
      | none =>
        simp only at ht
        have hm' : .derivativeFreeMinimization ∉ ms ∨ ∃ p q, ms = p ++ .derivativeFreeRoot :: q ∧ .derivativeFreeMinimization ∉ p := by
          rcases hm with hm | ⟨p, q, e, hp⟩
          · exact Or.inl fun h => hm (List.mem_cons_of_mem _ h)
          · cases p with
            | nil =>
              simp only [List.nil_append, List.cons.injEq] at e
              rw [e.1] at ha
              exact absurd (attempt_freeRoot _ _ _ _ ha) (by simp)
            | cons a p =>
              simp only [List.cons_append, List.cons.injEq] at e
              exact Or.inr ⟨p, q, e.2, fun h => hp (List.mem_cons_of_mem _ h)⟩
        obtain ⟨s2, e2, o2, h2⟩ := loop_ok M maxIt its ms (n + 1) s1 r o1 hm' ht
        refine ⟨s2, by simpa using e2, o2, ?_⟩
        have h1' : s1.handler = h := by rw [h1]; simp
        rcases h2 with h2 | ⟨a, b, c, d⟩
        · exact Or.inl (by rw [h2, h1'])
        · exact Or.inr ⟨a, List.mem_cons_of_mem _ b, c, d⟩

/-- **C157 (partial).** A call that has a result, or that ends without one, uses memory correctly and releases all of it, if `derivative_free_minimization` is not among the methods or comes after `derivative_free_root`. Missing: all other lists of methods. -/
theorem C157_memory_partial (s : State) (hs : Spec.Released s) (M : Tat.Model) (ms : List Tat.Method) (maxIt : Nat) (its : Nat → Nat → Tat.Iter)
    (hm : .derivativeFreeMinimization ∉ ms ∨ ∃ p q, ms = p ++ .derivativeFreeRoot :: q ∧ .derivativeFreeMinimization ∉ p)
    (r : Option (List (Nat × Rat))) (h : Tat.computeClearingQuotes M ms maxIt its = .ok r) :
    ∃ s', call s M ms maxIt its = .ok s' ∧ Spec.Released s' := by
  unfold Tat.computeClearingQuotes at h
  by_cases e : ms = []
  · simp [e] at h
  rw [if_neg e] at h
  cases ht : Tat.tryMethods M maxIt its 0 ms with
  | throws => rw [ht] at h; cases h
  | ub => rw [ht] at h; cases h
  | ok v =>
    obtain ⟨s', e', o', _⟩ := loop_ok M maxIt its ms 0 s v hs hm ht
    exact ⟨s', by rw [call, if_neg e, e'], o'⟩

/-- **C157.** In particular with the default methods. -/
theorem C157_default (s : State) (hs : Spec.Released s) (M : Tat.Model) (maxIt : Nat) (its : Nat → Nat → Tat.Iter)
    (r : Option (List (Nat × Rat))) (h : Tat.computeClearingQuotes M Tat.defaultMethods maxIt its = .ok r) :
    ∃ s', call s M Tat.defaultMethods maxIt its = .ok s' ∧ Spec.Released s' :=
  C157_memory_partial s hs M _ maxIt its (Or.inr ⟨[.root, .minimization], [.derivativeFreeMinimization], rfl, by decide⟩) r h

/-- **C157 (partial).** The call leaves the error handler as it was if more than one property is traded, if root finding with derivatives is not among the methods, or if there is no result. Missing: results for one property. -/
theorem C157_handler_partial (s s' : State) (hs : Spec.Released s) (M : Tat.Model) (ms : List Tat.Method) (maxIt : Nat) (its : Nat → Nat → Tat.Iter)
    (hm : .derivativeFreeMinimization ∉ ms ∨ ∃ p q, ms = p ++ .derivativeFreeRoot :: q ∧ .derivativeFreeMinimization ∉ p)
    (r : Option (List (Nat × Rat))) (h : Tat.computeClearingQuotes M ms maxIt its = .ok r)
    (hc : M.keys.length ≠ 1 ∨ .root ∉ ms ∨ r = none) (hs' : call s M ms maxIt its = .ok s') : s'.handler = s.handler := by
  unfold Tat.computeClearingQuotes at h
  by_cases e : ms = []
  · simp [e] at h
  rw [if_neg e] at h
  cases ht : Tat.tryMethods M maxIt its 0 ms with
  | throws => rw [ht] at h; cases h
  | ub => rw [ht] at h; cases h
  | ok v =>
    rw [ht] at h
    simp only [Outcome.bind_ok, Outcome.ok.injEq] at h
    obtain ⟨s2, e', o', h2⟩ := loop_ok M maxIt its ms 0 s v hs hm ht
    rw [call, if_neg e, e', Outcome.ok.injEq] at hs'
    subst hs'
    rcases h2 with h2 | ⟨a, b, c, _⟩
    · exact h2
    · rcases hc with hc | hc | hc
      · exact absurd a hc
      · exact absurd b hc
      · cases v with
        | none => cases c
        | some x => rw [hc] at h; cases h

/-- Restoring a handler cannot bring back more than the one that was replaced. -/
theorem loop_silent (M : Tat.Model) (maxIt : Nat) (its : Nat → Nat → Tat.Iter) : ∀ (ms : List Tat.Method) (n : Nat) (s s' : State),
    s.objects = [] → s.handler = 0 → loop M maxIt its s n ms = .ok s' → s'.objects = [] ∧ s'.handler = 0
  | [], n, s, s', ho, hs, h => by cases h; exact ⟨ho, hs⟩
  | m :: ms, n, s, s', ho, hs, h => by
    have key : ∀ (b c : Bool) (s1 : State), steps s (effects b c m) = .ok s1 → s1.objects = [] ∧ s1.handler = 0 := by
      intro b c s1 h1
      obtain ⟨obj, hh, o⟩ := s
      simp only at hs ho
      subst hs
      subst ho
      cases m <;> cases b <;> cases c <;> simp [effects, steps, step] at h1 <;> subst h1 <;> exact ⟨rfl, rfl⟩
    simp only [loop] at h
    cases ha : Tat.attempt M maxIt (its n) m with
    | throws => rw [ha] at h; cases h
    | ub => rw [ha] at h; cases h
    | ok v =>
      rw [ha] at h
      simp only [Outcome.bind_ok] at h
      cases hb : steps s (effects (M.keys.length == 1) v.isSome m) with
      | throws => rw [hb] at h; cases h
      | ub => rw [hb] at h; cases h
      | ok s1 =>
        rw [hb] at h
        simp only [Outcome.bind_ok] at h
        have := key _ _ s1 hb
        by_cases c : v.isSome = true
        · rw [if_pos c] at h; cases h; exact this
        · rw [if_neg c] at h; exact loop_silent M maxIt its ms (n + 1) s1 s' this.1 this.2 h

/-- Calls one after the other, each with its market. -/
def Spec.calls (s : State) : List (Tat.Model × List Tat.Method × Nat × (Nat → Nat → Tat.Iter)) → Outcome State
  | [] => .ok s
  | (M, ms, maxIt, its) :: l => call s M ms maxIt its >>= fun s' => Spec.calls s' l

theorem calls_silent : ∀ (l : List (Tat.Model × List Tat.Method × Nat × (Nat → Nat → Tat.Iter))) (s s' : State), s.objects = [] → s.handler = 0 → Spec.calls s l = .ok s' → s'.handler = 0
  | [], s, s', _, hs, h => by cases h; exact hs
  | (M, ms, maxIt, its) :: l, s, s', ho, hs, h => by
    simp only [Spec.calls] at h
    cases hc : call s M ms maxIt its with
    | throws => rw [hc] at h; cases h
    | ub => rw [hc] at h; cases h
    | ok s1 =>
      rw [hc] at h
      unfold call at hc
      by_cases e : ms = []
      · simp [e] at hc
      · rw [if_neg e] at hc
        have := loop_silent M maxIt its ms 0 s s1 ho hs hc
        exact calls_silent l s1 s' this.1 this.2 h

/-- **C157 (negation).** Whenever root finding with derivatives succeeds for a single property, the program's error handler has been replaced by the one that ignores all errors, and it stays replaced, whatever is computed afterwards. -/
theorem C157_counterexample_handler (s s' : State) (hs : Spec.Released s) (M : Tat.Model) (h1 : M.keys.length = 1) (ms : List Tat.Method) (maxIt : Nat) (its : Nat → Nat → Tat.Iter)
    (x : List Rat) (h : Tat.uniRoot M maxIt (its 0) = .ok (some x)) (l : List (Tat.Model × List Tat.Method × Nat × (Nat → Nat → Tat.Iter)))
    (hs' : Spec.calls s ((M, .root :: ms, maxIt, its) :: l) = .ok s') : s'.handler = 0 := by
  obtain ⟨obj, hh, o⟩ := s
  simp only [Spec.Released] at hs
  subst hs
  have : ∃ s1, call ⟨[], hh, o⟩ M (.root :: ms) maxIt its = .ok s1 ∧ s1.objects = [] ∧ s1.handler = 0 := by
    refine ⟨⟨[], 0, hh⟩, ?_, rfl, rfl⟩
    simp [call, loop, Tat.attempt, h1, h, effects, steps, step]
  obtain ⟨s1, e1, o1, z1⟩ := this
  simp only [Spec.calls, e1, Outcome.bind_ok] at hs'
  exact calls_silent l s1 s' o1 z1 hs'

/-- **C157 (negation).** If `derivative_free_minimization` is reached, its step sizes are read although nothing has written them: the behaviour is undefined. -/
theorem C157_counterexample_steps (s : State) (hs : Spec.Released s) (M : Tat.Model) (p q : List Tat.Method) (hp : .derivativeFreeMinimization ∉ p) (maxIt : Nat) (its : Nat → Nat → Tat.Iter)
    (h : Tat.tryMethods M maxIt its 0 p = .ok none) : call s M (p ++ .derivativeFreeMinimization :: q) maxIt its = .ub := by
  have key : ∀ (p : List Tat.Method) (n : Nat) (s : State), s.objects = [] → .derivativeFreeMinimization ∉ p → Tat.tryMethods M maxIt its n p = .ok none →
      loop M maxIt its s n (p ++ .derivativeFreeMinimization :: q) = .ub := by
    intro p
    induction p with
    | nil =>
      intro n s hs _ _
      obtain ⟨obj, hh, o⟩ := s
      simp only at hs
      subst hs
      simp [loop, Tat.attempt, effects, steps, step]
    | cons m p ih =>
      intro n s hs hm ht
      obtain ⟨obj, hh, o⟩ := s
      simp only at hs
      subst hs
      simp only [Tat.tryMethods] at ht
      cases ha : Tat.attempt M maxIt (its n) m with
      | throws => rw [ha] at ht; cases ht
      | ub => rw [ha] at ht; cases ht
      | ok v =>
        rw [ha] at ht
        cases v with
        | some x => simp at ht
        | none =>
          simp only [Outcome.bind_ok] at ht
          obtain ⟨s1, e1, o1, _⟩ := steps_effects hh o (M.keys.length == 1) false m (fun e => hm (by simp [e]))
          simp only [List.cons_append, loop, ha, Outcome.bind_ok, Option.isSome_none, e1]
          simpa using ih (n + 1) s1 o1 (fun h => hm (List.mem_cons_of_mem _ h)) ht
  rw [call, if_neg (by simp)]
  exact key p 0 s hs hp h

/-- A market for one property, of which participants want to hold as much more as its multiplier is below 2. -/
def Spec.market : Tat.Model := { keys := [7], fs := [fun q => q.map fun e => (e.1, 2 - e.2)] }

/-- The hypotheses of the theorems: the solver moves to the multiplier 2. The program's own handler was number 5. -/
example : Tat.uniRoot Spec.market 10 (fun _ => ⟨.continue_, [2], []⟩) = .ok (some [2]) ∧
    call ⟨[], 5, 0⟩ Spec.market Tat.defaultMethods 10 (fun _ _ => ⟨.continue_, [2], []⟩) = .ok ⟨[], 0, 5⟩ := by decide +kernel

/-- The solver fails, the second method succeeds: the handler is the program's own. -/
example : call ⟨[], 5, 0⟩ Spec.market Tat.defaultMethods 10 (fun n _ => if n = 0 then ⟨.failure, [9], []⟩ else ⟨.success, [2], []⟩) = .ok ⟨[], 5, 5⟩ ∧
    (Tat.computeClearingQuotes Spec.market [.root, .derivativeFreeRoot] 10 (fun n _ => if n = 0 then ⟨.failure, [9], []⟩ else ⟨.success, [2], []⟩)) = .ok (some [(7, 2)]) := by decide +kernel

/-- `derivative_free_minimization` is reached when root finding fails. -/
example : Tat.tryMethods Spec.market 10 (fun _ _ => ⟨.failure, [9], []⟩) 0 [.root] = .ok none ∧
    call ⟨[], 5, 0⟩ Spec.market [.root, .derivativeFreeMinimization] 10 (fun _ _ => ⟨.failure, [9], []⟩) = .ub := by decide +kernel

end Esl.Solvers
