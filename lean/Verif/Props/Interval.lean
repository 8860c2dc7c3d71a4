import Verif.Model.Interval
import Mathlib.Algebra.Order.Field.Rat
import Mathlib.Tactic.Linarith
/-! # C49: intervals -/
namespace Esl.Interval

/-- Mathematical membership: the endpoints belong to the interval iff the respective side is closed. -/
def Spec.Mem (l u : Int) (lc rc : Bool) (v : Int) : Prop :=
  (l < v ∨ (lc = true ∧ v = l)) ∧ (v < u ∨ (rc = true ∧ v = u))

/-- **C49.** `contains` is mathematical membership, for all four flag combinations. -/
theorem C49_contains (i : Iv) (v : Int) :
    i.contains v = true ↔ Spec.Mem i.lower i.upper i.leftClosed i.rightClosed v := by
  simp only [Iv.contains, Spec.Mem, Bool.and_eq_true, Bool.or_eq_true, decide_eq_true_eq]
  constructor
  · rintro ⟨h1, h2⟩
    exact ⟨h1.imp id (fun h => ⟨h.1, h.2.symm⟩), h2.imp id (fun h => ⟨h.1, h.2.symm⟩)⟩
  · rintro ⟨h1, h2⟩
    exact ⟨h1.imp id (fun h => ⟨h.1, h.2.symm⟩), h2.imp id (fun h => ⟨h.1, h.2.symm⟩)⟩

/-- **C49 (partial).** For half-open intervals (one side closed, the other open; this includes the
`time_interval` used by the simulation) over an integral type, `empty()` holds exactly if no value
is contained and `singleton()` exactly if one value is. Missing: both-closed and both-open
intervals, for which the code is wrong (see the counterexamples). -/
theorem C49_half_open_partial (i : Iv) (h : i.leftClosed = !i.rightClosed) :
    (i.empty = true ↔ ∀ v, i.contains v = false) ∧
    (i.singleton = true ↔ ∃ v, i.contains v = true ∧ ∀ w, i.contains w = true → w = v) := by
  obtain ⟨l, u, lc, rc⟩ := i
  simp only at h
  cases lc <;> cases rc <;> simp at h
  rotate_left
  · -- [l, u)
    have hc : ∀ v, (Iv.mk l u true false).contains v = true ↔ l ≤ v ∧ v < u := by
      intro v; simp [Iv.contains]; omega
    constructor
    · simp only [← Bool.not_eq_true, hc]
      simp only [Iv.empty, Bool.true_or, Bool.and_false]
      constructor
      · intro h v; split at h
        · omega
        · split at h
          · omega
          · split at h <;> simp at h
      · intro h
        have := h l
        split
        · rfl
        · split
          · rfl
          · omega
    · simp only [hc]
      simp only [Iv.singleton]
      constructor
      · intro h
        refine ⟨l, ?_, ?_⟩ <;> simp at h
        · omega
        · intro w; omega
      · rintro ⟨v, h1, h2⟩
        have a := h2 l (by omega)
        have b : u = l + 1 := by
          by_cases hh : l + 1 < u
          · have := h2 (l + 1) (by omega); omega
          · omega
        subst b
        simp
  · -- (l, u]
    have hc : ∀ v, (Iv.mk l u false true).contains v = true ↔ l < v ∧ v ≤ u := by
      intro v; simp [Iv.contains]; omega
    constructor
    · simp only [← Bool.not_eq_true, hc]
      simp only [Iv.empty, Bool.false_or, Bool.false_and]
      constructor
      · intro h v; split at h
        · omega
        · split at h
          · omega
          · split at h <;> simp at h
      · intro h
        have := h u
        split
        · rfl
        · split
          · rfl
          · omega
    · simp only [hc]
      simp only [Iv.singleton]
      constructor
      · intro h
        refine ⟨u, ?_, ?_⟩ <;> simp at h
        · omega
        · intro w; omega
      · rintro ⟨v, h1, h2⟩
        have a := h2 u (by omega)
        have b : u = l + 1 := by
          by_cases hh : l + 1 < u
          · have := h2 (l + 1) (by omega); omega
          · omega
        subst b
        simp

/-- **C49 (what the code computes instead).** For every integral interval, `empty()` is emptiness of
the interval with both flags inverted, i.e. open and closed are swapped. -/
theorem C49_empty_swaps_flags (i : Iv) :
    i.empty = true ↔ ∀ v, ¬ Spec.Mem i.lower i.upper (!i.leftClosed) (!i.rightClosed) v := by
  obtain ⟨l, u, lc, rc⟩ := i
  cases lc <;> cases rc <;> simp only [Iv.empty, Spec.Mem] <;> simp <;> constructor
  · intro h v; omega
  · intro h
    have := h l
    have := h u
    omega
  · intro h v; omega
  · intro h
    have := h l
    omega
  · intro h v; omega
  · intro h
    have := h u
    omega
  · intro h v; omega
  · intro h
    have := h (l + 1)
    omega

/-- **C49 (negation).** The closed interval [l,l] contains `l` but is reported empty. -/
theorem C49_counterexample_closed (l : Int) :
    (Iv.mk l l true true).contains l = true ∧ (Iv.mk l l true true).empty = true ∧
    (Iv.mk l l true true).singleton = false := by
  simp [Iv.contains, Iv.empty, Iv.singleton]

/-- **C49 (negation).** The open interval (l,l) contains nothing but is reported to be nonempty, and
to have exactly one element. -/
theorem C49_counterexample_open (l : Int) :
    (∀ v, (Iv.mk l l false false).contains v = false) ∧ (Iv.mk l l false false).empty = false ∧
    (Iv.mk l l false false).singleton = true := by
  refine ⟨?_, by simp [Iv.empty], by simp [Iv.singleton]⟩
  intro v; simp [Iv.contains]; omega

/-- **C49 (negation).** The closed interval [l,l+1] contains two values but is reported empty. -/
theorem C49_counterexample_two (l : Int) :
    (Iv.mk l (l + 1) true true).contains l = true ∧
    (Iv.mk l (l + 1) true true).contains (l + 1) = true ∧
    (Iv.mk l (l + 1) true true).empty = true := by
  refine ⟨by simp [Iv.contains], by simp [Iv.contains], ?_⟩
  have : ¬ (l = l + 1) := by omega
  simp [Iv.empty]

/-- **C49 (partial, floating point modelled by rationals).** Half-open intervals over a dense type:
`empty()` holds exactly if nothing is contained, `singleton()` is always false and indeed a
half-open interval never contains exactly one value. -/
theorem C49_half_open_dense_partial (i : Rv) (h : i.leftClosed = !i.rightClosed) :
    (i.empty = true ↔ ∀ v, i.contains v = false) ∧
    (i.singleton = false) ∧
    (∀ v, i.contains v = true → ∃ w, w ≠ v ∧ i.contains w = true) := by
  obtain ⟨l, u, lc, rc⟩ := i
  simp only at h
  cases lc <;> cases rc <;> simp at h
  rotate_left
  · have hc : ∀ v, (Rv.mk l u true false).contains v = true ↔ l ≤ v ∧ v < u := by
      intro v; simp [Rv.contains, le_iff_lt_or_eq]
    refine ⟨?_, by simp [Rv.singleton], ?_⟩
    · simp only [← Bool.not_eq_true, hc]
      simp only [Rv.empty]
      constructor
      · intro h v; split at h
        · rintro ⟨h1, h2⟩; linarith
        · split at h
          · rintro ⟨h1, h2⟩; linarith
          · simp at h
      · intro h
        have := h l
        split
        · rfl
        · split
          · rfl
          · exfalso; apply this
            refine ⟨le_refl _, lt_of_le_of_ne (by linarith) (by assumption)⟩
    · simp only [hc]
      rintro v ⟨h1, h2⟩
      exact ⟨(v + u) / 2, by intro e; linarith, by linarith, by linarith⟩
  · have hc : ∀ v, (Rv.mk l u false true).contains v = true ↔ l < v ∧ v ≤ u := by
      intro v; simp only [Rv.contains, le_iff_lt_or_eq]; simp; intro _; rw [eq_comm (a := u)]
    refine ⟨?_, by simp [Rv.singleton], ?_⟩
    · simp only [← Bool.not_eq_true, hc]
      simp only [Rv.empty]
      constructor
      · intro h v; split at h
        · rintro ⟨h1, h2⟩; linarith
        · split at h
          · rintro ⟨h1, h2⟩; linarith
          · simp at h
      · intro h
        have := h u
        split
        · rfl
        · split
          · rfl
          · exfalso; apply this
            refine ⟨lt_of_le_of_ne (by linarith) (by assumption), le_refl _⟩
    · simp only [hc]
      rintro v ⟨h1, h2⟩
      exact ⟨(v + l) / 2, by intro e; linarith, by linarith, by linarith⟩

/-- **C49.** What `singleton()` really decides: whether the interval with both flags negated has exactly one element. -/
theorem C49_singleton_swaps_flags (i : Iv) :
    i.singleton = true ↔ ∃ v, Spec.Mem i.lower i.upper (!i.leftClosed) (!i.rightClosed) v ∧
      ∀ w, Spec.Mem i.lower i.upper (!i.leftClosed) (!i.rightClosed) w → w = v := by
  obtain ⟨l, u, lc, rc⟩ := i
  cases lc <;> cases rc <;> simp [Iv.singleton, Spec.Mem]
  · constructor
    · rintro rfl
      exact ⟨l, by omega, fun w _ _ => by omega⟩
    · rintro ⟨v, h, hu⟩
      have h1 := hu l
      have h2 := hu u
      omega
  · constructor
    · rintro ⟨h1, h2⟩
      exact ⟨l, by omega, fun w _ _ => by omega⟩
    · rintro ⟨v, h, hu⟩
      have h1 := hu l
      have h2 := hu (l + 1)
      omega
  · constructor
    · rintro ⟨h1, h2⟩
      exact ⟨u, by omega, fun w _ _ => by omega⟩
    · rintro ⟨v, h, hu⟩
      have h1 := hu u
      have h2 := hu (u - 1)
      omega
  · constructor
    · rintro ⟨h1, h2⟩
      exact ⟨l + 1, by omega, fun w _ _ => by omega⟩
    · rintro ⟨v, h, hu⟩
      have h1 := hu (l + 1)
      have h2 := hu (u - 1)
      have h3 := hu (l + 2)
      omega

/-- Mathematical membership, over the rationals. -/
def Spec.RMem (l u : Rat) (lc rc : Bool) (v : Rat) : Prop :=
  (l < v ∨ (lc = true ∧ v = l)) ∧ (v < u ∨ (rc = true ∧ v = u))

/-- **C49, floating point.** `contains` is mathematical membership, for all four flag combinations. -/
theorem C49_contains_dense (i : Rv) (v : Rat) : i.contains v = true ↔ Spec.RMem i.lower i.upper i.leftClosed i.rightClosed v := by
  simp only [Rv.contains, Spec.RMem, Bool.and_eq_true, Bool.or_eq_true, decide_eq_true_eq, gt_iff_lt, eq_comm (a := v)]

/-- **C49, floating point.** What `empty()` and `singleton()` really decide: whether the interval with both flags negated is empty, or has exactly one element. -/
theorem C49_swaps_flags_dense (i : Rv) :
    (i.empty = true ↔ ∀ v, ¬ Spec.RMem i.lower i.upper (!i.leftClosed) (!i.rightClosed) v) ∧
    (i.singleton = true ↔ ∃ v, Spec.RMem i.lower i.upper (!i.leftClosed) (!i.rightClosed) v ∧
      ∀ w, Spec.RMem i.lower i.upper (!i.leftClosed) (!i.rightClosed) w → w = v) := by
  obtain ⟨l, u, lc, rc⟩ := i
  have inside : l < u → ∀ a b : Bool, Spec.RMem l u a b ((l + u) / 2) ∧ Spec.RMem l u a b ((2 * l + u) / 3) ∧ (l + u) / 2 ≠ (2 * l + u) / 3 := fun h a b =>
    ⟨⟨.inl (by linarith), .inl (by linarith)⟩, ⟨.inl (by linarith), .inl (by linarith)⟩, fun e => by linarith⟩
  have outside : u < l → ∀ (a b : Bool) v, ¬ Spec.RMem l u a b v := by
    rintro h a b v ⟨h1 | ⟨-, h1⟩, h2 | ⟨-, h2⟩⟩ <;> linarith
  have point : l = u → ∀ (a b : Bool) v, Spec.RMem l u a b v ↔ a = true ∧ b = true ∧ v = l := by
    rintro rfl a b v
    constructor
    · rintro ⟨h1 | ⟨ha, h1⟩, h2 | ⟨hb, h2⟩⟩
      · linarith
      · linarith
      · linarith
      · exact ⟨ha, hb, h1⟩
    · rintro ⟨ha, hb, rfl⟩
      exact ⟨.inr ⟨ha, rfl⟩, .inr ⟨hb, rfl⟩⟩
  rcases lt_trichotomy l u with h | h | h
  · have hne : l ≠ u := ne_of_lt h
    refine ⟨?_, ?_⟩
    · simp only [Rv.empty, gt_iff_lt, if_neg (not_lt.2 h.le), if_neg hne, Bool.false_eq_true, false_iff]
      exact fun hv => hv _ (inside h _ _).1
    · simp only [Rv.singleton, hne, decide_false, Bool.and_false, Bool.false_eq_true, false_iff]
      rintro ⟨v, -, hv⟩
      exact (inside h (!lc) (!rc)).2.2 ((hv _ (inside h _ _).1).trans (hv _ (inside h _ _).2.1).symm)
  · simp only [point h]
    subst h
    cases lc <;> cases rc <;> simp [Rv.empty, Rv.singleton]
  · have hne : l ≠ u := ne_of_gt h
    refine ⟨?_, ?_⟩
    · simp only [Rv.empty, gt_iff_lt, if_pos h, true_iff]
      exact outside h _ _
    · simp only [Rv.singleton, hne, decide_false, Bool.and_false, Bool.false_eq_true, false_iff]
      rintro ⟨v, hv, -⟩
      exact outside h _ _ _ hv

/-- **C49 (negation, floating point).** The closed interval `[l, l]` contains `l` only, but is called empty and not a singleton; the open one contains nothing, but is called a singleton and not empty. -/
theorem C49_counterexample_dense (l : Rat) (c : Bool) :
    (∀ v, (Rv.mk l l c c).contains v = true ↔ c = true ∧ v = l) ∧ (Rv.mk l l c c).empty = c ∧ (Rv.mk l l c c).singleton = !c := by
  refine ⟨fun v => ?_, ?_, ?_⟩
  · rw [C49_contains_dense]
    constructor
    · rintro ⟨h1 | ⟨ha, h1⟩, h2 | ⟨hb, h2⟩⟩
      · simp only at h1 h2; linarith
      · simp only at h1 h2; linarith
      · simp only at h1 h2; linarith
      · exact ⟨ha, h1⟩
    · rintro ⟨ha, rfl⟩
      exact ⟨.inr ⟨ha, rfl⟩, .inr ⟨ha, rfl⟩⟩
  · cases c <;> simp [Rv.empty]
  · cases c <;> simp [Rv.singleton]

/-- **C49, degenerate (partial).** An interval that is open on one side is degenerate exactly if it has at most one element. Missing: other intervals, for which `empty()` and `singleton()` are wrong. -/
theorem C49_degenerate_partial (i : Iv) (h : i.leftClosed = !i.rightClosed) : i.degenerate = true ↔ ∀ v w, i.contains v = true → i.contains w = true → v = w := by
  obtain ⟨h1, h2⟩ := C49_half_open_partial i h
  unfold Iv.degenerate
  rw [Bool.or_eq_true, h1, h2]
  constructor
  · rintro (he | ⟨x, -, hx⟩) v w hv hw
    · rw [he v] at hv; cases hv
    · rw [hx v hv, hx w hw]
  · intro hu
    by_cases he : ∃ v, i.contains v = true
    · obtain ⟨v, hv⟩ := he
      exact .inr ⟨v, hv, fun w hw => hu w v hw hv⟩
    · refine .inl fun v => ?_
      cases hc : i.contains v
      · rfl
      · exact absurd ⟨v, hc⟩ he

/-- **C49 (negation, degenerate).** The closed interval `[l, l + 1]` has two elements, but is called degenerate. -/
theorem C49_counterexample_degenerate (l : Int) : (Iv.mk l (l + 1) true true).degenerate = true ∧ (Iv.mk l (l + 1) true true).contains l = true ∧ (Iv.mk l (l + 1) true true).contains (l + 1) = true := by
  obtain ⟨h1, h2, h3⟩ := C49_counterexample_two l
  exact ⟨by unfold Iv.degenerate; rw [h3]; rfl, h1, h2⟩

example : (Iv.mk 3 4 true false).singleton = true ∧ (Iv.mk 3 3 true false).empty = true ∧
    (Iv.mk 3 9 true false).degenerate = false := by decide

/-- The hypotheses of `C49_half_open_dense_partial`. -/
example : (Rv.mk 3 4 true false).leftClosed = !(Rv.mk 3 4 true false).rightClosed ∧ (Rv.mk 3 4 true false).contains (7 / 2) = true ∧ (Rv.mk 3 4 true false).contains 4 = false := by decide +kernel

end Esl.Interval
