import Verif.Model.TatonnementRounded
import Verif.Lemmas.Tatonnement
import Mathlib.Tactic.Linarith
import Mathlib.Tactic.Ring
import Mathlib.Tactic.Positivity
import Mathlib.Algebra.Order.BigOperators.Group.List

/-! Lemmas about the tatonnement with rounded arithmetic. -/

namespace Esl.TatFl

open Esl.Tat (Demand Status Iter Method Model collect cmax cmin cabs)

/-- Ordered by key. -/
def Ordered (m : List (Nat × Rat)) : Prop := m.Pairwise fun a b => a.1 < b.1

theorem addTerm_mem (fl first : Rat → Rat) (m : List (Nat × Rat)) (e : Nat × Rat) (i : Nat) :
    i ∈ (addTerm fl first m e).map (·.1) ↔ i ∈ m.map (·.1) ∨ i = e.1 := by
  induction m with
  | nil => simp [addTerm]
  | cons y m ih =>
    obtain ⟨j, u⟩ := y
    obtain ⟨k, v⟩ := e
    rw [addTerm]
    by_cases h : j = k
    · subst h; simp; tauto
    · rw [if_neg h]
      by_cases h2 : k < j
      · rw [if_pos h2]; simp; tauto
      · rw [if_neg h2, List.map_cons, List.mem_cons, ih]; simp; tauto

theorem addTerm_ordered (fl first : Rat → Rat) (m : List (Nat × Rat)) (e : Nat × Rat) (h : Ordered m) : Ordered (addTerm fl first m e) := by
  induction m with
  | nil => simp [addTerm, Ordered]
  | cons y m ih =>
    obtain ⟨j, u⟩ := y
    obtain ⟨k, v⟩ := e
    obtain ⟨h1, h2⟩ := List.pairwise_cons.1 h
    rw [addTerm]
    by_cases hj : j = k
    · rw [if_pos hj]; exact List.pairwise_cons.2 ⟨h1, h2⟩
    · rw [if_neg hj]
      by_cases hk : k < j
      · rw [if_pos hk]
        refine List.pairwise_cons.2 ⟨fun b hb => ?_, h⟩
        rcases List.mem_cons.1 hb with rfl | hb
        · exact hk
        · exact lt_trans hk (h1 b hb)
      · rw [if_neg hk]
        refine List.pairwise_cons.2 ⟨fun b hb => ?_, ih h2⟩
        have := (addTerm_mem fl first m (k, v) b.1).1 (List.mem_map.2 ⟨b, hb, rfl⟩)
        rcases this with h' | h'
        · obtain ⟨c, hc, hcb⟩ := List.mem_map.1 h'
          rw [← hcb]; exact h1 c hc
        · simp only at h' ⊢; omega

theorem lookup_none {m : List (Nat × Rat)} {k : Nat} (h : k ∉ m.map (·.1)) : m.lookup k = none := by
  induction m with
  | nil => rfl
  | cons y m ih =>
    simp only [List.map_cons, List.mem_cons, not_or] at h
    rw [List.lookup_cons, show (k == y.1) = false by simpa using h.1]
    exact ih h.2

/-- What adding does to the entry of a key. -/
def update (fl first : Rat → Rat) (i : Nat) (o : Option Rat) (e : Nat × Rat) : Option Rat :=
  if e.1 = i then some (match o with | none => first e.2 | some u => fl (u + e.2)) else o

theorem lookup_addTerm (fl first : Rat → Rat) (m : List (Nat × Rat)) (e : Nat × Rat) (i : Nat) (h : Ordered m) :
    (addTerm fl first m e).lookup i = update fl first i (m.lookup i) e := by
  induction m with
  | nil =>
    obtain ⟨k, v⟩ := e
    by_cases hk : k = i
    · subst hk; simp [addTerm, update]
    · have : (i == k) = false := by simpa using Ne.symm hk
      simp [addTerm, update, hk, List.lookup_cons, this]
  | cons y m ih =>
    obtain ⟨j, u⟩ := y
    obtain ⟨k, v⟩ := e
    obtain ⟨h1, h2⟩ := List.pairwise_cons.1 h
    rw [addTerm]
    by_cases hj : j = k
    · subst hj
      rw [if_pos rfl]
      by_cases hi : j = i
      · subst hi; simp [update]
      · have : (i == j) = false := by simpa using Ne.symm hi
        simp [update, hi, List.lookup_cons, this]
    · rw [if_neg hj]
      by_cases hk : k < j
      · rw [if_pos hk]
        by_cases hi : k = i
        · subst hi
          have hn : ((j, u) :: m).lookup k = none := by
            apply lookup_none
            intro hmem
            obtain ⟨b, hb, hbk⟩ := List.mem_map.1 hmem
            rcases List.mem_cons.1 hb with rfl | hb
            · exact hj hbk
            · have := h1 b hb; simp only at hbk this; omega
          rw [hn]
          simp [update]
        · have : (i == k) = false := by simpa using Ne.symm hi
          simp [update, hi, List.lookup_cons, this]
      · rw [if_neg hk, List.lookup_cons, List.lookup_cons, ih h2]
        by_cases hi : i = j
        · subst hi
          simp [update, Ne.symm hj]
        · rw [show (i == j) = false by simpa using hi]

theorem fold_spec (fl first : Rat → Rat) (l m : List (Nat × Rat)) (h : Ordered m) :
    Ordered (l.foldl (addTerm fl first) m) ∧ ∀ i, (l.foldl (addTerm fl first) m).lookup i = l.foldl (update fl first i) (m.lookup i) := by
  induction l generalizing m with
  | nil => exact ⟨h, fun _ => rfl⟩
  | cons e l ih =>
    obtain ⟨h1, h2⟩ := ih _ (addTerm_ordered fl first m e h)
    refine ⟨h1, fun i => ?_⟩
    rw [List.foldl_cons, h2 i, lookup_addTerm fl first m e i h, List.foldl_cons]

theorem terms_flat (fl first : Rat → Rat) (fs : List Demand) (keys : List Nat) (x : List Rat) :
    terms fl first fs keys x = (fs.flatMap fun f => f (keys.zip x)).foldl (addTerm fl first) [] := by
  unfold terms
  rw [List.foldl_flatMap]

theorem terms_lookup (fl first : Rat → Rat) (fs : List Demand) (keys : List Nat) (x : List Rat) :
    Ordered (terms fl first fs keys x) ∧
      ∀ i, (terms fl first fs keys x).lookup i = (fs.flatMap fun f => f (keys.zip x)).foldl (update fl first i) none := by
  rw [terms_flat]
  exact fold_spec fl first _ [] List.Pairwise.nil

/-- The values for a key in a list of entries. -/
def valuesOf (k : Nat) (l : List (Nat × Rat)) : List Rat := (l.filter fun e => e.1 = k).map (·.2)

theorem fold_update (fl first : Rat → Rat) (i : Nat) (l : List (Nat × Rat)) (o : Option Rat) :
    l.foldl (update fl first i) o =
      match o, valuesOf i l with
      | none, [] => none
      | none, v :: vs => some (vs.foldl (fun s v => fl (s + v)) (first v))
      | some u, vs => some (vs.foldl (fun s v => fl (s + v)) u) := by
  induction l generalizing o with
  | nil => cases o <;> rfl
  | cons e l ih =>
    rw [List.foldl_cons, ih]
    by_cases h : e.1 = i
    · have : valuesOf i (e :: l) = e.2 :: valuesOf i l := by simp [valuesOf, h]
      rw [this]
      cases o <;> simp [update, h]
    · have : valuesOf i (e :: l) = valuesOf i l := by simp [valuesOf, h]
      rw [this]
      simp [update, h]

/-! ## Errors -/

/-- A bound for the error of adding up `n` numbers whose absolute values add up to `a`. -/
def bound (ε η : Rat) (n : Nat) (a : Rat) : Rat := ((1 + ε) ^ n - 1) * a + n * (1 + ε) ^ n * η

theorem power_ge {ε : Rat} (hε : 0 ≤ ε) (n : Nat) : 1 ≤ (1 + ε) ^ n := one_le_pow₀ (by linarith)

theorem abs_sum_le (l : List Rat) : |l.sum| ≤ (l.map abs).sum := by
  induction l with
  | nil => simp
  | cons v l ih => simp only [List.map_cons, List.sum_cons]; exact le_trans (abs_add_le _ _) (by linarith)

theorem fold_error {fl : Rat → Rat} {ε η : Rat} (hε : 0 ≤ ε) (hη : 0 ≤ η) (hfl : ∀ q, |fl q - q| ≤ ε * |q| + η) (vs : List Rat) (m : Nat) (s t a : Rat)
    (ht : |t| ≤ a) (hs : |s - t| ≤ bound ε η m a) :
    |vs.foldl (fun s v => fl (s + v)) s - (t + vs.sum)| ≤ bound ε η (m + vs.length) (a + (vs.map abs).sum) := by
  induction vs generalizing m s t a with
  | nil => simpa using hs
  | cons v vs ih =>
    have ht' : |t + v| ≤ a + |v| := le_trans (abs_add_le _ _) (by linarith)
    have h1 := hfl (s + v)
    have hsv : |s + v| ≤ bound ε η m a + (a + |v|) := by
      calc |s + v| = |(s - t) + (t + v)| := by ring_nf
        _ ≤ _ := le_trans (abs_add_le _ _) (by linarith)
    have hs' : |fl (s + v) - (t + v)| ≤ bound ε η (m + 1) (a + |v|) := by
      have h2 : |fl (s + v) - (t + v)| ≤ (ε * (bound ε η m a + (a + |v|)) + η) + bound ε η m a := by
        calc |fl (s + v) - (t + v)| = |(fl (s + v) - (s + v)) + (s - t)| := by ring_nf
          _ ≤ |fl (s + v) - (s + v)| + |s - t| := abs_add_le _ _
          _ ≤ _ := by have := mul_le_mul_of_nonneg_left hsv hε; linarith
      refine le_trans h2 ?_
      have hg := power_ge hε m
      have hg1 := power_ge hε (m + 1)
      have hv := abs_nonneg v
      unfold bound
      have e1 : (1 + ε) ^ (m + 1) = (1 + ε) ^ m * (1 + ε) := pow_succ _ _
      have key : ((1 + ε) ^ (m + 1) - 1) * (a + |v|) + ((m + 1 : Nat) : Rat) * (1 + ε) ^ (m + 1) * η -
          (ε * (((1 + ε) ^ m - 1) * a + m * (1 + ε) ^ m * η + (a + |v|)) + η + (((1 + ε) ^ m - 1) * a + m * (1 + ε) ^ m * η)) =
          ((1 + ε) ^ m - 1) * (1 + ε) * |v| + ((1 + ε) ^ (m + 1) - 1) * η := by
        rw [e1]; push_cast; ring
      have p1 : 0 ≤ ((1 + ε) ^ m - 1) * (1 + ε) * |v| := mul_nonneg (mul_nonneg (by linarith) (by linarith)) hv
      have p2 : 0 ≤ ((1 + ε) ^ (m + 1) - 1) * η := mul_nonneg (by linarith) hη
      linarith
    have := ih (m + 1) (fl (s + v)) (t + v) (a + |v|) ht' hs'
    rw [List.foldl_cons, List.sum_cons, List.map_cons, List.sum_cons, List.length_cons]
    rw [show t + (v + vs.sum) = t + v + vs.sum by ring, show m + (vs.length + 1) = m + 1 + vs.length by omega,
      show a + (|v| + (vs.map abs).sum) = a + |v| + (vs.map abs).sum by ring]
    exact this

theorem total_error {fl : Rat → Rat} {ε η : Rat} (hε : 0 ≤ ε) (hη : 0 ≤ η) (hfl : ∀ q, |fl q - q| ≤ ε * |q| + η) (vs : List Rat) :
    |total fl vs - vs.sum| ≤ bound ε η vs.length (vs.map abs).sum := by
  have := fold_error hε hη hfl vs 0 0 0 0 (by simp) (by simp [bound])
  simpa [total] using this

theorem accumulate_error {fl first : Rat → Rat} {ε η : Rat} (hε : 0 ≤ ε) (hη : 0 ≤ η) (hfl : ∀ q, |fl q - q| ≤ ε * |q| + η) (hfirst : ∀ q, |first q - q| ≤ ε * |q| + η) (v : Rat) (vs : List Rat) :
    |vs.foldl (fun s v => fl (s + v)) (first v) - (v :: vs).sum| ≤ bound ε η (v :: vs).length ((v :: vs).map abs).sum := by
  have := fold_error hε hη hfl vs 1 (first v) v |v| (le_refl _) (by
    have h1 := hfirst v
    unfold bound
    have : 0 ≤ ε * η := mul_nonneg hε hη
    simp only [pow_one, Nat.cast_one, one_mul]
    nlinarith)
  rw [show (v :: vs).length = 1 + vs.length by simp; omega]
  simpa using this

/-- The entry of a key in the map: there is one exactly if there are values, and it is close to their sum. -/
theorem terms_error {fl first : Rat → Rat} {ε η : Rat} (hε : 0 ≤ ε) (hη : 0 ≤ η) (hfl : ∀ q, |fl q - q| ≤ ε * |q| + η) (hfirst : ∀ q, |first q - q| ≤ ε * |q| + η)
    (fs : List Demand) (keys : List Nat) (x : List Rat) (k : Nat) :
    match (terms fl first fs keys x).lookup k with
    | none => valuesOf k (fs.flatMap fun f => f (keys.zip x)) = []
    | some v => |v - (valuesOf k (fs.flatMap fun f => f (keys.zip x))).sum| ≤
        bound ε η (valuesOf k (fs.flatMap fun f => f (keys.zip x))).length ((valuesOf k (fs.flatMap fun f => f (keys.zip x))).map abs).sum := by
  rw [(terms_lookup fl first fs keys x).2 k, fold_update]
  cases h : valuesOf k (fs.flatMap fun f => f (keys.zip x)) with
  | nil => rfl
  | cons v vs => exact accumulate_error hε hη hfl hfirst v vs

end Esl.TatFl
