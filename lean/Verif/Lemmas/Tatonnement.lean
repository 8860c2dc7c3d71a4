import Verif.Model.Tatonnement
import Mathlib.Tactic.Linarith
import Mathlib.Tactic.Ring
import Mathlib.Data.List.Perm.Basic
import Mathlib.Data.List.Nodup
import Mathlib.Algebra.Order.BigOperators.Group.List

/-! Lemmas about the tatonnement model. -/

namespace Esl.Tat

/-- The sum of a map's values for one key. -/
def valueOf (k : Nat) (l : List (Nat × Rat)) : Rat := (l.map fun e => if e.1 = k then e.2 else 0).sum

theorem valueOf_nil (k : Nat) : valueOf k [] = 0 := rfl
theorem valueOf_cons (k : Nat) (e : Nat × Rat) (l : List (Nat × Rat)) : valueOf k (e :: l) = (if e.1 = k then e.2 else 0) + valueOf k l := rfl
theorem valueOf_append (k : Nat) (l l' : List (Nat × Rat)) : valueOf k (l ++ l') = valueOf k l + valueOf k l' := by
  unfold valueOf; rw [List.map_append, List.sum_append]

theorem addTerm_keys (m : List (Nat × Rat)) (e : Nat × Rat) :
    (addTerm m e).map (·.1) = if e.1 ∈ m.map (·.1) then m.map (·.1) else m.map (·.1) ++ [e.1] := by
  induction m with
  | nil => simp [addTerm]
  | cons x m ih =>
    obtain ⟨j, u⟩ := x
    obtain ⟨k, v⟩ := e
    rw [addTerm]
    by_cases h : j = k
    · subst h; simp
    · rw [if_neg h, List.map_cons, ih]
      have h' : ¬ k = j := fun h2 => h h2.symm
      simp only [List.map_cons, List.mem_cons, h', false_or]
      split <;> simp

theorem addTerm_nodup (m : List (Nat × Rat)) (e : Nat × Rat) (h : (m.map (·.1)).Nodup) : ((addTerm m e).map (·.1)).Nodup := by
  rw [addTerm_keys]
  split
  · exact h
  · rename_i hn
    rw [List.nodup_append]
    refine ⟨h, by simp, ?_⟩
    intro a ha b hb
    simp at hb
    subst hb
    rintro rfl
    exact hn ha

theorem valueOf_addTerm (k : Nat) (m : List (Nat × Rat)) (e : Nat × Rat) : valueOf k (addTerm m e) = valueOf k m + (if e.1 = k then e.2 else 0) := by
  induction m with
  | nil => simp [addTerm, valueOf]
  | cons x m ih =>
    obtain ⟨j, u⟩ := x
    obtain ⟨i, v⟩ := e
    rw [addTerm]
    by_cases h : j = i
    · subst h
      rw [if_pos rfl, valueOf_cons, valueOf_cons]
      simp only
      split <;> ring
    · rw [if_neg h, valueOf_cons, valueOf_cons, ih]
      ring

theorem foldl_addTerm (l m : List (Nat × Rat)) (hm : (m.map (·.1)).Nodup) :
    ((l.foldl addTerm m).map (·.1)).Nodup ∧ (∀ k, k ∈ (l.foldl addTerm m).map (·.1) ↔ k ∈ m.map (·.1) ∨ k ∈ l.map (·.1)) ∧
    ∀ k, valueOf k (l.foldl addTerm m) = valueOf k m + valueOf k l := by
  induction l generalizing m with
  | nil => simp [hm, valueOf]
  | cons e l ih =>
    obtain ⟨h1, h2, h3⟩ := ih (addTerm m e) (addTerm_nodup m e hm)
    rw [List.foldl_cons]
    refine ⟨h1, fun k => ?_, fun k => ?_⟩
    · rw [h2 k, addTerm_keys]
      split
      · rename_i hmem
        rw [List.map_cons, List.mem_cons]
        constructor
        · rintro (h | h)
          · exact .inl h
          · exact .inr (.inr h)
        · rintro (h | rfl | h)
          · exact .inl h
          · exact .inl hmem
          · exact .inr h
      · simp only [List.mem_append, List.mem_singleton, List.map_cons, List.mem_cons]
        tauto
    · rw [h3 k, valueOf_addTerm, valueOf_cons]
      ring

theorem terms_spec (fs : List Demand) (keys : List Nat) (x : List Rat) :
    ((terms fs keys x).map (·.1)).Nodup ∧ (∀ k, k ∈ (terms fs keys x).map (·.1) ↔ ∃ f ∈ fs, k ∈ (f (keys.zip x)).map (·.1)) ∧
    ∀ k, valueOf k (terms fs keys x) = (fs.map fun f => valueOf k (f (keys.zip x))).sum := by
  have key : ∀ (fs : List Demand) (m : List (Nat × Rat)), (m.map (·.1)).Nodup →
      ((fs.foldl (fun m f => (f (keys.zip x)).foldl addTerm m) m).map (·.1)).Nodup ∧
      (∀ k, k ∈ (fs.foldl (fun m f => (f (keys.zip x)).foldl addTerm m) m).map (·.1) ↔ k ∈ m.map (·.1) ∨ ∃ f ∈ fs, k ∈ (f (keys.zip x)).map (·.1)) ∧
      ∀ k, valueOf k (fs.foldl (fun m f => (f (keys.zip x)).foldl addTerm m) m) = valueOf k m + (fs.map fun f => valueOf k (f (keys.zip x))).sum := by
    intro fs
    induction fs with
    | nil => intro m hm; simp [hm]
    | cons f fs ih =>
      intro m hm
      obtain ⟨a1, a2, a3⟩ := foldl_addTerm (f (keys.zip x)) m hm
      obtain ⟨b1, b2, b3⟩ := ih _ a1
      rw [List.foldl_cons]
      refine ⟨b1, fun k => ?_, fun k => ?_⟩
      · rw [b2 k, a2 k, or_assoc]
        simp only [List.mem_cons, exists_eq_or_imp]
      · rw [b3 k, a3 k, List.map_cons, List.sum_cons]
        ring
  obtain ⟨h1, h2, h3⟩ := key fs [] (by simp)
  refine ⟨h1, fun k => ?_, fun k => ?_⟩
  · have := h2 k; simpa [terms] using this
  · have := h3 k; simpa [terms, valueOf_nil] using this

theorem lookup_valueOf (m : List (Nat × Rat)) (h : (m.map (·.1)).Nodup) (k : Nat) :
    m.lookup k = if k ∈ m.map (·.1) then some (valueOf k m) else none := by
  induction m with
  | nil => simp
  | cons e m ih =>
    obtain ⟨j, u⟩ := e
    obtain ⟨h1, h2⟩ := List.nodup_cons.1 h
    rw [List.lookup, valueOf_cons]
    by_cases hk : k = j
    · subst hk
      have hz : valueOf k m = 0 := by
        unfold valueOf
        apply List.sum_eq_zero
        intro z hz
        obtain ⟨y, hy, rfl⟩ := List.mem_map.1 hz
        have : y.1 ≠ k := fun h => h1 (List.mem_map.2 ⟨y, hy, h⟩)
        rw [if_neg this]
      simp [hz]
    · have hk' : ¬ j = k := fun h => hk h.symm
      have : (k == j) = false := by simpa using hk
      rw [this, ih h2]
      simp only [List.map_cons, List.mem_cons, hk, hk', false_or, if_false, zero_add]

theorem valueOf_mem (m : List (Nat × Rat)) (h : (m.map (·.1)).Nodup) {e : Nat × Rat} (he : e ∈ m) : valueOf e.1 m = e.2 := by
  induction m with
  | nil => simp at he
  | cons x m ih =>
    obtain ⟨h1, h2⟩ := List.nodup_cons.1 h
    rw [valueOf_cons]
    have hz : ∀ k, k ∉ m.map (·.1) → valueOf k m = 0 := by
      intro k hk
      unfold valueOf
      apply List.sum_eq_zero
      intro z hz
      obtain ⟨y, hy, rfl⟩ := List.mem_map.1 hz
      have : y.1 ≠ k := fun h => hk (List.mem_map.2 ⟨y, hy, h⟩)
      rw [if_neg this]
    rcases List.mem_cons.1 he with rfl | hm
    · rw [if_pos rfl, hz _ h1, add_zero]
    · have : x.1 ≠ e.1 := fun h => h1 (List.mem_map.2 ⟨e, hm, h.symm⟩)
      rw [if_neg this, ih h2 hm, zero_add]

theorem valueOf_absent (m : List (Nat × Rat)) (k : Nat) (hk : k ∉ m.map (·.1)) : valueOf k m = 0 := by
  unfold valueOf
  apply List.sum_eq_zero
  intro z hz
  obtain ⟨y, hy, rfl⟩ := List.mem_map.1 hz
  have : y.1 ≠ k := fun h => hk (List.mem_map.2 ⟨y, hy, h⟩)
  rw [if_neg this]

/-- The sum over a map is the sum over any list of keys that contains those of the map. -/
theorem sum_over_keys (m : List (Nat × Rat)) (h : (m.map (·.1)).Nodup) (keys : List Nat) (hk : keys.Nodup) (hsub : ∀ k ∈ m.map (·.1), k ∈ keys) :
    (m.map fun e => e.2 * e.2).sum = (keys.map fun k => valueOf k m * valueOf k m).sum := by
  have h1 : (m.map fun e => e.2 * e.2) = (m.map (·.1)).map fun k => valueOf k m * valueOf k m := by
    rw [List.map_map]
    apply List.map_congr_left
    intro e he
    simp only [Function.comp]
    rw [valueOf_mem m h he]
  have h2 : ∀ l : List Nat, (l.map fun k => valueOf k m * valueOf k m).sum = ((l.filter (· ∈ m.map (·.1))).map fun k => valueOf k m * valueOf k m).sum := by
    intro l
    induction l with
    | nil => rfl
    | cons k l ih =>
      rw [List.map_cons, List.sum_cons, ih, List.filter_cons]
      by_cases hkm : k ∈ m.map (·.1)
      · simp only [hkm, decide_true, if_true, List.map_cons, List.sum_cons]
      · simp only [hkm, decide_false, Bool.false_eq_true, if_false, valueOf_absent m k hkm]
        ring
  rw [h1, h2 keys]
  apply List.Perm.sum_eq
  apply List.Perm.map
  rw [List.perm_ext_iff_of_nodup h (hk.filter _)]
  intro a
  rw [List.mem_filter]
  constructor
  · intro ha; exact ⟨hsub a ha, by simpa using ha⟩
  · rintro ⟨-, ha⟩; simpa using ha

theorem sum_squares_zero (l : List (Nat × Rat)) : (l.map fun e => e.2 * e.2).sum = 0 ↔ ∀ e ∈ l, e.2 = 0 := by
  have hnn : ∀ l : List (Nat × Rat), 0 ≤ (l.map fun e => e.2 * e.2).sum := by
    intro l
    induction l with
    | nil => simp
    | cons e l ih => rw [List.map_cons, List.sum_cons]; nlinarith [mul_self_nonneg e.2]
  induction l with
  | nil => simp
  | cons e l ih =>
    rw [List.map_cons, List.sum_cons]
    constructor
    · intro h
      have h1 := hnn l
      have h2 := mul_self_nonneg e.2
      have h3 : e.2 * e.2 = 0 := by linarith
      have h4 := ih.1 (by linarith)
      intro x hx
      rcases List.mem_cons.1 hx with rfl | hx
      · exact mul_self_eq_zero.1 h3
      · exact h4 x hx
    · intro h
      rw [h e (by simp), ih.2 fun x hx => h x (List.mem_cons_of_mem _ hx)]
      ring

theorem collect_ok (m : List (Nat × Rat)) (h : (m.map (·.1)).Nodup) (keys : List Nat) :
    collect m keys = if ∀ k ∈ keys, k ∈ m.map (·.1) then .ok (keys.map fun k => valueOf k m) else .ub := by
  induction keys with
  | nil => simp [collect]
  | cons k ks ih =>
    rw [collect, lookup_valueOf m h k]
    by_cases hk : k ∈ m.map (·.1)
    · rw [if_pos hk]
      simp only [ih]
      by_cases hs : ∀ j ∈ ks, j ∈ m.map (·.1)
      · rw [if_pos hs, if_pos (by simpa using ⟨by simpa using hk, by simpa using hs⟩)]
        rfl
      · rw [if_neg hs, if_neg (fun h => hs fun j hj => h j (List.mem_cons_of_mem _ hj))]
        rfl
    · rw [if_neg hk, if_neg (fun h => hk (h k (by simp)))]

theorem cabs_eq (a : Rat) : cabs a = |a| := by
  unfold cabs
  split
  · rw [abs_of_neg (by assumption)]
  · rw [abs_of_nonneg (by linarith)]

theorem cmax_eq (a b : Rat) : cmax a b = max a b := by
  unfold cmax
  split
  · rw [max_eq_right (by linarith)]
  · rw [max_eq_left (by linarith)]

theorem cmin_eq (a b : Rat) : cmin a b = min a b := by
  unfold cmin
  split
  · rw [min_eq_right (by linarith)]
  · rw [min_eq_left (by linarith)]

end Esl.Tat
