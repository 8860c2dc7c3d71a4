import Verif.Model.Inventory
import Verif.Spec.Inventory
namespace Esl.Inventory
open Spec

theorem inBundle_nil (k : Nat) : inBundle [] k = 0 := rfl

theorem inBundle_cons (j v k : Nat) (b : Bundle) :
    inBundle ((j, v) :: b) k = (if j = k then v else 0) + inBundle b k := by
  unfold inBundle
  by_cases h : j = k
  · simp [h]
  · simp [h]

theorem held_set (m : Inv) (j k : Nat) (v : Option Nat) :
    held (m.set j v) k = if k = j then v.getD 0 else held m k := by
  unfold held Inv.set
  split <;> rfl

theorem inBundle_of_not_mem (b : Bundle) (k : Nat) (h : k ∉ b.map (·.1)) : inBundle b k = 0 := by
  induction b with
  | nil => rfl
  | cons x b ih =>
    obtain ⟨j, v⟩ := x
    simp only [List.map_cons, List.mem_cons, not_or] at h
    rw [inBundle_cons, if_neg (fun e => h.1 e.symm), ih h.2]

theorem inBundle_of_mem (b : Bundle) (hb : IsMap b) (k q : Nat) (h : (k, q) ∈ b) : inBundle b k = q := by
  induction b with
  | nil => simp at h
  | cons x b ih =>
    obtain ⟨j, v⟩ := x
    unfold IsMap at hb ih
    simp only [List.map_cons, List.nodup_cons] at hb
    rw [inBundle_cons]
    rcases List.mem_cons.1 h with h | h
    · simp only [Prod.mk.injEq] at h
      rw [if_pos h.1.symm, h.2, inBundle_of_not_mem _ _ (h.1 ▸ hb.1)]
      rfl
    · have : k ∈ b.map (·.1) := List.mem_map.2 ⟨_, h, rfl⟩
      rw [if_neg (fun e : j = k => hb.1 (e ▸ this)), ih hb.2 h, Nat.zero_add]

/-- `insertInto` adds the bundle, as long as nothing overflows. -/
theorem held_insertInto (b : Bundle) (m : Inv) (k : Nat)
    (h : held m k + inBundle b k < 2 ^ 64) : held (insertInto b m) k = held m k + inBundle b k := by
  induction b generalizing m with
  | nil => simp [insertInto, inBundle_nil]
  | cons x b ih =>
    obtain ⟨j, v⟩ := x
    rw [inBundle_cons] at h ⊢
    unfold insertInto
    cases hm : m j with
    | none =>
      simp only
      have e : held (m.set j (some v)) k = held m k + (if j = k then v else 0) := by
        rw [held_set]
        by_cases hk : k = j
        · subst hk; simp [held, hm]
        · rw [if_neg hk, if_neg (fun e => hk e.symm)]; rfl
      rw [ih _ (by rw [e]; omega), e]; omega
    | some a =>
      simp only
      have e : held (m.set j (some (u64 (a + v)))) k = held m k + (if j = k then v else 0) := by
        rw [held_set]
        by_cases hk : k = j
        · subst hk
          have ha : held m k = a := by simp [held, hm]
          rw [if_pos rfl] at h
          simp only [if_true, Option.getD_some, ha]
          unfold u64
          exact Nat.mod_eq_of_lt (by omega)
        · rw [if_neg hk, if_neg (fun e => hk e.symm)]; rfl
      rw [ih _ (by rw [e]; omega), e]; omega

/-- What a successful `eraseFrom` does (no assumption that the bundle is a map). -/
theorem held_eraseFrom (b : Bundle) (m m' : Inv) (h : eraseFrom b m = (m', false)) (k : Nat) :
    held m' k + inBundle b k = held m k := by
  induction b generalizing m with
  | nil => simp [eraseFrom] at h; subst h; simp [inBundle_nil]
  | cons x b ih =>
    obtain ⟨j, v⟩ := x
    rw [inBundle_cons]
    unfold eraseFrom at h
    split at h
    · rename_i hv
      subst hv
      have := ih _ h
      split <;> omega
    · split at h
      · simp at h
      · rename_i a hm
        split at h
        · simp at h
        · split at h
          · have := ih _ h
            rw [held_set] at this
            by_cases hk : k = j
            · subst hk
              have ha : held m k = a := by simp [held, hm]
              simp at this
              simp
              omega
            · rw [if_neg hk] at this
              rw [if_neg (fun e => hk e.symm)]
              omega
          · have := ih _ h
            rw [held_set] at this
            by_cases hk : k = j
            · subst hk
              have ha : held m k = a := by simp [held, hm]
              simp at this
              simp
              omega
            · rw [if_neg hk] at this
              rw [if_neg (fun e => hk e.symm)]
              omega

/-- A bundle that is a map and is covered by the inventory can be erased. -/
theorem eraseFrom_ok (b : Bundle) (hb : IsMap b) (m : Inv) (h : ∀ k q, (k, q) ∈ b → q ≤ held m k) :
    (eraseFrom b m).2 = false := by
  induction b generalizing m with
  | nil => rfl
  | cons x b ih =>
    obtain ⟨j, v⟩ := x
    have hb' : IsMap b := by unfold IsMap at *; exact (List.nodup_cons.1 hb).2
    have hj : ∀ q, (j, q) ∉ b := by
      intro q hq
      unfold IsMap at hb
      exact (List.nodup_cons.1 hb).1 (List.mem_map.2 ⟨_, hq, rfl⟩)
    have hv := h j v (by simp)
    have step : ∀ w, ∀ k q, (k, q) ∈ b → q ≤ held (m.set j w) k := by
      intro w k q hq
      rw [held_set, if_neg (fun e : k = j => hj q (e ▸ hq))]
      exact h k q (by simp [hq])
    unfold eraseFrom
    split
    · exact ih hb' m (fun k q hq => h k q (by simp [hq]))
    · rename_i h0
      split
      · rename_i hm; simp [held, hm] at hv; omega
      · rename_i a hm
        have ha : held m j = a := by simp [held, hm]
        rw [if_neg (by omega)]
        split
        · exact ih hb' _ (step _)
        · exact ih hb' _ (step _)

theorem eraseFrom_throws (b : Bundle) (hb : IsMap b) (m : Inv) (k q : Nat) (hk : (k, q) ∈ b)
    (hq : held m k < q) : (eraseFrom b m).2 = true := by
  cases h : (eraseFrom b m).2 with
  | true => rfl
  | false =>
    exfalso
    have e : eraseFrom b m = ((eraseFrom b m).1, false) := by rw [← h]
    have := held_eraseFrom b m _ e k
    rw [inBundle_of_mem b hb k q hk] at this
    omega

/-! Totals -/

/-- Update the inventory of one owner. -/
def setOwner (w : Nat → Inv) (o : Nat) (m : Inv) : Nat → Inv := fun p => if p = o then m else w p

theorem total_setOwner (n : Nat) (w : Nat → Inv) (o : Nat) (ho : o < n) (m : Inv) (k : Nat) :
    total n (setOwner w o m) k + held (w o) k = total n w k + held m k := by
  unfold total
  induction n with
  | zero => omega
  | succ n ih =>
    simp only [List.range_succ, List.map_append, List.map_cons, List.map_nil, List.sum_append,
      List.sum_cons, List.sum_nil, Nat.add_zero]
    by_cases h : o = n
    · subst h
      have e : (List.range o).map (fun p => held (setOwner w o m p) k) =
          (List.range o).map (fun p => held (w p) k) := by
        apply List.map_congr_left
        intro p hp
        have : p ≠ o := by simp at hp; omega
        simp [setOwner, this]
      rw [e]
      simp only [setOwner, if_true]
      omega
    · have := ih (by omega)
      have e : setOwner w o m n = w n := by simp [setOwner, Ne.symm h]
      rw [e]
      omega

theorem held_le_total (n : Nat) (w : Nat → Inv) (o : Nat) (ho : o < n) (k : Nat) :
    held (w o) k ≤ total n w k := by
  have := total_setOwner n w o ho Inv.empty k
  have h0 : held Inv.empty k = 0 := rfl
  omega

end Esl.Inventory
