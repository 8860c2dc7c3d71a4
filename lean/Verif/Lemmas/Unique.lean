import Verif.Model.Unique
import Verif.Lemmas.Inventory
import Verif.Lemmas.List
/-! Lemmas for owners of unique property and for whole inventories. -/
namespace Esl.Unique
open Inventory Inventory.Spec

theorem typedErase_apply (isT : Key → Bool) (b : Bundle) (s : Items) (k : Key) :
    typedErase isT b s k = if isT k = true ∧ k ∈ b.map (·.1) then false else s k := by
  induction b generalizing s with
  | nil => simp [typedErase]
  | cons x b ih =>
    obtain ⟨j, q⟩ := x
    rw [typedErase, ih, List.map_cons]
    simp only [List.mem_cons]
    by_cases hj : isT j = true
    · by_cases hk : k = j
      · subst hk; simp [hj, erase]
      · simp [hj, hk, erase]
    · by_cases hk : k = j
      · subst hk; simp [hj]
      · simp [hj, hk]

theorem typedInsert_apply (isT : Key → Bool) (b : Bundle) (s : Items) (k : Key) :
    typedInsert isT b s k = if isT k = true ∧ k ∈ b.map (·.1) then true else s k := by
  induction b generalizing s with
  | nil => simp [typedInsert]
  | cons x b ih =>
    obtain ⟨j, q⟩ := x
    rw [typedInsert, ih, List.map_cons]
    simp only [List.mem_cons]
    by_cases hj : isT j = true
    · by_cases hk : k = j
      · subst hk; simp [hj, insert]
      · simp [hj, hk, insert]
    · by_cases hk : k = j
      · subst hk; simp [hj]
      · simp [hj, hk]

/-- What processing a transfer does to the amount of one item. -/
theorem process_held (isT : Key → Bool) (self : Nat) (o x : Owner) (t : Transfer) (k : Key) (h : o.process isT self t = .ok x)
    (hs : self = t.transferee → t.transferor ≠ t.transferee → held o.inventory k + inBundle t.items k < 2 ^ 64) :
    (t.transferor = t.transferee → held x.inventory k = held o.inventory k) ∧
    (t.transferor ≠ t.transferee → self = t.transferor → held x.inventory k + inBundle t.items k = held o.inventory k) ∧
    (t.transferor ≠ t.transferee → self = t.transferee → held x.inventory k = held o.inventory k + inBundle t.items k) ∧
    x.items = typedCallback isT self o.items t := by
  unfold Owner.process at h
  cases hc : baseCallback self o.inventory t with
  | mk m thrown =>
    rw [hc] at h
    cases thrown with
    | true => simp at h
    | false =>
      simp only [Outcome.ok.injEq] at h
      subst h
      unfold baseCallback at hc
      refine ⟨fun e => ?_, fun e1 e2 => ?_, fun e1 e2 => ?_, rfl⟩
      · rw [if_pos e] at hc
        simp only [Prod.mk.injEq, and_true] at hc
        rw [hc]
      · rw [if_neg e1, if_pos e2] at hc
        exact held_eraseFrom _ _ _ hc k
      · rw [if_neg e1, if_neg (fun e => e1 (e.symm.trans e2)), if_pos e2] at hc
        simp only [Prod.mk.injEq, and_true] at hc
        rw [← hc]
        exact held_insertInto _ _ _ (hs e2 e1)

theorem process_items (isT : Key → Bool) (self : Nat) (o x : Owner) (t : Transfer) (h : o.process isT self t = .ok x) : x.items = typedCallback isT self o.items t := by
  unfold Owner.process at h
  split at h
  · simp only [Outcome.ok.injEq] at h
    rw [← h]
  · simp at h

/-- The inventories of a world. -/
def World.inv (w : World) : Nat → Inv := fun o => (w.owners o).inventory

theorem set_inv (w : World) (o : Nat) (x : Owner) : (w.set o x).inv = setOwner w.inv o x.inventory := by
  funext p
  unfold World.inv World.set setOwner
  simp only
  split <;> rfl

theorem held_insertAll (b : Bundle) (m : Inv) (k : Nat) (h : held m k + inBundle b k < 2 ^ 64) : held (insertAll b m) k = held m k + inBundle b k := by
  induction b generalizing m with
  | nil => simp [insertAll, inBundle_nil]
  | cons x b ih =>
    obtain ⟨j, v⟩ := x
    rw [inBundle_cons] at h ⊢
    have e : held (insertItem m j v) k = held m k + if j = k then v else 0 := by
      unfold insertItem
      by_cases hk : j = k
      · subst hk
        rw [if_pos rfl] at h ⊢
        cases hm : m j with
        | none => simp only; rw [held_set, if_pos rfl]; simp [held, hm]
        | some a =>
          simp only [held, hm, Option.getD_some] at h
          simp only
          rw [held_set, if_pos rfl]
          simp only [held, hm, Option.getD_some]
          exact Nat.mod_eq_of_lt (by omega)
      · rw [if_neg hk]
        cases hm : m j <;> simp [held_set, Ne.symm hk]
    rw [insertAll, ih _ (by omega), e]
    omega

theorem insertAll_some (b : Bundle) (m : Inv) (k : Nat) : (insertAll b m k).isSome = true ↔ (m k).isSome = true ∨ k ∈ b.map (·.1) := by
  induction b generalizing m with
  | nil => simp [insertAll]
  | cons x b ih =>
    obtain ⟨j, v⟩ := x
    have e : (insertItem m j v k).isSome = true ↔ (m k).isSome = true ∨ k = j := by
      unfold insertItem
      by_cases hk : k = j
      · subst hk
        cases hm : m k <;> simp [Inv.set]
      · cases hm : m j <;> simp [Inv.set, hk]
    rw [insertAll, ih, e]
    simp only [List.map_cons, List.mem_cons]
    exact or_assoc

theorem eraseAll_done (b : Bundle) (m m' : Inv) (h : eraseAll b m = (m', .done)) :
    (∀ k, held m' k + inBundle b k = held m k) ∧ (∀ k, (m' k).isSome = (m k).isSome) := by
  induction b generalizing m with
  | nil =>
    simp only [eraseAll, Prod.mk.injEq, and_true] at h
    subst h
    exact ⟨fun k => by rw [inBundle_nil]; rfl, fun _ => rfl⟩
  | cons x b ih =>
    obtain ⟨j, v⟩ := x
    rw [eraseAll] at h
    unfold eraseItem at h
    cases hm : m j with
    | none =>
      rw [hm] at h
      by_cases hv : v > 0 <;> simp [hv] at h
    | some a =>
      rw [hm] at h
      by_cases hv : a < v
      · simp [hv] at h
      · simp only [if_neg hv] at h
        obtain ⟨i1, i2⟩ := ih _ h
        refine ⟨fun k => ?_, fun k => ?_⟩
        · have := i1 k
          rw [held_set] at this
          rw [inBundle_cons]
          by_cases hk : k = j
          · subst hk
            simp only [if_true, Option.getD_some] at this ⊢
            have : held m k = a := by simp [held, hm]
            omega
          · simp only [if_neg hk, if_neg (Ne.symm hk)] at this ⊢
            omega
        · rw [i2]
          unfold Inv.set
          split
          · rename_i hk; subst hk; simp [hm]
          · rfl

theorem eraseAll_ok (b : Bundle) (hb : IsMap b) (m : Inv) (h : ∀ k q, (k, q) ∈ b → ∃ a, m k = some a ∧ q ≤ a) : (eraseAll b m).2 = .done := by
  induction b generalizing m with
  | nil => rfl
  | cons x b ih =>
    obtain ⟨j, v⟩ := x
    obtain ⟨a, e, hv⟩ := h j v (by simp)
    unfold IsMap at hb
    rw [List.map_cons, List.nodup_cons] at hb
    rw [eraseAll]
    unfold eraseItem
    rw [e]
    simp only [if_neg (by omega : ¬ a < v)]
    refine ih hb.2 _ (fun k q hk => ?_)
    obtain ⟨a', e', hq⟩ := h k q (by simp [hk])
    refine ⟨a', ?_, hq⟩
    have : k ≠ j := by
      rintro rfl
      exact hb.1 (List.mem_map.mpr ⟨_, hk, rfl⟩)
    simp [Inv.set, this, e']

theorem insertSet_apply (l : List Key) (s : Items) (k : Key) : insertSet s l k = (s k || decide (k ∈ l)) := by
  unfold insertSet
  induction l generalizing s with
  | nil => simp
  | cons j l ih =>
    rw [List.foldl_cons, ih]
    unfold insert
    by_cases hk : k = j
    · simp [hk]
    · simp [hk]

theorem insertSetInto_ok (l : List Key) (hl : l.Nodup) (m : Inv) (h : ∀ k ∈ l, m k = none) :
    insertSetInto l m = ((fun k => if k ∈ l then some 1 else m k), false) := by
  induction l generalizing m with
  | nil => simp [insertSetInto]
  | cons j l ih =>
    rw [List.nodup_cons] at hl
    rw [insertSetInto, h j (by simp)]
    simp only
    rw [ih hl.2 _ (fun k hk => ?_)]
    · refine Prod.ext (funext fun k => ?_) rfl
      simp only [Inv.set, List.mem_cons]
      by_cases hk : k = j
      · subst hk; simp [hl.1]
      · simp [hk]
    · have : k ≠ j := fun e => hl.1 (e ▸ hk)
      simp [Inv.set, this, h k (by simp [hk])]

theorem insertSetInto_throws (l : List Key) (m : Inv) (k : Key) (hk : k ∈ l) (h : (m k).isSome = true) : (insertSetInto l m).2 = true := by
  induction l generalizing m with
  | nil => simp at hk
  | cons j l ih =>
    rw [insertSetInto]
    cases hj : m j with
    | some _ => rfl
    | none =>
      simp only
      have : k ≠ j := by rintro rfl; rw [hj] at h; simp at h
      refine ih _ (by simpa [this] using hk) ?_
      simp [Inv.set, this, h]

end Esl.Unique
