import Verif.Model.Callbacks
/-!
C154: messages are handled by functions written in Python.
-/
namespace Esl.Callbacks

theorem destroyed {φ : Type} (m : Memory φ) (i : Nat) (h : m[i]? = some none) (l : List (Action φ)) : (run m l)[i]? = some none := by
  induction l generalizing m with
  | nil => exact h
  | cons x l ih =>
    cases x with
    | create f =>
      apply ih
      have hi : i < m.length := by
        rcases Nat.lt_or_ge i m.length with h' | h'
        · exact h'
        · rw [List.getElem?_eq_none h'] at h; cases h
      rw [create, List.getElem?_append_left hi]
      exact h
    | destroy j =>
      apply ih
      rw [destroy, List.getElem?_set]
      by_cases hj : j = i
      · subst hj
        rw [if_pos rfl]
        rw [if_pos]
        rcases Nat.lt_or_ge j m.length with h' | h'
        · exact h'
        · rw [List.getElem?_eq_none h'] at h; cases h
      · rw [if_neg hj]
        exact h

/-- **C154 is violated**: the handle of a Python function refers to a variable of `make_callback_handle`, which exists no more when the handle is returned. Whatever happens in the meantime, using the handle is undefined behaviour, for every function and every message. -/
theorem C154_counterexample_handle {φ μ : Type} (apply : φ → μ → Python.Returned) (m : Memory φ) (f : φ) (l : List (Action φ)) (message : μ) :
    callHandle apply (run (makeHandle m f).1 l) (makeHandle m f).2 message = .ub := by
  have h : (makeHandle m f).1[(makeHandle m f).2]? = some none := by
    simp [makeHandle, create, destroy]
  unfold callHandle
  rw [destroyed _ _ h l]

/-- **C154 is violated**: `esl.interaction.callback` raises an exception for all arguments, because `callback_t` has no constructor with arguments. -/
theorem C154_counterexample_callback {φ : Type} (m : Memory φ) (f : φ) (description message file : List Char) (line : Nat) : (callback m f description message file line).2 = .throws := by
  simp [callback, callbackT]

/-- **C154 (partial)**: as long as the variable exists that a handle refers to, the handle calls the function in it with the message, and goes on at the time that the function returns; if it returns nothing or something else, an exception is raised. Missing: a handle whose variable
exists (see the counterexample). -/
theorem C154_handle_partial {φ μ : Type} (apply : φ → μ → Python.Returned) (m : Memory φ) (i : Nat) (f : φ) (h : m[i]? = some (some f)) (message : μ) :
    (∀ t, apply f message = .time t → t < 2 ^ 64 → callHandle apply m i message = .ok t) ∧ ((∀ t, apply f message ≠ .time t) → callHandle apply m i message = .throws) := by
  unfold callHandle
  rw [h]
  constructor
  · intro t ht h64
    simp [ht, h64]
  · intro hn
    cases ha : apply f message with
    | time t => exact absurd ha (hn t)
    | none => simp [ha]
    | other => simp [ha]

/-- **C154 (partial)**: handles of functions that are made one after the other are different, and making one changes no other. -/
theorem C154_different_partial {φ : Type} (m : Memory φ) (f : φ) : ∀ i, i < m.length → (makeHandle m f).2 ≠ i ∧ (makeHandle m f).1[i]? = m[i]? := by
  intro i hi
  refine ⟨by simp [makeHandle]; omega, ?_⟩
  simp only [makeHandle, create, destroy]
  rw [List.getElem?_set, if_neg (by omega), List.getElem?_append_left hi]

example : callHandle (fun (k : Nat) (m : Nat) => .time (k + m)) (makeHandle [some 1] 2).1 (makeHandle [some 1] 2).2 3 = .ub := by decide

example : callHandle (fun (k : Nat) (m : Nat) => .time (k + m)) [some 1] 0 3 = .ok 4 := by decide

/-- **C154 (partial)**: a variable that was created for a function holds it, whatever other variables are created or destroyed, until it is destroyed itself. Missing: as above. -/
theorem C154_kept_partial {φ : Type} (m : Memory φ) (f : φ) (l : List (Action φ)) (h : ∀ i, Action.destroy i ∈ l → i ≠ m.length) : (run (create m f) l)[m.length]? = some (some f) := by
  have key : ∀ (l : List (Action φ)) (n : Memory φ) (j : Nat), (∀ i, Action.destroy i ∈ l → i ≠ j) → n[j]? = some (some f) → (run n l)[j]? = some (some f) := by
    intro l
    induction l with
    | nil => exact fun n j _ hn => hn
    | cons a l ih =>
      intro n j hd hn
      have hd' : ∀ i, Action.destroy i ∈ l → i ≠ j := fun i hi => hd i (List.mem_cons_of_mem _ hi)
      cases a with
      | create g =>
        refine ih _ _ hd' ?_
        have hj : j < n.length := by
          by_cases hj : j < n.length
          · exact hj
          · rw [List.getElem?_eq_none (by omega)] at hn; simp at hn
        rw [create, List.getElem?_append_left hj, hn]
      | destroy i =>
        refine ih _ _ hd' ?_
        have hi := hd i (by simp)
        rw [destroy, List.getElem?_set, if_neg hi, hn]
  refine key l _ _ h ?_
  rw [create, List.getElem?_append_right (Nat.le_refl _)]
  simp

example : callHandle (fun (k : Nat) (m : Nat) => .time (k + m)) (run (create [some 1] 2) [.create 5, .destroy 0]) 1 3 = .ok 5 := by decide

end Esl.Callbacks
