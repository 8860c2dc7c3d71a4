import Verif.Model.Announcements
/-! # C74, C138: announcing new and deleted agents to the environment -/
namespace Esl.Announce

/-- How a `std::vector` grows: a full buffer is replaced by a larger one of at most twice the size, and the first buffer has one element. -/
def Spec.Growth (grow : Nat → Nat) : Prop := grow 0 = 1 ∧ ∀ c, 0 < c → c < grow c ∧ grow c ≤ 2 * c

/-- The growth of the vectors of libstdc++ and libc++, and one by half as much. -/
example : Spec.Growth (fun c => if c = 0 then 1 else 2 * c) ∧ Spec.Growth (fun c => if c < 2 then c + 1 else c + c / 2) := by
  refine ⟨⟨rfl, fun c h => ?_⟩, ⟨rfl, fun c h => ?_⟩⟩
  · simp only; split <;> omega
  · simp only; split <;> omega

theorem grow_pos {grow : Nat → Nat} (hg : Spec.Growth grow) (c : Nat) : c < grow c := by
  by_cases h : c = 0
  · subst h; rw [hg.1]; omega
  · exact (hg.2 c (by omega)).1

/-- The loop without a move of the buffer, or with one in its last round. -/
theorem loop_ok (grow : Nat → Nat) (l : List Nat) (c rest : Nat) (hr : rest ≤ l.length) (hc : 2 * l.length ≤ c + 1) :
    loop grow l.length rest true ⟨l ++ l.take (l.length - rest), c⟩ = .ok (⟨l ++ l, if rest ≠ 0 ∧ c < 2 * l.length then grow c else c⟩, l.length) := by
  induction rest with
  | zero => simp [loop]
  | succ rest ih =>
    have hk : l.length - (rest + 1) < l.length := by omega
    have hlen : (l ++ l.take (l.length - (rest + 1))).length = 2 * l.length - (rest + 1) := by
      rw [List.length_append, List.length_take]; omega
    have hget : (l ++ l.take (l.length - (rest + 1))).getD (l.length - (rest + 1)) 0 = l[l.length - (rest + 1)] := by
      rw [List.getD_eq_getElem?_getD, List.getElem?_append_left hk, List.getElem?_eq_getElem hk]; rfl
    have happ : (l ++ l.take (l.length - (rest + 1))) ++ [l[l.length - (rest + 1)]] = l ++ l.take (l.length - rest) := by
      rw [List.append_assoc, List.take_append_getElem hk]
      congr 2; omega
    rw [loop, if_pos rfl]
    unfold Vec.push
    simp only [hget, happ, hlen]
    by_cases hlt : 2 * l.length - (rest + 1) < c
    · rw [if_pos hlt]
      simp only [Bool.not_false]
      rw [ih (by omega)]
      by_cases h : c < 2 * l.length
      · rw [if_pos ⟨by omega, h⟩, if_pos ⟨by omega, h⟩]
      · rw [if_neg (fun x => h x.2), if_neg (fun x => h x.2)]
    · rw [if_neg hlt]
      have h0 : rest = 0 := by omega
      subst h0
      rw [if_pos ⟨by omega, by omega⟩]
      simp [loop]

/-- The loop with a move of the buffer before its last round. -/
theorem loop_ub (grow : Nat → Nat) (n rest : Nat) (v : Vec) (h2 : v.capacity + 1 < v.elements.length + rest) (hlen : v.elements.length ≤ v.capacity) : loop grow n rest true v = .ub := by
  induction rest generalizing v with
  | zero => omega
  | succ rest ih =>
    rw [loop, if_pos rfl]
    unfold Vec.push
    by_cases hlt : v.elements.length < v.capacity
    · rw [if_pos hlt]
      simp only [Bool.not_false]
      exact ih _ (by simp; omega) (by simp; omega)
    · rw [if_neg hlt]
      simp only [Bool.not_true]
      cases rest with
      | zero => omega
      | succ r => rw [loop, if_neg (by simp)]

theorem loop_start (grow : Nat → Nat) (v : Vec) (h : 2 * v.elements.length ≤ v.capacity + 1) :
    loop grow v.elements.length v.elements.length true v = .ok (⟨v.elements ++ v.elements, if v.elements.length ≠ 0 ∧ v.capacity < 2 * v.elements.length then grow v.capacity else v.capacity⟩, v.elements.length) := by
  have := loop_ok grow v.elements v.capacity v.elements.length (Nat.le_refl _) h
  rwa [Nat.sub_self, List.take_zero, List.append_nil] at this

/-- Announcing keeps the order, and gives a buffer that is never twice as large as needed. -/
theorem announce_new (grow : Nat → Nat) (hg : Spec.Growth grow) (l : List Nat) :
    (Vec.new.announce grow l).elements = l ∧ l.length ≤ (Vec.new.announce grow l).capacity ∧ (l.length ≤ 1 → (Vec.new.announce grow l).capacity = l.length) ∧
      (2 ≤ l.length → (Vec.new.announce grow l).capacity ≤ 2 * l.length - 2) := by
  suffices h : ∀ r : List Nat, (Vec.new.announce grow r.reverse).elements = r.reverse ∧ r.length ≤ (Vec.new.announce grow r.reverse).capacity ∧
      (r.length ≤ 1 → (Vec.new.announce grow r.reverse).capacity = r.length) ∧ (2 ≤ r.length → (Vec.new.announce grow r.reverse).capacity ≤ 2 * r.length - 2) by
    have := h l.reverse
    simpa using this
  intro r
  induction r with
  | nil => exact ⟨rfl, Nat.le_refl _, fun _ => rfl, fun h => by simp at h⟩
  | cons x r ih =>
    obtain ⟨h1, h2, h3, h4⟩ := ih
    have e : Vec.new.announce grow (x :: r).reverse = ((Vec.new.announce grow r.reverse).push grow x).1 := by
      simp [Vec.announce]
    rw [e]
    generalize Vec.new.announce grow r.reverse = v at *
    have hl : v.elements.length = r.length := by rw [h1]; simp
    unfold Vec.push
    by_cases hlt : v.elements.length < v.capacity
    · rw [if_pos hlt]
      refine ⟨by simp [h1], by simp; omega, fun h => ?_, fun h => ?_⟩
      · simp only [List.length_cons] at h ⊢
        have := h3 (by omega); omega
      · simp only [List.length_cons] at h ⊢
        by_cases hr : r.length ≤ 1
        · have := h3 hr; omega
        · have := h4 (by omega); omega
    · rw [if_neg hlt]
      have hc : v.capacity = r.length := by omega
      have hg0 := hg.1
      refine ⟨by simp [h1], ?_, fun h => ?_, fun h => ?_⟩
      · have := grow_pos hg v.capacity
        simp only [List.length_cons]; omega
      · simp only [List.length_cons] at h ⊢
        have : r.length = 0 := by omega
        rw [hc, this, hg0]
      · simp only [List.length_cons] at h ⊢
        have := (hg.2 v.capacity (by omega)).2
        omega

/-! ## C74 -/

/-- **C74, exactly when (partial).** Processing a list of announced agents reads no freed memory exactly if its buffer has room for twice as many agents less one. It then returns the number of agents announced and leaves the list empty.
Missing: all other lists, which are those of every new environment with two or more agents, by `C74_counterexample_freed`. -/
theorem C74_room_partial (grow : Nat → Nat) (v : Vec) (hlen : v.elements.length ≤ v.capacity) :
    ((∃ r, activate grow v = .ok r) ↔ 2 * v.elements.length ≤ v.capacity + 1) ∧ (activate grow v = .ub ↔ v.capacity + 1 < 2 * v.elements.length) ∧
    (∀ w n, activate grow v = .ok (w, n) → w.elements = [] ∧ n = v.elements.length) := by
  unfold activate
  by_cases h : 2 * v.elements.length ≤ v.capacity + 1
  · rw [loop_start grow v h]
    refine ⟨⟨fun _ => h, fun _ => ⟨_, rfl⟩⟩, ⟨fun x => by simp at x, fun x => by omega⟩, fun w n hw => ?_⟩
    simp only [Outcome.ok.injEq, Prod.mk.injEq] at hw
    obtain ⟨rfl, rfl⟩ := hw
    exact ⟨rfl, rfl⟩
  · rw [loop_ub grow _ _ v (by omega) hlen]
    exact ⟨⟨fun ⟨_, x⟩ => by simp at x, fun x => absurd x h⟩, ⟨fun _ => by omega, fun _ => rfl⟩, fun _ _ x => by simp at x⟩

/-- Three agents in a buffer for five, and for four. -/
example : activate (2 * ·) ⟨[7, 8, 9], 5⟩ = .ok (⟨[], 10⟩, 3) ∧ activate (2 * ·) ⟨[7, 8, 9], 4⟩ = .ub := by decide

/-- **C74 (negation, at the level of memory).** Announce any two or more agents to a new environment, then process them: however the vector grows, as long as it at most doubles, this reads memory that was freed. -/
theorem C74_counterexample_freed (grow : Nat → Nat) (hg : Spec.Growth grow) (l : List Nat) (h : 2 ≤ l.length) : activate grow (Vec.new.announce grow l) = .ub := by
  obtain ⟨h1, h2, -, h4⟩ := announce_new grow hg l
  have := h4 h
  exact (C74_room_partial grow _ (by rw [h1]; exact h2)).2.1.2 (by rw [h1]; omega)

/-- **C74 (partial).** A single agent, or none, is processed: their number is returned and the list is empty afterwards. -/
theorem C74_one_partial (grow : Nat → Nat) (hg : Spec.Growth grow) (l : List Nat) (h : l.length ≤ 1) : ∃ c, activate grow (Vec.new.announce grow l) = .ok (⟨[], c⟩, l.length) := by
  obtain ⟨h1, h2, h3, -⟩ := announce_new grow hg l
  have h3 := h3 h
  have p := C74_room_partial grow (Vec.new.announce grow l) (by rw [h1]; exact h2)
  obtain ⟨⟨⟨e, c⟩, n⟩, hr⟩ := p.1.2 (by rw [h1]; omega)
  obtain ⟨q1, q2⟩ := p.2.2 _ _ hr
  simp only at q1
  rw [h1] at q2
  exact ⟨c, by rw [hr, q1, q2]⟩

/-- One agent, and two, with a vector that doubles. -/
example : activate (fun c => if c = 0 then 1 else 2 * c) (Vec.new.announce (fun c => if c = 0 then 1 else 2 * c) [5]) = .ok (⟨[], 2⟩, 1) ∧
    activate (fun c => if c = 0 then 1 else 2 * c) (Vec.new.announce (fun c => if c = 0 then 1 else 2 * c) [5, 6]) = .ub := by decide

/-! ## C138 -/

/-- **C138 (partial).** Processing a list of deleted agents reads no freed memory exactly if its buffer has room for twice as many agents less one, and then returns their number. Missing: they are not removed from the list, see below. -/
theorem C138_room_partial (grow : Nat → Nat) (v : Vec) (hlen : v.elements.length ≤ v.capacity) :
    ((∃ r, deactivate grow v = .ok r) ↔ 2 * v.elements.length ≤ v.capacity + 1) ∧ (deactivate grow v = .ub ↔ v.capacity + 1 < 2 * v.elements.length) ∧
    (∀ w n, deactivate grow v = .ok (w, n) → n = v.elements.length) := by
  unfold deactivate
  by_cases h : 2 * v.elements.length ≤ v.capacity + 1
  · rw [loop_start grow v h]
    refine ⟨⟨fun _ => h, fun _ => ⟨_, rfl⟩⟩, ⟨fun x => by simp at x, fun x => by omega⟩, fun w n hw => ?_⟩
    simp only [Outcome.ok.injEq, Prod.mk.injEq] at hw
    exact hw.2.symm
  · rw [loop_ub grow _ _ v (by omega) hlen]
    exact ⟨⟨fun ⟨_, x⟩ => by simp at x, fun x => absurd x h⟩, ⟨fun _ => by omega, fun _ => rfl⟩, fun _ _ x => by simp at x⟩

/-- **C138 (negation).** Whenever processing the deleted agents is well defined, every one of them is in the list twice as often afterwards: none is ever done with. -/
theorem C138_counterexample_twice (grow : Nat → Nat) (v w : Vec) (n : Nat) (hlen : v.elements.length ≤ v.capacity) (h : deactivate grow v = .ok (w, n)) :
    w.elements = v.elements ++ v.elements ∧ ∀ a, w.elements.count a = 2 * v.elements.count a := by
  have hroom := (C138_room_partial grow v hlen).1.1 ⟨_, h⟩
  unfold deactivate at h
  rw [loop_start grow v hroom] at h
  simp only [Outcome.ok.injEq, Prod.mk.injEq] at h
  obtain ⟨rfl, -⟩ := h
  exact ⟨rfl, fun a => by simp only [List.count_append]; omega⟩

/-- The length never exceeds the capacity afterwards. -/
theorem deactivate_fits (grow : Nat → Nat) (hg : Spec.Growth grow) (v w : Vec) (n : Nat) (hlen : v.elements.length ≤ v.capacity) (h : deactivate grow v = .ok (w, n)) : w.elements.length ≤ w.capacity := by
  have hroom := (C138_room_partial grow v hlen).1.1 ⟨_, h⟩
  unfold deactivate at h
  rw [loop_start grow v hroom] at h
  simp only [Outcome.ok.injEq, Prod.mk.injEq] at h
  obtain ⟨rfl, -⟩ := h
  simp only [List.length_append]
  have := grow_pos hg v.capacity
  split <;> omega

/-- **C138 (negation, over time).** As long as the steps are well defined, step `i` counts every agent deleted before the first step `2 ^ i` times. -/
theorem C138_counterexample_growth (grow : Nat → Nat) (hg : Spec.Growth grow) (k : Nat) (v w : Vec) (ns : List Nat) (hlen : v.elements.length ≤ v.capacity) (h : deactivations grow k v = .ok (w, ns)) :
    ns = (List.range k).map (fun i => 2 ^ i * v.elements.length) ∧ ∀ a, w.elements.count a = 2 ^ k * v.elements.count a := by
  induction k generalizing v ns with
  | zero =>
    simp only [deactivations, Outcome.ok.injEq, Prod.mk.injEq] at h
    obtain ⟨rfl, rfl⟩ := h
    exact ⟨rfl, fun a => by simp⟩
  | succ k ih =>
    rw [deactivations] at h
    cases hd : deactivate grow v with
    | throws => rw [hd] at h; simp at h
    | ub => rw [hd] at h; simp at h
    | ok r =>
      obtain ⟨v', n⟩ := r
      rw [hd] at h
      simp only at h
      cases hk : deactivations grow k v' with
      | throws => rw [hk] at h; simp at h
      | ub => rw [hk] at h; simp at h
      | ok r =>
        obtain ⟨w', ns'⟩ := r
        rw [hk] at h
        simp only [Outcome.ok.injEq, Prod.mk.injEq] at h
        obtain ⟨rfl, rfl⟩ := h
        obtain ⟨t1, t2⟩ := C138_counterexample_twice grow v v' n hlen hd
        obtain ⟨i1, i2⟩ := ih v' ns' (deactivate_fits grow hg v v' n hlen hd) hk
        have hn := (C138_room_partial grow v hlen).2.2 _ _ hd
        refine ⟨?_, fun a => ?_⟩
        · rw [i1, List.range_succ_eq_map, List.map_cons, List.map_map, hn, t1]
          simp only [Nat.pow_zero, Nat.one_mul, List.length_append, List.cons.injEq, true_and]
          apply List.map_congr_left
          intro i _
          simp only [Function.comp, Nat.succ_eq_add_one, Nat.pow_succ]
          rw [Nat.mul_assoc, ← Nat.two_mul]
        · rw [i2, t2, Nat.pow_succ, Nat.mul_assoc]

/-- Two agents in a large buffer: the third step counts eight. -/
example : deactivations (2 * ·) 3 ⟨[4, 6], 100⟩ = .ok (⟨[4, 6, 4, 6, 4, 6, 4, 6, 4, 6, 4, 6, 4, 6, 4, 6], 100⟩, [2, 4, 8]) := by decide

/-- **C138 (negation, at the level of memory).** Delete any number of agents in a new environment: at the latest the second step reads memory that was freed, however the vector grows as long as it at most doubles. -/
theorem C138_counterexample_freed (grow : Nat → Nat) (hg : Spec.Growth grow) (l : List Nat) (h : l ≠ []) (k : Nat) : deactivations grow (k + 2) (Vec.new.announce grow l) = .ub := by
  obtain ⟨h1, h2, h3, h4⟩ := announce_new grow hg l
  have hpos : 0 < l.length := List.length_pos_iff.2 h
  generalize hv : Vec.new.announce grow l = v at *
  subst h1
  have p := C138_room_partial grow v h2
  rw [deactivations]
  by_cases hl : 2 ≤ v.elements.length
  · have := h4 hl
    rw [p.2.1.2 (by omega)]
  · have hone : v.elements.length = 1 := by omega
    have hcap := h3 (by omega)
    have hgc := (hg.2 v.capacity (by omega)).2
    have e : deactivate grow v = .ok (⟨v.elements ++ v.elements, grow v.capacity⟩, v.elements.length) := by
      unfold deactivate
      rw [loop_start grow v (by omega), if_pos ⟨by omega, by omega⟩]
    have hfit := deactivate_fits grow hg v _ _ h2 e
    rw [e]
    simp only
    rw [deactivations, (C138_room_partial grow _ hfit).2.1.2 (by simp only [List.length_append]; omega)]

/-- **C138 (partial).** If no agent was deleted, every step counts none and leaves the list empty. -/
theorem C138_none_partial (grow : Nat → Nat) (k : Nat) : deactivations grow k Vec.new = .ok (Vec.new, List.replicate k 0) := by
  induction k with
  | zero => rfl
  | succ k ih =>
    have : deactivate grow Vec.new = .ok (Vec.new, 0) := rfl
    rw [deactivations, this]
    simp only [ih, List.replicate_succ]

/-- One deleted agent: the first step is survived, the second is not. -/
example : deactivations (fun c => if c = 0 then 1 else 2 * c) 1 (Vec.new.announce (fun c => if c = 0 then 1 else 2 * c) [5]) = .ok (⟨[5, 5], 2⟩, [1]) ∧
    deactivations (fun c => if c = 0 then 1 else 2 * c) 2 (Vec.new.announce (fun c => if c = 0 then 1 else 2 * c) [5]) = .ub := by decide

end Esl.Announce
