import Verif.Lemmas.BlockingQueue
/-!
C50, C51: the blocking queue under every interleaving of any number of threads.

`entered` and `left` record the order in which elements went into the queue and came out of it; `accepted` the elements whose `push` has returned, `returned` the results of the calls of `pop` and
`try_pop` that have returned (`none` for `false`).
-/
namespace Esl.BQueue

variable {α : Type}

namespace Spec

/-- No operation is in progress. -/
def Resting (s : Sys α) : Prop := ∀ p ∈ s.threads, p = .idle

/-- Nothing can happen, except that threads begin operations and that `wait` returns for no reason. -/
def Quiescent (s : Sys α) : Prop := ∀ t, s.step (.run t) = none ∧ s.step (.tryFails t) = none ∧ ∀ w, s.step (.notify t w) = none

/-- The elements that the consumers got. -/
def got (s : Sys α) : List α := s.returned.filterMap id

/-- The beginning of an operation that puts `x` into the queue. -/
def starts [DecidableEq α] (x : α) : Act α → Bool
  | .start _ (.push y) => y = x
  | .start _ (.tryPush y) => y = x
  | _ => false

/-- The beginning of `try_push` of `x`. -/
def tries [DecidableEq α] (x : α) : Act α → Bool
  | .start _ (.tryPush y) => y = x
  | _ => false

end Spec

theorem count_filterMap_id [DecidableEq α] (l : List (Option α)) (x : α) : (l.filterMap id).count x = l.count (some x) := by
  induction l with
  | nil => rfl
  | cons a l ih => cases a <;> simp [List.count_cons, ih]

theorem steps_induct {P : Sys α → Prop} (hP : ∀ s a s', P s → s.step a = some s' → P s') :
    ∀ (as : List (Act α)) (s s' : Sys α), P s → s.steps as = some s' → P s' := by
  intro as
  induction as with
  | nil => intro s s' h hs; injection hs with hs; exact hs ▸ h
  | cons a as ih =>
    intro s s' h hs
    simp only [Sys.steps] at hs
    cases h1 : s.step a with
    | none => rw [h1] at hs; cases hs
    | some s1 => rw [h1] at hs; exact ih s1 s' (hP s a s1 h h1) hs

theorem reachable_steps {n : Nat} {s s' : Sys α} (as : List (Act α)) (h : Reachable n s) (hs : s.steps as = some s') : Reachable n s' :=
  steps_induct (P := Reachable n) (fun _ a _ h1 h2 => .step a h1 h2) as s s' h hs

/-! ## Order -/

/-- **C50, order.** At every moment, the elements that have entered the queue are those that have left it, followed by those in it: the first element in is the first out. -/
theorem C50_fifo {n : Nat} {s : Sys α} (h : Reachable n s) : s.entered = s.left ++ s.queue := by
  classical exact h.inv.fifo

theorem step_prefix {s s' : Sys α} {a : Act α} (hs : s.step a = some s') : s.entered <+: s'.entered ∧ s.left <+: s'.left ∧ (s.closed = true → s'.closed = true) := by
  have hlk : ∀ (t : Nat) (pc : PC α), s.lock t pc = some s' → s.entered <+: s'.entered ∧ s.left <+: s'.left ∧ (s.closed = true → s'.closed = true) := by
    intro t pc he
    unfold Sys.lock at he
    split at he
    · injection he with he; subst he; simp [Sys.go]
    · cases he
  cases a with
  | run t =>
    simp only [Sys.step] at hs
    split at hs
    · rename_i pc _
      cases pc <;> simp only [Sys.run] at hs <;> first
        | cases hs; done
        | exact hlk _ _ hs
        | (injection hs with hs; subst hs; simp [Sys.go]; done)
        | (injection hs with hs; subst hs; unfold Sys.tryLock; split <;> simp [Sys.go]; done)
        | (injection hs with hs; subst hs; split <;> simp [Sys.go]; done)
        | (split at hs <;> injection hs with hs <;> subst hs <;> simp [Sys.go]; done)
    · cases hs
  | start t op => simp only [Sys.step] at hs; split at hs <;> first | cases hs; done | (injection hs with hs; subst hs; simp [Sys.go])
  | notify t w =>
    simp only [Sys.step] at hs
    split at hs
    · cases w with
      | none => simp only at hs; split at hs <;> first | cases hs; done | (injection hs with hs; subst hs; simp [Sys.go])
      | some w => simp only at hs; split at hs <;> first | cases hs; done | (injection hs with hs; subst hs; simp [Sys.go])
    · cases hs
  | tryFails t => simp only [Sys.step] at hs; split at hs <;> first | cases hs; done | (injection hs with hs; subst hs; simp [Sys.go])
  | wakes t => simp only [Sys.step] at hs; split at hs <;> first | cases hs; done | (injection hs with hs; subst hs; simp [Sys.go])

/-- **C50, order in time.** What happens later is recorded later: an element whose `push` has returned comes before every element that enters afterwards. -/
theorem C50_order_in_time [DecidableEq α] {n : Nat} {s s' : Sys α} (as : List (Act α)) (h : Reachable n s) (hs : s.steps as = some s') :
    s.entered <+: s'.entered ∧ s.left <+: s'.left ∧ (∀ x ∈ s.accepted, x ∈ s.entered) ∧ (∀ x, some x ∈ s.returned → x ∈ s.left) := by
  have hp := steps_induct (P := fun s1 => s.entered <+: s1.entered ∧ s.left <+: s1.left)
    (fun s1 a s2 h1 h2 => ⟨h1.1.trans (step_prefix h2).1, h1.2.trans (step_prefix h2).2.1⟩) as s s' ⟨List.prefix_refl _, List.prefix_refl _⟩ hs
  refine ⟨hp.1, hp.2, fun x hx => ?_, fun x hx => ?_⟩
  · have := h.inv.push x
    have := List.count_pos_iff.2 hx
    exact List.count_pos_iff.1 (by omega)
  · have := h.inv.pops x
    have := List.count_pos_iff.2 hx
    exact List.count_pos_iff.1 (by omega)

/-! ## Nothing is lost, nothing is popped twice -/

/-- **C50, at most once.** At every moment, an element has been returned by `pop` at most as often as it has entered the queue, and what has been returned or is in the queue has been put there. -/
theorem C50_at_most_once [DecidableEq α] {n : Nat} {s : Sys α} (h : Reachable n s) (x : α) :
    (Spec.got s).count x + s.queue.count x ≤ s.entered.count x ∧ s.accepted.count x ≤ s.entered.count x := by
  have h1 := h.inv.push x
  have h2 := h.inv.pops x
  have h3 := congrArg (List.count x) h.inv.fifo
  rw [List.count_append] at h3
  unfold Spec.got
  rw [count_filterMap_id]
  omega

/-- **C50, nothing is lost.** Whenever no operation is in progress, the elements pushed are those popped and those in the queue. -/
theorem C50_conserved {n : Nat} {s : Sys α} (h : Reachable n s) (hr : Spec.Resting s) : s.accepted.Perm (Spec.got s ++ s.queue) ∧ s.accepted.Perm s.entered ∧ (Spec.got s).Perm s.left := by
  classical
  have hz : ∀ w : PC α → Nat, w .idle = 0 → sumW w s.threads = 0 := by
    intro w hw
    apply sumW_zero
    intro p hp
    rw [hr p hp]; exact hw
  have h1 := h.inv.push
  have h2 := h.inv.pops
  have h3 := h.inv.fifo
  have e1 : s.accepted.Perm s.entered := by
    rw [List.perm_iff_count]
    intro x
    rw [h1 x, hz _ rfl]; rfl
  have e2 : (Spec.got s).Perm s.left := by
    rw [List.perm_iff_count]
    intro x
    unfold Spec.got
    rw [count_filterMap_id, h2 x, hz _ rfl]; rfl
  refine ⟨?_, e1, e2⟩
  have e3 := e2.append_right s.queue
  rw [← h3] at e3
  exact e1.trans e3.symm

/-- The thread is going to put `x` into the queue. -/
def PC.will [DecidableEq α] (x : α) : PC α → Nat
  | .pushLock y | .tryPush y | .pushBody y => if y = x then 1 else 0
  | _ => 0

/-- The thread tries to push `x`. -/
def PC.trying [DecidableEq α] (x : α) : PC α → Nat
  | .tryPush y => if y = x then 1 else 0
  | _ => 0

theorem step_will [DecidableEq α] (x : α) {s s' : Sys α} {a : Act α} (hs : s.step a = some s') :
    s'.entered.count x + sumW (PC.will x) s'.threads ≤ s.entered.count x + sumW (PC.will x) s.threads + (if Spec.starts x a then 1 else 0) ∧
    sumW (PC.trying x) s'.threads ≤ sumW (PC.trying x) s.threads + (if Spec.tries x a then 1 else 0) ∧
    (sumW (PC.trying x) s.threads = 0 →
      s'.entered.count x + sumW (PC.will x) s'.threads = s.entered.count x + sumW (PC.will x) s.threads + (if Spec.starts x a then 1 else 0)) := by
  have hset : ∀ (t : Nat) (pc pc' : PC α), s.threads[t]? = some pc →
      sumW (PC.will x) (s.threads.set t pc') + pc.will x = sumW (PC.will x) s.threads + pc'.will x ∧
      sumW (PC.trying x) (s.threads.set t pc') + pc.trying x = sumW (PC.trying x) s.threads + pc'.trying x ∧ pc.trying x ≤ sumW (PC.trying x) s.threads :=
    fun t pc pc' h => ⟨sumW_set _ _ _ _ _ h, sumW_set _ _ _ _ _ h, le_sumW _ _ _ _ h⟩
  have hlk : ∀ (t : Nat) (pc pc' : PC α), s.threads[t]? = some pc → s.lock t pc' = some s' →
      s'.entered = s.entered ∧ s'.threads = s.threads.set t pc' := by
    intro t pc pc' _ he
    unfold Sys.lock at he
    split at he
    · injection he with he; subst he; exact ⟨rfl, rfl⟩
    · cases he
  cases a with
  | start t op =>
    simp only [Sys.step] at hs
    split at hs
    · rename_i ht
      injection hs with hs; subst hs
      obtain ⟨e1, e2, e3⟩ := hset t .idle op.pc ht
      cases op <;> simp only [PC.will, PC.trying, Op.pc, Sys.go, Spec.starts, Spec.tries, decide_eq_true_eq] at * <;> (try simp only [Bool.false_eq_true, if_false]) <;> omega
    · cases hs
  | run t =>
    simp only [Sys.step] at hs
    split at hs
    · rename_i pc ht
      simp only [Spec.starts, Spec.tries, Bool.false_eq_true, if_false, Nat.add_zero]
      cases pc with
      | idle => cases hs
      | notifyOne y => cases hs
      | popWait => cases hs
      | pushLock y =>
        obtain ⟨e0, e1⟩ := hlk _ _ _ ht hs
        have := hset t _ (.pushBody y) ht
        rw [e0, e1]; simp only [PC.will, PC.trying] at *; omega
      | popLock =>
        obtain ⟨e0, e1⟩ := hlk _ _ _ ht hs
        have := hset t _ .popCheck ht
        rw [e0, e1]; simp only [PC.will, PC.trying] at *; omega
      | popWoken =>
        obtain ⟨e0, e1⟩ := hlk _ _ _ ht hs
        have := hset t _ .popCheck ht
        rw [e0, e1]; simp only [PC.will, PC.trying] at *; omega
      | closeLock =>
        obtain ⟨e0, e1⟩ := hlk _ _ _ ht hs
        have := hset t _ .closeBody ht
        rw [e0, e1]; simp only [PC.will, PC.trying] at *; omega
      | emptyLock =>
        obtain ⟨e0, e1⟩ := hlk _ _ _ ht hs
        have := hset t _ .emptyBody ht
        rw [e0, e1]; simp only [PC.will, PC.trying] at *; omega
      | sizeLock =>
        obtain ⟨e0, e1⟩ := hlk _ _ _ ht hs
        have := hset t _ .sizeBody ht
        rw [e0, e1]; simp only [PC.will, PC.trying] at *; omega
      | emptyBody =>
        obtain ⟨b, rfl⟩ : ∃ b, s' = s.go t (.answer b) := ⟨_, (Option.some.inj hs).symm⟩
        have := hset t _ (.answer b) ht
        simp only [PC.will, PC.trying, Sys.go] at *; omega
      | sizeBody =>
        obtain ⟨b, rfl⟩ : ∃ b, s' = s.go t (.answer b) := ⟨_, (Option.some.inj hs).symm⟩
        have := hset t _ (.answer b) ht
        simp only [PC.will, PC.trying, Sys.go] at *; omega
      | answer a =>
        injection hs with hs; subst hs
        have := hset t _ .idle ht
        simp only [PC.will, PC.trying, Sys.go] at *; omega
      | pushBody y =>
        injection hs with hs; subst hs
        have := hset t _ (.pushUnlock y) ht
        simp only [PC.will, PC.trying, Sys.go, List.count_append, List.count_singleton, beq_iff_eq] at *; omega
      | pushUnlock y =>
        injection hs with hs; subst hs
        have := hset t _ (.notifyOne y) ht
        simp only [PC.will, PC.trying, Sys.go] at *; omega
      | tryPush y =>
        injection hs with hs; subst hs
        unfold Sys.tryLock
        have a1 := hset t _ (.pushBody y) ht
        have a2 := hset t _ .idle ht
        split <;> simp only [PC.will, PC.trying, Sys.go] at * <;> omega
      | popCheck =>
        injection hs with hs; subst hs
        have a1 := hset t _ .popWait ht
        have a2 := hset t _ .popTake ht
        split <;> simp only [PC.will, PC.trying, Sys.go] at * <;> omega
      | popTake =>
        simp only [Sys.run] at hs
        split at hs <;> injection hs with hs <;> subst hs
        · have := hset t _ (.popUnlock none) ht
          simp only [PC.will, PC.trying, Sys.go] at *; omega
        · rename_i y _ _
          have := hset t _ (.popUnlock (some y)) ht
          simp only [PC.will, PC.trying, Sys.go] at *; omega
      | popUnlock r =>
        injection hs with hs; subst hs
        have := hset t _ .idle ht
        simp only [PC.will, PC.trying, Sys.go] at *; omega
      | tryPop =>
        injection hs with hs; subst hs
        unfold Sys.tryLock
        have a1 := hset t _ .tryPopBody ht
        have a2 := hset t _ .idle ht
        split <;> simp only [PC.will, PC.trying, Sys.go] at * <;> omega
      | tryPopBody =>
        simp only [Sys.run] at hs
        split at hs <;> injection hs with hs <;> subst hs
        · have := hset t _ (.popUnlock none) ht
          simp only [PC.will, PC.trying, Sys.go] at *; omega
        · rename_i y _ _
          have := hset t _ (.popUnlock (some y)) ht
          simp only [PC.will, PC.trying, Sys.go] at *; omega
      | closeBody =>
        injection hs with hs; subst hs
        have := hset t _ .closeUnlock ht
        simp only [PC.will, PC.trying, Sys.go] at *; omega
      | closeUnlock =>
        injection hs with hs; subst hs
        have := hset t _ .notifyAll ht
        simp only [PC.will, PC.trying, Sys.go] at *; omega
      | notifyAll =>
        injection hs with hs; subst hs
        have ht' : (wakeAll s.threads)[t]? = some .notifyAll := by unfold wakeAll; rw [List.getElem?_map, ht]; rfl
        have a1 := sumW_set (PC.will x) (wakeAll s.threads) t .notifyAll .idle ht'
        have a2 := sumW_wakeAll (PC.will x) s.threads 0 rfl
        have b1 := sumW_set (PC.trying x) (wakeAll s.threads) t .notifyAll .idle ht'
        have b2 := sumW_wakeAll (PC.trying x) s.threads 0 rfl
        simp only [PC.will, PC.trying] at *; omega
    · cases hs
  | notify t w =>
    simp only [Sys.step] at hs
    split at hs
    · rename_i y ht
      simp only [Spec.starts, Spec.tries, Bool.false_eq_true, if_false, Nat.add_zero]
      cases w with
      | none =>
        simp only at hs
        split at hs
        · cases hs
        · injection hs with hs; subst hs
          have := hset t _ .idle ht
          simp only [PC.will, PC.trying, Sys.go] at *; omega
      | some w =>
        simp only at hs
        split at hs
        · rename_i hw
          injection hs with hs; subst hs
          have hne : w ≠ t := by intro e; rw [e, ht] at hw; cases hw
          have ht1 : (s.threads.set w .popWoken)[t]? = some (.notifyOne y) := by rw [List.getElem?_set_ne hne]; exact ht
          have a1 := hset w _ .popWoken hw
          have a2 := sumW_set (PC.will x) (s.threads.set w .popWoken) t _ .idle ht1
          have a3 := sumW_set (PC.trying x) (s.threads.set w .popWoken) t _ .idle ht1
          simp only [PC.will, PC.trying, Sys.go] at *; omega
        · cases hs
    · cases hs
  | tryFails t =>
    simp only [Sys.step] at hs
    simp only [Spec.starts, Spec.tries, Bool.false_eq_true, if_false, Nat.add_zero]
    split at hs
    · rename_i ht
      injection hs with hs; subst hs
      have := hset t _ .idle ht
      simp only [PC.will, PC.trying, Sys.go] at *; omega
    · rename_i ht
      injection hs with hs; subst hs
      have := hset t _ .idle ht
      simp only [PC.will, PC.trying, Sys.go] at *; omega
    · cases hs
  | wakes t =>
    simp only [Sys.step] at hs
    simp only [Spec.starts, Spec.tries, Bool.false_eq_true, if_false, Nat.add_zero]
    split at hs
    · rename_i ht
      injection hs with hs; subst hs
      have := hset t _ .popWoken ht
      simp only [PC.will, PC.trying, Sys.go] at *; omega
    · cases hs

theorem steps_will [DecidableEq α] (x : α) : ∀ (as : List (Act α)) (s s' : Sys α), s.steps as = some s' →
    s'.entered.count x + sumW (PC.will x) s'.threads ≤ s.entered.count x + sumW (PC.will x) s.threads + as.countP (Spec.starts x) ∧
    (sumW (PC.trying x) s.threads = 0 → as.countP (Spec.tries x) = 0 →
      s'.entered.count x + sumW (PC.will x) s'.threads = s.entered.count x + sumW (PC.will x) s.threads + as.countP (Spec.starts x)) := by
  intro as
  induction as with
  | nil => intro s s' hs; injection hs with hs; subst hs; simp
  | cons a as ih =>
    intro s s' hs
    simp only [Sys.steps] at hs
    cases h1 : s.step a with
    | none => rw [h1] at hs; cases hs
    | some s1 =>
      rw [h1] at hs
      obtain ⟨i1, i2⟩ := ih s1 s' hs
      obtain ⟨j1, j2, j3⟩ := step_will x h1
      simp only [List.countP_cons]
      constructor
      · omega
      · intro k1 k2
        have := j3 k1
        have : (if Spec.tries x a = true then 1 else 0) = 0 := by omega
        have := i2 (by omega) (by omega)
        omega

/-- **C50, nothing comes from nowhere.** In every history, an element enters the queue at most as often as a `push` or `try_push` of it was begun; if it was only ever pushed with `push`, then when
all operations have returned it has entered, and been accepted, exactly that often. -/
theorem C50_only_pushed [DecidableEq α] (n : Nat) (as : List (Act α)) (s : Sys α) (hs : (Sys.init α n).steps as = some s) (x : α) :
    s.entered.count x ≤ as.countP (Spec.starts x) ∧
    (Spec.Resting s → as.countP (Spec.tries x) = 0 →
      s.accepted.count x = as.countP (Spec.starts x) ∧ (Spec.got s).count x + s.queue.count x = as.countP (Spec.starts x)) := by
  have hz : ∀ w : PC α → Nat, w .idle = 0 → sumW w (Sys.init α n).threads = 0 := by
    intro w hw
    apply sumW_zero
    intro p hp
    rw [List.eq_of_mem_replicate hp]; exact hw
  obtain ⟨a, b⟩ := steps_will x as _ s hs
  have h0 := hz (PC.will x) rfl
  have h1 := hz (PC.trying x) rfl
  have h2 : (Sys.init α n).entered.count x = 0 := rfl
  refine ⟨by omega, fun hr ht => ?_⟩
  have hb := b h1 ht
  have h3 : sumW (PC.will x) s.threads = 0 := sumW_zero _ _ fun p hp => by rw [hr p hp]; rfl
  obtain ⟨c1, c2, _⟩ := C50_conserved (reachable_steps as .init hs) hr
  have d1 := c1.count_eq x
  have d2 := c2.count_eq x
  rw [List.count_append] at d1
  omega

/-! ## Waiting -/

/-- **C50, result of `pop`.** A `pop` that has finished waiting takes the first element, or returns `false` because the queue is closed and empty. -/
theorem C50_pop_result {n : Nat} {s : Sys α} (h : Reachable n s) (t : Nat) (ht : s.threads[t]? = some .popTake) :
    (∃ x q, s.queue = x :: q ∧ s.step (.run t) = some { s with threads := s.threads.set t (.popUnlock (some x)), queue := q, left := s.left ++ [x] }) ∨
    (s.queue = [] ∧ s.closed = true ∧ s.step (.run t) = some { s with threads := s.threads.set t (.popUnlock none) }) := by
  classical
  have hi := h.inv.take t ht
  simp only [Sys.step, ht, Sys.run, Sys.go]
  cases hq : s.queue with
  | nil => right; rw [hq] at hi; simp at hi; simp [hi]
  | cons x q => left; exact ⟨x, q, rfl, rfl⟩

/-- **C50, no consumer waits in vain.** When nothing more can happen, every operation has returned, except calls of `pop` when the queue is empty and open. -/
theorem C50_released {n : Nat} {s : Sys α} (h : Reachable n s) (hq : Spec.Quiescent s) (t : Nat) (p : PC α) (ht : s.threads[t]? = some p) :
    p = .idle ∨ (p = .popWait ∧ s.queue = [] ∧ s.closed = false) := by
  classical
  have hi := h.inv
  have hrun : ∀ (i : Nat) (q : PC α), s.threads[i]? = some q → s.run i q = none := by
    intro i q hiq
    have := (hq i).1
    simpa [Sys.step, hiq] using this
  have hown : s.owner = none := by
    cases ho : s.owner with
    | none => rfl
    | some i =>
      have hlt := hi.ownerIn i ho
      have hg : s.threads[i]? = some s.threads[i] := List.getElem?_eq_getElem hlt
      have hh := (hi.lock i _ hg).2 ho
      have hr := hrun i _ hg
      generalize s.threads[i] = q at hh hr
      cases q <;> simp [PC.holds] at hh <;> simp [Sys.run] at hr
      all_goals (split at hr <;> cases hr)
  have hall : ∀ (i : Nat) (q : PC α), s.threads[i]? = some q → q = .idle ∨ q = .popWait := by
    intro i q hg
    have hr := hrun i q hg
    cases q with
    | idle => exact .inl rfl
    | popWait => exact .inr rfl
    | notifyOne x =>
      exfalso
      by_cases hw : s.threads.any (fun | .popWait => true | _ => false) = true
      · obtain ⟨q, hq1, hq2⟩ := List.any_eq_true.1 hw
        obtain ⟨w, hw⟩ := List.getElem?_of_mem hq1
        have : q = .popWait := by cases q <;> first | rfl | simp at hq2
        subst this
        have := (hq i).2.2 (some w)
        simp [Sys.step, hg, hw] at this
      · have := (hq i).2.2 none
        simp only [Sys.step, hg] at this
        split at this
        · rename_i h2; exact hw h2
        · cases this
    | popTake => simp only [Sys.run] at hr; split at hr <;> cases hr
    | tryPopBody => simp only [Sys.run] at hr; split at hr <;> cases hr
    | _ => simp [Sys.run, Sys.lock, hown] at hr
  rcases hall t p ht with rfl | rfl
  · exact .inl rfl
  · right
    have hw : 0 < sumW PC.waiting s.threads := by have := le_sumW PC.waiting s.threads t _ ht; simp only [PC.waiting] at this; omega
    have hz : ∀ w : PC α → Nat, w .idle = 0 → w .popWait = 0 → sumW w s.threads = 0 := by
      intro w h1 h2
      apply sumW_zero
      intro q hq
      obtain ⟨i, hi⟩ := List.getElem?_of_mem hq
      rcases hall i q hi with rfl | rfl <;> assumption
    refine ⟨rfl, ?_, ?_⟩
    · have := hi.wake hw
      rw [hz PC.help rfl rfl] at this
      exact List.length_eq_zero_iff.1 (by omega)
    · cases hc : s.closed with
      | false => rfl
      | true => have := hi.closing hc hw; rw [hz PC.closer rfl rfl] at this; omega

/-- The thread is going to close the queue. -/
def PC.willClose : PC α → Nat
  | .closeLock | .closeBody => 1
  | _ => 0

/-- The beginning of `close`. -/
def Spec.closes : Act α → Bool
  | .start _ .close => true
  | _ => false

theorem step_willClose {s s' : Sys α} {a : Act α} (hs : s.step a = some s') :
    s'.closed = true ∨ sumW PC.willClose s.threads + (if Spec.closes a then 1 else 0) ≤ sumW PC.willClose s'.threads := by
  have hset : ∀ (t : Nat) (pc pc' : PC α), s.threads[t]? = some pc → sumW PC.willClose (s.threads.set t pc') + pc.willClose = sumW PC.willClose s.threads + pc'.willClose :=
    fun t pc pc' h => sumW_set _ _ _ _ _ h
  have hlk : ∀ (t : Nat) (pc' : PC α), s.lock t pc' = some s' → s'.threads = s.threads.set t pc' := by
    intro t pc' he
    unfold Sys.lock at he
    split at he
    · injection he with he; subst he; rfl
    · cases he
  cases a with
  | start t op =>
    simp only [Sys.step] at hs
    split at hs
    · rename_i ht
      injection hs with hs; subst hs
      have := hset t .idle op.pc ht
      cases op <;> simp only [PC.willClose, Op.pc, Sys.go, Spec.closes] at * <;> (try simp only [Bool.false_eq_true, if_false]) <;> (try simp only [if_true]) <;> omega
    · cases hs
  | run t =>
    simp only [Sys.step] at hs
    split at hs
    · rename_i pc ht
      simp only [Spec.closes, Bool.false_eq_true, if_false, Nat.add_zero]
      have hh := hset t pc
      cases pc with
      | idle => cases hs
      | notifyOne y => cases hs
      | popWait => cases hs
      | pushLock y => right; rw [hlk _ _ hs]; have := hh (.pushBody y) ht; simp only [PC.willClose] at this; omega
      | popLock => right; rw [hlk _ _ hs]; have := hh .popCheck ht; simp only [PC.willClose] at this; omega
      | popWoken => right; rw [hlk _ _ hs]; have := hh .popCheck ht; simp only [PC.willClose] at this; omega
      | closeLock => right; rw [hlk _ _ hs]; have := hh .closeBody ht; simp only [PC.willClose] at this; omega
      | emptyLock => right; rw [hlk _ _ hs]; have := hh .emptyBody ht; simp only [PC.willClose] at this; omega
      | sizeLock => right; rw [hlk _ _ hs]; have := hh .sizeBody ht; simp only [PC.willClose] at this; omega
      | emptyBody => right; obtain ⟨b, rfl⟩ : ∃ b, s' = s.go t (.answer b) := ⟨_, (Option.some.inj hs).symm⟩; have := hh (.answer b) ht; simp only [PC.willClose, Sys.go] at *; omega
      | sizeBody => right; obtain ⟨b, rfl⟩ : ∃ b, s' = s.go t (.answer b) := ⟨_, (Option.some.inj hs).symm⟩; have := hh (.answer b) ht; simp only [PC.willClose, Sys.go] at *; omega
      | answer a => right; injection hs with hs; subst hs; have := hh .idle ht; simp only [PC.willClose, Sys.go] at *; omega
      | pushBody y => right; injection hs with hs; subst hs; have := hh (.pushUnlock y) ht; simp only [PC.willClose, Sys.go] at *; omega
      | pushUnlock y => right; injection hs with hs; subst hs; have := hh (.notifyOne y) ht; simp only [PC.willClose, Sys.go] at *; omega
      | tryPush y =>
        right; injection hs with hs; subst hs
        have a1 := hh (.pushBody y) ht
        have a2 := hh .idle ht
        unfold Sys.tryLock
        split <;> simp only [PC.willClose, Sys.go] at * <;> omega
      | popCheck =>
        right; injection hs with hs; subst hs
        have a1 := hh .popWait ht
        have a2 := hh .popTake ht
        split <;> simp only [PC.willClose, Sys.go] at * <;> omega
      | popTake =>
        right
        simp only [Sys.run] at hs
        split at hs <;> injection hs with hs <;> subst hs
        · have := hh (.popUnlock none) ht; simp only [PC.willClose, Sys.go] at *; omega
        · rename_i y _ _; have := hh (.popUnlock (some y)) ht; simp only [PC.willClose, Sys.go] at *; omega
      | popUnlock r => right; injection hs with hs; subst hs; have := hh .idle ht; simp only [PC.willClose, Sys.go] at *; omega
      | tryPop =>
        right; injection hs with hs; subst hs
        have a1 := hh .tryPopBody ht
        have a2 := hh .idle ht
        unfold Sys.tryLock
        split <;> simp only [PC.willClose, Sys.go] at * <;> omega
      | tryPopBody =>
        right
        simp only [Sys.run] at hs
        split at hs <;> injection hs with hs <;> subst hs
        · have := hh (.popUnlock none) ht; simp only [PC.willClose, Sys.go] at *; omega
        · rename_i y _ _; have := hh (.popUnlock (some y)) ht; simp only [PC.willClose, Sys.go] at *; omega
      | closeBody => left; injection hs with hs; subst hs; rfl
      | closeUnlock => right; injection hs with hs; subst hs; have := hh .notifyAll ht; simp only [PC.willClose, Sys.go] at *; omega
      | notifyAll =>
        right; injection hs with hs; subst hs
        have ht' : (wakeAll s.threads)[t]? = some .notifyAll := by unfold wakeAll; rw [List.getElem?_map, ht]; rfl
        have a1 := sumW_set PC.willClose (wakeAll s.threads) t .notifyAll .idle ht'
        have a2 := sumW_wakeAll PC.willClose s.threads 0 rfl
        simp only [PC.willClose] at *; omega
    · cases hs
  | notify t w =>
    simp only [Sys.step] at hs
    split at hs
    · rename_i y ht
      simp only [Spec.closes, Bool.false_eq_true, if_false, Nat.add_zero]
      right
      cases w with
      | none =>
        simp only at hs
        split at hs
        · cases hs
        · injection hs with hs; subst hs
          have := hset t _ .idle ht
          simp only [PC.willClose, Sys.go] at *; omega
      | some w =>
        simp only at hs
        split at hs
        · rename_i hw
          injection hs with hs; subst hs
          have hne : w ≠ t := by intro e; rw [e, ht] at hw; cases hw
          have ht1 : (s.threads.set w .popWoken)[t]? = some (.notifyOne y) := by rw [List.getElem?_set_ne hne]; exact ht
          have a1 := hset w _ .popWoken hw
          have a2 := sumW_set PC.willClose (s.threads.set w .popWoken) t _ .idle ht1
          simp only [PC.willClose, Sys.go] at *; omega
        · cases hs
    · cases hs
  | tryFails t =>
    simp only [Sys.step] at hs
    simp only [Spec.closes, Bool.false_eq_true, if_false, Nat.add_zero]
    right
    split at hs
    · rename_i ht
      injection hs with hs; subst hs
      have := hset t _ .idle ht
      simp only [PC.willClose, Sys.go] at *; omega
    · rename_i ht
      injection hs with hs; subst hs
      have := hset t _ .idle ht
      simp only [PC.willClose, Sys.go] at *; omega
    · cases hs
  | wakes t =>
    simp only [Sys.step] at hs
    simp only [Spec.closes, Bool.false_eq_true, if_false, Nat.add_zero]
    right
    split at hs
    · rename_i ht
      injection hs with hs; subst hs
      have := hset t _ .popWoken ht
      simp only [PC.willClose, Sys.go] at *; omega
    · cases hs

theorem steps_willClose : ∀ (as : List (Act α)) (s s' : Sys α), s.steps as = some s' →
    s'.closed = true ∨ sumW PC.willClose s.threads + as.countP Spec.closes ≤ sumW PC.willClose s'.threads := by
  intro as
  induction as with
  | nil => intro s s' hs; injection hs with hs; subst hs; right; simp
  | cons a as ih =>
    intro s s' hs
    simp only [Sys.steps] at hs
    cases h1 : s.step a with
    | none => rw [h1] at hs; cases hs
    | some s1 =>
      rw [h1] at hs
      rcases step_willClose h1 with hc | hc
      · left
        exact steps_induct (P := fun s => s.closed = true) (fun _ _ _ h2 h3 => (step_prefix h3).2.2 h2) as s1 s' hc hs
      · rcases ih s1 s' hs with hd | hd
        · exact .inl hd
        · right; simp only [List.countP_cons]; omega

/-- **C50, closing.** In every history in which `close` was begun, when nothing more can happen the queue is closed and no consumer is left waiting. -/
theorem C50_close_releases (n : Nat) (as : List (Act α)) (s : Sys α) (hs : (Sys.init α n).steps as = some s) (t : Nat) (hc : .start t .close ∈ as) (hq : Spec.Quiescent s) :
    s.closed = true ∧ Spec.Resting s := by
  have hr := reachable_steps as .init hs
  have hall : ∀ p ∈ s.threads, p = .idle ∨ (p = .popWait ∧ s.queue = [] ∧ s.closed = false) := by
    intro p hp
    obtain ⟨i, hi⟩ := List.getElem?_of_mem hp
    exact C50_released hr hq i p hi
  have hcl : s.closed = true := by
    rcases steps_willClose as _ s hs with h | h
    · exact h
    · have h1 : 0 < as.countP Spec.closes := List.countP_pos_iff.2 ⟨_, hc, rfl⟩
      have h2 : sumW PC.willClose s.threads = 0 := sumW_zero _ _ fun p hp => by rcases hall p hp with rfl | ⟨rfl, _⟩ <;> rfl
      omega
  refine ⟨hcl, fun p hp => ?_⟩
  rcases hall p hp with h | ⟨_, _, h⟩
  · exact h
  · rw [hcl] at h; cases h

/-- Non-vacuity: a waiting consumer is released by `close`. -/
example : ∃ s, (Sys.init Nat 2).steps [.start 0 .pop, .run 0, .run 0, .start 1 .close, .run 1, .run 1, .run 1, .run 1, .run 0, .run 0, .run 0, .run 0] = some s ∧ Spec.Quiescent s ∧ s.returned = [none] := by
  refine ⟨_, rfl, ?_, rfl⟩
  intro t
  cases t with
  | zero => exact ⟨rfl, rfl, fun _ => rfl⟩
  | succ t => cases t with
    | zero => exact ⟨rfl, rfl, fun _ => rfl⟩
    | succ t => exact ⟨rfl, rfl, fun _ => rfl⟩

/-- **C50, everything finishes.** From every state, only a bounded number of steps can be taken by operations that are in progress, whatever the order; so, with `C50_released`, a consumer is released when an
element arrives for it or the queue closes. -/
theorem C50_terminates (s : Sys α) : ∃ bound, ∀ as s', s.steps as = some s' → (∀ a ∈ as, a.progress) → as.length ≤ bound := by
  refine ⟨sumW (PC.left s.threads.length) s.threads, ?_⟩
  intro as
  induction as generalizing s with
  | nil => intro _ _ _; exact Nat.zero_le _
  | cons a as ih =>
    intro s' hs hp
    simp only [Sys.steps] at hs
    cases h1 : s.step a with
    | none => rw [h1] at hs; cases hs
    | some s1 =>
      rw [h1] at hs
      have := step_decreases (hp a (by simp)) h1
      have := ih s1 s' hs fun b hb => hp b (List.mem_cons_of_mem _ hb)
      simp only [List.length_cons]
      omega

/-- Two producers and a consumer that waits first: a real interleaving, in which the consumer is woken and then takes the first element. -/
def demo : List (Act Nat) :=
  [.start 0 .pop, .run 0, .run 0, .start 1 (.push 7), .start 2 (.push 8), .run 1, .run 1, .run 1, .run 2, .run 2, .notify 1 (some 0), .run 2, .notify 2 none, .run 0, .run 0, .run 0, .run 0]

/-- Non-vacuity: a history that satisfies the hypotheses of the theorems above. -/
example : ∃ s, (Sys.init Nat 3).steps demo = some s ∧ Reachable 3 s ∧ Spec.Resting s ∧ s.entered = [7, 8] ∧ s.left = [7] ∧ s.queue = [8] ∧ s.accepted = [7, 8] ∧ s.returned = [some 7] := by
  refine ⟨_, rfl, reachable_steps demo .init rfl, ?_, rfl, rfl, rfl, rfl, rfl⟩
  unfold Spec.Resting; decide

/-- Non-vacuity: a state in which a consumer waits for an element while nothing else can happen. -/
example : ∃ s, (Sys.init Nat 1).steps [.start 0 .pop, .run 0, .run 0] = some s ∧ s.threads[0]? = some .popWait ∧ Spec.Quiescent s := by
  refine ⟨_, rfl, rfl, ?_⟩
  intro t
  cases t with
  | zero => exact ⟨rfl, rfl, fun _ => rfl⟩
  | succ t => exact ⟨rfl, rfl, fun _ => rfl⟩

/-- Non-vacuity of `C50_pop_result`, in both cases. -/
example : (∃ s, (Sys.init Nat 1).steps [.start 0 .close, .run 0, .run 0, .run 0, .run 0, .start 0 .pop, .run 0, .run 0] = some s ∧ s.threads[0]? = some .popTake ∧ s.queue = []) ∧
    ∃ s, (Sys.init Nat 2).steps [.start 0 .pop, .run 0, .run 0, .start 1 (.push 7), .run 1, .run 1, .run 1, .notify 1 (some 0), .run 0, .run 0] = some s ∧ s.threads[0]? = some .popTake ∧ s.queue = [7] :=
  ⟨⟨_, rfl, rfl, rfl⟩, ⟨_, rfl, rfl, rfl⟩⟩

/-! ## C51 -/

/-- **C51, negation.** In every state of every queue in which a thread can push without waiting, a `push` is accepted, closed or not: the member that `close` sets is never read by `push`. -/
theorem C51_counterexample_push_ignores_closed (s : Sys α) (t : Nat) (x : α) (ht : s.threads[t]? = some .idle) (ho : s.owner = none) (hw : ∀ p ∈ s.threads, p ≠ .popWait) :
    ∃ s', s.steps [.start t (.push x), .run t, .run t, .run t, .notify t none] = some s' ∧ s'.queue = s.queue ++ [x] ∧ s'.accepted = s.accepted ++ [x] ∧ s'.closed = s.closed := by
  have hlt : t < s.threads.length := by
    rcases Nat.lt_or_ge t s.threads.length with h | h
    · exact h
    · rw [List.getElem?_eq_none h] at ht; cases ht
  have hany : (s.threads.set t (.notifyOne x)).any (fun | .popWait => true | _ => false) = false := by
    rw [List.any_eq_false]
    intro p hp
    rcases List.mem_or_eq_of_mem_set hp with h | rfl
    · have := hw p h
      cases p <;> simp_all
    · simp
  refine ⟨{ s with threads := s.threads.set t .idle, queue := s.queue ++ [x], entered := s.entered ++ [x], accepted := s.accepted ++ [x] }, ?_, rfl, rfl, rfl⟩
  obtain ⟨q, o, c, th, en, le, ac, re⟩ := s
  simp only at ht ho hw hlt hany
  subst ho
  have hg : th[t] = .idle := by rw [List.getElem?_eq_getElem hlt] at ht; injection ht
  simp [Sys.steps, Sys.step, hg, Sys.go, Op.pc, List.getElem?_set_self, hlt, Sys.run, Sys.lock, List.set_set]
  intro p hp
  exact Bool.not_eq_true _ ▸ List.any_eq_false.1 hany p hp

/-- **C51, negation.** After `close` has returned, `push` and `try_push` put elements into the queue, and `pop` returns them. -/
theorem C51_counterexample_closed_queue_accepts : ∃ s s', (Sys.init Nat 1).steps [.start 0 .close, .run 0, .run 0, .run 0, .run 0] = some s ∧ s.closed = true ∧ s.queue = [] ∧
    s.steps [.start 0 (.push 7), .run 0, .run 0, .run 0, .notify 0 none, .start 0 (.tryPush 8), .run 0, .run 0, .run 0, .notify 0 none, .start 0 .pop, .run 0, .run 0, .run 0, .run 0] = some s' ∧
    s'.accepted = [7, 8] ∧ s'.returned = [some 7] ∧ s'.queue = [8] := ⟨_, _, rfl, rfl, rfl, rfl, rfl, rfl, rfl⟩

/-- **C51 (partial).** The second half: a closed queue stays closed, no thread begins to wait at it, and a `pop` takes out the first element, or returns `false` when there is none. Missing: that no element
can be added, which is false. -/
theorem C51_drain_partial (s : Sys α) (hc : s.closed = true) :
    (∀ a s', s.step a = some s' → s'.closed = true ∧ ∀ t : Nat, s'.threads[t]? = some .popWait → s.threads[t]? = some .popWait) ∧
    (∀ t : Nat, s.threads[t]? = some .idle → s.owner = none →
      s.steps [.start t .pop, .run t, .run t, .run t, .run t] =
        some { s with queue := s.queue.drop 1, left := s.left ++ s.queue.take 1, returned := s.returned ++ [s.queue.head?] }) := by
  constructor
  · intro a s' hs
    refine ⟨(step_prefix hs).2.2 hc, ?_⟩
    have hset : ∀ (i : Nat) (p : PC α) (l : List (PC α)), p ≠ .popWait → ∀ t : Nat, (l.set i p)[t]? = some .popWait → l[t]? = some .popWait := by
      intro i p l hp t ht
      rcases getElem?_set_cases _ _ _ _ _ ht with ⟨_, h⟩ | ⟨_, h⟩
      · exact absurd h.symm hp
      · exact h
    have hwk : ∀ (l : List (PC α)) (t : Nat), (wakeAll l)[t]? = some .popWait → l[t]? = some .popWait := by
      intro l t ht
      rcases wakeAll_getElem? _ _ _ ht with ⟨h, _⟩ | ⟨_, h⟩
      · exact h
      · cases h
    have hlk : ∀ (i : Nat) (p : PC α), p ≠ .popWait → s.lock i p = some s' → ∀ t : Nat, s'.threads[t]? = some .popWait → s.threads[t]? = some .popWait := by
      intro i p hp he
      unfold Sys.lock at he
      split at he
      · injection he with he; subst he; exact hset _ _ _ hp
      · cases he
    cases a with
    | run i =>
      simp only [Sys.step] at hs
      split at hs
      · rename_i pc _
        cases pc with
        | idle => cases hs
        | notifyOne y => cases hs
        | popWait => cases hs
        | pushLock y => exact hlk _ _ (by simp) hs
        | popLock => exact hlk _ _ (by simp) hs
        | popWoken => exact hlk _ _ (by simp) hs
        | closeLock => exact hlk _ _ (by simp) hs
        | emptyLock => exact hlk _ _ (by simp) hs
        | sizeLock => exact hlk _ _ (by simp) hs
        | emptyBody => injection hs with hs; subst hs; exact hset _ _ _ (by simp)
        | sizeBody => injection hs with hs; subst hs; exact hset _ _ _ (by simp)
        | answer a => injection hs with hs; subst hs; exact hset _ _ _ (by simp)
        | pushBody y => injection hs with hs; subst hs; exact hset _ _ _ (by simp)
        | pushUnlock y => injection hs with hs; subst hs; exact hset _ _ _ (by simp)
        | popUnlock y => injection hs with hs; subst hs; exact hset _ _ _ (by simp)
        | closeBody => injection hs with hs; subst hs; exact hset _ _ _ (by simp)
        | closeUnlock => injection hs with hs; subst hs; exact hset _ _ _ (by simp)
        | tryPush y => injection hs with hs; subst hs; unfold Sys.tryLock; split <;> exact hset _ _ _ (by simp)
        | tryPop => injection hs with hs; subst hs; unfold Sys.tryLock; split <;> exact hset _ _ _ (by simp)
        | popCheck => simp only [Sys.run, hc] at hs; injection hs with hs; subst hs; simp only [Bool.not_true, Bool.and_false, Bool.false_eq_true, if_false]; exact hset _ _ _ (by simp)
        | popTake => simp only [Sys.run] at hs; split at hs <;> injection hs with hs <;> subst hs <;> exact hset _ _ _ (by simp)
        | tryPopBody => simp only [Sys.run] at hs; split at hs <;> injection hs with hs <;> subst hs <;> exact hset _ _ _ (by simp)
        | notifyAll => injection hs with hs; subst hs; exact fun t ht => hwk _ _ (hset _ _ _ (by simp) t ht)
      · cases hs
    | start t op =>
      simp only [Sys.step] at hs
      split at hs
      · injection hs with hs; subst hs; exact hset _ _ _ (by cases op <;> simp [Op.pc])
      · cases hs
    | notify t w =>
      simp only [Sys.step] at hs
      split at hs
      · cases w with
        | none =>
          simp only at hs
          split at hs
          · cases hs
          · injection hs with hs; subst hs; exact hset _ _ _ (by simp)
        | some w =>
          simp only at hs
          split at hs
          · injection hs with hs; subst hs; exact fun t ht => hset _ _ _ (by simp) t (hset _ _ _ (by simp) t ht)
          · cases hs
      · cases hs
    | tryFails t =>
      simp only [Sys.step] at hs
      split at hs
      · injection hs with hs; subst hs; exact hset _ _ _ (by simp)
      · injection hs with hs; subst hs; exact hset _ _ _ (by simp)
      · cases hs
    | wakes t =>
      simp only [Sys.step] at hs
      split at hs
      · injection hs with hs; subst hs; exact hset _ _ _ (by simp)
      · cases hs
  · intro t ht ho
    have hlt : t < s.threads.length := by
      rcases Nat.lt_or_ge t s.threads.length with h | h
      · exact h
      · rw [List.getElem?_eq_none h] at ht; cases ht
    have hself : s.threads.set t .idle = s.threads := by
      apply List.ext_getElem?
      intro i
      by_cases hi : i = t
      · subst hi; rw [List.getElem?_set_self hlt, ht]
      · rw [List.getElem?_set_ne (Ne.symm hi)]
    obtain ⟨q, o, c, th, en, le, ac, re⟩ := s
    simp only at ht ho hc hlt hself
    subst ho hc
    have hg : th[t] = .idle := by rw [List.getElem?_eq_getElem hlt] at ht; injection ht
    cases q with
    | nil =>
      simp [Sys.steps, Sys.step, hg, Sys.go, Op.pc, List.getElem?_set_self, hlt, Sys.run, Sys.lock, List.set_set, hself]
    | cons x q =>
      simp [Sys.steps, Sys.step, hg, Sys.go, Op.pc, List.getElem?_set_self, hlt, Sys.run, Sys.lock, List.set_set, hself]

/-- Non-vacuity: a closed queue with an element and an idle thread. -/
example : ∃ s, (Sys.init Nat 1).steps [.start 0 (.push 5), .run 0, .run 0, .run 0, .notify 0 none, .start 0 .close, .run 0, .run 0, .run 0, .run 0] = some s ∧
    s.closed = true ∧ s.queue = [5] ∧ s.owner = none ∧ s.threads[0]? = some .idle := ⟨_, rfl, rfl, rfl, rfl, rfl⟩

end Esl.BQueue
