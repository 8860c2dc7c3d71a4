import Verif.Lemmas.ThreadPool
/-! C52: the thread pool executes every task exactly once. `enqueued` are the tasks passed to the pool, `ran` those whose execution has ended. -/
namespace Esl.TPool

variable {τ : Type}

namespace Spec

/-- Nothing can happen, except that tasks are passed to the pool and that the destructor begins. -/
def Quiescent (p : Pool τ) : Prop := (∀ c ok, p.step (.call c ok) = none) ∧ (∀ i ok, p.step (.worker i ok) = none) ∧ p.step .main = none

/-- The tasks in the queues. -/
def queued (p : Pool τ) : List τ := p.queues.flatMap Queue.items

/-- The tasks that the workers are executing. -/
def running (p : Pool τ) : List τ := p.workers.filterMap fun | .run x => some x | _ => none

/-- The tasks of calls in progress. -/
def pending (p : Pool τ) : List τ := p.calls.map Call.task

end Spec

theorem reachable_steps {n hw : Nat} : ∀ (as : List (Act τ)) {p p' : Pool τ}, Reachable n hw p → p.steps as = some p' → Reachable n hw p' := by
  intro as
  induction as with
  | nil => intro p p' h hs; injection hs with hs; exact hs ▸ h
  | cons a as ih =>
    intro p p' h hs
    simp only [Pool.steps] at hs
    split at hs
    · rename_i p1 h1; exact ih (.step a h h1) hs
    · cases hs

theorem count_queued [DecidableEq τ] (p : Pool τ) (x : τ) : (Spec.queued p).count x = tot (fun q => q.items.count x) p.queues := by
  unfold Spec.queued tot
  induction p.queues with
  | nil => rfl
  | cons q l ih => simp [ih]

theorem count_running [DecidableEq τ] (p : Pool τ) (x : τ) : (Spec.running p).count x = tot (Worker.has x) p.workers := by
  unfold Spec.running tot
  induction p.workers with
  | nil => rfl
  | cons w l ih => cases w <;> simp [ih, Worker.has, List.count_cons]; omega

theorem count_pending [DecidableEq τ] (p : Pool τ) (x : τ) : (Spec.pending p).count x = tot (Call.has x) p.calls := by
  unfold Spec.pending tot
  induction p.calls with
  | nil => rfl
  | cons c l ih => simp [ih, Call.has, List.count_cons]; omega

/-- **C52, at every moment.** With at least one thread, each task passed to the pool is in exactly one place: on its way into a queue, in a queue, with a worker, or executed. -/
theorem C52_accounted {n hw : Nat} (hn : 0 < n) {p : Pool τ} (h : Reachable n hw p) : p.enqueued.Perm (Spec.pending p ++ Spec.queued p ++ Spec.running p ++ p.ran) := by
  classical
  rw [List.perm_iff_count]
  intro x
  rw [(h.inv hn).count x]
  simp only [List.count_append, count_queued, count_running, count_pending]

/-- **C52, exactly once.** When the destructor has returned, the tasks executed are the tasks passed to the pool, each as often as it was passed. -/
theorem C52_exactly_once {n hw : Nat} (hn : 0 < n) {p : Pool τ} (h : Reachable n hw p) (hd : p.main = .done) : p.ran.Perm p.enqueued := by
  classical
  have hi := h.inv hn
  have hw : ∀ w ∈ p.workers, w = .exited := by
    intro w hw
    obtain ⟨j, hj⟩ := List.getElem?_of_mem hw
    exact hi.joined j w hj (by rw [hd]; trivial)
  have hc := hi.calls (by rw [hd]; simp)
  have hq : ∀ q ∈ p.queues, q.items = [] := by
    intro q hq
    obtain ⟨j, hj⟩ := List.getElem?_of_mem hq
    have hlt := lt_of_getElem? hj
    have hlw : j < p.workers.length := by rw [hi.lenW, ← hi.lenQ]; exact hlt
    have hg := List.getElem?_eq_getElem hlw
    rw [hw _ (List.mem_of_getElem? hg)] at hg
    exact (hi.exited j q hg hj).2
  rw [List.perm_iff_count]
  intro x
  rw [hi.count x, hc, tot_zero _ p.queues (fun q h => by rw [hq q h]; rfl), tot_zero _ p.workers (fun w h => by rw [hw w h]; rfl)]
  simp [tot]

/-- The tasks that a history passes to the pool. -/
def Spec.passed (as : List (Act τ)) : List τ := as.filterMap fun | .enqueue x => some x | _ => none

theorem step_enqueued {p p' : Pool τ} {a : Act τ} (hs : p.step a = some (.ok p')) : p'.enqueued = p.enqueued ++ Spec.passed [a] := by
  cases a with
  | enqueue x => simp only [Pool.step] at hs; split at hs <;> first | cases hs; done | (injection hs with hs; injection hs with hs; subst hs; rfl)
  | call c ok =>
    simp only [Pool.step] at hs
    split at hs
    · injection hs with hs
      have hput : ∀ j x, p.put c j x = .ok p' → p'.enqueued = p.enqueued := by
        intro j x hj
        unfold Pool.put at hj
        split at hj
        · cases hj
        · injection hj with hj; subst hj; rfl
      rw [show Spec.passed [(.call c ok : Act τ)] = [] from rfl, List.append_nil]
      unfold Pool.call at hs
      split at hs
      · split at hs
        · cases hs
        · split at hs
          · exact hput _ _ hs
          · injection hs with hs; subst hs; rfl
      · split at hs
        · cases hs
        · exact hput _ _ hs
    · cases hs
  | worker i ok =>
    rw [show Spec.passed [(.worker i ok : Act τ)] = [] from rfl, List.append_nil]
    simp only [Pool.step] at hs
    split at hs
    · rename_i w _
      cases w with
      | scan n =>
        simp only [Pool.work] at hs
        split at hs
        · split at hs
          · cases hs
          · split at hs <;> injection hs with hs <;> injection hs with hs <;> subst hs <;> rfl
        · injection hs with hs; injection hs with hs; subst hs; rfl
      | own =>
        simp only [Pool.work] at hs
        split at hs
        · cases hs
        · split at hs
          · injection hs with hs; injection hs with hs; subst hs; rfl
          · split at hs
            · injection hs with hs; injection hs with hs; subst hs; rfl
            · cases hs
      | run x => injection hs with hs; injection hs with hs; subst hs; rfl
      | exited => cases hs
    · cases hs
  | destroy =>
    simp only [Pool.step] at hs
    split at hs
    · injection hs with hs; injection hs with hs; subst hs; simp [Spec.passed]
    · cases hs
  | main =>
    rw [show Spec.passed [(.main : Act τ)] = [] from rfl, List.append_nil]
    simp only [Pool.step] at hs
    split at hs
    · cases hs
    · split at hs <;> injection hs with hs <;> injection hs with hs <;> subst hs <;> rfl
    · split at hs
      · injection hs with hs; injection hs with hs; subst hs; rfl
      · cases hs
      · injection hs with hs; injection hs with hs; subst hs; rfl
    · cases hs

theorem steps_enqueued : ∀ (as : List (Act τ)) (p p' : Pool τ), p.steps as = some p' → p'.enqueued = p.enqueued ++ Spec.passed as := by
  intro as
  induction as with
  | nil => intro p p' hs; injection hs with hs; subst hs; simp [Spec.passed]
  | cons a as ih =>
    intro p p' hs
    simp only [Pool.steps] at hs
    split at hs
    · rename_i p1 h1
      rw [ih p1 p' hs, step_enqueued h1, List.append_assoc]
      congr 1
      rw [show Spec.passed (a :: as) = Spec.passed ([a] ++ as) from rfl]
      simp only [Spec.passed, List.filterMap_append]
    · cases hs

/-- **C52, over histories.** In every history that ends with the return of the destructor, the tasks executed are those that were passed to `enqueue_work` and `enqueue_task`, each as often as it was passed. -/
theorem C52_history {n hw : Nat} (hn : 0 < n) (as : List (Act τ)) (p : Pool τ) (hs : (Pool.init τ n hw).steps as = some p) (hd : p.main = .done) : p.ran.Perm (Spec.passed as) := by
  have h := C52_exactly_once hn (reachable_steps as .init hs) hd
  rw [steps_enqueued as _ p hs] at h
  exact h

/-- **C52, never undefined.** With at least one thread, no step does anything undefined. -/
theorem C52_defined {n hw : Nat} (hn : 0 < n) {p : Pool τ} (h : Reachable n hw p) (a : Act τ) : p.step a ≠ some .ub ∧ p.step a ≠ some .throws := by
  classical
  constructor <;> intro hs <;> obtain ⟨_, e, _⟩ := step_ok hn (h.inv hn) hs <;> cases e

/-- **C52, everything ends.** From every state, only a bounded number of steps can be taken, whatever the order, unless further tasks are passed to the pool. -/
theorem C52_terminates {n hw : Nat} (hn : 0 < n) {p : Pool τ} (h : Reachable n hw p) : ∃ bound, ∀ as p', p.steps as = some p' → (∀ a ∈ as, ∀ x, a ≠ .enqueue x) → as.length ≤ bound := by
  classical
  refine ⟨p.left, ?_⟩
  intro as
  induction as generalizing p with
  | nil => intro _ _ _; exact Nat.zero_le _
  | cons a as ih =>
    intro p' hs hp
    simp only [Pool.steps] at hs
    split at hs
    · rename_i p1 h1
      have ha : a.progress := by
        cases a with
        | enqueue x => exact absurd rfl (hp _ (by simp) x)
        | _ => trivial
      have := step_decreases hn (h.inv hn) ha h1
      have := ih (.step a h h1) p' hs fun b hb => hp b (List.mem_cons_of_mem _ hb)
      simp only [List.length_cons]
      omega
    · cases hs

theorem quiet {n hw : Nat} (hn : 0 < n) {p : Pool τ} (h : Reachable n hw p) (hq : Spec.Quiescent p) :
    p.calls = [] ∧ ∀ (j : Nat) (w : Worker τ), p.workers[j]? = some w → w = .exited ∨ (w = .own ∧ ∃ q, p.queues[j]? = some q ∧ q.items = [] ∧ q.closed = false) := by
  classical
  have hi := h.inv hn
  constructor
  · cases hc : p.calls with
    | nil => rfl
    | cons c l =>
      have := hq.1 0 true
      simp [Pool.step, hc] at this
  · intro j w hw
    have hs := hq.2.1 j true
    simp only [Pool.step, hw] at hs
    cases w with
    | scan k =>
      exfalso
      simp only [Pool.work] at hs
      split at hs
      · split at hs
        · cases hs
        · split at hs <;> cases hs
      · cases hs
    | run x => cases hs
    | exited => exact .inl rfl
    | own =>
      right
      refine ⟨rfl, ?_⟩
      have hlt : j < p.queues.length := by rw [hi.lenQ, ← hi.lenW]; exact lt_of_getElem? hw
      have hg := List.getElem?_eq_getElem hlt
      simp only [Pool.work, hg] at hs
      refine ⟨_, hg, ?_⟩
      generalize p.queues[j] = q at hs
      split at hs
      · cases hs
      · rename_i hx
        split at hs
        · cases hs
        · rename_i hc; exact ⟨hx, by simpa using hc⟩

/-- **C52, the destructor returns.** When the destructor has begun and nothing can happen any more, it has returned (and, by `C52_exactly_once`, every task has been executed). -/
theorem C52_destructor_returns {n hw : Nat} (hn : 0 < n) {p : Pool τ} (h : Reachable n hw p) (hq : Spec.Quiescent p) (hm : p.main ≠ .using) : p.main = .done := by
  classical
  have hi := h.inv hn
  obtain ⟨_, hw⟩ := quiet hn h hq
  have hs := hq.2.2
  simp only [Pool.step] at hs
  split at hs
  · rename_i h; exact absurd h hm
  · split at hs <;> cases hs
  · rename_i k hk
    split at hs
    · cases hs
    · rename_i w hne hwk
      rcases hw k w hwk with rfl | ⟨_, q, hqk, _, hop⟩
      · exact absurd rfl (hne)
      · have := (hi.closed k q hqk).2 (by rw [hk]; trivial)
        rw [hop] at this; cases this
    · cases hs
  · rename_i h; exact h

/-- **C52, without the destructor.** When the pool is in use and nothing can happen, every task passed to it has been executed. -/
theorem C52_idle_pool {n hw : Nat} (hn : 0 < n) {p : Pool τ} (h : Reachable n hw p) (hq : Spec.Quiescent p) (hm : p.main = .using) : p.ran.Perm p.enqueued := by
  classical
  have hi := h.inv hn
  obtain ⟨hc, hw⟩ := quiet hn h hq
  have hw' : ∀ (j : Nat) (w : Worker τ), p.workers[j]? = some w → w = .own ∧ ∃ q, p.queues[j]? = some q ∧ q.items = [] := by
    intro j w hj
    rcases hw j w hj with rfl | ⟨rfl, q, h1, h2, _⟩
    · have hlt : j < p.queues.length := by rw [hi.lenQ, ← hi.lenW]; exact lt_of_getElem? hj
      have hg := List.getElem?_eq_getElem hlt
      have := (hi.exited j _ hj hg).1
      have := (hi.closed j _ hg).1 this
      rw [hm] at this; cases this
    · exact ⟨rfl, q, h1, h2⟩
  have hwk : ∀ w ∈ p.workers, w = .own := by
    intro w hw
    obtain ⟨j, hj⟩ := List.getElem?_of_mem hw
    exact (hw' j w hj).1
  have hqs : ∀ q ∈ p.queues, q.items = [] := by
    intro q hq
    obtain ⟨j, hj⟩ := List.getElem?_of_mem hq
    have hlw : j < p.workers.length := by rw [hi.lenW, ← hi.lenQ]; exact lt_of_getElem? hj
    obtain ⟨_, r, hr, hre⟩ := hw' j _ (List.getElem?_eq_getElem hlw)
    rw [hj] at hr; injection hr with hr; rw [hr]; exact hre
  rw [List.perm_iff_count]
  intro x
  rw [hi.count x, hc, tot_zero _ p.queues (fun q h => by rw [hqs q h]; rfl), tot_zero _ p.workers (fun w h => by rw [hwk w h]; rfl)]
  simp [tot]

/-- Two threads, two tasks; the second worker takes a task from the first queue, and the destructor waits for everything. -/
def demo : List (Act Nat) :=
  [.enqueue 5, .enqueue 6, .call 0 true, .call 0 false, .worker 1 true, .worker 1 true, .call 0 true, .destroy, .main,
    .worker 0 true, .main, .main, .worker 1 true, .worker 0 true] ++ List.replicate 5 (.worker 0 true) ++ [.worker 0 true] ++ List.replicate 6 (.worker 1 true) ++ [.main, .main, .main]

/-- Non-vacuity: a reachable state in which the destructor has returned and tasks have been executed. -/
example : ∃ p, (Pool.init Nat 2 4).steps demo = some p ∧ Reachable 2 4 p ∧ p.main = .done ∧ p.enqueued = [5, 6] ∧ p.ran = [5, 6] :=
  ⟨_, rfl, reachable_steps demo .init rfl, rfl, rfl, rfl⟩

/-- Non-vacuity: a pool in use that has executed a task and is quiescent. -/
example : ∃ p, (Pool.init Nat 1 4).steps ([.enqueue 5, .call 0 true, .worker 0 true, .worker 0 true] ++ List.replicate 3 (.worker 0 true)) = some p ∧ Spec.Quiescent p ∧ p.main = .using ∧ p.ran = [5] := by
  refine ⟨_, rfl, ⟨fun c ok => ?_, fun i ok => ?_, rfl⟩, rfl, rfl⟩
  · cases c <;> rfl
  · cases i with
    | zero => rfl
    | succ i => cases i <;> rfl

/-- **C52, negation for zero threads.** The constructor accepts zero and means to use the number of processors instead, but then has no queues: the first step of every worker that gets to its queue is undefined, and
so is the first step of every call. -/
theorem C52_counterexample_zero_threads (hardware : Nat) (x : τ) :
    ∃ p p', (Pool.init τ 0 hardware).steps [.worker 0 true] = some p ∧ p.step (.worker 0 true) = some .ub ∧
      (Pool.init τ 0 hardware).steps [.enqueue x] = some p' ∧ p'.step (.call 0 true) = some .ub := by
  have h : ∃ m, (if hardware = 0 then 1 else hardware) = m + 1 := by
    by_cases hz : hardware = 0
    · exact ⟨0, by simp [hz]⟩
    · exact ⟨hardware - 1, by rw [if_neg hz]; omega⟩
  obtain ⟨m, hm⟩ := h
  refine ⟨{ threads := 0, queues := [], workers := .own :: List.replicate m (.scan 0) },
    { threads := 0, queues := [], workers := List.replicate (m + 1) (.scan 0), calls := [⟨x, 0, 0⟩], index := 1, enqueued := [x] }, ?_, rfl, ?_, rfl⟩
  · simp [Pool.init, hm, Pool.steps, Pool.step, List.replicate_succ, Pool.work, Pool.limit]
  · simp [Pool.init, hm, Pool.steps, Pool.step]

end Esl.TPool
