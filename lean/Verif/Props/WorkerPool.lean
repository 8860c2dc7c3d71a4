import Verif.Lemmas.WorkerPool
/-!
C172 and C173: the thread pool with its queues in full detail, and tasks that use the pool they run on. `enqueued` are the tasks passed to the pool, `ran` those whose execution has ended.
-/
namespace Esl.Workers

open Esl.TPool (tot tot_append tot_one tot_set tot_zero le_tot lt_of_getElem? set_cases)

variable {τ : Type} [DecidableEq τ]

namespace Spec

/-- The destructor has returned. -/
def Destroyed (p : Pool τ) : Prop := p.agents[p.started]? = some .done

/-- The destructor has begun. -/
def Destroying (p : Pool τ) : Prop := p.agents[p.started]? ≠ some .uses

/-- No thread can take a step, unless tasks are passed to the pool, tasks begin to wait, the destructor begins, or a thread wakes up for no reason. -/
def Quiescent (p : Pool τ) : Prop := ∀ a s, p.step (.run a s) = none

/-- The tasks that a history passes to the pool, from outside and by tasks. -/
def passed (as : List (Act τ)) : List τ := as.filterMap fun | .enqueue x => some x | .spawn _ y => some y | _ => none

/-- The tasks that a thread executes or is about to put into a queue. -/
def tasks : PC τ → List τ
  | .scanUnlock _ _ r => r.toList
  | .ownUnlock _ r => r.toList
  | .run x => [x]
  | .await x _ => [x]
  | .tryPush b x _ _ => b.toList ++ [x]
  | .lock b x _ => b.toList ++ [x]
  | .insert b x _ => b.toList ++ [x]
  | .unlock b _ => b.toList
  | .notify b _ => b.toList
  | _ => []

/-- In a call of `enqueue_work` or `enqueue_task`, with the task not in a queue yet. -/
def Calling : PC τ → Prop
  | .tryPush _ _ _ _ => True
  | .lock _ _ _ => True
  | .insert _ _ _ => True
  | _ => False

/-- A task waits for the future of a task that has not been executed. -/
def Waiting (p : Pool τ) (b : Nat) : Prop := ∃ x y, p.agents[b]? = some (.await x y) ∧ y ∉ p.ran

end Spec

theorem reachable_steps {n hw : Nat} : ∀ (as : List (Act τ)) {p p' : Pool τ}, Reachable n hw p → p.steps as = some p' → Reachable n hw p' := by
  intro as
  induction as with
  | nil => intro p p' h hs; injection hs with hs; exact hs ▸ h
  | cons a as ih =>
    intro p p' h hs
    simp only [Pool.steps] at hs
    split at hs
    · rename_i p1 h1; exact ih (.step a h h1) hs
    · cases hs

theorem count_tasks (x : τ) (pc : PC τ) : (Spec.tasks pc).count x = pc.has x := by
  cases pc with
  | scanUnlock n j r => cases r <;> simp [Spec.tasks, PC.has, oneOf, one, List.count_cons]
  | ownUnlock j r => cases r <;> simp [Spec.tasks, PC.has, oneOf, one, List.count_cons]
  | tryPush b y i n => cases b <;> simp [Spec.tasks, PC.has, oneOf, one, List.count_cons]; omega
  | lock b y j => cases b <;> simp [Spec.tasks, PC.has, oneOf, one, List.count_cons]; omega
  | insert b y j => cases b <;> simp [Spec.tasks, PC.has, oneOf, one, List.count_cons]; omega
  | unlock b j => cases b <;> simp [Spec.tasks, PC.has, oneOf, one, List.count_cons]
  | notify b j => cases b <;> simp [Spec.tasks, PC.has, oneOf, one, List.count_cons]
  | _ => simp [Spec.tasks, PC.has, one, List.count_cons]

theorem count_flat {β : Type} (f : β → List τ) (x : τ) (l : List β) : (l.flatMap f).count x = tot (fun b => (f b).count x) l := by
  unfold tot
  induction l with
  | nil => rfl
  | cons a l ih => simp [ih]

/-- **C172, at every moment.** Each task passed to the pool is in exactly one place: with a thread that executes it or is about to put it into a queue, in a queue, or executed. -/
theorem C172_accounted {n hw : Nat} (hn : 0 < n) (hs : n ≤ 2 ^ 31) {p : Pool τ} (h : Reachable n hw p) :
    p.enqueued.Perm (p.agents.flatMap Spec.tasks ++ p.queues.flatMap Queue.items ++ p.ran) := by
  rw [List.perm_iff_count]
  intro x
  rw [(h.inv hn hs).1.counted x, List.count_append, List.count_append, count_flat, count_flat]
  congr 2
  exact congrArg (fun f => tot f p.agents) (funext fun pc => (count_tasks x pc).symm)

theorem done_exited {n hw : Nat} (hn : 0 < n) (hs : n ≤ 2 ^ 31) {p : Pool τ} (h : Reachable n hw p) (hd : Spec.Destroyed p) :
    p.agents[n]? = some .done ∧ (∀ i, i < n → p.agents[i]? = some .exited) ∧ ∀ (b : Nat) (pc : PC τ), p.agents[b]? = some pc → pc = .exited ∨ pc = .done ∨ pc = .returned := by
  have hc := (h.inv hn hs).1
  have hm : p.agents[n]? = some .done := by rw [← hc.shape.started]; exact hd
  have hi : ∀ i, i < n → p.agents[i]? = some .exited := fun i hi => hc.joined i _ hm hi
  refine ⟨hm, hi, ?_⟩
  intro b pc hb
  rcases Nat.lt_trichotomy b n with h1 | h1 | h1
  · rw [hi b h1] at hb; injection hb with e; exact .inl e.symm
  · subst h1; rw [hm] at hb; injection hb with e; exact .inr (.inl e.symm)
  · exact .inr (.inr (hc.calls b pc _ hm (by simp) h1 hb))

theorem exactly_once {n hw : Nat} (hn : 0 < n) (hs : n ≤ 2 ^ 31) {p : Pool τ} (h : Reachable n hw p) (hd : Spec.Destroyed p) (hok : p.spurious = false ∨ p.late = false ∨ n = 1) : p.ran.Perm p.enqueued := by
  obtain ⟨hc, hv⟩ := h.inv hn hs
  obtain ⟨_, hi, hall⟩ := done_exited hn hs h hd
  have hq : ∀ q ∈ p.queues, q.items = [] := by
    intro q hq
    obtain ⟨j, hj⟩ := List.getElem?_of_mem hq
    have hjn : j < n := hc.shape.queues ▸ lt_of_getElem? hj
    apply Decidable.byContradiction
    intro hne
    have hl := hc.lost j q (hi j hjn) hj hne
    rcases hok with ho | ho | ho
    · rcases hv j q (hi j hjn) hj hne with hsp | ⟨b, pc, hb, hlook⟩
      · rw [ho] at hsp; cases hsp
      · rcases hall b pc hb with rfl | rfl | rfl <;> exact hlook
    · rw [ho] at hl; cases hl.1
    · omega
  rw [List.perm_iff_count]
  intro x
  rw [hc.counted x, tot_zero _ p.queues (fun q h => by rw [hq q h]; rfl), tot_zero _ p.agents]
  · omega
  · intro pc hpc
    obtain ⟨b, hb⟩ := List.getElem?_of_mem hpc
    rcases hall b pc hb with rfl | rfl | rfl <;> rfl

theorem move_enqueued {p p' : Pool τ} {a : Nat} {pc : PC τ} (hm : Move p a pc p') : p'.enqueued = p.enqueued := by
  cases hm <;> simp

theorem step_enqueued {p p' : Pool τ} {a : Act τ} (hs : p.step a = some (.ok p')) : p'.enqueued = p.enqueued ++ Spec.passed [a] := by
  cases a with
  | enqueue x =>
    simp only [Pool.step] at hs
    by_cases hd : p.destroying = true
    · rw [if_pos hd] at hs; cases hs
    · rw [if_neg hd] at hs; injection hs with hs; injection hs with hs; subst hs; rfl
  | spawn b y =>
    simp only [Pool.step] at hs
    split at hs
    · injection hs with hs; injection hs with hs; subst hs; rfl
    · cases hs
  | await b y =>
    simp only [Pool.step] at hs
    split at hs
    · injection hs with hs; injection hs with hs; subst hs; simp [Spec.passed]
    · cases hs
  | run b s =>
    simp only [Pool.step] at hs
    split at hs
    · rw [move_enqueued (run_move hs)]; simp [Spec.passed]
    · cases hs
  | wakes b =>
    simp only [Pool.step] at hs
    split at hs
    · injection hs with hs; injection hs with hs; subst hs; simp [Spec.passed]
    · cases hs
  | destroy =>
    simp only [Pool.step] at hs
    by_cases hd : (!p.destroying && (p.agents.drop (p.started + 1)).all PC.isReturned) = true
    · rw [if_pos hd] at hs; injection hs with hs; injection hs with hs; subst hs; simp [Spec.passed]
    · rw [if_neg hd] at hs; cases hs

theorem steps_cons {p p' : Pool τ} {a : Act τ} {as : List (Act τ)} (hs : p.steps (a :: as) = some p') : ∃ p1, p.step a = some (.ok p1) ∧ p1.steps as = some p' := by
  simp only [Pool.steps] at hs
  split at hs
  · rename_i p1 h1; exact ⟨p1, h1, hs⟩
  · cases hs

theorem steps_append {p p' : Pool τ} : ∀ {as bs : List (Act τ)}, p.steps (as ++ bs) = some p' → ∃ p1, p.steps as = some p1 ∧ p1.steps bs = some p' := by
  intro as
  induction as generalizing p with
  | nil => intro bs h; exact ⟨p, rfl, h⟩
  | cons a as ih =>
    intro bs h
    obtain ⟨p1, h1, h2⟩ := steps_cons h
    obtain ⟨p2, h3, h4⟩ := ih h2
    exact ⟨p2, by simp only [Pool.steps, h1, h3], h4⟩

theorem steps_enqueued : ∀ (as : List (Act τ)) (p p' : Pool τ), p.steps as = some p' → p'.enqueued = p.enqueued ++ Spec.passed as := by
  intro as
  induction as with
  | nil => intro p p' hs; injection hs with hs; subst hs; simp [Spec.passed]
  | cons a as ih =>
    intro p p' hs
    obtain ⟨p1, h1, h2⟩ := steps_cons hs
    rw [ih p1 p' h2, step_enqueued h1, List.append_assoc]
    congr 1
    rw [show Spec.passed (a :: as) = Spec.passed ([a] ++ as) from rfl]
    simp only [Spec.passed, List.filterMap_append]

theorem tryAcquire_false {p p' : Pool τ} {a j : Nat} {pc fail : PC τ} (h : p.tryAcquire a j false pc fail = .ok p') : p'.spurious = p.spurious := by
  unfold Pool.tryAcquire at h
  split at h
  · cases h
  · split at h
    · injection h with h; subst h; rfl
    · injection h with h; subst h; rfl

theorem step_spurious {p p' : Pool τ} {a : Act τ} (hs : p.step a = some (.ok p')) (ha : ∀ b, a ≠ .run b true) : p'.spurious = p.spurious := by
  cases a with
  | enqueue x =>
    simp only [Pool.step] at hs
    by_cases hd : p.destroying = true
    · rw [if_pos hd] at hs; cases hs
    · rw [if_neg hd] at hs; injection hs with hs; injection hs with hs; subst hs; rfl
  | spawn b y =>
    simp only [Pool.step] at hs
    split at hs
    · injection hs with hs; injection hs with hs; subst hs; rfl
    · cases hs
  | await b y =>
    simp only [Pool.step] at hs
    split at hs
    · injection hs with hs; injection hs with hs; subst hs; rfl
    · cases hs
  | run b s =>
    cases s with
    | true => exact absurd rfl (ha b)
    | false =>
      simp only [Pool.step] at hs
      split at hs
      · rename_i pc _
        cases pc with
        | scan m =>
          simp only [Pool.run] at hs
          split at hs
          · injection hs with hs; exact tryAcquire_false hs
          · injection hs with hs; injection hs with hs; subst hs; rfl
        | tryPush c x i m =>
          simp only [Pool.run] at hs
          split at hs
          · injection hs with hs; exact tryAcquire_false hs
          · injection hs with hs; injection hs with hs; subst hs; rfl
        | _ => have hm := run_move hs; cases hm <;> simp
      · cases hs
  | wakes b =>
    simp only [Pool.step] at hs
    split at hs
    · injection hs with hs; injection hs with hs; subst hs; rfl
    · cases hs
  | destroy =>
    simp only [Pool.step] at hs
    by_cases hd : (!p.destroying && (p.agents.drop (p.started + 1)).all PC.isReturned) = true
    · rw [if_pos hd] at hs; injection hs with hs; injection hs with hs; subst hs; rfl
    · rw [if_neg hd] at hs; cases hs

theorem steps_spurious : ∀ (as : List (Act τ)) (p p' : Pool τ), p.steps as = some p' → (∀ b, (.run b true : Act τ) ∉ as) → p'.spurious = p.spurious := by
  intro as
  induction as with
  | nil => intro p p' hs _; injection hs with hs; subst hs; rfl
  | cons a as ih =>
    intro p p' hs hno
    obtain ⟨p1, h1, h2⟩ := steps_cons hs
    rw [ih p1 p' h2 fun b hb => hno b (List.mem_cons_of_mem _ hb)]
    exact step_spurious h1 fun b e => hno b (by rw [e]; simp)

/-- **C172, exactly once.** If `std::try_to_lock` fails only on mutexes that are held, then when the destructor has returned, the tasks executed are those passed to the pool, from outside and by tasks, each as often as it
was passed; also those that tasks have passed to it after the destructor began. The mutexes of the C++ standard need not satisfy the condition: see `C172_counterexample_lost`. -/
theorem C172_exactly_once_partial {n hw : Nat} (hn : 0 < n) (hsm : n ≤ 2 ^ 31) (as : List (Act τ)) (p : Pool τ) (hs : (Pool.init τ n hw).steps as = some p) (hd : Spec.Destroyed p)
    (hno : ∀ b, (.run b true : Act τ) ∉ as) : p.ran.Perm (Spec.passed as) := by
  have h := exactly_once hn hsm (reachable_steps as .init hs) hd (.inl (steps_spurious as _ p hs hno))
  rw [steps_enqueued as _ p hs] at h
  exact h

/-- **C172, exactly once, one thread.** A pool with one thread needs no such condition. -/
theorem C172_one_thread_partial {hw : Nat} (as : List (Act τ)) (p : Pool τ) (hs : (Pool.init τ 1 hw).steps as = some p) (hd : Spec.Destroyed p) : p.ran.Perm (Spec.passed as) := by
  have h := exactly_once (by decide) (by decide) (reachable_steps as .init hs) hd (.inr (.inr rfl))
  rw [steps_enqueued as _ p hs] at h
  exact h

/-! Tasks passed to the pool before the destructor begins. -/

theorem calling_wake {p : Pool τ} (h : ∀ pc ∈ p.agents, ¬Spec.Calling pc) (j : Nat) : ∀ pc ∈ (p.wake j).agents, ¬Spec.Calling pc := by
  intro pc hpc
  obtain ⟨b, hb⟩ := List.getElem?_of_mem hpc
  rcases wake_get hb with ⟨hb, _⟩ | ⟨_, rfl, _⟩
  · exact h pc (List.mem_of_getElem? hb)
  · exact fun e => e

theorem calling_set {l : List (PC τ)} {a : Nat} {pc' : PC τ} (h : ∀ pc ∈ l, ¬Spec.Calling pc) (h' : ¬Spec.Calling pc') : ∀ pc ∈ l.set a pc', ¬Spec.Calling pc := by
  intro pc hpc
  obtain ⟨b, hb⟩ := List.getElem?_of_mem hpc
  rcases set_cases hb with ⟨_, rfl⟩ | ⟨_, hb⟩
  · exact h'
  · exact h pc (List.mem_of_getElem? hb)

theorem calling_move {p p' : Pool τ} {a : Nat} {pc : PC τ} (h : ∀ pc ∈ p.agents, ¬Spec.Calling pc) (ha : p.agents[a]? = some pc) (hm : Move p a pc p') :
    (∀ pc ∈ p'.agents, ¬Spec.Calling pc) ∧ p'.late = p.late := by
  have hpc := h pc (List.mem_of_getElem? ha)
  cases hm with
  | scanUnlock n j r q h1 => exact ⟨calling_set h (by cases r <;> exact fun e => e), rfl⟩
  | ownUnlock j r q h1 => exact ⟨calling_set h (by cases r <;> exact fun e => e), rfl⟩
  | notify b j => exact ⟨calling_set (calling_wake h j) (by cases b <;> exact fun e => e), by simp⟩
  | closeNotify j => exact ⟨calling_set (calling_wake h j) (fun e => e), by simp⟩
  | tryLock b x i n j q h1 h2 h3 h4 => exact absurd trivial hpc
  | tryFail b x i n h1 => exact absurd trivial hpc
  | trySpurious b x i n h1 => exact absurd trivial hpc
  | tryEnd b x i n h1 => exact absurd trivial hpc
  | lock b x j q h1 h2 => exact absurd trivial hpc
  | insert b x j q h1 => exact absurd trivial hpc
  | _ => exact ⟨calling_set h (fun e => e), rfl⟩

theorem destroying_iff {n : Nat} {p : Pool τ} (hs : Shape n p) : p.destroying = true ↔ p.agents[n]? ≠ some .uses := by
  constructor
  · intro hd e
    unfold Pool.destroying at hd
    rw [hs.started, e] at hd; cases hd
  · intro hne
    obtain ⟨m, hm⟩ := main_get hs
    exact destroying_of hs hm (by rintro rfl; exact hne hm)

theorem destroying_move {n : Nat} (hn : 0 < n) {p p' : Pool τ} {a : Nat} {pc : PC τ} (hs : Shape n p) (ha : p.agents[a]? = some pc) (hm : Move p a pc p') (hd : p.destroying = true) : p'.destroying = true := by
  rw [destroying_iff (shape_move hn hs ha hm)]
  rw [destroying_iff hs] at hd
  intro e
  by_cases han : n = a
  · subst han; exact (main_move hs hm ha e).2.2.1 rfl
  · exact hd (main_same hs hm han e)

theorem late_step {n hw : Nat} (hn : 0 < n) (hsm : n ≤ 2 ^ 31) {p : Pool τ} (h : Reachable n hw p) : p.late = true → p.destroying = true := by
  induction h with
  | init => intro e; cases e
  | @step p p' a hr hs ih =>
    intro hl
    have hc := (hr.inv hn hsm).1
    have hc' := ((Reachable.step a hr hs).inv hn hsm).1
    cases a with
    | enqueue x =>
      simp only [Pool.step] at hs
      by_cases hd : p.destroying = true
      · rw [if_pos hd] at hs; cases hs
      · rw [if_neg hd] at hs; injection hs with hs; injection hs with hs; subst hs; exact absurd (ih hl) hd
    | spawn b y =>
      simp only [Pool.step] at hs
      split at hs
      · rename_i x hx
        injection hs with hs; injection hs with hs; subst hs
        have hd := ih hl
        have hb : b < n := hc.shape.fits b _ hx
        rw [destroying_iff hc.shape] at hd
        rw [destroying_iff hc'.shape]
        simp only [go_agents]
        rw [List.getElem?_set_ne (by omega)]; exact hd
      · cases hs
    | await b y =>
      simp only [Pool.step] at hs
      split at hs
      · rename_i x hx
        injection hs with hs; injection hs with hs; subst hs
        have hd := ih hl
        have hb : b < n := hc.shape.fits b _ hx
        rw [destroying_iff hc.shape] at hd
        rw [destroying_iff hc'.shape]
        simp only [go_agents]
        rw [List.getElem?_set_ne (by omega)]; exact hd
      · cases hs
    | run b s =>
      simp only [Pool.step] at hs
      split at hs
      · rename_i pc hpc
        have hm := run_move hs
        by_cases hd : p.destroying = true
        · exact destroying_move hn hc.shape hpc hm hd
        · exfalso
          have hl0 : p.late = false := by
            cases h : p.late with
            | true => exact absurd (ih h) hd
            | false => rfl
          cases hm <;> simp [hl0] at hl <;> exact hd hl
      · cases hs
    | wakes b =>
      simp only [Pool.step] at hs
      split at hs
      · rename_i j hj
        injection hs with hs; injection hs with hs; subst hs
        have hd := ih hl
        have hb := (hc.shape.fits b _ hj).1
        rw [destroying_iff hc.shape] at hd
        rw [destroying_iff hc'.shape]
        simp only [go_agents]
        rw [List.getElem?_set_ne (by omega)]; exact hd
      · cases hs
    | destroy =>
      simp only [Pool.step] at hs
      by_cases hd : (!p.destroying && (p.agents.drop (p.started + 1)).all PC.isReturned) = true
      · rw [if_pos hd] at hs; injection hs with hs; injection hs with hs; subst hs
        rw [Bool.and_eq_true] at hd
        have := ih hl
        rw [this] at hd; cases hd.1
      · rw [if_neg hd] at hs; cases hs

theorem calling_steps {n hw : Nat} (hn : 0 < n) (hsm : n ≤ 2 ^ 31) : ∀ (as : List (Act τ)) (p p' : Pool τ), Reachable n hw p → p.destroying = true → (∀ pc ∈ p.agents, ¬Spec.Calling pc) →
    (∀ b y, (.spawn b y : Act τ) ∉ as) → p.steps as = some p' → p'.late = p.late := by
  intro as
  induction as with
  | nil => intro p p' _ _ _ _ hs; injection hs with hs; subst hs; rfl
  | cons a as ih =>
    intro p p' hr hd hcall hno hs
    obtain ⟨p1, h1, h2⟩ := steps_cons hs
    have hno' : ∀ b y, (.spawn b y : Act τ) ∉ as := fun b y h => hno b y (List.mem_cons_of_mem _ h)
    have hr1 := Reachable.step a hr h1
    have hc := (hr.inv hn hsm).1
    have hc' := (hr1.inv hn hsm).1
    suffices p1.destroying = true ∧ (∀ pc ∈ p1.agents, ¬Spec.Calling pc) ∧ p1.late = p.late by
      rw [ih p1 p' hr1 this.1 this.2.1 hno' h2, this.2.2]
    cases a with
    | enqueue x => simp only [Pool.step, hd, if_true] at h1; cases h1
    | spawn b y => exact absurd (by simp) (hno b y)
    | await b y =>
      simp only [Pool.step] at h1
      split at h1
      · rename_i x hx
        injection h1 with h1; injection h1 with h1; subst h1
        have hb : b < n := hc.shape.fits b _ hx
        refine ⟨?_, calling_set hcall (fun e => e), rfl⟩
        rw [destroying_iff hc.shape] at hd
        rw [destroying_iff hc'.shape]
        simp only [go_agents]
        rw [List.getElem?_set_ne (by omega)]; exact hd
      · cases h1
    | run b s =>
      simp only [Pool.step] at h1
      split at h1
      · rename_i pc hpc
        have hm := run_move h1
        exact ⟨destroying_move hn hc.shape hpc hm hd, calling_move hcall hpc hm⟩
      · cases h1
    | wakes b =>
      simp only [Pool.step] at h1
      split at h1
      · rename_i j hj
        injection h1 with h1; injection h1 with h1; subst h1
        have hb := (hc.shape.fits b _ hj).1
        refine ⟨?_, calling_set hcall (fun e => e), rfl⟩
        rw [destroying_iff hc.shape] at hd
        rw [destroying_iff hc'.shape]
        simp only [go_agents]
        rw [List.getElem?_set_ne (by omega)]; exact hd
      · cases h1
    | destroy => simp [Pool.step, hd] at h1

/-- **C172, exactly once, before the destructor.** Whatever `std::try_to_lock` does: if no call of `enqueue_work` or `enqueue_task` is in progress when the destructor begins and tasks make none after that, then when the
destructor has returned, the tasks executed are those that were passed to the pool, from outside and by tasks, each as often as it was passed. -/
theorem C172_before_partial {n hw : Nat} (hn : 0 < n) (hsm : n ≤ 2 ^ 31) (as bs : List (Act τ)) (p1 p : Pool τ) (h1 : (Pool.init τ n hw).steps as = some p1) (hcall : ∀ pc ∈ p1.agents, ¬Spec.Calling pc)
    (hs : p1.steps (.destroy :: bs) = some p) (hno : ∀ b y, (.spawn b y : Act τ) ∉ bs) (hd : Spec.Destroyed p) : p.ran.Perm (Spec.passed as) := by
  have hr1 := reachable_steps as .init h1
  have hc1 := (hr1.inv hn hsm).1
  have hr := reachable_steps _ hr1 hs
  obtain ⟨p2, h2, h3⟩ := steps_cons hs
  have hr2 := Reachable.step _ hr1 h2
  have hc2 := (hr2.inv hn hsm).1
  have hstep : p.late = false ∧ p2.enqueued = p1.enqueued := by
    simp only [Pool.step] at h2
    by_cases hd : (!p1.destroying && (p1.agents.drop (p1.started + 1)).all PC.isReturned) = true
    · rw [if_pos hd] at h2; injection h2 with h2; injection h2 with h2; subst h2
      rw [Bool.and_eq_true] at hd
      have hd1 : p1.destroying = false := by simpa using hd.1
      have hl : p1.late = false := by
        cases h : p1.late with
        | true => rw [late_step hn hsm hr1 h] at hd1; cases hd1
        | false => rfl
      have hd2 : (p1.go p1.started (.closeLock 0)).destroying = true := by
        rw [destroying_iff hc2.shape, hc1.shape.started]
        simp [hc1.shape.agents]
      refine ⟨?_, rfl⟩
      rw [calling_steps hn hsm bs _ p hr2 hd2 (calling_set hcall fun e => e) hno h3]
      exact hl
    · rw [if_neg hd] at h2; cases h2
  have h := exactly_once hn hsm hr hd (.inr (.inl hstep.1))
  have hnone : ∀ (bs : List (Act τ)) (q q' : Pool τ), q.destroying = true → Reachable n hw q → q.steps bs = some q' → (∀ b y, (.spawn b y : Act τ) ∉ bs) → q'.enqueued = q.enqueued := by
    intro bs
    induction bs with
    | nil => intro q q' _ _ hs _; injection hs with hs; subst hs; rfl
    | cons a bs ih =>
      intro q q' hqd hqr hqs hno
      obtain ⟨q1, e1, e2⟩ := steps_cons hqs
      have hqc := (hqr.inv hn hsm).1
      have hq1r := Reachable.step a hqr e1
      have hq1c := (hq1r.inv hn hsm).1
      have hen : q1.enqueued = q.enqueued := by
        rw [step_enqueued e1]
        cases a with
        | enqueue x => simp only [Pool.step, hqd, if_true] at e1; cases e1
        | spawn b y => exact absurd (by simp) (hno b y)
        | _ => simp [Spec.passed]
      have hd1 : q1.destroying = true := by
        cases a with
        | enqueue x => simp only [Pool.step, hqd, if_true] at e1; cases e1
        | spawn b y => exact absurd (by simp) (hno b y)
        | destroy => simp [Pool.step, hqd] at e1
        | run b s =>
          simp only [Pool.step] at e1
          split at e1
          · rename_i pc hpc; exact destroying_move hn hqc.shape hpc (run_move e1) hqd
          · cases e1
        | await b y =>
          simp only [Pool.step] at e1
          split at e1
          · rename_i x hx
            injection e1 with e1; injection e1 with e1; subst e1
            have hb : b < n := hqc.shape.fits b _ hx
            rw [destroying_iff hqc.shape] at hqd
            rw [destroying_iff hq1c.shape]
            simp only [go_agents]
            rw [List.getElem?_set_ne (by omega)]; exact hqd
          · cases e1
        | wakes b =>
          simp only [Pool.step] at e1
          split at e1
          · rename_i j hj
            injection e1 with e1; injection e1 with e1; subst e1
            have hb := (hqc.shape.fits b _ hj).1
            rw [destroying_iff hqc.shape] at hqd
            rw [destroying_iff hq1c.shape]
            simp only [go_agents]
            rw [List.getElem?_set_ne (by omega)]; exact hqd
          · cases e1
      rw [ih q1 q' hd1 hq1r e2 (fun b y hb => hno b y (List.mem_cons_of_mem _ hb)), hen]
  have hd2 : p2.destroying = true := by
    simp only [Pool.step] at h2
    by_cases hd : (!p1.destroying && (p1.agents.drop (p1.started + 1)).all PC.isReturned) = true
    · rw [if_pos hd] at h2; injection h2 with h2; injection h2 with h2; subst h2
      rw [destroying_iff hc2.shape, hc1.shape.started]
      simp [hc1.shape.agents]
    · rw [if_neg hd] at h2; cases h2
  rw [hnone bs p2 p hd2 hr2 h3 hno, hstep.2, steps_enqueued as _ p1 h1] at h
  exact h

/-- **C172, never undefined.** With at least one thread, no step does anything undefined. -/
theorem C172_defined {n hw : Nat} (hn : 0 < n) (hsm : n ≤ 2 ^ 31) {p : Pool τ} (h : Reachable n hw p) (a : Act τ) : p.step a ≠ some .ub ∧ p.step a ≠ some .throws := by
  have hs := (h.inv hn hsm).1.shape
  cases a with
  | enqueue x => simp only [Pool.step]; split <;> simp
  | spawn b y => simp only [Pool.step]; split <;> simp
  | await b y => simp only [Pool.step]; split <;> simp
  | run b s =>
    simp only [Pool.step]
    split
    · rename_i pc hpc; exact run_fine hn hs hpc s
    · simp
  | wakes b => simp only [Pool.step]; split <;> simp
  | destroy => simp only [Pool.step]; split <;> simp

/-- **C172, everything ends.** From every state, the threads can take only a bounded number of steps, whatever the order, unless tasks are passed to the pool or begin to wait, or threads wake up for no reason. -/
theorem C172_terminates {n hw : Nat} (hn : 0 < n) (hsm : n ≤ 2 ^ 31) {p : Pool τ} (h : Reachable n hw p) :
    ∃ bound, ∀ as p', p.steps as = some p' → (∀ a ∈ as, (∃ b s, a = .run b s) ∨ a = .destroy) → as.length ≤ bound := by
  refine ⟨p.left n, ?_⟩
  intro as
  induction as generalizing p with
  | nil => intro _ _ _; exact Nat.zero_le _
  | cons a as ih =>
    intro p' hs hp
    obtain ⟨p1, h1, h2⟩ := steps_cons hs
    have hc := (h.inv hn hsm).1
    have hdec : p1.left n < p.left n := by
      rcases hp a (by simp) with ⟨b, s, rfl⟩ | rfl
      · simp only [Pool.step] at h1
        split at h1
        · rename_i pc hpc; exact left_move hc.shape hpc (run_move h1)
        · cases h1
      · simp only [Pool.step] at h1
        by_cases hd : (!p.destroying && (p.agents.drop (p.started + 1)).all PC.isReturned) = true
        · rw [if_pos hd] at h1; injection h1 with h1; injection h1 with h1; subst h1
          rw [Bool.and_eq_true] at hd
          have hu := uses_of hc.shape (by simpa using hd.1)
          rw [hc.shape.started]
          have := tot_set (PC.weight n) _ _ _ (.closeLock 0) hu
          simp only [Pool.left, go_agents, go_queues, PC.weight] at *
          omega
        · rw [if_neg hd] at h1; cases h1
    have := ih (.step a h h1) p' h2 fun b hb => hp b (List.mem_cons_of_mem _ hb)
    simp only [List.length_cons]
    omega

/-- **C172 and C173, the destructor returns.** When the destructor has begun and no thread can take a step, it has returned, unless a task waits for the future of a task that has not been executed. -/
theorem C172_destructor_returns {n hw : Nat} (hn : 0 < n) (hsm : n ≤ 2 ^ 31) {p : Pool τ} (h : Reachable n hw p) (hq : Spec.Quiescent p) (hd : Spec.Destroying p) (hw' : ∀ b, ¬Spec.Waiting p b) : Spec.Destroyed p := by
  have hc := (h.inv hn hsm).1
  unfold Spec.Destroyed
  unfold Spec.Destroying at hd
  rw [hc.shape.started] at hd ⊢
  obtain ⟨m, hm⟩ := main_get hc.shape
  have hr := rests hn hc (fun a => hq a false) hm
  have hf := hc.shape.fits n m hm
  cases m with
  | uses => exact absurd hm hd
  | done => exact hm
  | join k =>
    exfalso
    obtain ⟨hk, hne⟩ := hr
    have hlt : k < p.agents.length := Nat.lt_trans hk hc.shape.agents
    have hk' := List.getElem?_eq_getElem hlt
    generalize p.agents[k] = pc at hk'
    have hrk := rests hn hc (fun a => hq a false) hk'
    have hfk := hc.shape.fits k pc hk'
    cases pc with
    | wait j =>
      obtain ⟨_, q, hq1, _, hq3⟩ := hrk
      have := (hc.closed k q _ hq1 hm).2 trivial
      rw [hq3] at this; cases this
    | await x y => exact hw' k ⟨x, y, hk', hrk⟩
    | exited => exact hne hk'
    | returned => simp only [Fits] at hfk; omega
    | uses => simp only [Fits] at hfk; omega
    | join i => simp only [Fits] at hfk; omega
    | done => simp only [Fits] at hfk; omega
    | _ => cases hrk
  | wait j => simp only [Fits] at hf; omega
  | exited => simp only [Fits] at hf; omega
  | await x y => simp only [Fits] at hf; omega
  | returned => simp only [Fits] at hf; omega
  | _ => cases hr

/-- **C172, without the destructor.** When the pool is in use and no thread can take a step, every task passed to it has been executed, unless a task waits for the future of a task that has not been executed. -/
theorem C172_idle_pool {n hw : Nat} (hn : 0 < n) (hsm : n ≤ 2 ^ 31) {p : Pool τ} (h : Reachable n hw p) (hq : Spec.Quiescent p) (hd : ¬Spec.Destroying p) (hw' : ∀ b, ¬Spec.Waiting p b) : p.ran.Perm p.enqueued := by
  have hc := (h.inv hn hsm).1
  have hm : p.agents[n]? = some .uses := by
    unfold Spec.Destroying at hd
    rw [hc.shape.started] at hd
    exact Decidable.not_not.1 hd
  have hpc : ∀ (b : Nat) (pc : PC τ), p.agents[b]? = some pc → (∃ q, pc = .wait b ∧ p.queues[b]? = some q ∧ q.items = []) ∨ (n ≤ b ∧ (pc = .uses ∨ pc = .returned)) := by
    intro b pc hb
    have hr := rests hn hc (fun a => hq a false) hb
    have hf := hc.shape.fits b pc hb
    cases pc with
    | wait j => obtain ⟨rfl, q, h1, h2, _⟩ := hr; exact .inl ⟨q, rfl, h1, h2⟩
    | await x y => exact absurd ⟨x, y, hb, hr⟩ (hw' b)
    | exited => exact absurd (hc.exited b _ hb hm) (fun e => e)
    | returned => exact .inr ⟨Nat.le_of_lt hf, .inr rfl⟩
    | uses => exact .inr ⟨Nat.le_of_eq hf.symm, .inl rfl⟩
    | join i => rw [hf.1, hm] at hb; cases hb
    | done => rw [hf, hm] at hb; cases hb
    | _ => cases hr
  have hqs : ∀ q ∈ p.queues, q.items = [] := by
    intro q hq
    obtain ⟨j, hj⟩ := List.getElem?_of_mem hq
    have hjn : j < n := hc.shape.queues ▸ lt_of_getElem? hj
    rcases hpc j _ (List.getElem?_eq_getElem (Nat.lt_trans hjn hc.shape.agents)) with ⟨q', _, h1, h2⟩ | ⟨h1, _⟩
    · rw [hj] at h1; injection h1 with e; rw [e]; exact h2
    · omega
  rw [List.perm_iff_count]
  intro x
  rw [hc.counted x, tot_zero _ p.queues (fun q h => by rw [hqs q h]; rfl), tot_zero _ p.agents]
  · omega
  · intro pc hp
    obtain ⟨b, hb⟩ := List.getElem?_of_mem hp
    rcases hpc b pc hb with ⟨_, rfl, _⟩ | ⟨_, rfl | rfl⟩ <;> rfl

/-! ### Examples, and what goes wrong -/

/-- Thread `a` takes `k` steps. -/
def Spec.go (a k : Nat) : List (Act τ) := List.replicate k (.run a false)

/-- Two threads. Task `x` comes from outside. The second worker looks into all queues, finds nothing, and waits for its own queue; the destructor closes it, and the worker leaves. After that, the first worker's task
`x` passes task `y` to the pool: it gets into the second queue. -/
def Spec.late (x y : τ) : List (Act τ) :=
  [.enqueue x] ++ go 3 4 ++ go 0 3 ++ go 1 15 ++ [.destroy] ++ go 2 9 ++ go 1 3 ++ [.spawn 0 y] ++ go 0 5

/-- As above; then the first worker looks into all queues, finds `y` in the second, executes it, looks again, and leaves. -/
def Spec.found (x y : τ) : List (Act τ) := late x y ++ go 0 3 ++ go 0 3 ++ go 0 1 ++ go 0 12 ++ go 0 4 ++ go 2 3

/-- As above, but the two attempts to lock the second queue fail although nobody holds its mutex. -/
def Spec.missed (x y : τ) : List (Act τ) := late x y ++ go 0 3 ++ [.run 0 true] ++ go 0 3 ++ [.run 0 true] ++ go 0 4 ++ go 2 3

/-- Non-vacuity: a task passed by a task while the destructor waits is executed. -/
example : ∃ p, (Pool.init Nat 2 4).steps (Spec.found 5 6) = some p ∧ Spec.Destroyed p ∧ p.late = true ∧ Spec.passed (Spec.found 5 6) = [5, 6] ∧ p.ran = [5, 6] ∧ ∀ b, (.run b true : Act Nat) ∉ Spec.found 5 6 :=
  ⟨_, rfl, rfl, rfl, rfl, rfl, fun b h => by simp [Spec.found, Spec.late, Spec.go, List.mem_replicate] at h⟩

/-- Non-vacuity: one thread; the task passes another one after the destructor began, and an attempt to lock fails for no reason. -/
example : ∃ p, (Pool.init Nat 1 4).steps ([.enqueue 5] ++ Spec.go 2 4 ++ Spec.go 0 3 ++ [.destroy] ++ Spec.go 1 5 ++ [.spawn 0 6] ++ Spec.go 0 5 ++ [.run 0 true, .run 0 true] ++ Spec.go 0 15 ++ Spec.go 1 2) = some p ∧
    Spec.Destroyed p ∧ p.ran = [5, 6] ∧ p.late = true ∧ p.spurious = true :=
  ⟨_, rfl, rfl, rfl, rfl, rfl⟩

/-- Non-vacuity: a task passes another one before the destructor begins, and attempts to lock fail for no reason. -/
example : ∃ p1 p, (Pool.init Nat 1 4).steps ([.enqueue 5] ++ Spec.go 2 4 ++ Spec.go 0 3 ++ [.spawn 0 6] ++ Spec.go 0 4) = some p1 ∧ (∀ pc ∈ p1.agents, ¬Spec.Calling pc) ∧
    p1.steps ([.destroy] ++ Spec.go 1 5 ++ Spec.go 0 1 ++ [.run 0 true, .run 0 true] ++ Spec.go 0 15 ++ Spec.go 1 2) = some p ∧ Spec.Destroyed p ∧ p.ran = [5, 6] := by
  refine ⟨{ threads := 1, queues := [{ items := [6] }], started := 1, agents := [.run 5, .uses, .returned], index := 2, enqueued := [5, 6] },
    { threads := 1, queues := [{ closed := true }], started := 1, agents := [.exited, .done, .returned], index := 2, enqueued := [5, 6], ran := [5, 6], spurious := true }, rfl, ?_, rfl, rfl, rfl⟩
  intro pc hpc h
  simp at hpc
  rcases hpc with rfl | rfl | rfl <;> exact h

/-- **C172, negation.** A task that a task passes to the pool may never be executed, although the destructor returns: with two threads, if `std::try_to_lock` fails on a free mutex, which the C++ standard allows. -/
theorem C172_counterexample_lost (hw : Nat) (x y : τ) : ∃ p, (Pool.init τ 2 hw).steps (Spec.missed x y) = some p ∧ Spec.Destroyed p ∧ p.enqueued = [x, y] ∧ p.ran = [x] ∧ p.queues.map Queue.items = [[], [y]] :=
  ⟨{ threads := 2, queues := [{ closed := true }, { items := [y], closed := true }], started := 2, agents := [.exited, .exited, .done, .returned], index := 2, enqueued := [x, y], ran := [x], spurious := true, late := true },
    by simp [Spec.missed, Spec.late, Spec.go, Pool.init, Pool.steps, Pool.step, Pool.run, Pool.tryAcquire, Pool.acquire, Pool.access, Pool.go, Pool.put, Pool.limit, after, Pool.wake, Pool.destroying, PC.isReturned], rfl, rfl, rfl, rfl⟩

/-! C173: tasks that wait for other tasks. -/

theorem stuck_move {n : Nat} {p p' : Pool τ} {a : Nat} {pc : PC τ} (hs : Shape n p) (hst : ∀ i, i < n → Spec.Waiting p i) (ha : p.agents[a]? = some pc) (hm : Move p a pc p') :
    p'.ran = p.ran ∧ ∀ i, i < n → Spec.Waiting p' i := by
  have han : n ≤ a := by
    rcases Nat.lt_or_ge a n with h | h
    · obtain ⟨x, y, h1, h2⟩ := hst a h
      rw [ha] at h1; injection h1 with e; subst e
      cases hm with
      | await _ _ h3 => exact absurd h3 h2
    · exact h
  have hran : p'.ran = p.ran := by
    have hf := hs.fits a pc ha
    cases hm with
    | run x => have hf : a < n := hf; omega
    | _ => simp
  refine ⟨hran, fun i hi => ?_⟩
  obtain ⟨x, y, h1, h2⟩ := hst i hi
  exact ⟨x, y, others_keep hm (by omega) h1 (by simp), by rw [hran]; exact h2⟩

theorem stuck_step {n hw : Nat} (hn : 0 < n) (hsm : n ≤ 2 ^ 31) {p p' : Pool τ} {a : Act τ} (h : Reachable n hw p) (hst : ∀ i, i < n → Spec.Waiting p i) (hs : p.step a = some (.ok p')) :
    p'.ran = p.ran ∧ ∀ i, i < n → Spec.Waiting p' i := by
  have hc := (h.inv hn hsm).1
  have hworker : ∀ {b : Nat} {pc pc' : PC τ}, b < n → p.agents[b]? = some pc' → (∀ x y, pc' ≠ .await x y) → False := by
    intro b pc pc' hb hpc hne
    obtain ⟨x, y, h1, _⟩ := hst b hb
    rw [hpc] at h1; injection h1 with e; exact hne x y e
  cases a with
  | enqueue x =>
    simp only [Pool.step] at hs
    by_cases hd : p.destroying = true
    · rw [if_pos hd] at hs; cases hs
    · rw [if_neg hd] at hs; injection hs with hs; injection hs with hs; subst hs
      refine ⟨rfl, fun i hi => ?_⟩
      obtain ⟨x, y, h1, h2⟩ := hst i hi
      exact ⟨x, y, append_keep h1, h2⟩
  | spawn b y =>
    simp only [Pool.step] at hs
    split at hs
    · rename_i x hx; exact (hworker (pc := .exited) (hc.shape.fits b _ hx) hx (by simp)).elim
    · cases hs
  | await b y =>
    simp only [Pool.step] at hs
    split at hs
    · rename_i x hx; exact (hworker (pc := .exited) (hc.shape.fits b _ hx) hx (by simp)).elim
    · cases hs
  | run b s =>
    simp only [Pool.step] at hs
    split at hs
    · rename_i pc hpc; exact stuck_move hc.shape hst hpc (run_move hs)
    · cases hs
  | wakes b =>
    simp only [Pool.step] at hs
    split at hs
    · rename_i j hj; exact (hworker (pc := .exited) (hc.shape.fits b _ hj).1 hj (by simp)).elim
    · cases hs
  | destroy =>
    simp only [Pool.step] at hs
    by_cases hd : (!p.destroying && (p.agents.drop (p.started + 1)).all PC.isReturned) = true
    · rw [if_pos hd] at hs; injection hs with hs; injection hs with hs; subst hs
      refine ⟨rfl, fun i hi => ?_⟩
      obtain ⟨x, y, h1, h2⟩ := hst i hi
      refine ⟨x, y, ?_, h2⟩
      rw [hc.shape.started, go_agents, List.getElem?_set_ne (by omega)]; exact h1
    · rw [if_neg hd] at hs; cases hs

/-- **C173, negation in general.** Once the tasks of all threads of the pool wait for tasks that have not been executed, no task is ever executed any more, whatever happens, and the destructor never returns. -/
theorem C173_counterexample_deadlock {n hw : Nat} (hn : 0 < n) (hsm : n ≤ 2 ^ 31) {p : Pool τ} (h : Reachable n hw p) (hst : ∀ i, i < n → Spec.Waiting p i) :
    ∀ (as : List (Act τ)) (p' : Pool τ), p.steps as = some p' → p'.ran = p.ran ∧ ¬Spec.Destroyed p' := by
  intro as
  induction as generalizing p with
  | nil =>
    intro p' hs
    injection hs with hs; subst hs
    refine ⟨rfl, fun hd => ?_⟩
    obtain ⟨x, y, h1, _⟩ := hst 0 hn
    rw [(done_exited hn hsm h hd).2.1 0 hn] at h1; cases h1
  | cons a as ih =>
    intro p' hs
    obtain ⟨p1, h1, h2⟩ := steps_cons hs
    obtain ⟨hr, hst'⟩ := stuck_step hn hsm h hst h1
    obtain ⟨h3, h4⟩ := ih (.step a h h1) hst' p' h2
    exact ⟨h3.trans hr, h4⟩

/-- **C173, negation.** It takes one thread and one task that passes another task to the pool and waits for its result. -/
theorem C173_counterexample_own_task (hw : Nat) (x y : τ) :
    ∃ p, (Pool.init τ 1 hw).steps ([.enqueue x] ++ Spec.go 2 4 ++ Spec.go 0 3 ++ [.spawn 0 y] ++ Spec.go 0 4 ++ [.await 0 y]) = some p ∧ y ∈ p.enqueued ∧ ∀ i, i < 1 → Spec.Waiting p i := by
  refine ⟨{ threads := 1, queues := [{ items := [y] }], started := 1, agents := [.await x y, .uses, .returned], index := 2, enqueued := [x, y] }, by simp [Spec.go, Pool.init, Pool.steps, Pool.step, Pool.run, Pool.tryAcquire, Pool.acquire, Pool.access, Pool.go, Pool.put, Pool.limit, after, Pool.wake, Pool.destroying, PC.isReturned], by simp, fun i hi => ?_⟩
  have : i = 0 := by omega
  subst this
  exact ⟨x, y, rfl, by simp⟩

/-- Two threads, and two tasks of that kind. -/
example : ∃ p, (Pool.init Nat 2 4).steps ([.enqueue 1, .enqueue 2] ++ Spec.go 3 4 ++ Spec.go 4 4 ++ Spec.go 0 3 ++ Spec.go 1 3 ++ [.spawn 0 3, .spawn 1 4] ++ Spec.go 0 4 ++ Spec.go 1 4 ++ [.await 0 3, .await 1 4]) = some p ∧
    p.enqueued = [1, 2, 3, 4] ∧ ∀ i, i < 2 → Spec.Waiting p i := by
  refine ⟨_, rfl, rfl, fun i hi => ?_⟩
  match i, hi with
  | 0, _ => exact ⟨1, 3, rfl, by simp [Pool.init, Pool.go, Pool.put]⟩
  | 1, _ => exact ⟨2, 4, rfl, by simp [Pool.init, Pool.go, Pool.put]⟩

/-- With two threads, a task that waits for a task it has passed to the pool gets its result. -/
example : ∃ p, (Pool.init Nat 2 4).steps ([.enqueue 1] ++ Spec.go 3 4 ++ Spec.go 0 3 ++ [.spawn 0 2] ++ Spec.go 0 4 ++ [.await 0 2] ++ Spec.go 1 4 ++ Spec.go 0 2) = some p ∧ p.ran = [2, 1] :=
  ⟨_, rfl, rfl⟩

end Esl.Workers
