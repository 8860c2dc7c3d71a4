import Verif.Props.BlockingQueue
/-! # C169: what `size` and `empty` of the blocking queue tell -/
namespace Esl.BQueue

variable {α : Type}

/-! ## Specification -/

/-- The answer is true of the contents of the queue; `size` is an `unsigned int`. -/
def Spec.fits (q : List α) : Answer → Prop
  | .empty b => b = q.isEmpty
  | .size n => n = q.length % 2 ^ 32

/-- The number of elements that an answer promises. -/
def Spec.promised : Answer → Nat
  | .empty true => 0
  | .empty false => 1
  | .size n => n

/-- In this step, `empty` or `size` returns `a` to thread `t`. -/
def Spec.Tells (s s' : Sys α) (t : Nat) (a : Answer) : Prop := (∃ act, s.step act = some s') ∧ s'.answers = s.answers ++ [(t, a)]

/-! ## Steps -/

theorem set_answer {l : List (PC α)} {t i : Nat} {p : PC α} {a : Answer} (hp : ∀ a, p ≠ .answer a) (h : (l.set t p)[i]? = some (.answer a)) : t ≠ i ∧ l[i]? = some (.answer a) := by
  rcases getElem?_set_cases _ _ _ _ _ h with ⟨_, e⟩ | ⟨e, h⟩
  · exact absurd e.symm (hp a)
  · exact ⟨fun x => e x.symm, h⟩

theorem set_wait {l : List (PC α)} {t i : Nat} {p : PC α} (hp : p ≠ .popWait) (h : (l.set t p)[i]? = some .popWait) : l[i]? = some .popWait := by
  rcases getElem?_set_cases _ _ _ _ _ h with ⟨_, e⟩ | ⟨_, h⟩
  · exact absurd e.symm hp
  · exact h

/-- What a step does to threads that are about to return an answer. -/
def AnswerStep (s s' : Sys α) : Prop := ∀ (i : Nat) (a : Answer), s'.threads[i]? = some (.answer a) →
  (s.threads[i]? = some (.answer a) ∧ (s'.queue = s.queue ∨ ∃ (t : Nat) (pc : PC α), t ≠ i ∧ s.threads[t]? = some pc ∧ pc.holds = true)) ∨ (s'.queue = s.queue ∧ Spec.fits s'.queue a)

/-- What a step does to threads that wait. -/
def WaitStep (s s' : Sys α) : Prop := ∀ i : Nat, s'.threads[i]? = some .popWait → s.threads[i]? = some .popWait ∨ s'.queue = []

theorem go_steps (s s' : Sys α) (t : Nat) (p : PC α) (hp : ∀ a, p ≠ .answer a) (hw : p ≠ .popWait) (ht : s'.threads = s.threads.set t p) (hq : s'.queue = s.queue ∨ ∃ pc, s.threads[t]? = some pc ∧ pc.holds = true) :
    AnswerStep s s' ∧ WaitStep s s' := by
  constructor
  · intro i a h
    rw [ht] at h
    obtain ⟨h1, h2⟩ := set_answer hp h
    refine .inl ⟨h2, ?_⟩
    rcases hq with hq | ⟨pc, h3, h4⟩
    · exact .inl hq
    · exact .inr ⟨t, pc, h1, h3, h4⟩
  · intro i h
    rw [ht] at h
    exact .inl (set_wait hw h)

theorem lock_steps {s s' : Sys α} {t : Nat} {p : PC α} (hp : ∀ a, p ≠ .answer a) (hw : p ≠ .popWait) (hs : s.lock t p = some s') : AnswerStep s s' ∧ WaitStep s s' := by
  unfold Sys.lock at hs
  split at hs
  · injection hs with hs; subst hs; exact go_steps _ _ t p hp hw rfl (.inl rfl)
  · cases hs

theorem step_steps {s s' : Sys α} {a : Act α} (hs : s.step a = some s') : AnswerStep s s' ∧ WaitStep s s' := by
  cases a with
  | start t op =>
    simp only [Sys.step] at hs
    split at hs
    · injection hs with hs; subst hs
      exact go_steps _ _ t op.pc (by cases op <;> simp [Op.pc]) (by cases op <;> simp [Op.pc]) rfl (.inl rfl)
    · cases hs
  | run t =>
    simp only [Sys.step] at hs
    split at hs
    · rename_i pc ht
      cases pc with
      | idle => cases hs
      | notifyOne x => cases hs
      | popWait => cases hs
      | pushLock x => exact lock_steps (by simp) (by simp) hs
      | popLock => exact lock_steps (by simp) (by simp) hs
      | popWoken => exact lock_steps (by simp) (by simp) hs
      | closeLock => exact lock_steps (by simp) (by simp) hs
      | emptyLock => exact lock_steps (by simp) (by simp) hs
      | sizeLock => exact lock_steps (by simp) (by simp) hs
      | pushBody x => injection hs with hs; subst hs; exact go_steps _ _ t _ (by simp) (by simp) rfl (.inr ⟨_, ht, rfl⟩)
      | pushUnlock x => injection hs with hs; subst hs; exact go_steps _ _ t _ (by simp) (by simp) rfl (.inl rfl)
      | tryPush x =>
        injection hs with hs; subst hs
        unfold Sys.tryLock
        split <;> exact go_steps _ _ t _ (by simp) (by simp) rfl (.inl rfl)
      | tryPop =>
        injection hs with hs; subst hs
        unfold Sys.tryLock
        split <;> exact go_steps _ _ t _ (by simp) (by simp) rfl (.inl rfl)
      | popCheck =>
        injection hs with hs; subst hs
        by_cases hc : (s.queue.isEmpty && !s.closed) = true
        · rw [if_pos hc]
          have hq : s.queue = [] := by
            have : s.queue.isEmpty = true := by revert hc; cases s.queue.isEmpty <;> simp
            simpa using this
          constructor
          · intro i b h
            exact .inl ⟨(set_answer (by simp) h).2, .inl rfl⟩
          · intro i _; exact .inr hq
        · rw [if_neg hc]; exact go_steps _ _ t _ (by simp) (by simp) rfl (.inl rfl)
      | popTake =>
        simp only [Sys.run] at hs
        split at hs <;> injection hs with hs <;> subst hs <;> exact go_steps _ _ t _ (by simp) (by simp) rfl (.inr ⟨_, ht, rfl⟩)
      | tryPopBody =>
        simp only [Sys.run] at hs
        split at hs <;> injection hs with hs <;> subst hs <;> exact go_steps _ _ t _ (by simp) (by simp) rfl (.inr ⟨_, ht, rfl⟩)
      | popUnlock r => injection hs with hs; subst hs; exact go_steps _ _ t _ (by simp) (by simp) rfl (.inl rfl)
      | closeBody => injection hs with hs; subst hs; exact go_steps _ _ t _ (by simp) (by simp) rfl (.inl rfl)
      | closeUnlock => injection hs with hs; subst hs; exact go_steps _ _ t _ (by simp) (by simp) rfl (.inl rfl)
      | answer b => injection hs with hs; subst hs; exact go_steps _ _ t _ (by simp) (by simp) rfl (.inl rfl)
      | emptyBody =>
        injection hs with hs; subst hs
        refine ⟨fun i b h => ?_, fun i h => .inl (set_wait (by simp) h)⟩
        rcases getElem?_set_cases _ _ _ _ _ h with ⟨_, e⟩ | ⟨_, h⟩
        · injection e with e; subst e; exact .inr ⟨rfl, rfl⟩
        · exact .inl ⟨h, .inl rfl⟩
      | sizeBody =>
        injection hs with hs; subst hs
        refine ⟨fun i b h => ?_, fun i h => .inl (set_wait (by simp) h)⟩
        rcases getElem?_set_cases _ _ _ _ _ h with ⟨_, e⟩ | ⟨_, h⟩
        · injection e with e; subst e; exact .inr ⟨rfl, rfl⟩
        · exact .inl ⟨h, .inl rfl⟩
      | notifyAll =>
        injection hs with hs; subst hs
        constructor
        · intro i b h
          obtain ⟨_, h⟩ := set_answer (by simp) h
          rcases wakeAll_getElem? _ _ _ h with ⟨h, _⟩ | ⟨_, h⟩
          · exact .inl ⟨h, .inl rfl⟩
          · cases h
        · intro i h
          have h := set_wait (by simp) h
          rcases wakeAll_getElem? _ _ _ h with ⟨h, _⟩ | ⟨_, h⟩
          · exact .inl h
          · cases h
    · cases hs
  | notify t w =>
    simp only [Sys.step] at hs
    split at hs
    · cases w with
      | none =>
        simp only at hs
        split at hs
        · cases hs
        · injection hs with hs; subst hs; exact go_steps _ _ t _ (by simp) (by simp) rfl (.inl rfl)
      | some w =>
        simp only at hs
        split at hs
        · injection hs with hs; subst hs
          constructor
          · intro i b h
            obtain ⟨_, h⟩ := set_answer (by simp) h
            obtain ⟨_, h⟩ := set_answer (by simp) h
            exact .inl ⟨h, .inl rfl⟩
          · intro i h
            exact .inl (set_wait (by simp) (set_wait (by simp) h))
        · cases hs
    · cases hs
  | tryFails t =>
    simp only [Sys.step] at hs
    split at hs
    · injection hs with hs; subst hs; exact go_steps _ _ t _ (by simp) (by simp) rfl (.inl rfl)
    · injection hs with hs; subst hs; exact go_steps _ _ t _ (by simp) (by simp) rfl (.inl rfl)
    · cases hs
  | wakes t =>
    simp only [Sys.step] at hs
    split at hs
    · injection hs with hs; subst hs; exact go_steps _ _ t _ (by simp) (by simp) rfl (.inl rfl)
    · cases hs

/-- A thread that is about to return an answer has a true one: it holds the mutex. -/
theorem answer_inv [DecidableEq α] {n : Nat} {s : Sys α} (h : Reachable n s) : ∀ (i : Nat) (a : Answer), s.threads[i]? = some (.answer a) → Spec.fits s.queue a := by
  induction h with
  | init =>
    intro i a h
    have := List.mem_of_getElem? h
    simp [Sys.init] at this
  | @step s s' act hr hs ih =>
    intro i a h
    rcases (step_steps hs).1 i a h with ⟨h1, h2⟩ | ⟨_, h2⟩
    · rcases h2 with h2 | ⟨t, pc, hne, h3, h4⟩
      · rw [h2]; exact ih i a h1
      · have o1 := (hr.inv.lock t pc h3).1 h4
        have o2 := (hr.inv.lock i _ h1).1 rfl
        rw [o1] at o2
        injection o2 with o2
        exact absurd o2 hne
    · exact h2

/-- Answers are returned by threads that are about to. -/
theorem tells_from {s s' : Sys α} {t : Nat} {a : Answer} (h : Spec.Tells s s' t a) : s.threads[t]? = some (.answer a) ∧ s'.queue = s.queue ∧ s'.left = s.left := by
  obtain ⟨⟨act, hs⟩, ha⟩ := h
  have no : s'.answers = s.answers → s.threads[t]? = some (.answer a) ∧ s'.queue = s.queue ∧ s'.left = s.left := by
    intro e; rw [e] at ha
    have := congrArg List.length ha
    simp at this
  have hlk : ∀ (u : Nat) (p : PC α), s.lock u p = some s' → s'.answers = s.answers := by
    intro u p he
    unfold Sys.lock at he
    split at he
    · injection he with he; subst he; rfl
    · cases he
  cases act with
  | start u op => simp only [Sys.step] at hs; split at hs <;> first | (cases hs; done) | (injection hs with hs; subst hs; exact no rfl)
  | tryFails u => simp only [Sys.step] at hs; split at hs <;> first | (cases hs; done) | (injection hs with hs; subst hs; exact no rfl)
  | wakes u => simp only [Sys.step] at hs; split at hs <;> first | (cases hs; done) | (injection hs with hs; subst hs; exact no rfl)
  | notify u w =>
    simp only [Sys.step] at hs
    split at hs
    · cases w with
      | none => simp only at hs; split at hs <;> first | (cases hs; done) | (injection hs with hs; subst hs; exact no rfl)
      | some w => simp only at hs; split at hs <;> first | (cases hs; done) | (injection hs with hs; subst hs; exact no rfl)
    · cases hs
  | run u =>
    simp only [Sys.step] at hs
    split at hs
    · rename_i pc hu
      cases pc with
      | answer b =>
        injection hs with hs; subst hs
        have := List.append_cancel_left ha
        injection this with this _
        obtain ⟨rfl, rfl⟩ := Prod.mk.inj this
        exact ⟨hu, rfl, rfl⟩
      | popCheck => injection hs with hs; subst hs; split at ha <;> exact no (by split <;> rfl)
      | popTake => simp only [Sys.run] at hs; split at hs <;> injection hs with hs <;> subst hs <;> exact no rfl
      | tryPopBody => simp only [Sys.run] at hs; split at hs <;> injection hs with hs <;> subst hs <;> exact no rfl
      | tryPush x => injection hs with hs; subst hs; exact no (by unfold Sys.tryLock; split <;> rfl)
      | tryPop => injection hs with hs; subst hs; exact no (by unfold Sys.tryLock; split <;> rfl)
      | idle => cases hs
      | notifyOne x => cases hs
      | popWait => cases hs
      | pushLock x => exact no (hlk _ _ hs)
      | popLock => exact no (hlk _ _ hs)
      | popWoken => exact no (hlk _ _ hs)
      | closeLock => exact no (hlk _ _ hs)
      | emptyLock => exact no (hlk _ _ hs)
      | sizeLock => exact no (hlk _ _ hs)
      | pushBody x => injection hs with hs; subst hs; exact no rfl
      | pushUnlock x => injection hs with hs; subst hs; exact no rfl
      | popUnlock r => injection hs with hs; subst hs; exact no rfl
      | closeBody => injection hs with hs; subst hs; exact no rfl
      | closeUnlock => injection hs with hs; subst hs; exact no rfl
      | notifyAll => injection hs with hs; subst hs; exact no rfl
      | emptyBody => injection hs with hs; subst hs; exact no rfl
      | sizeBody => injection hs with hs; subst hs; exact no rfl
    · cases hs

/-! ## C169 -/

/-- **C169, the moment.** Whatever the other threads do: when `empty` or `size` returns, the answer is true of the queue at that moment; `size` up to multiples of 2^32. -/
theorem C169_moment [DecidableEq α] {n : Nat} {s s' : Sys α} (h : Reachable n s) {t : Nat} {a : Answer} (ha : Spec.Tells s s' t a) : Spec.fits s'.queue a := by
  obtain ⟨h1, h2, _⟩ := tells_from ha
  rw [h2]; exact answer_inv h t a h1

/-- **C169, how long it lasts (partial).** From then on, whatever the threads do, and as long as fewer elements have been taken out of the queue than the answer promised, the queue is not empty, and no thread waits that did not wait when
the answer was returned. Missing: that other threads do not take the elements; they can (C169_counterexample_race). -/
theorem C169_lasts_partial [DecidableEq α] {n : Nat} {s s' s'' : Sys α} (h : Reachable n s) {t : Nat} {a : Answer} (ha : Spec.Tells s s' t a) (as : List (Act α)) (hs : s'.steps as = some s'')
    (hfew : s''.left.length < s'.left.length + Spec.promised a) :
    s''.queue ≠ [] ∧ ∀ u : Nat, s''.threads[u]? = some .popWait → s'.threads[u]? = some .popWait := by
  have hfit := C169_moment h ha
  obtain ⟨act, hact⟩ := ha.1
  have hr' : Reachable n s' := .step act h hact
  have hlen : Spec.promised a ≤ s'.queue.length := by
    cases a with
    | empty b =>
      cases b with
      | true => exact Nat.zero_le _
      | false =>
        have : s'.queue ≠ [] := by intro e; rw [Spec.fits, e] at hfit; simp at hfit
        exact List.length_pos_iff.2 this
    | size m => rw [Spec.fits] at hfit; simp only [Spec.promised]; rw [hfit]; exact Nat.mod_le _ _
  have hent : s'.entered.length = s'.left.length + s'.queue.length := by rw [hr'.inv.fifo, List.length_append]
  have key := steps_induct (P := fun r => Reachable n r ∧ s'.entered <+: r.entered ∧
      ∀ u : Nat, r.threads[u]? = some .popWait → s'.threads[u]? = some .popWait ∨ s'.left.length + Spec.promised a ≤ r.left.length)
    (fun r b r' h1 h2 => by
      obtain ⟨k1, k2, k3⟩ := h1
      have hr1 : Reachable n r' := .step b k1 h2
      have hpre := step_prefix h2
      refine ⟨hr1, k2.trans hpre.1, fun u hu => ?_⟩
      rcases (step_steps h2).2 u hu with hw | hq
      · rcases k3 u hw with hw | hl
        · exact .inl hw
        · exact .inr (Nat.le_trans hl hpre.2.1.length_le)
      · right
        have hf := hr1.inv.fifo
        rw [hq, List.append_nil] at hf
        have := (k2.trans hpre.1).length_le
        rw [hf] at this
        omega) as s' s'' ⟨hr', List.prefix_refl _, fun u hu => .inl hu⟩ hs
  obtain ⟨k1, k2, k3⟩ := key
  constructor
  · intro hq
    have hf := k1.inv.fifo
    rw [hq, List.append_nil] at hf
    have := k2.length_le
    rw [hf] at this
    omega
  · intro u hu
    rcases k3 u hu with h | h
    · exact h
    · omega

/-- Thread 0 puts `x` into the queue and finds that it is not empty. Thread 1 takes it. -/
def race (x : α) : List (Act α) :=
  [.start 0 (.push x), .run 0, .run 0, .run 0, .notify 0 none, .start 0 .empty, .run 0, .run 0, .run 0, .start 1 .pop, .run 1, .run 1, .run 1, .run 1]

/-- **C169 (negation).** A consumer that has found the queue not to be empty can wait forever: with two threads, for every element, there is a history in which `empty` returned `false` to the first thread, which then begins `pop`
and waits, and nothing more can happen. -/
theorem C169_counterexample_race (x : α) : ∃ s s' : Sys α, (Sys.init α 2).steps (race x) = some s ∧ s.answers = [(0, .empty false)] ∧
    s.steps [.start 0 .pop, .run 0, .run 0] = some s' ∧ s'.threads[0]? = some .popWait ∧ Spec.Quiescent s' := by
  refine ⟨{ threads := [.idle, .idle], entered := [x], left := [x], accepted := [x], returned := [some x], answers := [(0, .empty false)] },
    { threads := [.popWait, .idle], entered := [x], left := [x], accepted := [x], returned := [some x], answers := [(0, .empty false)] }, ?_, rfl, ?_, rfl, ?_⟩
  · simp [race, Sys.steps, Sys.step, Sys.init, Sys.go, Op.pc, Sys.run, Sys.lock]
  · simp [Sys.steps, Sys.step, Sys.go, Op.pc, Sys.run, Sys.lock]
  intro t
  match t with
  | 0 => exact ⟨rfl, rfl, fun w => rfl⟩
  | 1 => exact ⟨rfl, rfl, fun w => rfl⟩
  | t + 2 => exact ⟨rfl, rfl, fun w => rfl⟩

/-- A thread can put any number of elements into the queue. -/
theorem fill (x : α) (k : Nat) : ∃ s : Sys α, Reachable 1 s ∧ s.queue = List.replicate k x ∧ s.threads = [.idle] ∧ s.owner = none := by
  induction k with
  | zero => exact ⟨_, .init, rfl, rfl, rfl⟩
  | succ k ih =>
    obtain ⟨s, hr, hq, ht, ho⟩ := ih
    have : s.steps [.start 0 (.push x), .run 0, .run 0, .run 0, .notify 0 none] =
        some { s with queue := s.queue ++ [x], entered := s.entered ++ [x], accepted := s.accepted ++ [x] } := by
      cases s
      simp only at ht ho
      subst ht ho
      rfl
    refine ⟨_, reachable_steps _ hr this, ?_, ht, ho⟩
    simp only [hq]
    exact List.replicate_succ'.symm

/-- **C169 (negation).** `size` is an `unsigned int`: for every number of elements there is a queue that one thread can fill, of which `size` tells the number modulo 2^32 and `empty` the truth; with 2^32 elements, zero and `false`. -/
theorem C169_counterexample_wrap (x : α) (k : Nat) (hk : 0 < k) : ∃ s s' : Sys α, Reachable 1 s ∧ s.queue.length = k ∧
    s.steps [.start 0 .size, .run 0, .run 0, .run 0, .start 0 .empty, .run 0, .run 0, .run 0] = some s' ∧ s'.answers = s.answers ++ [(0, .size (k % 2 ^ 32)), (0, .empty false)] := by
  obtain ⟨s, hr, hq, ht, ho⟩ := fill x k
  have hl : s.queue.length = k := by rw [hq, List.length_replicate]
  have he : s.queue.isEmpty = false := by
    cases h : s.queue with
    | nil => rw [h] at hl; simp at hl; omega
    | cons a l => rfl
  have : s.steps [.start 0 .size, .run 0, .run 0, .run 0, .start 0 .empty, .run 0, .run 0, .run 0] =
      some { s with answers := (s.answers ++ [(0, .size (s.queue.length % 2 ^ 32))]) ++ [(0, .empty s.queue.isEmpty)] } := by
    cases s
    simp only at ht ho
    subst ht ho
    rfl
  refine ⟨s, _, hr, hl, this, ?_⟩
  simp only [hl, he, List.append_assoc, List.cons_append, List.nil_append]

example : (2 ^ 32) % 2 ^ 32 = 0 := by decide

/-- The hypotheses of C169_lasts are met: in the history of the negation, up to the pop, and with the element that it promised still there. -/
example : ∃ s s' s'' : Sys Nat, (Sys.init Nat 2).steps ((race 5).take 8) = some s ∧ Spec.Tells s s' 0 (.empty false) ∧ s'.steps [.start 1 .pop, .run 1, .run 1] = some s'' ∧
    s''.left.length < s'.left.length + Spec.promised (.empty false) :=
  ⟨_, _, _, rfl, ⟨⟨.run 0, rfl⟩, rfl⟩, rfl, by decide⟩

end Esl.BQueue
