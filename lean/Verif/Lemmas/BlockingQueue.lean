import Verif.Model.BlockingQueue
/-! Invariants of the blocking queue under all interleavings. -/
namespace Esl.BQueue

variable {α : Type}

/-- Sum of a number over all threads. -/
def sumW (w : PC α → Nat) (l : List (PC α)) : Nat := (l.map w).sum

theorem sumW_set (w : PC α → Nat) (l : List (PC α)) (t : Nat) (pc pc' : PC α) (h : l[t]? = some pc) : sumW w (l.set t pc') + w pc = sumW w l + w pc' := by
  unfold sumW
  induction l generalizing t with
  | nil => simp at h
  | cons a l ih =>
    cases t with
    | zero => simp at h; subst h; simp; omega
    | succ t =>
      simp at h
      have := ih t h
      simp only [List.set_cons_succ, List.map_cons, List.sum_cons]
      omega

theorem le_sumW (w : PC α → Nat) (l : List (PC α)) (t : Nat) (pc : PC α) (h : l[t]? = some pc) : w pc ≤ sumW w l := by
  unfold sumW
  induction l generalizing t with
  | nil => simp at h
  | cons a l ih =>
    cases t with
    | zero => simp at h; subst h; simp
    | succ t => simp at h; have := ih t h; simp; omega

theorem sumW_zero (w : PC α → Nat) (l : List (PC α)) (h : ∀ p ∈ l, w p = 0) : sumW w l = 0 := by
  unfold sumW
  induction l with
  | nil => rfl
  | cons a l ih => simp [h a (by simp), ih fun p hp => h p (List.mem_cons_of_mem _ hp)]

theorem sumW_pos (w : PC α → Nat) (l : List (PC α)) (h : 0 < sumW w l) : ∃ p ∈ l, 0 < w p := by
  refine Classical.byContradiction fun hn => ?_
  have : sumW w l = 0 := sumW_zero w l fun p hp => Nat.eq_zero_of_not_pos fun h0 => hn ⟨p, hp, h0⟩
  omega

/-- The thread holds the mutex. -/
def PC.holds : PC α → Bool
  | .pushBody _ | .pushUnlock _ | .popCheck | .popTake | .popUnlock _ | .tryPopBody | .closeBody | .closeUnlock | .emptyBody | .sizeBody | .answer _ => true
  | _ => false

def PC.waiting : PC α → Nat
  | .popWait => 1
  | _ => 0

/-- Threads that will notify a waiting thread, or take an element. -/
def PC.help : PC α → Nat
  | .pushUnlock _ | .notifyOne _ | .popWoken | .popCheck | .popTake => 1
  | _ => 0

def PC.closer : PC α → Nat
  | .closeUnlock | .notifyAll => 1
  | _ => 0

/-- The thread has put `x` into the queue, and the operation has not yet returned. -/
def PC.pushes [DecidableEq α] (x : α) : PC α → Nat
  | .pushUnlock y | .notifyOne y => if y = x then 1 else 0
  | _ => 0

/-- The thread has taken `x` out of the queue, and the operation has not yet returned. -/
def PC.pops [DecidableEq α] (x : α) : PC α → Nat
  | .popUnlock (some y) => if y = x then 1 else 0
  | _ => 0

structure Inv [DecidableEq α] (s : Sys α) : Prop where
  lock : ∀ (i : Nat) (pc : PC α), s.threads[i]? = some pc → (pc.holds = true ↔ s.owner = some i)
  ownerIn : ∀ i : Nat, s.owner = some i → i < s.threads.length
  fifo : s.entered = s.left ++ s.queue
  take : ∀ i : Nat, s.threads[i]? = some (PC.popTake : PC α) → s.queue ≠ [] ∨ s.closed = true
  wake : 0 < sumW PC.waiting s.threads → s.queue.length ≤ sumW PC.help s.threads
  closing : s.closed = true → 0 < sumW PC.waiting s.threads → 0 < sumW PC.closer s.threads
  push : ∀ x, s.entered.count x = s.accepted.count x + sumW (PC.pushes x) s.threads
  pops : ∀ x, s.left.count x = s.returned.count (some x) + sumW (PC.pops x) s.threads

theorem getElem?_set_cases (l : List (PC α)) (t i : Nat) (p q : PC α) (h : (l.set t p)[i]? = some q) : (i = t ∧ q = p) ∨ (i ≠ t ∧ l[i]? = some q) := by
  by_cases hi : i = t
  · subst hi
    rw [List.getElem?_set_self'] at h
    left
    refine ⟨rfl, ?_⟩
    cases hl : l[i]? with
    | none => rw [hl] at h; simp at h
    | some r => rw [hl] at h; simp at h; exact h.symm
  · rw [List.getElem?_set_ne (Ne.symm hi)] at h
    exact .inr ⟨hi, h⟩

theorem Inv.update [DecidableEq α] {s s' : Sys α} (h : Inv s) {t : Nat} {pc pc' : PC α} (ht : s.threads[t]? = some pc) (hth : s'.threads = s.threads.set t pc')
    (hlock : (pc.holds = pc'.holds ∧ s'.owner = s.owner) ∨ (pc.holds = false ∧ pc'.holds = true ∧ s.owner = none ∧ s'.owner = some t) ∨
      (pc.holds = true ∧ pc'.holds = false ∧ s'.owner = none))
    (hq : (s'.queue = s.queue ∧ s'.closed = s.closed) ∨ pc.holds = true)
    (hfifo : s'.entered = s'.left ++ s'.queue)
    (htake : pc' = .popTake → s'.queue ≠ [] ∨ s'.closed = true)
    (hwait : pc' = .popWait → s'.queue = [] ∧ s'.closed = false)
    (hwake : s'.queue.length + pc.help ≤ s.queue.length + pc'.help ∨ s'.queue = [])
    (hclose : s'.closed = true → (s.closed = true ∧ pc.closer ≤ pc'.closer) ∨ 0 < pc'.closer)
    (hpush : ∀ x, s'.entered.count x + s.accepted.count x + pc.pushes x = s.entered.count x + s'.accepted.count x + pc'.pushes x)
    (hpops : ∀ x, s'.left.count x + s.returned.count (some x) + pc.pops x = s.left.count x + s'.returned.count (some x) + pc'.pops x) : Inv s' := by
  have hlt : t < s.threads.length := by
    rcases Nat.lt_or_ge t s.threads.length with h | h
    · exact h
    · rw [List.getElem?_eq_none h] at ht; cases ht
  have hl0 := h.lock t pc ht
  refine ⟨?_, ?_, hfifo, ?_, ?_, ?_, ?_, ?_⟩
  · intro i q hi
    rw [hth] at hi
    rcases getElem?_set_cases _ _ _ _ _ hi with ⟨rfl, rfl⟩ | ⟨hne, hi⟩
    · rcases hlock with ⟨a, b⟩ | ⟨a, b, c, d⟩ | ⟨a, b, c⟩
      · rw [← a, b]; exact hl0
      · simp [b, d]
      · simp [b, c]
    · have hli := h.lock i q hi
      rcases hlock with ⟨a, b⟩ | ⟨a, b, c, d⟩ | ⟨a, b, c⟩
      · rw [b]; exact hli
      · rw [hli, c, d]; simp [Ne.symm hne]
      · rw [hli, c, hl0.1 a]; simp [Ne.symm hne]
  · intro i hi
    rw [hth, List.length_set]
    rcases hlock with ⟨a, b⟩ | ⟨a, b, c, d⟩ | ⟨a, b, c⟩
    · exact h.ownerIn i (b ▸ hi)
    · rw [d] at hi; injection hi with hi; omega
    · rw [c] at hi; cases hi
  · intro i hi
    rw [hth] at hi
    rcases getElem?_set_cases _ _ _ _ _ hi with ⟨rfl, rfl⟩ | ⟨hne, hi⟩
    · exact htake rfl
    · rcases hq with ⟨a, b⟩ | a
      · rw [a, b]; exact h.take i hi
      · have h1 := (h.lock i _ hi).1 rfl
        rw [hl0.1 a] at h1
        injection h1 with h1
        exact absurd h1.symm hne
  · rw [hth]
    have e1 := sumW_set PC.waiting s.threads t pc pc' ht
    have e2 := sumW_set PC.help s.threads t pc pc' ht
    have b1 := le_sumW PC.help s.threads t pc ht
    intro hw
    by_cases hp : pc' = .popWait
    · rw [(hwait hp).1]; simp
    · have : PC.waiting pc' = 0 := by cases pc' <;> first | rfl | exact absurd rfl hp
      have := h.wake (by omega)
      rcases hwake with hwake | hwake
      · omega
      · rw [hwake]; simp
  · rw [hth]
    have e1 := sumW_set PC.waiting s.threads t pc pc' ht
    have e2 := sumW_set PC.closer s.threads t pc pc' ht
    have b1 := le_sumW PC.closer s.threads t pc ht
    intro hc hw
    by_cases hp : pc' = .popWait
    · rw [(hwait hp).2] at hc; cases hc
    · have : PC.waiting pc' = 0 := by cases pc' <;> first | rfl | exact absurd rfl hp
      rcases hclose hc with ⟨a, b⟩ | a
      · have := h.closing a (by omega); omega
      · omega
  · intro x
    rw [hth]
    have e := sumW_set (PC.pushes x) s.threads t pc pc' ht
    have := h.push x
    have := hpush x
    omega
  · intro x
    rw [hth]
    have e := sumW_set (PC.pops x) s.threads t pc pc' ht
    have := h.pops x
    have := hpops x
    omega

theorem sumW_wakeAll (w : PC α → Nat) (l : List (PC α)) (k : Nat) (hw : w .popWoken = w .popWait + k) :
    sumW w (wakeAll l) = sumW w l + k * sumW PC.waiting l := by
  unfold sumW wakeAll
  induction l with
  | nil => rfl
  | cons a l ih =>
    simp only [List.map_cons, List.sum_cons, Nat.mul_add]
    rw [ih]
    cases a <;> simp only [PC.waiting, hw] <;> omega

theorem wakeAll_getElem? (l : List (PC α)) (i : Nat) (p : PC α) (h : (wakeAll l)[i]? = some p) : (l[i]? = some p ∧ p ≠ .popWait) ∨ (l[i]? = some .popWait ∧ p = .popWoken) := by
  unfold wakeAll at h
  rw [List.getElem?_map] at h
  cases hl : l[i]? with
  | none => rw [hl] at h; simp at h
  | some q =>
    rw [hl] at h
    simp only [Option.map_some, Option.some.injEq] at h
    cases q <;> simp at h <;> subst h <;> simp

theorem waiting_wakeAll (l : List (PC α)) : sumW PC.waiting (wakeAll l) = 0 := by
  apply sumW_zero
  intro p hp
  obtain ⟨i, hi⟩ := List.getElem?_of_mem hp
  rcases wakeAll_getElem? l i p hi with ⟨_, h⟩ | ⟨_, rfl⟩
  · cases p <;> first | rfl | exact absurd rfl h
  · rfl

theorem Inv.wokeAll [DecidableEq α] {s : Sys α} (h : Inv s) : Inv { s with threads := wakeAll s.threads } := by
  have h0 := waiting_wakeAll s.threads
  refine ⟨?_, ?_, h.fifo, ?_, ?_, ?_, ?_, ?_⟩
  · intro i pc hi
    rcases wakeAll_getElem? _ _ _ hi with ⟨a, _⟩ | ⟨a, rfl⟩
    · exact h.lock i pc a
    · have := h.lock i _ a
      simpa [PC.holds] using this
  · intro i hi
    have := h.ownerIn i hi
    simpa [wakeAll] using this
  · intro i hi
    rcases wakeAll_getElem? _ _ _ hi with ⟨a, _⟩ | ⟨_, a⟩
    · exact h.take i a
    · cases a
  · intro hw; rw [h0] at hw; omega
  · intro _ hw; rw [h0] at hw; omega
  · intro x
    have := sumW_wakeAll (PC.pushes x) s.threads 0 rfl
    have := h.push x
    simp only
    omega
  · intro x
    have := sumW_wakeAll (PC.pops x) s.threads 0 rfl
    have := h.pops x
    simp only
    omega

theorem Inv.run [DecidableEq α] {s s' : Sys α} (h : Inv s) {t : Nat} {pc : PC α} (ht : s.threads[t]? = some pc) (hs : s.run t pc = some s') : Inv s' := by
  have hlk : ∀ pc' : PC α, s.lock t pc' = some s' → s.owner = none ∧ s' = { s.go t pc' with owner := some t } := by
    intro pc' he
    unfold Sys.lock at he
    split at he
    · rename_i ho; injection he with he; exact ⟨ho, he.symm⟩
    · cases he
  have hf := h.fifo
  cases pc with
  | idle => cases hs
  | notifyOne x => cases hs
  | popWait => cases hs
  | pushLock x =>
    obtain ⟨ho, rfl⟩ := hlk _ hs
    exact h.update ht rfl (.inr (.inl ⟨rfl, rfl, ho, rfl⟩)) (.inl ⟨rfl, rfl⟩) hf (by simp) (by simp) (.inl (Nat.le_refl _)) (fun hc => .inl ⟨hc, Nat.le_refl _⟩)
      (fun _ => rfl) (fun _ => rfl)
  | popLock =>
    obtain ⟨ho, rfl⟩ := hlk _ hs
    exact h.update ht rfl (.inr (.inl ⟨rfl, rfl, ho, rfl⟩)) (.inl ⟨rfl, rfl⟩) hf (by simp) (by simp) (.inl (by simp [PC.help, Sys.go])) (fun hc => .inl ⟨hc, Nat.le_refl _⟩)
      (fun _ => rfl) (fun _ => rfl)
  | popWoken =>
    obtain ⟨ho, rfl⟩ := hlk _ hs
    exact h.update ht rfl (.inr (.inl ⟨rfl, rfl, ho, rfl⟩)) (.inl ⟨rfl, rfl⟩) hf (by simp) (by simp) (.inl (Nat.le_refl _)) (fun hc => .inl ⟨hc, Nat.le_refl _⟩)
      (fun _ => rfl) (fun _ => rfl)
  | closeLock =>
    obtain ⟨ho, rfl⟩ := hlk _ hs
    exact h.update ht rfl (.inr (.inl ⟨rfl, rfl, ho, rfl⟩)) (.inl ⟨rfl, rfl⟩) hf (by simp) (by simp) (.inl (Nat.le_refl _)) (fun hc => .inl ⟨hc, Nat.le_refl _⟩)
      (fun _ => rfl) (fun _ => rfl)
  | emptyLock =>
    obtain ⟨ho, rfl⟩ := hlk _ hs
    exact h.update ht rfl (.inr (.inl ⟨rfl, rfl, ho, rfl⟩)) (.inl ⟨rfl, rfl⟩) hf (by simp) (by simp) (.inl (Nat.le_refl _)) (fun hc => .inl ⟨hc, Nat.le_refl _⟩)
      (fun _ => rfl) (fun _ => rfl)
  | sizeLock =>
    obtain ⟨ho, rfl⟩ := hlk _ hs
    exact h.update ht rfl (.inr (.inl ⟨rfl, rfl, ho, rfl⟩)) (.inl ⟨rfl, rfl⟩) hf (by simp) (by simp) (.inl (Nat.le_refl _)) (fun hc => .inl ⟨hc, Nat.le_refl _⟩)
      (fun _ => rfl) (fun _ => rfl)
  | emptyBody =>
    injection hs with hs; subst hs
    exact h.update ht rfl (.inl ⟨rfl, rfl⟩) (.inl ⟨rfl, rfl⟩) hf (by simp) (by simp) (.inl (Nat.le_refl _)) (fun hc => .inl ⟨hc, Nat.le_refl _⟩)
      (fun _ => rfl) (fun _ => rfl)
  | sizeBody =>
    injection hs with hs; subst hs
    exact h.update ht rfl (.inl ⟨rfl, rfl⟩) (.inl ⟨rfl, rfl⟩) hf (by simp) (by simp) (.inl (Nat.le_refl _)) (fun hc => .inl ⟨hc, Nat.le_refl _⟩)
      (fun _ => rfl) (fun _ => rfl)
  | answer a =>
    injection hs with hs; subst hs
    exact h.update ht rfl (.inr (.inr ⟨rfl, rfl, rfl⟩)) (.inl ⟨rfl, rfl⟩) hf (by simp) (by simp) (.inl (Nat.le_refl _)) (fun hc => .inl ⟨hc, Nat.le_refl _⟩)
      (fun _ => rfl) (fun _ => rfl)
  | pushBody x =>
    injection hs with hs; subst hs
    refine h.update ht rfl (.inl ⟨rfl, rfl⟩) (.inr rfl) ?_ (by simp) (by simp) (.inl ?_) (fun hc => .inl ⟨hc, Nat.le_refl _⟩) ?_ (fun _ => rfl)
    · simp [Sys.go, hf]
    · simp [Sys.go, PC.help]
    · intro y; simp [Sys.go, PC.pushes, List.count_append, List.count_singleton, beq_iff_eq]; omega
  | pushUnlock x =>
    injection hs with hs; subst hs
    exact h.update ht rfl (.inr (.inr ⟨rfl, rfl, rfl⟩)) (.inl ⟨rfl, rfl⟩) hf (by simp) (by simp) (.inl (Nat.le_refl _)) (fun hc => .inl ⟨hc, Nat.le_refl _⟩)
      (fun _ => rfl) (fun _ => rfl)
  | tryPush x =>
    injection hs with hs; subst hs
    unfold Sys.tryLock
    by_cases ho : s.owner = none
    · rw [if_pos ho]
      exact h.update ht rfl (.inr (.inl ⟨rfl, rfl, ho, rfl⟩)) (.inl ⟨rfl, rfl⟩) hf (by simp) (by simp) (.inl (Nat.le_refl _)) (fun hc => .inl ⟨hc, Nat.le_refl _⟩)
        (fun _ => rfl) (fun _ => rfl)
    · rw [if_neg ho]
      exact h.update ht rfl (.inl ⟨rfl, rfl⟩) (.inl ⟨rfl, rfl⟩) hf (by simp) (by simp) (.inl (Nat.le_refl _)) (fun hc => .inl ⟨hc, Nat.le_refl _⟩)
        (fun _ => rfl) (fun _ => rfl)
  | popCheck =>
    injection hs with hs; subst hs
    by_cases hc : (s.queue.isEmpty && !s.closed) = true
    · rw [if_pos hc]
      have hc' : s.queue = [] ∧ s.closed = false := by simpa using hc
      exact h.update ht rfl (.inr (.inr ⟨rfl, rfl, rfl⟩)) (.inl ⟨rfl, rfl⟩) hf (by simp) (fun _ => hc') (.inr hc'.1)
        (fun hc2 => by have : s.closed = true := hc2; rw [hc'.2] at this; cases this) (fun _ => rfl) (fun _ => rfl)
    · rw [if_neg hc]
      have hc' : s.queue ≠ [] ∨ s.closed = true := by
        by_cases h1 : s.queue = []
        · right; simpa [h1] using hc
        · exact .inl h1
      exact h.update ht rfl (.inl ⟨rfl, rfl⟩) (.inl ⟨rfl, rfl⟩) hf (fun _ => hc') (by simp) (.inl (Nat.le_refl _)) (fun hc => .inl ⟨hc, Nat.le_refl _⟩)
        (fun _ => rfl) (fun _ => rfl)
  | popTake =>
    simp only [Sys.run] at hs
    split at hs
    · rename_i hq
      injection hs with hs; subst hs
      exact h.update ht rfl (.inl ⟨rfl, rfl⟩) (.inl ⟨rfl, rfl⟩) hf (by simp) (by simp) (.inr hq) (fun hc => .inl ⟨hc, Nat.le_refl _⟩)
        (fun _ => rfl) (fun _ => rfl)
    · rename_i x q hq
      injection hs with hs; subst hs
      refine h.update ht rfl (.inl ⟨rfl, rfl⟩) (.inr rfl) ?_ (by simp) (by simp) (.inl ?_) (fun hc => .inl ⟨hc, Nat.le_refl _⟩) (fun _ => rfl) ?_
      · simp [Sys.go, hf, hq]
      · simp [Sys.go, PC.help, hq]
      · intro y; simp [Sys.go, PC.pops, List.count_append, List.count_singleton, beq_iff_eq]; omega
  | popUnlock r =>
    injection hs with hs; subst hs
    refine h.update ht rfl (.inr (.inr ⟨rfl, rfl, rfl⟩)) (.inl ⟨rfl, rfl⟩) hf (by simp) (by simp) (.inl (Nat.le_refl _)) (fun hc => .inl ⟨hc, Nat.le_refl _⟩)
      (fun _ => rfl) ?_
    intro y
    cases r with
    | none => simp [Sys.go, PC.pops, List.count_append, List.count_singleton]
    | some z => simp [Sys.go, PC.pops, List.count_append, List.count_singleton, beq_iff_eq]; omega
  | tryPop =>
    injection hs with hs; subst hs
    unfold Sys.tryLock
    by_cases ho : s.owner = none
    · rw [if_pos ho]
      exact h.update ht rfl (.inr (.inl ⟨rfl, rfl, ho, rfl⟩)) (.inl ⟨rfl, rfl⟩) hf (by simp) (by simp) (.inl (Nat.le_refl _)) (fun hc => .inl ⟨hc, Nat.le_refl _⟩)
        (fun _ => rfl) (fun _ => rfl)
    · rw [if_neg ho]
      refine h.update ht rfl (.inl ⟨rfl, rfl⟩) (.inl ⟨rfl, rfl⟩) hf (by simp) (by simp) (.inl (Nat.le_refl _)) (fun hc => .inl ⟨hc, Nat.le_refl _⟩)
        (fun _ => rfl) ?_
      intro y; simp [Sys.go, PC.pops, List.count_append, List.count_singleton]
  | tryPopBody =>
    simp only [Sys.run] at hs
    split at hs
    · rename_i hq
      injection hs with hs; subst hs
      exact h.update ht rfl (.inl ⟨rfl, rfl⟩) (.inl ⟨rfl, rfl⟩) hf (by simp) (by simp) (.inr hq) (fun hc => .inl ⟨hc, Nat.le_refl _⟩)
        (fun _ => rfl) (fun _ => rfl)
    · rename_i x q hq
      injection hs with hs; subst hs
      refine h.update ht rfl (.inl ⟨rfl, rfl⟩) (.inr rfl) ?_ (by simp) (by simp) (.inl ?_) (fun hc => .inl ⟨hc, Nat.le_refl _⟩) (fun _ => rfl) ?_
      · simp [Sys.go, hf, hq]
      · simp [Sys.go, PC.help, hq]
      · intro y; simp [Sys.go, PC.pops, List.count_append, List.count_singleton, beq_iff_eq]; omega
  | closeBody =>
    injection hs with hs; subst hs
    exact h.update ht rfl (.inl ⟨rfl, rfl⟩) (.inr rfl) hf (by simp) (by simp) (.inl (Nat.le_refl _)) (fun _ => .inr (by simp [PC.closer]))
      (fun _ => rfl) (fun _ => rfl)
  | closeUnlock =>
    injection hs with hs; subst hs
    exact h.update ht rfl (.inr (.inr ⟨rfl, rfl, rfl⟩)) (.inl ⟨rfl, rfl⟩) hf (by simp) (by simp) (.inl (Nat.le_refl _)) (fun hc => .inl ⟨hc, Nat.le_refl _⟩)
      (fun _ => rfl) (fun _ => rfl)
  | notifyAll =>
    injection hs with hs; subst hs
    have hw := h.wokeAll
    have h0 := waiting_wakeAll s.threads
    have ht' : (wakeAll s.threads)[t]? = some .notifyAll := by unfold wakeAll; rw [List.getElem?_map, ht]; rfl
    have hset : sumW PC.waiting ((wakeAll s.threads).set t .idle) = 0 := by
      have := sumW_set PC.waiting (wakeAll s.threads) t .notifyAll .idle ht'
      simp only [PC.waiting] at this
      omega
    refine ⟨?_, ?_, hf, ?_, ?_, ?_, ?_, ?_⟩
    · intro i q hi
      rcases getElem?_set_cases _ _ _ _ _ hi with ⟨rfl, rfl⟩ | ⟨_, hi⟩
      · have := hw.lock i _ ht'
        simpa [PC.holds] using this
      · exact hw.lock i q hi
    · intro i hi
      have := hw.ownerIn i hi
      simpa using this
    · intro i hi
      rcases getElem?_set_cases _ _ _ _ _ hi with ⟨_, hh⟩ | ⟨_, hi⟩
      · cases hh
      · exact hw.take i hi
    · intro hh; simp only at hh; rw [hset] at hh; omega
    · intro _ hh; simp only at hh; rw [hset] at hh; omega
    · intro x
      have e := sumW_set (PC.pushes x) (wakeAll s.threads) t .notifyAll .idle ht'
      have := hw.push x
      simp only [PC.pushes] at *
      omega
    · intro x
      have e := sumW_set (PC.pops x) (wakeAll s.threads) t .notifyAll .idle ht'
      have := hw.pops x
      simp only [PC.pops] at *
      omega

theorem Inv.wakeOne [DecidableEq α] {s : Sys α} (h : Inv s) {w : Nat} (hw : s.threads[w]? = some .popWait) : Inv (s.go w .popWoken) :=
  h.update hw rfl (.inl ⟨rfl, rfl⟩) (.inl ⟨rfl, rfl⟩) h.fifo (by simp) (by simp) (.inl (by simp [PC.help, Sys.go])) (fun hc => .inl ⟨hc, Nat.le_refl _⟩) (fun _ => rfl) (fun _ => rfl)

/-- `notify_one` when nobody waits. -/
theorem Inv.notifyNobody [DecidableEq α] {s : Sys α} (h : Inv s) {t : Nat} {x : α} (ht : s.threads[t]? = some (.notifyOne x)) (h0 : sumW PC.waiting s.threads = 0) :
    Inv { s.go t .idle with accepted := s.accepted ++ [x] } := by
  have e0 := sumW_set PC.waiting s.threads t (.notifyOne x) .idle ht
  simp only [PC.waiting] at e0
  refine ⟨?_, ?_, h.fifo, ?_, ?_, ?_, ?_, ?_⟩
  · intro i q hi
    rcases getElem?_set_cases _ _ _ _ _ hi with ⟨rfl, rfl⟩ | ⟨_, hi⟩
    · have := h.lock i _ ht
      simpa [PC.holds, Sys.go] using this
    · exact h.lock i q hi
  · intro i hi
    have := h.ownerIn i hi
    simpa [Sys.go] using this
  · intro i hi
    rcases getElem?_set_cases _ _ _ _ _ hi with ⟨_, hh⟩ | ⟨_, hi⟩
    · cases hh
    · exact h.take i hi
  · intro hh; simp only [Sys.go] at hh; omega
  · intro _ hh; simp only [Sys.go] at hh; omega
  · intro y
    have e := sumW_set (PC.pushes y) s.threads t (.notifyOne x) .idle ht
    have := h.push y
    simp only [PC.pushes, Sys.go, List.count_append, List.count_singleton, beq_iff_eq] at *
    omega
  · intro y
    have e := sumW_set (PC.pops y) s.threads t (.notifyOne x) .idle ht
    have := h.pops y
    simp only [PC.pops, Sys.go] at *
    omega

/-- `notify_one` when thread `w` waits. -/
theorem Inv.notifyOne [DecidableEq α] {s : Sys α} (h : Inv s) {t w : Nat} {x : α} (ht : s.threads[t]? = some (.notifyOne x)) (hw : s.threads[w]? = some .popWait) :
    Inv { (s.go w .popWoken).go t .idle with accepted := s.accepted ++ [x] } := by
  have h1 := h.wakeOne hw
  have hne : w ≠ t := by intro e; rw [e, ht] at hw; cases hw
  have ht1 : (s.go w .popWoken).threads[t]? = some (.notifyOne x) := by simp only [Sys.go]; rw [List.getElem?_set_ne hne]; exact ht
  have a1 := sumW_set PC.waiting s.threads w .popWait .popWoken hw
  have a2 := sumW_set PC.help s.threads w .popWait .popWoken hw
  have b1 := sumW_set PC.waiting (s.go w .popWoken).threads t (.notifyOne x) .idle ht1
  have b2 := sumW_set PC.help (s.go w .popWoken).threads t (.notifyOne x) .idle ht1
  have b3 := sumW_set PC.closer (s.go w .popWoken).threads t (.notifyOne x) .idle ht1
  have wk := h.wake (by have := le_sumW PC.waiting s.threads w _ hw; simp only [PC.waiting] at this; omega)
  refine ⟨?_, ?_, h.fifo, ?_, ?_, ?_, ?_, ?_⟩
  · intro i q hi
    rcases getElem?_set_cases _ _ _ _ _ hi with ⟨rfl, rfl⟩ | ⟨_, hi⟩
    · have := h1.lock i _ ht1
      simpa [PC.holds, Sys.go] using this
    · exact h1.lock i q hi
  · intro i hi
    have := h1.ownerIn i hi
    simpa [Sys.go] using this
  · intro i hi
    rcases getElem?_set_cases _ _ _ _ _ hi with ⟨_, hh⟩ | ⟨_, hi⟩
    · cases hh
    · exact h1.take i hi
  · intro hh
    simp only [Sys.go, PC.waiting, PC.help] at *
    omega
  · intro hc hh
    have := h1.closing hc
    simp only [Sys.go, PC.waiting, PC.closer] at *
    omega
  · intro y
    have e := sumW_set (PC.pushes y) (s.go w .popWoken).threads t (.notifyOne x) .idle ht1
    have := h1.push y
    simp only [PC.pushes, Sys.go, List.count_append, List.count_singleton, beq_iff_eq] at *
    omega
  · intro y
    have e := sumW_set (PC.pops y) (s.go w .popWoken).threads t (.notifyOne x) .idle ht1
    have := h1.pops y
    simp only [PC.pops, Sys.go] at *
    omega

theorem Inv.step [DecidableEq α] {s s' : Sys α} (h : Inv s) {a : Act α} (hs : s.step a = some s') : Inv s' := by
  cases a with
  | start t op =>
    simp only [Sys.step] at hs
    split at hs
    · rename_i ht
      injection hs with hs; subst hs
      refine h.update ht rfl (.inl ⟨?_, rfl⟩) (.inl ⟨rfl, rfl⟩) h.fifo ?_ ?_ (.inl ?_) (fun hc => .inl ⟨hc, ?_⟩) ?_ ?_
      · cases op <;> rfl
      · cases op <;> simp [Op.pc]
      · cases op <;> simp [Op.pc]
      · cases op <;> simp [Op.pc, PC.help, Sys.go]
      · cases op <;> simp [Op.pc, PC.closer]
      · intro x; cases op <;> rfl
      · intro x; cases op <;> rfl
    · cases hs
  | run t =>
    simp only [Sys.step] at hs
    split at hs
    · rename_i pc ht; exact h.run ht hs
    · cases hs
  | notify t w =>
    simp only [Sys.step] at hs
    split at hs
    · rename_i x ht
      cases w with
      | none =>
        simp only at hs
        split at hs
        · cases hs
        · rename_i hany
          injection hs with hs; subst hs
          refine h.notifyNobody ht (sumW_zero _ _ fun p hp => ?_)
          have := List.any_eq_false.1 (Bool.not_eq_true _ ▸ hany) p hp
          cases p <;> first | rfl | exact absurd rfl this
      | some w =>
        simp only at hs
        split at hs
        · rename_i hw
          injection hs with hs; subst hs
          exact h.notifyOne ht hw
        · cases hs
    · cases hs
  | tryFails t =>
    simp only [Sys.step] at hs
    split at hs
    · rename_i ht
      injection hs with hs; subst hs
      exact h.update ht rfl (.inl ⟨rfl, rfl⟩) (.inl ⟨rfl, rfl⟩) h.fifo (by simp) (by simp) (.inl (Nat.le_refl _)) (fun hc => .inl ⟨hc, Nat.le_refl _⟩)
        (fun _ => rfl) (fun _ => rfl)
    · rename_i ht
      injection hs with hs; subst hs
      refine h.update ht rfl (.inl ⟨rfl, rfl⟩) (.inl ⟨rfl, rfl⟩) h.fifo (by simp) (by simp) (.inl (Nat.le_refl _)) (fun hc => .inl ⟨hc, Nat.le_refl _⟩)
        (fun _ => rfl) ?_
      intro y; simp [Sys.go, PC.pops, List.count_append, List.count_singleton]
    · cases hs
  | wakes t =>
    simp only [Sys.step] at hs
    split at hs
    · rename_i ht
      injection hs with hs; subst hs
      exact h.wakeOne ht
    · cases hs

theorem inv_init [DecidableEq α] (n : Nat) : Inv (Sys.init α n) := by
  have hz : ∀ w : PC α → Nat, w .idle = 0 → sumW w (List.replicate n (.idle : PC α)) = 0 := by
    intro w hw
    apply sumW_zero
    intro p hp
    rw [List.eq_of_mem_replicate hp]; exact hw
  refine ⟨?_, ?_, rfl, ?_, ?_, ?_, ?_, ?_⟩
  · intro i pc hi
    have := List.mem_of_getElem? hi
    rw [List.eq_of_mem_replicate this]
    simp [PC.holds, Sys.init]
  · intro i hi; cases hi
  · intro i hi
    have := List.eq_of_mem_replicate (List.mem_of_getElem? hi)
    cases this
  · intro _; simp [Sys.init]
  · intro hc; cases hc
  · intro x; simp only [Sys.init]; rw [hz _ rfl]; rfl
  · intro x; simp only [Sys.init]; rw [hz _ rfl]; rfl

theorem Reachable.inv [DecidableEq α] {n : Nat} {s : Sys α} (h : Reachable n s) : Inv s := by
  induction h with
  | init => exact inv_init n
  | step a _ hs ih => exact ih.step hs

theorem step_length {s s' : Sys α} {a : Act α} (hs : s.step a = some s') : s'.threads.length = s.threads.length := by
  have hlk : ∀ (t : Nat) (pc : PC α), s.lock t pc = some s' → s'.threads.length = s.threads.length := by
    intro t pc he
    unfold Sys.lock at he
    split at he
    · injection he with he; subst he; simp [Sys.go]
    · cases he
  cases a with
  | run t =>
    simp only [Sys.step] at hs
    split at hs
    · rename_i pc _
      cases pc <;> simp only [Sys.run] at hs <;> first
        | cases hs; done
        | exact hlk _ _ hs
        | (injection hs with hs; subst hs; simp [Sys.go, wakeAll]; done)
        | (injection hs with hs; subst hs; unfold Sys.tryLock; split <;> simp [Sys.go]; done)
        | (injection hs with hs; subst hs; split <;> simp [Sys.go]; done)
        | (split at hs <;> injection hs with hs <;> subst hs <;> simp [Sys.go]; done)
    · cases hs
  | start t op => simp only [Sys.step] at hs; split at hs <;> first | cases hs; done | (injection hs with hs; subst hs; simp [Sys.go])
  | notify t w =>
    simp only [Sys.step] at hs
    split at hs
    · cases w with
      | none => simp only at hs; split at hs <;> first | cases hs; done | (injection hs with hs; subst hs; simp [Sys.go])
      | some w => simp only at hs; split at hs <;> first | cases hs; done | (injection hs with hs; subst hs; simp [Sys.go])
    · cases hs
  | tryFails t => simp only [Sys.step] at hs; split at hs <;> first | cases hs; done | (injection hs with hs; subst hs; simp [Sys.go])
  | wakes t => simp only [Sys.step] at hs; split at hs <;> first | cases hs; done | (injection hs with hs; subst hs; simp [Sys.go])

/-- The steps that a thread has left in its operation; `n` is the number of threads. -/
def PC.left (n : Nat) : PC α → Nat
  | .idle => 0
  | .pushLock _ => 9
  | .tryPush _ => 9
  | .pushBody _ => 8
  | .pushUnlock _ => 7
  | .notifyOne _ => 6
  | .popLock => 5
  | .popWait => 0
  | .popWoken => 5
  | .popCheck => 4
  | .popTake => 3
  | .popUnlock _ => 1
  | .tryPop => 3
  | .tryPopBody => 2
  | .closeLock => 5 * n + 4
  | .closeBody => 5 * n + 3
  | .closeUnlock => 5 * n + 2
  | .notifyAll => 5 * n + 1
  | .emptyLock => 3
  | .emptyBody => 2
  | .sizeLock => 3
  | .sizeBody => 2
  | .answer _ => 1

theorem waiting_le (l : List (PC α)) : sumW PC.waiting l ≤ l.length := by
  unfold sumW
  induction l with
  | nil => simp
  | cons a l ih =>
    have : a.waiting ≤ 1 := by cases a <;> simp [PC.waiting]
    simp; omega

/-- A step other than beginning an operation and waking up for no reason. -/
def Act.progress : Act α → Prop
  | .start _ _ => False
  | .wakes _ => False
  | _ => True

theorem step_decreases {s s' : Sys α} {a : Act α} (ha : a.progress) (hs : s.step a = some s') :
    sumW (PC.left s'.threads.length) s'.threads < sumW (PC.left s.threads.length) s.threads := by
  rw [step_length hs]
  generalize hn : s.threads.length = n
  have hset : ∀ (t : Nat) (pc pc' : PC α), s.threads[t]? = some pc → pc'.left n < pc.left n → sumW (PC.left n) (s.threads.set t pc') < sumW (PC.left n) s.threads := by
    intro t pc pc' ht hl
    have := sumW_set (PC.left n) s.threads t pc pc' ht
    omega
  have hlk : ∀ (t : Nat) (pc pc' : PC α), s.threads[t]? = some pc → pc'.left n < pc.left n → s.lock t pc' = some s' → sumW (PC.left n) s'.threads < sumW (PC.left n) s.threads := by
    intro t pc pc' ht hl he
    unfold Sys.lock at he
    split at he
    · injection he with he; subst he; exact hset t pc pc' ht hl
    · cases he
  cases a with
  | start t op => cases ha
  | wakes t => cases ha
  | run t =>
    simp only [Sys.step] at hs
    split at hs
    · rename_i pc ht
      cases pc with
      | notifyAll =>
        simp only [Sys.run] at hs
        injection hs with hs; subst hs
        have ht' : (wakeAll s.threads)[t]? = some .notifyAll := by unfold wakeAll; rw [List.getElem?_map, ht]; rfl
        have e := sumW_set (PC.left n) (wakeAll s.threads) t .notifyAll .idle ht'
        have e2 := sumW_wakeAll (PC.left n) s.threads 5 rfl
        have e3 := waiting_le s.threads
        simp only [PC.left] at e
        simp only
        omega
      | tryPush x =>
        simp only [Sys.run] at hs
        injection hs with hs; subst hs
        unfold Sys.tryLock
        split <;> exact hset _ _ _ ht (by simp [PC.left])
      | tryPop =>
        simp only [Sys.run] at hs
        injection hs with hs; subst hs
        unfold Sys.tryLock
        split <;> exact hset _ _ _ ht (by simp [PC.left])
      | popCheck =>
        simp only [Sys.run] at hs
        injection hs with hs; subst hs
        split <;> exact hset _ _ _ ht (by simp [PC.left])
      | popTake =>
        simp only [Sys.run] at hs
        split at hs <;> injection hs with hs <;> subst hs <;> exact hset _ _ _ ht (by simp [PC.left])
      | tryPopBody =>
        simp only [Sys.run] at hs
        split at hs <;> injection hs with hs <;> subst hs <;> exact hset _ _ _ ht (by simp [PC.left])
      | idle => cases hs
      | notifyOne x => cases hs
      | popWait => cases hs
      | pushLock x => exact hlk _ _ _ ht (by simp [PC.left]) hs
      | popLock => exact hlk _ _ _ ht (by simp [PC.left]) hs
      | popWoken => exact hlk _ _ _ ht (by simp [PC.left]) hs
      | closeLock => exact hlk _ _ _ ht (by simp [PC.left]) hs
      | emptyLock => exact hlk _ _ _ ht (by simp [PC.left]) hs
      | sizeLock => exact hlk _ _ _ ht (by simp [PC.left]) hs
      | emptyBody => injection hs with hs; subst hs; exact hset _ _ _ ht (by simp [PC.left])
      | sizeBody => injection hs with hs; subst hs; exact hset _ _ _ ht (by simp [PC.left])
      | answer a => injection hs with hs; subst hs; exact hset _ _ _ ht (by simp [PC.left])
      | pushBody x => injection hs with hs; subst hs; exact hset _ _ _ ht (by simp [PC.left])
      | pushUnlock x => injection hs with hs; subst hs; exact hset _ _ _ ht (by simp [PC.left])
      | popUnlock r => injection hs with hs; subst hs; exact hset _ _ _ ht (by simp [PC.left])
      | closeBody => injection hs with hs; subst hs; exact hset _ _ _ ht (by simp [PC.left])
      | closeUnlock => injection hs with hs; subst hs; exact hset _ _ _ ht (by simp [PC.left])
    · cases hs
  | notify t w =>
    simp only [Sys.step] at hs
    split at hs
    · rename_i x ht
      cases w with
      | none =>
        simp only at hs
        split at hs
        · cases hs
        · injection hs with hs; subst hs
          exact hset _ _ _ ht (by simp [PC.left])
      | some w =>
        simp only at hs
        split at hs
        · rename_i hw
          injection hs with hs; subst hs
          have hne : w ≠ t := by intro e; rw [e, ht] at hw; cases hw
          have ht1 : (s.threads.set w .popWoken)[t]? = some (.notifyOne x) := by rw [List.getElem?_set_ne hne]; exact ht
          have e1 := sumW_set (PC.left n) s.threads w .popWait .popWoken hw
          have e2 := sumW_set (PC.left n) (s.threads.set w .popWoken) t (.notifyOne x) .idle ht1
          simp only [PC.left, Sys.go] at *
          omega
        · cases hs
    · cases hs
  | tryFails t =>
    simp only [Sys.step] at hs
    split at hs
    · rename_i ht
      injection hs with hs; subst hs
      exact hset _ _ _ ht (by simp [PC.left])
    · rename_i ht
      injection hs with hs; subst hs
      exact hset _ _ _ ht (by simp [PC.left])
    · cases hs

end Esl.BQueue
