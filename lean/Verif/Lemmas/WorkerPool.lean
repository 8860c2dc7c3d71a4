import Verif.Model.WorkerPool
import Verif.Lemmas.ThreadPool
/-! Invariants of the thread pool in full detail. -/
namespace Esl.Workers

open Esl.TPool (tot tot_append tot_one tot_set tot_zero le_tot lt_of_getElem? set_cases)

variable {τ : Type} [DecidableEq τ]

set_option linter.unusedSectionVars false

/-- The steps of thread `a`, one constructor for each possibility. -/
inductive Move (p : Pool τ) (a : Nat) : PC τ → Pool τ → Prop where
  | scanLock (n j : Nat) (q : Queue τ) : n < p.limit → j = (a + n) % 2 ^ 32 % p.threads → p.queues[j]? = some q → q.owner = none →
      Move p a (.scan n) ((p.put j { q with owner := some a }).go a (.scanBody n j))
  | scanFail (n j : Nat) (q : Queue τ) : n < p.limit → j = (a + n) % 2 ^ 32 % p.threads → p.queues[j]? = some q → q.owner ≠ none →
      Move p a (.scan n) (p.go a (.scan (n + 1)))
  | scanSpurious (n : Nat) : n < p.limit → Move p a (.scan n) { p.go a (.scan (n + 1)) with spurious := true }
  | scanEnd (n : Nat) : p.limit ≤ n → Move p a (.scan n) (p.go a .own)
  | scanNone (n j : Nat) (q : Queue τ) : p.queues[j]? = some q → q.items = [] → Move p a (.scanBody n j) (p.go a (.scanUnlock n j none))
  | scanSome (n j : Nat) (q : Queue τ) (x : τ) (items : List τ) : p.queues[j]? = some q → q.items = x :: items →
      Move p a (.scanBody n j) ((p.put j { q with items := items }).go a (.scanUnlock n j (some x)))
  | scanUnlock (n j : Nat) (r : Option τ) (q : Queue τ) : p.queues[j]? = some q →
      Move p a (.scanUnlock n j r) ((p.put j { q with owner := none }).go a (after (.scan (n + 1)) r))
  | own (q : Queue τ) : p.queues[a]? = some q → q.owner = none → Move p a .own ((p.put a { q with owner := some a }).go a (.ownCheck a))
  | ownClosed (j : Nat) (q : Queue τ) : p.queues[j]? = some q → q.items = [] → q.closed = true → Move p a (.ownCheck j) (p.go a (.ownUnlock j none))
  | ownWait (j : Nat) (q : Queue τ) : p.queues[j]? = some q → q.items = [] → q.closed = false →
      Move p a (.ownCheck j) ((p.put j { q with owner := none }).go a (.wait j))
  | ownSome (j : Nat) (q : Queue τ) (x : τ) (items : List τ) : p.queues[j]? = some q → q.items = x :: items →
      Move p a (.ownCheck j) ((p.put j { q with items := items }).go a (.ownUnlock j (some x)))
  | woken (j : Nat) (q : Queue τ) : p.queues[j]? = some q → q.owner = none → Move p a (.woken j) ((p.put j { q with owner := some a }).go a (.ownCheck j))
  | ownUnlock (j : Nat) (r : Option τ) (q : Queue τ) : p.queues[j]? = some q →
      Move p a (.ownUnlock j r) ((p.put j { q with owner := none }).go a (after .exited r))
  | run (x : τ) : Move p a (.run x) { p.go a (.scan 0) with ran := p.ran ++ [x] }
  | await (x y : τ) : y ∈ p.ran → Move p a (.await x y) (p.go a (.run x))
  | tryLock (b : Option τ) (x : τ) (i n j : Nat) (q : Queue τ) : n < p.limit → j = (i + n) % 2 ^ 32 % p.threads → p.queues[j]? = some q → q.owner = none →
      Move p a (.tryPush b x i n) ((p.put j { q with owner := some a }).go a (.insert b x j))
  | tryFail (b : Option τ) (x : τ) (i n : Nat) : n < p.limit → Move p a (.tryPush b x i n) (p.go a (.tryPush b x i (n + 1)))
  | trySpurious (b : Option τ) (x : τ) (i n : Nat) : n < p.limit → Move p a (.tryPush b x i n) { p.go a (.tryPush b x i (n + 1)) with spurious := true }
  | tryEnd (b : Option τ) (x : τ) (i n : Nat) : p.limit ≤ n → Move p a (.tryPush b x i n) (p.go a (.lock b x (i % p.threads)))
  | lock (b : Option τ) (x : τ) (j : Nat) (q : Queue τ) : p.queues[j]? = some q → q.owner = none →
      Move p a (.lock b x j) ((p.put j { q with owner := some a }).go a (.insert b x j))
  | insert (b : Option τ) (x : τ) (j : Nat) (q : Queue τ) : p.queues[j]? = some q →
      Move p a (.insert b x j) { (p.put j { q with items := q.items ++ [x] }).go a (.unlock b j) with late := p.late || p.destroying }
  | unlock (b : Option τ) (j : Nat) (q : Queue τ) : p.queues[j]? = some q → Move p a (.unlock b j) ((p.put j { q with owner := none }).go a (.notify b j))
  | notify (b : Option τ) (j : Nat) : Move p a (.notify b j) ((p.wake j).go a (after .returned b))
  | closeLock (j : Nat) (q : Queue τ) : p.queues[j]? = some q → q.owner = none → Move p a (.closeLock j) ((p.put j { q with owner := some a }).go a (.closeSet j))
  | closeEnd (j : Nat) : p.queues.length ≤ j → Move p a (.closeLock j) (p.go a (.join 0))
  | closeSet (j : Nat) (q : Queue τ) : p.queues[j]? = some q → Move p a (.closeSet j) ((p.put j { q with closed := true }).go a (.closeUnlock j))
  | closeUnlock (j : Nat) (q : Queue τ) : p.queues[j]? = some q → Move p a (.closeUnlock j) ((p.put j { q with owner := none }).go a (.closeNotify j))
  | closeNotify (j : Nat) : Move p a (.closeNotify j) ((p.wake j).go a (.closeLock (j + 1)))
  | join (k : Nat) : k < p.started → p.agents[k]? = some .exited → Move p a (.join k) (p.go a (.join (k + 1)))
  | joinEnd (k : Nat) : p.started ≤ k → Move p a (.join k) (p.go a .done)

theorem acquire_ok {p p' : Pool τ} {a j : Nat} {pc : PC τ} (h : p.acquire a j pc = some (.ok p')) :
    ∃ q, p.queues[j]? = some q ∧ q.owner = none ∧ p' = (p.put j { q with owner := some a }).go a pc := by
  unfold Pool.acquire at h
  cases hq : p.queues[j]? with
  | none => rw [hq] at h; cases h
  | some q =>
    rw [hq] at h
    dsimp only at h
    by_cases ho : q.owner = none
    · rw [if_pos ho] at h; injection h with h; injection h with h; exact ⟨q, rfl, ho, h.symm⟩
    · rw [if_neg ho] at h; cases h

theorem tryAcquire_ok {p p' : Pool τ} {a j : Nat} {s : Bool} {pc fail : PC τ} (h : p.tryAcquire a j s pc fail = .ok p') :
    ∃ q, p.queues[j]? = some q ∧ ((q.owner = none ∧ p' = (p.put j { q with owner := some a }).go a pc) ∨ (q.owner ≠ none ∧ p' = p.go a fail) ∨
      p' = { p.go a fail with spurious := true }) := by
  unfold Pool.tryAcquire at h
  cases hq : p.queues[j]? with
  | none => rw [hq] at h; cases h
  | some q =>
    rw [hq] at h
    dsimp only at h
    refine ⟨q, rfl, ?_⟩
    by_cases ho : q.owner = none
    · rw [if_pos ho] at h
      by_cases hs : s = true
      · rw [if_pos hs] at h; injection h with h; exact .inr (.inr h.symm)
      · rw [if_neg hs] at h; injection h with h; exact .inl ⟨ho, h.symm⟩
    · rw [if_neg ho] at h; injection h with h; exact .inr (.inl ⟨ho, h.symm⟩)

theorem access_ok {p p' : Pool τ} {j : Nat} {f : Queue τ → Pool τ} (h : p.access j f = .ok p') : ∃ q, p.queues[j]? = some q ∧ p' = f q := by
  unfold Pool.access at h
  cases hq : p.queues[j]? with
  | none => rw [hq] at h; cases h
  | some q => rw [hq] at h; injection h with h; exact ⟨q, rfl, h.symm⟩

theorem run_move {p p' : Pool τ} {a : Nat} {s : Bool} {pc : PC τ} (h : p.run a s pc = some (.ok p')) : Move p a pc p' := by
  cases pc with
  | scan n =>
    simp only [Pool.run] at h
    by_cases hn : n < p.limit
    · rw [if_pos hn] at h
      injection h with h
      obtain ⟨q, hq, ⟨ho, rfl⟩ | ⟨ho, rfl⟩ | rfl⟩ := tryAcquire_ok h
      · exact .scanLock n _ q hn rfl hq ho
      · exact .scanFail n _ q hn rfl hq ho
      · exact .scanSpurious n hn
    · rw [if_neg hn] at h; injection h with h; injection h with h; subst h; exact .scanEnd n (by omega)
  | scanBody n j =>
    injection h with h
    obtain ⟨q, hq, rfl⟩ := access_ok h
    cases hi : q.items with
    | nil => exact .scanNone n j q hq hi
    | cons x items => exact .scanSome n j q x items hq hi
  | scanUnlock n j r => injection h with h; obtain ⟨q, hq, rfl⟩ := access_ok h; exact .scanUnlock n j r q hq
  | own => obtain ⟨q, hq, ho, rfl⟩ := acquire_ok h; exact .own q hq ho
  | ownCheck j =>
    injection h with h
    obtain ⟨q, hq, rfl⟩ := access_ok h
    cases hi : q.items with
    | nil =>
      by_cases hc : q.closed = true
      · rw [if_pos hc]; exact .ownClosed j q hq hi hc
      · rw [if_neg hc]
        have := Move.ownWait (a := a) j q hq hi (by simpa using hc)
        rw [hi] at this
        exact this
    | cons x items => exact .ownSome j q x items hq hi
  | wait j => cases h
  | woken j => obtain ⟨q, hq, ho, rfl⟩ := acquire_ok h; exact .woken j q hq ho
  | ownUnlock j r => injection h with h; obtain ⟨q, hq, rfl⟩ := access_ok h; exact .ownUnlock j r q hq
  | run x => injection h with h; injection h with h; subst h; exact .run x
  | await x y =>
    simp only [Pool.run] at h
    by_cases hy : y ∈ p.ran
    · rw [if_pos hy] at h; injection h with h; injection h with h; subst h; exact .await x y hy
    · rw [if_neg hy] at h; cases h
  | exited => cases h
  | tryPush b x i n =>
    simp only [Pool.run] at h
    by_cases hn : n < p.limit
    · rw [if_pos hn] at h
      injection h with h
      obtain ⟨q, hq, ⟨ho, rfl⟩ | ⟨ho, rfl⟩ | rfl⟩ := tryAcquire_ok h
      · exact .tryLock b x i n _ q hn rfl hq ho
      · exact .tryFail b x i n hn
      · exact .trySpurious b x i n hn
    · rw [if_neg hn] at h; injection h with h; injection h with h; subst h; exact .tryEnd b x i n (by omega)
  | lock b x j => obtain ⟨q, hq, ho, rfl⟩ := acquire_ok h; exact .lock b x j q hq ho
  | insert b x j => injection h with h; obtain ⟨q, hq, rfl⟩ := access_ok h; exact .insert b x j q hq
  | unlock b j => injection h with h; obtain ⟨q, hq, rfl⟩ := access_ok h; exact .unlock b j q hq
  | notify b j => injection h with h; injection h with h; subst h; exact .notify b j
  | returned => cases h
  | uses => cases h
  | closeLock j =>
    simp only [Pool.run] at h
    by_cases hj : j < p.queues.length
    · rw [if_pos hj] at h; obtain ⟨q, hq, ho, rfl⟩ := acquire_ok h; exact .closeLock j q hq ho
    · rw [if_neg hj] at h; injection h with h; injection h with h; subst h; exact .closeEnd j (by omega)
  | closeSet j => injection h with h; obtain ⟨q, hq, rfl⟩ := access_ok h; exact .closeSet j q hq
  | closeUnlock j => injection h with h; obtain ⟨q, hq, rfl⟩ := access_ok h; exact .closeUnlock j q hq
  | closeNotify j => injection h with h; injection h with h; subst h; exact .closeNotify j
  | join k =>
    simp only [Pool.run] at h
    by_cases hk : k < p.started
    · rw [if_pos hk] at h
      split at h
      · rename_i he; injection h with h; injection h with h; subst h; exact .join k hk he
      · cases h
    · rw [if_neg hk] at h; injection h with h; injection h with h; subst h; exact .joinEnd k (by omega)
  | done => cases h

@[simp] theorem go_agents (p : Pool τ) (a : Nat) (pc : PC τ) : (p.go a pc).agents = p.agents.set a pc := rfl
@[simp] theorem go_queues (p : Pool τ) (a : Nat) (pc : PC τ) : (p.go a pc).queues = p.queues := rfl
@[simp] theorem go_threads (p : Pool τ) (a : Nat) (pc : PC τ) : (p.go a pc).threads = p.threads := rfl
@[simp] theorem go_started (p : Pool τ) (a : Nat) (pc : PC τ) : (p.go a pc).started = p.started := rfl
@[simp] theorem go_enqueued (p : Pool τ) (a : Nat) (pc : PC τ) : (p.go a pc).enqueued = p.enqueued := rfl
@[simp] theorem go_ran (p : Pool τ) (a : Nat) (pc : PC τ) : (p.go a pc).ran = p.ran := rfl
@[simp] theorem go_spurious (p : Pool τ) (a : Nat) (pc : PC τ) : (p.go a pc).spurious = p.spurious := rfl
@[simp] theorem go_late (p : Pool τ) (a : Nat) (pc : PC τ) : (p.go a pc).late = p.late := rfl
@[simp] theorem put_agents (p : Pool τ) (j : Nat) (q : Queue τ) : (p.put j q).agents = p.agents := rfl
@[simp] theorem put_queues (p : Pool τ) (j : Nat) (q : Queue τ) : (p.put j q).queues = p.queues.set j q := rfl
@[simp] theorem put_threads (p : Pool τ) (j : Nat) (q : Queue τ) : (p.put j q).threads = p.threads := rfl
@[simp] theorem put_started (p : Pool τ) (j : Nat) (q : Queue τ) : (p.put j q).started = p.started := rfl
@[simp] theorem put_enqueued (p : Pool τ) (j : Nat) (q : Queue τ) : (p.put j q).enqueued = p.enqueued := rfl
@[simp] theorem put_ran (p : Pool τ) (j : Nat) (q : Queue τ) : (p.put j q).ran = p.ran := rfl
@[simp] theorem put_spurious (p : Pool τ) (j : Nat) (q : Queue τ) : (p.put j q).spurious = p.spurious := rfl
@[simp] theorem put_late (p : Pool τ) (j : Nat) (q : Queue τ) : (p.put j q).late = p.late := rfl

theorem wake_eq (p : Pool τ) (j : Nat) : (p.agents[j]? = some (.wait j) ∧ p.wake j = p.go j (.woken j)) ∨ (p.agents[j]? ≠ some (.wait j) ∧ p.wake j = p) := by
  unfold Pool.wake
  split
  · rename_i k hk
    by_cases h : k = j
    · subst h; left; exact ⟨hk, if_pos rfl⟩
    · right; rw [if_neg h, hk]; exact ⟨by intro e; injection e with e; injection e with e; exact h e, rfl⟩
  · rename_i hne; right; exact ⟨fun h => hne j h, rfl⟩

@[simp] theorem wake_queues (p : Pool τ) (j : Nat) : (p.wake j).queues = p.queues := by rcases wake_eq p j with ⟨_, h⟩ | ⟨_, h⟩ <;> rw [h]; rfl
@[simp] theorem wake_threads (p : Pool τ) (j : Nat) : (p.wake j).threads = p.threads := by rcases wake_eq p j with ⟨_, h⟩ | ⟨_, h⟩ <;> rw [h]; rfl
@[simp] theorem wake_started (p : Pool τ) (j : Nat) : (p.wake j).started = p.started := by rcases wake_eq p j with ⟨_, h⟩ | ⟨_, h⟩ <;> rw [h]; rfl
@[simp] theorem wake_enqueued (p : Pool τ) (j : Nat) : (p.wake j).enqueued = p.enqueued := by rcases wake_eq p j with ⟨_, h⟩ | ⟨_, h⟩ <;> rw [h]; rfl
@[simp] theorem wake_ran (p : Pool τ) (j : Nat) : (p.wake j).ran = p.ran := by rcases wake_eq p j with ⟨_, h⟩ | ⟨_, h⟩ <;> rw [h]; rfl
@[simp] theorem wake_spurious (p : Pool τ) (j : Nat) : (p.wake j).spurious = p.spurious := by rcases wake_eq p j with ⟨_, h⟩ | ⟨_, h⟩ <;> rw [h]; rfl
@[simp] theorem wake_late (p : Pool τ) (j : Nat) : (p.wake j).late = p.late := by rcases wake_eq p j with ⟨_, h⟩ | ⟨_, h⟩ <;> rw [h]; rfl
@[simp] theorem wake_length (p : Pool τ) (j : Nat) : (p.wake j).agents.length = p.agents.length := by rcases wake_eq p j with ⟨_, h⟩ | ⟨_, h⟩ <;> rw [h]; simp

/-- The threads after a notification. -/
theorem wake_get {p : Pool τ} {j b : Nat} {pc : PC τ} (h : (p.wake j).agents[b]? = some pc) :
    (p.agents[b]? = some pc ∧ (b = j → pc ≠ .wait j)) ∨ (b = j ∧ pc = .woken j ∧ p.agents[j]? = some (.wait j)) := by
  rcases wake_eq p j with ⟨hw, e⟩ | ⟨hw, e⟩
  · rw [e] at h
    rcases set_cases h with ⟨rfl, rfl⟩ | ⟨hb, h⟩
    · exact .inr ⟨rfl, rfl, hw⟩
    · exact .inl ⟨h, fun e => absurd e hb⟩
  · rw [e] at h
    exact .inl ⟨h, fun e1 e2 => by subst e1; subst e2; exact hw h⟩

theorem wake_keeps {p : Pool τ} {j b : Nat} {pc : PC τ} (h : p.agents[b]? = some pc) (hne : pc ≠ .wait j) : (p.wake j).agents[b]? = some pc := by
  rcases wake_eq p j with ⟨hw, e⟩ | ⟨_, e⟩
  · rw [e]
    by_cases hb : b = j
    · subst hb; rw [hw] at h; injection h with h; exact absurd h.symm hne
    · rw [go_agents, List.getElem?_set_ne (Ne.symm hb)]; exact h
  · rw [e]; exact h

/-- Where a thread may be, and which queue it may be at: the first `n` threads are the workers, then comes the owner of the pool, then those who call from outside. -/
def Fits (n a : Nat) : PC τ → Prop
  | .scan m => a < n ∧ m ≤ 2 * n
  | .scanBody m j => a < n ∧ m < 2 * n ∧ j = (a + m) % 2 ^ 32 % n
  | .scanUnlock m j _ => a < n ∧ m < 2 * n ∧ j = (a + m) % 2 ^ 32 % n
  | .own => a < n
  | .ownCheck j => a < n ∧ j = a
  | .wait j => a < n ∧ j = a
  | .woken j => a < n ∧ j = a
  | .ownUnlock j _ => a < n ∧ j = a
  | .run _ => a < n
  | .await _ _ => a < n
  | .exited => a < n
  | .tryPush b _ _ m => (b = none → n < a) ∧ (b ≠ none → a < n) ∧ m ≤ 2 * n
  | .lock b _ j => (b = none → n < a) ∧ (b ≠ none → a < n) ∧ j < n
  | .insert b _ j => (b = none → n < a) ∧ (b ≠ none → a < n) ∧ j < n
  | .unlock b j => (b = none → n < a) ∧ (b ≠ none → a < n) ∧ j < n
  | .notify b j => (b = none → n < a) ∧ (b ≠ none → a < n) ∧ j < n
  | .returned => n < a
  | .uses => a = n
  | .closeLock j => a = n ∧ j ≤ n
  | .closeSet j => a = n ∧ j < n
  | .closeUnlock j => a = n ∧ j < n
  | .closeNotify j => a = n ∧ j < n
  | .join k => a = n ∧ k ≤ n
  | .done => a = n

structure Shape (n : Nat) (p : Pool τ) : Prop where
  threads : p.threads = n
  queues : p.queues.length = n
  started : p.started = n
  agents : n < p.agents.length
  fits : ∀ (b : Nat) (pc : PC τ), p.agents[b]? = some pc → Fits n b pc

theorem fits_set {n a : Nat} {l : List (PC τ)} {pc' : PC τ} (h : ∀ (b : Nat) (pc : PC τ), l[b]? = some pc → Fits n b pc) (hf : Fits n a pc') :
    ∀ (b : Nat) (pc : PC τ), (l.set a pc')[b]? = some pc → Fits n b pc := by
  intro b pc hb
  rcases set_cases hb with ⟨rfl, rfl⟩ | ⟨_, hb⟩
  · exact hf
  · exact h b pc hb

theorem fits_wake {n : Nat} {p : Pool τ} (h : ∀ (b : Nat) (pc : PC τ), p.agents[b]? = some pc → Fits n b pc) (j : Nat) :
    ∀ (b : Nat) (pc : PC τ), (p.wake j).agents[b]? = some pc → Fits n b pc := by
  intro b pc hb
  rcases wake_get hb with ⟨hb, _⟩ | ⟨rfl, rfl, hw⟩
  · exact h b pc hb
  · have := h _ _ hw; exact this

theorem shape_move {n : Nat} (hn : 0 < n) {p p' : Pool τ} {a : Nat} {pc : PC τ} (h : Shape n p) (ha : p.agents[a]? = some pc) (hm : Move p a pc p') : Shape n p' := by
  have hf := h.fits a pc ha
  have hmod : ∀ k, k % n < n := fun k => Nat.mod_lt k hn
  have hl : p.limit = 2 * n := by rw [Pool.limit, h.threads]
  have ht := h.threads
  have hq : ∀ (j : Nat) (q : Queue τ), p.queues[j]? = some q → j < n := fun j q e => h.queues ▸ lt_of_getElem? e
  have key : ∀ (pc' : PC τ), Fits n a pc' → ∀ (b : Nat) (pc : PC τ), (p.agents.set a pc')[b]? = some pc → Fits n b pc := fun pc' hf => fits_set h.fits hf
  have keyw : ∀ (j : Nat) (pc' : PC τ), Fits n a pc' → ∀ (b : Nat) (pc : PC τ), ((p.wake j).agents.set a pc')[b]? = some pc → Fits n b pc :=
    fun j pc' hf => fits_set (fits_wake h.fits j) hf
  have hlen := h.queues
  cases hm <;> refine ⟨by simp [h.threads], by simp [h.queues], by simp [h.started], by simp [h.agents], ?_⟩
  case scanLock m j q h1 h2 h3 h4 => exact key _ ⟨hf.1, by omega, by rw [h2, ht]⟩
  case scanFail m j q h1 h2 h3 h4 => exact key _ ⟨hf.1, by omega⟩
  case scanSpurious m h1 => exact key _ ⟨hf.1, by omega⟩
  case scanEnd m h1 => exact key _ hf.1
  case scanNone m j q h1 h2 => exact key _ hf
  case scanSome m j q x items h1 h2 => exact key _ hf
  case scanUnlock m j r q h1 =>
    apply key
    cases r with
    | none => exact ⟨hf.1, hf.2.1⟩
    | some x => exact hf.1
  case own q h1 h2 => exact key _ ⟨hf, rfl⟩
  case ownClosed j q h1 h2 h3 => exact key _ hf
  case ownWait j q h1 h2 h3 => exact key _ hf
  case ownSome j q x items h1 h2 => exact key _ hf
  case woken j q h1 h2 => exact key _ hf
  case ownUnlock j r q h1 =>
    apply key
    cases r with
    | none => exact hf.1
    | some x => exact hf.1
  case run x => exact key _ ⟨hf, Nat.zero_le _⟩
  case await x y h1 => exact key _ hf
  case tryLock b x i m j q h1 h2 h3 h4 => exact key _ ⟨hf.1, hf.2.1, hq j q h3⟩
  case tryFail b x i m h1 => exact key _ ⟨hf.1, hf.2.1, by omega⟩
  case trySpurious b x i m h1 => exact key _ ⟨hf.1, hf.2.1, by omega⟩
  case tryEnd b x i m h1 => exact key _ ⟨hf.1, hf.2.1, by rw [ht]; exact hmod i⟩
  case lock b x j q h1 h2 => exact key _ hf
  case insert b x j q h1 => exact key _ hf
  case unlock b j q h1 => exact key _ hf
  case notify b j =>
    apply keyw
    cases b with
    | none => exact hf.1 rfl
    | some x => exact hf.2.1 (by simp)
  case closeLock j q h1 h2 => exact key _ ⟨hf.1, hq j q h1⟩
  case closeEnd j h1 => exact key _ ⟨hf.1, Nat.zero_le _⟩
  case closeSet j q h1 => exact key _ hf
  case closeUnlock j q h1 => exact key _ hf
  case closeNotify j => exact keyw _ _ ⟨hf.1, hf.2⟩
  case join k h1 h2 => exact key _ ⟨hf.1, by rw [h.started] at h1; exact h1⟩
  case joinEnd k h1 => exact key _ hf.1

/-- The queue whose mutex a thread holds. -/
def PC.holds : PC τ → Option Nat
  | .scanBody _ j => some j
  | .scanUnlock _ j _ => some j
  | .ownCheck j => some j
  | .ownUnlock j _ => some j
  | .insert _ _ j => some j
  | .unlock _ j => some j
  | .closeSet j => some j
  | .closeUnlock j => some j
  | _ => none

def heldBy (l : List (PC τ)) (b : Nat) : Option Nat := (l[b]?).bind PC.holds

theorem heldBy_set {l : List (PC τ)} {a : Nat} {pc pc' : PC τ} (ha : l[a]? = some pc) (b : Nat) : heldBy (l.set a pc') b = if b = a then pc'.holds else heldBy l b := by
  unfold heldBy
  by_cases hb : b = a
  · subst hb; rw [if_pos rfl, List.getElem?_set_self (lt_of_getElem? ha)]; rfl
  · rw [if_neg hb, List.getElem?_set_ne (Ne.symm hb)]

theorem heldBy_wake (p : Pool τ) (j b : Nat) : heldBy (p.wake j).agents b = heldBy p.agents b := by
  rcases wake_eq p j with ⟨hw, e⟩ | ⟨_, e⟩
  · rw [e, go_agents, heldBy_set hw]
    by_cases hb : b = j
    · subst hb; rw [if_pos rfl]; unfold heldBy; rw [hw]; rfl
    · rw [if_neg hb]
  · rw [e]

/-- The mutexes are held by those who act as if they held them. -/
def Owned (l : List (PC τ)) (qs : List (Queue τ)) : Prop := ∀ (j b : Nat) (q : Queue τ), qs[j]? = some q → (q.owner = some b ↔ heldBy l b = some j)

theorem owned_neutral {l l' : List (PC τ)} {qs qs' : List (Queue τ)} (h : Owned l qs) (hl : ∀ b, heldBy l' b = heldBy l b)
    (hq : ∀ (j : Nat) (q' : Queue τ), qs'[j]? = some q' → ∃ q, qs[j]? = some q ∧ q.owner = q'.owner) : Owned l' qs' := by
  intro j b q' hj
  obtain ⟨q, hq1, hq2⟩ := hq j q' hj
  rw [← hq2, hl]
  exact h j b q hq1

theorem owned_acquire {l : List (PC τ)} {qs : List (Queue τ)} {a j : Nat} {q : Queue τ} {pc pc' : PC τ} (h : Owned l qs) (ha : l[a]? = some pc) (hpc : pc.holds = none)
    (hq : qs[j]? = some q) (ho : q.owner = none) (hpc' : pc'.holds = some j) : Owned (l.set a pc') (qs.set j { q with owner := some a }) := by
  intro k b q' hk
  rw [heldBy_set ha]
  rcases set_cases hk with ⟨rfl, rfl⟩ | ⟨hne, hk2⟩
  · by_cases hb : b = a
    · subst hb; simp [hpc']
    · rw [if_neg hb]
      constructor
      · intro e; injection e with e; exact absurd e.symm hb
      · intro e; have := (h k b q hq).2 e; rw [ho] at this; cases this
  · by_cases hb : b = a
    · subst hb
      rw [if_pos rfl, hpc', h k b q' hk2]
      unfold heldBy
      rw [ha]
      simp only [Option.bind, hpc]
      constructor
      · intro e; cases e
      · intro e; injection e with e; exact absurd e.symm hne
    · rw [if_neg hb]; exact h k b q' hk2

theorem owned_release {l : List (PC τ)} {qs : List (Queue τ)} {a j : Nat} {q : Queue τ} {pc pc' : PC τ} (h : Owned l qs) (ha : l[a]? = some pc) (hpc : pc.holds = some j)
    (hq : qs[j]? = some q) (hpc' : pc'.holds = none) : Owned (l.set a pc') (qs.set j { q with owner := none }) := by
  have hown : q.owner = some a := (h j a q hq).2 (by unfold heldBy; rw [ha]; exact hpc)
  intro k b q' hk
  rw [heldBy_set ha]
  rcases set_cases hk with ⟨rfl, rfl⟩ | ⟨hne, hk2⟩
  · by_cases hb : b = a
    · subst hb; simp [hpc']
    · rw [if_neg hb]
      constructor
      · intro e; cases e
      · intro e; have := (h k b q hq).2 e; rw [hown] at this; injection this with this; exact absurd this.symm hb
  · by_cases hb : b = a
    · subst hb
      rw [if_pos rfl, hpc', h k b q' hk2]
      unfold heldBy
      rw [ha]
      simp only [Option.bind, hpc]
      constructor
      · intro e; injection e with e; exact absurd e.symm hne
      · intro e; cases e
    · rw [if_neg hb]; exact h k b q' hk2

theorem same_heldBy {l : List (PC τ)} {a : Nat} {pc pc' : PC τ} (ha : l[a]? = some pc) (hh : pc'.holds = pc.holds) (b : Nat) : heldBy (l.set a pc') b = heldBy l b := by
  rw [heldBy_set ha]
  by_cases hb : b = a
  · subst hb; rw [if_pos rfl, hh]; unfold heldBy; rw [ha]; rfl
  · rw [if_neg hb]

theorem same_owner {qs : List (Queue τ)} {j : Nat} {q q1 : Queue τ} (hq : qs[j]? = some q) (h1 : q1.owner = q.owner) :
    ∀ (k : Nat) (q' : Queue τ), (qs.set j q1)[k]? = some q' → ∃ q, qs[k]? = some q ∧ q.owner = q'.owner := by
  intro k q' hk
  rcases set_cases hk with ⟨rfl, rfl⟩ | ⟨_, hk⟩
  · exact ⟨q, hq, h1.symm⟩
  · exact ⟨q', hk, rfl⟩

theorem owned_wake {p : Pool τ} {a j : Nat} {pc pc' : PC τ} (h : Owned p.agents p.queues) (ha : p.agents[a]? = some pc) (hne : pc ≠ .wait j) (h0 : pc.holds = none) (h1 : pc'.holds = none) :
    Owned ((p.wake j).agents.set a pc') p.queues := by
  refine owned_neutral h (fun b => ?_) (fun k q' hk => ⟨q', hk, rfl⟩)
  rw [same_heldBy (wake_keeps ha hne) (h1.trans h0.symm), heldBy_wake]

theorem owned_move {p p' : Pool τ} {a : Nat} {pc : PC τ} (h : Owned p.agents p.queues) (ha : p.agents[a]? = some pc) (hm : Move p a pc p') : Owned p'.agents p'.queues := by
  have hid : ∀ (k : Nat) (q' : Queue τ), p.queues[k]? = some q' → ∃ q, p.queues[k]? = some q ∧ q.owner = q'.owner := fun k q' hk => ⟨q', hk, rfl⟩
  cases hm with
  | scanLock m j q h1 h2 h3 h4 => exact owned_acquire h ha rfl h3 h4 rfl
  | scanFail m j q h1 h2 h3 h4 => exact owned_neutral h (same_heldBy ha rfl) hid
  | scanSpurious m h1 => exact owned_neutral h (same_heldBy ha rfl) hid
  | scanEnd m h1 => exact owned_neutral h (same_heldBy ha rfl) hid
  | scanNone m j q h1 h2 => exact owned_neutral h (same_heldBy ha rfl) hid
  | scanSome m j q x items h1 h2 => exact owned_neutral h (same_heldBy ha rfl) (same_owner h1 rfl)
  | scanUnlock m j r q h1 => exact owned_release h ha rfl h1 (by cases r <;> rfl)
  | own q h1 h2 => exact owned_acquire h ha rfl h1 h2 rfl
  | ownClosed j q h1 h2 h3 => exact owned_neutral h (same_heldBy ha rfl) hid
  | ownWait j q h1 h2 h3 => exact owned_release h ha rfl h1 rfl
  | ownSome j q x items h1 h2 => exact owned_neutral h (same_heldBy ha rfl) (same_owner h1 rfl)
  | woken j q h1 h2 => exact owned_acquire h ha rfl h1 h2 rfl
  | ownUnlock j r q h1 => exact owned_release h ha rfl h1 (by cases r <;> rfl)
  | run x => exact owned_neutral h (same_heldBy ha rfl) hid
  | await x y h1 => exact owned_neutral h (same_heldBy ha rfl) hid
  | tryLock b x i m j q h1 h2 h3 h4 => exact owned_acquire h ha rfl h3 h4 rfl
  | tryFail b x i m h1 => exact owned_neutral h (same_heldBy ha rfl) hid
  | trySpurious b x i m h1 => exact owned_neutral h (same_heldBy ha rfl) hid
  | tryEnd b x i m h1 => exact owned_neutral h (same_heldBy ha rfl) hid
  | lock b x j q h1 h2 => exact owned_acquire h ha rfl h1 h2 rfl
  | insert b x j q h1 => exact owned_neutral h (same_heldBy ha rfl) (same_owner h1 rfl)
  | unlock b j q h1 => exact owned_release h ha rfl h1 rfl
  | notify b j =>
    simp only [go_queues, wake_queues]
    exact owned_wake h ha (by simp) rfl (by cases b <;> rfl)
  | closeLock j q h1 h2 => exact owned_acquire h ha rfl h1 h2 rfl
  | closeEnd j h1 => exact owned_neutral h (same_heldBy ha rfl) hid
  | closeSet j q h1 => exact owned_neutral h (same_heldBy ha rfl) (same_owner h1 rfl)
  | closeUnlock j q h1 => exact owned_release h ha rfl h1 rfl
  | closeNotify j =>
    simp only [go_queues, wake_queues]
    exact owned_wake h ha (by simp) rfl rfl
  | join k h1 h2 => exact owned_neutral h (same_heldBy ha rfl) hid
  | joinEnd k h1 => exact owned_neutral h (same_heldBy ha rfl) hid

/-- Only one thread holds a mutex. -/
theorem owned_unique {l : List (PC τ)} {qs : List (Queue τ)} (h : Owned l qs) {a b j : Nat} {pa pb : PC τ} {q : Queue τ} (hq : qs[j]? = some q) (ha : l[a]? = some pa) (hb : l[b]? = some pb)
    (h1 : pa.holds = some j) (h2 : pb.holds = some j) : a = b := by
  have e1 := (h j a q hq).2 (by unfold heldBy; rw [ha]; exact h1)
  have e2 := (h j b q hq).2 (by unfold heldBy; rw [hb]; exact h2)
  rw [e1] at e2; injection e2

/-! ### What the steps do to tasks and queues -/

def one (x y : τ) : Nat := if y = x then 1 else 0

def oneOf (x : τ) : Option τ → Nat
  | some y => one x y
  | none => 0

/-- How often a thread has a task in its hands. -/
def PC.has (x : τ) : PC τ → Nat
  | .scanUnlock _ _ r => oneOf x r
  | .ownUnlock _ r => oneOf x r
  | .run y => one x y
  | .await y _ => one x y
  | .tryPush b y _ _ => oneOf x b + one x y
  | .lock b y _ => oneOf x b + one x y
  | .insert b y _ => oneOf x b + one x y
  | .unlock b _ => oneOf x b
  | .notify b _ => oneOf x b
  | _ => 0

theorem has_after (x : τ) (o : PC τ) (r : Option τ) (ho : o.has x = 0) : (after o r).has x = oneOf x r := by
  cases r with
  | none => exact ho
  | some y => rfl

theorem tot_wake (f : PC τ → Nat) (p : Pool τ) (j : Nat) (hf : f (.woken j) = f (.wait j)) : tot f (p.wake j).agents = tot f p.agents := by
  rcases wake_eq p j with ⟨hw, e⟩ | ⟨_, e⟩
  · rw [e]; have := tot_set f _ _ _ (.woken j) hw; simp only [go_agents]; omega
  · rw [e]

def Counted (p : Pool τ) : Prop := ∀ x, p.enqueued.count x = tot (PC.has x) p.agents + tot (fun q => q.items.count x) p.queues + p.ran.count x

theorem counted_move {p p' : Pool τ} {a : Nat} {pc : PC τ} (h : Counted p) (ha : p.agents[a]? = some pc) (hm : Move p a pc p') : Counted p' := by
  intro x
  have hx := h x
  have hset := fun pc' => tot_set (PC.has x) p.agents a pc pc' ha
  have hq := fun j q q' (e : p.queues[j]? = some q) => tot_set (fun q : Queue τ => q.items.count x) p.queues j q q' e
  have hwset := fun j (hne : pc ≠ .wait j) pc' => tot_set (PC.has x) (p.wake j).agents a pc pc' (wake_keeps ha hne)
  have hw := fun j => tot_wake (PC.has x) p j rfl
  cases hm with
  | scanLock m j q h1 h2 h3 h4 => have := hset (.scanBody m j); have := hq j q { q with owner := some a } h3; simp only [go_agents, go_queues, put_agents, put_queues, go_enqueued, go_ran, put_enqueued, put_ran, PC.has] at *; omega
  | scanFail m j q h1 h2 h3 h4 => have := hset (.scan (m + 1)); simp only [go_agents, go_queues, go_enqueued, go_ran, PC.has] at *; omega
  | scanSpurious m h1 => have := hset (.scan (m + 1)); simp only [go_agents, go_queues, go_enqueued, go_ran, PC.has] at *; omega
  | scanEnd m h1 => have := hset .own; simp only [go_agents, go_queues, go_enqueued, go_ran, PC.has] at *; omega
  | scanNone m j q h1 h2 => have := hset (.scanUnlock m j none); simp only [go_agents, go_queues, go_enqueued, go_ran, PC.has, oneOf] at *; omega
  | scanSome m j q y items h1 h2 =>
    have := hset (.scanUnlock m j (some y)); have := hq j q { q with items := items } h1
    simp only [go_agents, go_queues, put_agents, put_queues, go_enqueued, go_ran, put_enqueued, put_ran, PC.has, oneOf, one, h2, List.count_cons, beq_iff_eq] at *; omega
  | scanUnlock m j r q h1 =>
    have := hset (after (.scan (m + 1)) r); have := hq j q { q with owner := none } h1
    rw [has_after x _ r rfl] at *
    simp only [go_agents, go_queues, put_agents, put_queues, go_enqueued, go_ran, put_enqueued, put_ran, PC.has] at *; omega
  | own q h1 h2 => have := hset (.ownCheck a); have := hq a q { q with owner := some a } h1; simp only [go_agents, go_queues, put_agents, put_queues, go_enqueued, go_ran, put_enqueued, put_ran, PC.has] at *; omega
  | ownClosed j q h1 h2 h3 => have := hset (.ownUnlock j none); simp only [go_agents, go_queues, go_enqueued, go_ran, PC.has, oneOf] at *; omega
  | ownWait j q h1 h2 h3 => have := hset (.wait j); have := hq j q { q with owner := none } h1; simp only [go_agents, go_queues, put_agents, put_queues, go_enqueued, go_ran, put_enqueued, put_ran, PC.has] at *; omega
  | ownSome j q y items h1 h2 =>
    have := hset (.ownUnlock j (some y)); have := hq j q { q with items := items } h1
    simp only [go_agents, go_queues, put_agents, put_queues, go_enqueued, go_ran, put_enqueued, put_ran, PC.has, oneOf, one, h2, List.count_cons, beq_iff_eq] at *; omega
  | woken j q h1 h2 => have := hset (.ownCheck j); have := hq j q { q with owner := some a } h1; simp only [go_agents, go_queues, put_agents, put_queues, go_enqueued, go_ran, put_enqueued, put_ran, PC.has] at *; omega
  | ownUnlock j r q h1 =>
    have := hset (after .exited r); have := hq j q { q with owner := none } h1
    rw [has_after x _ r rfl] at *
    simp only [go_agents, go_queues, put_agents, put_queues, go_enqueued, go_ran, put_enqueued, put_ran, PC.has] at *; omega
  | run y => have := hset (.scan 0); simp only [go_agents, go_queues, go_enqueued, List.count_append, List.count_cons, List.count_nil, beq_iff_eq, one, PC.has] at *; omega
  | await y z h1 => have := hset (.run y); simp only [go_agents, go_queues, go_enqueued, go_ran, PC.has] at *; omega
  | tryLock b y i m j q h1 h2 h3 h4 => have := hset (.insert b y j); have := hq j q { q with owner := some a } h3; simp only [go_agents, go_queues, put_agents, put_queues, go_enqueued, go_ran, put_enqueued, put_ran, PC.has] at *; omega
  | tryFail b y i m h1 => have := hset (.tryPush b y i (m + 1)); simp only [go_agents, go_queues, go_enqueued, go_ran, PC.has] at *; omega
  | trySpurious b y i m h1 => have := hset (.tryPush b y i (m + 1)); simp only [go_agents, go_queues, go_enqueued, go_ran, PC.has] at *; omega
  | tryEnd b y i m h1 => have := hset (.lock b y (i % p.threads)); simp only [go_agents, go_queues, go_enqueued, go_ran, PC.has] at *; omega
  | lock b y j q h1 h2 => have := hset (.insert b y j); have := hq j q { q with owner := some a } h1; simp only [go_agents, go_queues, put_agents, put_queues, go_enqueued, go_ran, put_enqueued, put_ran, PC.has] at *; omega
  | insert b y j q h1 =>
    have := hset (.unlock b j); have := hq j q { q with items := q.items ++ [y] } h1
    simp only [go_agents, go_queues, put_agents, put_queues, go_enqueued, go_ran, put_enqueued, put_ran, PC.has, one, List.count_append, List.count_cons, List.count_nil, beq_iff_eq] at *; omega
  | unlock b j q h1 => have := hset (.notify b j); have := hq j q { q with owner := none } h1; simp only [go_agents, go_queues, put_agents, put_queues, go_enqueued, go_ran, put_enqueued, put_ran, PC.has] at *; omega
  | notify b j =>
    have := hwset j (by simp) (after .returned b)
    have := hw j
    rw [has_after x _ b rfl] at *
    simp only [go_agents, go_queues, go_enqueued, go_ran, wake_queues, wake_enqueued, wake_ran, PC.has] at *; omega
  | closeLock j q h1 h2 => have := hset (.closeSet j); have := hq j q { q with owner := some a } h1; simp only [go_agents, go_queues, put_agents, put_queues, go_enqueued, go_ran, put_enqueued, put_ran, PC.has] at *; omega
  | closeEnd j h1 => have := hset (.join 0); simp only [go_agents, go_queues, go_enqueued, go_ran, PC.has] at *; omega
  | closeSet j q h1 => have := hset (.closeUnlock j); have := hq j q { q with closed := true } h1; simp only [go_agents, go_queues, put_agents, put_queues, go_enqueued, go_ran, put_enqueued, put_ran, PC.has] at *; omega
  | closeUnlock j q h1 => have := hset (.closeNotify j); have := hq j q { q with owner := none } h1; simp only [go_agents, go_queues, put_agents, put_queues, go_enqueued, go_ran, put_enqueued, put_ran, PC.has] at *; omega
  | closeNotify j =>
    have := hwset j (by simp) (.closeLock (j + 1))
    have := hw j
    simp only [go_agents, go_queues, go_enqueued, go_ran, wake_queues, wake_enqueued, wake_ran, PC.has] at *; omega
  | join k h1 h2 => have := hset (.join (k + 1)); simp only [go_agents, go_queues, go_enqueued, go_ran, PC.has] at *; omega
  | joinEnd k h1 => have := hset .done; simp only [go_agents, go_queues, go_enqueued, go_ran, PC.has] at *; omega

/-- What a step does to the queues. -/
theorem queues_move {p p' : Pool τ} {a : Nat} {pc : PC τ} (hm : Move p a pc p') {j : Nat} {q' : Queue τ} (hj : p'.queues[j]? = some q') :
    ∃ q, p.queues[j]? = some q ∧ (q'.closed = q.closed ∨ (pc = .closeSet j ∧ q'.closed = true)) ∧
      (q'.items = q.items ∨ (pc.holds = some j ∧ ∃ x, q.items = x :: q'.items) ∨ ∃ b x, pc = .insert b x j ∧ q'.items = q.items ++ [x]) := by
  have hid : p.queues[j]? = some q' → ∃ q, p.queues[j]? = some q ∧ (q'.closed = q.closed ∨ (pc = .closeSet j ∧ q'.closed = true)) ∧
      (q'.items = q.items ∨ (pc.holds = some j ∧ ∃ x, q.items = x :: q'.items) ∨ ∃ b x, pc = .insert b x j ∧ q'.items = q.items ++ [x]) :=
    fun h => ⟨q', h, .inl rfl, .inl rfl⟩
  cases hm with
  | scanLock m k q h1 h2 h3 h4 => rcases set_cases hj with ⟨rfl, rfl⟩ | ⟨_, hj⟩; exact ⟨q, h3, .inl rfl, .inl rfl⟩; exact hid hj
  | scanSome m k q x items h1 h2 => rcases set_cases hj with ⟨rfl, rfl⟩ | ⟨_, hj⟩; exact ⟨q, h1, .inl rfl, .inr (.inl ⟨rfl, x, h2⟩)⟩; exact hid hj
  | scanUnlock m k r q h1 => rcases set_cases hj with ⟨rfl, rfl⟩ | ⟨_, hj⟩; exact ⟨q, h1, .inl rfl, .inl rfl⟩; exact hid hj
  | own q h1 h2 => rcases set_cases hj with ⟨rfl, rfl⟩ | ⟨_, hj⟩; exact ⟨q, h1, .inl rfl, .inl rfl⟩; exact hid hj
  | ownWait k q h1 h2 h3 => rcases set_cases hj with ⟨rfl, rfl⟩ | ⟨_, hj⟩; exact ⟨q, h1, .inl rfl, .inl rfl⟩; exact hid hj
  | ownSome k q x items h1 h2 => rcases set_cases hj with ⟨rfl, rfl⟩ | ⟨_, hj⟩; exact ⟨q, h1, .inl rfl, .inr (.inl ⟨rfl, x, h2⟩)⟩; exact hid hj
  | woken k q h1 h2 => rcases set_cases hj with ⟨rfl, rfl⟩ | ⟨_, hj⟩; exact ⟨q, h1, .inl rfl, .inl rfl⟩; exact hid hj
  | ownUnlock k r q h1 => rcases set_cases hj with ⟨rfl, rfl⟩ | ⟨_, hj⟩; exact ⟨q, h1, .inl rfl, .inl rfl⟩; exact hid hj
  | tryLock b x i m k q h1 h2 h3 h4 => rcases set_cases hj with ⟨rfl, rfl⟩ | ⟨_, hj⟩; exact ⟨q, h3, .inl rfl, .inl rfl⟩; exact hid hj
  | lock b x k q h1 h2 => rcases set_cases hj with ⟨rfl, rfl⟩ | ⟨_, hj⟩; exact ⟨q, h1, .inl rfl, .inl rfl⟩; exact hid hj
  | insert b x k q h1 => rcases set_cases hj with ⟨rfl, rfl⟩ | ⟨_, hj⟩; exact ⟨q, h1, .inl rfl, .inr (.inr ⟨b, x, rfl, rfl⟩)⟩; exact hid hj
  | unlock b k q h1 => rcases set_cases hj with ⟨rfl, rfl⟩ | ⟨_, hj⟩; exact ⟨q, h1, .inl rfl, .inl rfl⟩; exact hid hj
  | closeLock k q h1 h2 => rcases set_cases hj with ⟨rfl, rfl⟩ | ⟨_, hj⟩; exact ⟨q, h1, .inl rfl, .inl rfl⟩; exact hid hj
  | closeSet k q h1 => rcases set_cases hj with ⟨rfl, rfl⟩ | ⟨_, hj⟩; exact ⟨q, h1, .inr ⟨rfl, rfl⟩, .inl rfl⟩; exact hid hj
  | closeUnlock k q h1 => rcases set_cases hj with ⟨rfl, rfl⟩ | ⟨_, hj⟩; exact ⟨q, h1, .inl rfl, .inl rfl⟩; exact hid hj
  | notify b k => exact hid (by simpa using hj)
  | closeNotify k => exact hid (by simpa using hj)
  | _ => exact hid hj

/-- The thread that takes a notification step, for queue `j`. -/
def PC.notifiesNow : PC τ → Option Nat
  | .notify _ j => some j
  | .closeNotify j => some j
  | _ => none

/-- The other threads stay where they are, except that they may be notified. -/
theorem others_move {p p' : Pool τ} {a : Nat} {pc : PC τ} (hm : Move p a pc p') {b : Nat} (hb : b ≠ a) {pb : PC τ} (h : p'.agents[b]? = some pb) :
    (p.agents[b]? = some pb ∧ (pb = .wait b → pc.notifiesNow ≠ some b)) ∨ (pb = .woken b ∧ p.agents[b]? = some (.wait b) ∧ pc.notifiesNow = some b) := by
  cases hm with
  | notify c j =>
    rw [go_agents, List.getElem?_set_ne (Ne.symm hb)] at h
    rcases wake_get h with ⟨h1, h2⟩ | ⟨rfl, rfl, h1⟩
    · refine .inl ⟨h1, fun e1 e2 => ?_⟩
      injection e2 with e2; subst e2; exact h2 rfl e1
    · exact .inr ⟨rfl, h1, rfl⟩
  | closeNotify j =>
    rw [go_agents, List.getElem?_set_ne (Ne.symm hb)] at h
    rcases wake_get h with ⟨h1, h2⟩ | ⟨rfl, rfl, h1⟩
    · refine .inl ⟨h1, fun e1 e2 => ?_⟩
      injection e2 with e2; subst e2; exact h2 rfl e1
    · exact .inr ⟨rfl, h1, rfl⟩
  | _ => rw [go_agents, List.getElem?_set_ne (Ne.symm hb)] at h; exact .inl ⟨h, fun _ e => by cases e⟩

theorem others_keep {p p' : Pool τ} {a : Nat} {pc : PC τ} (hm : Move p a pc p') {b : Nat} (hb : b ≠ a) {pb : PC τ} (h : p.agents[b]? = some pb) (hne : ∀ k, pb ≠ .wait k) :
    p'.agents[b]? = some pb := by
  cases hm with
  | notify c j => rw [go_agents, List.getElem?_set_ne (Ne.symm hb)]; exact wake_keeps h (hne j)
  | closeNotify j => rw [go_agents, List.getElem?_set_ne (Ne.symm hb)]; exact wake_keeps h (hne j)
  | _ => rw [go_agents, List.getElem?_set_ne (Ne.symm hb)]; exact h

/-- The thread that has moved is somewhere. -/
theorem self_lt {p p' : Pool τ} {a : Nat} {pc : PC τ} (ha : p.agents[a]? = some pc) (hm : Move p a pc p') : a < p'.agents.length := by
  have := lt_of_getElem? ha
  cases hm <;> simpa using this

/-- The destructor has closed queue `j`. -/
def PC.shut : PC τ → Nat → Prop
  | .closeLock k, j => j < k
  | .closeSet k, j => j < k
  | .closeUnlock k, j => j ≤ k
  | .closeNotify k, j => j ≤ k
  | .join _, _ => True
  | .done, _ => True
  | _, _ => False

/-- The destructor has closed queue `j` and released its mutex. -/
def PC.past : PC τ → Nat → Prop
  | .closeLock k, j => j < k
  | .closeSet k, j => j < k
  | .closeUnlock k, j => j < k
  | .closeNotify k, j => j ≤ k
  | .join _, _ => True
  | .done, _ => True
  | _, _ => False

/-- The destructor has joined thread `i`. -/
def PC.joined (n : Nat) : PC τ → Nat → Prop
  | .join k, i => i < k
  | .done, i => i < n
  | _, _ => False

/-- Those who have found queue `j` to be empty and have not released its mutex yet. -/
def PC.foundNone : PC τ → Option Nat
  | .scanUnlock _ j none => some j
  | .ownUnlock j none => some j
  | _ => none

/-- Those who will notify the worker of queue `j`. -/
def PC.notifies : PC τ → Option Nat
  | .unlock _ j => some j
  | .notify _ j => some j
  | .closeUnlock j => some j
  | .closeNotify j => some j
  | _ => none

structure Ctl (n : Nat) (p : Pool τ) : Prop where
  shape : Shape n p
  owned : Owned p.agents p.queues
  counted : Counted p
  closed : ∀ (j : Nat) (q : Queue τ) (m : PC τ), p.queues[j]? = some q → p.agents[n]? = some m → (q.closed = true ↔ m.shut j)
  exited : ∀ (b : Nat) (m : PC τ), p.agents[b]? = some .exited → p.agents[n]? = some m → m.past b
  empties : ∀ (b j : Nat) (pc : PC τ) (q : Queue τ), p.agents[b]? = some pc → pc.foundNone = some j → p.queues[j]? = some q → q.items = []
  ownNone : ∀ (b j : Nat) (q : Queue τ), p.agents[b]? = some (.ownUnlock j none) → p.queues[j]? = some q → q.closed = true
  calls : ∀ (b : Nat) (pc m : PC τ), p.agents[n]? = some m → m ≠ .uses → n < b → p.agents[b]? = some pc → pc = .returned
  joined : ∀ (i : Nat) (m : PC τ), p.agents[n]? = some m → m.joined n i → p.agents[i]? = some .exited
  wait : ∀ (j : Nat) (q : Queue τ), p.agents[j]? = some (.wait j) → p.queues[j]? = some q →
    (q.items = [] ∧ q.closed = false) ∨ ∃ (b : Nat) (pc : PC τ), p.agents[b]? = some pc ∧ pc.notifies = some j
  lost : ∀ (j : Nat) (q : Queue τ), p.agents[j]? = some .exited → p.queues[j]? = some q → q.items ≠ [] → p.late = true ∧ 2 ≤ n

theorem foundNone_holds {pc : PC τ} {j : Nat} (h : pc.foundNone = some j) : pc.holds = some j := by
  cases pc <;> simp_all [PC.foundNone, PC.holds]
  all_goals (rename_i r; cases r <;> simp_all)

theorem not_both {b : Option τ} {n : Nat} (h1 : b = none → n < n) (h2 : b ≠ none → n < n) : False := by
  cases b with
  | none => exact Nat.lt_irrefl _ (h1 rfl)
  | some x => exact Nat.lt_irrefl _ (h2 (by simp))

/-- The destructor as it moves. -/
theorem main_move {n : Nat} {p p' : Pool τ} {m m' : PC τ} (hs : Shape n p) (hm : Move p n m p') (ha : p.agents[n]? = some m) (ha' : p'.agents[n]? = some m') :
    (∀ j, m.past j → m'.past j) ∧ (m ≠ .uses) ∧ m' ≠ .uses ∧ (∀ j, j < n → (m'.shut j ↔ m.shut j ∨ m = .closeSet j)) ∧
      (∀ i, m'.joined n i → m.joined n i ∨ p.agents[i]? = some .exited) := by
  have hf := hs.fits n m ha
  have hlt := lt_of_getElem? ha
  have key : ∀ {x : PC τ}, (p.agents.set n x)[n]? = some m' → m' = x := by
    intro x h; rw [List.getElem?_set_self hlt] at h; injection h with h; exact h.symm
  have hst := hs.started
  have hql := hs.queues
  cases hm with
  | closeLock j q h1 h2 =>
    have := key ha'; subst this
    refine ⟨fun k h => h, by simp, by simp, fun k hk => ⟨fun h => .inl h, ?_⟩, fun i h => by cases h⟩
    rintro (h | h)
    · exact h
    · cases h
  | closeEnd j h1 =>
    have := key ha'; subst this
    refine ⟨fun k h => trivial, by simp, by simp, fun k hk => ⟨fun _ => .inl ?_, fun _ => trivial⟩, fun i h => ?_⟩
    · show k < j; omega
    · exact absurd h (Nat.not_lt_zero _)
  | closeSet j q h1 =>
    have := key ha'; subst this
    refine ⟨fun k h => h, by simp, by simp, fun k hk => ?_, fun i h => by cases h⟩
    show k ≤ j ↔ k < j ∨ (PC.closeSet j : PC τ) = .closeSet k
    constructor
    · intro h
      rcases Nat.lt_or_eq_of_le h with h | h
      · exact .inl h
      · exact .inr (by rw [h])
    · rintro (h | h)
      · omega
      · injection h with h; omega
  | closeUnlock j q h1 =>
    have := key ha'; subst this
    refine ⟨fun k h => Nat.le_of_lt h, by simp, by simp, fun k hk => ⟨fun h => .inl h, ?_⟩, fun i h => by cases h⟩
    rintro (h | h)
    · exact h
    · cases h
  | closeNotify j =>
    have hw : (p.wake j).agents[n]? = some (.closeNotify j) := wake_keeps ha (by simp)
    rw [go_agents, List.getElem?_set_self (lt_of_getElem? hw)] at ha'
    injection ha' with e; subst e
    refine ⟨fun k h => Nat.lt_succ_of_le h, by simp, by simp, fun k hk => ⟨fun h => .inl (Nat.le_of_lt_succ h), ?_⟩, fun i h => by cases h⟩
    rintro (h | h)
    · exact Nat.lt_succ_of_le h
    · cases h
  | join k h1 h2 =>
    have := key ha'; subst this
    refine ⟨fun k h => trivial, by simp, by simp, fun k hk => ⟨fun h => .inl h, fun _ => trivial⟩, fun i h => ?_⟩
    have h : i < k + 1 := h
    rcases Nat.lt_or_eq_of_le (Nat.le_of_lt_succ h) with h | h
    · exact .inl h
    · exact .inr (h ▸ h2)
  | joinEnd k h1 =>
    have := key ha'; subst this
    refine ⟨fun k h => trivial, by simp, by simp, fun k hk => ⟨fun h => .inl h, fun _ => trivial⟩, fun i h => ?_⟩
    have h : i < n := h
    exact .inl (show i < k by omega)
  | _ => simp only [Fits] at hf; first | exact (not_both hf.1 hf.2.1).elim | omega

theorem closeSet_move {p p' : Pool τ} {a j : Nat} {q' : Queue τ} (hm : Move p a (.closeSet j) p') (hj : p'.queues[j]? = some q') : q'.closed = true := by
  cases hm with
  | closeSet _ q h1 =>
    rcases set_cases hj with ⟨_, rfl⟩ | ⟨h, _⟩
    · rfl
    · exact absurd rfl h

theorem main_same {n : Nat} {p p' : Pool τ} {a : Nat} {pc m' : PC τ} (hs : Shape n p) (hm : Move p a pc p') (hn : n ≠ a) (h : p'.agents[n]? = some m') : p.agents[n]? = some m' := by
  rcases others_move hm hn h with ⟨h, _⟩ | ⟨_, h, _⟩
  · exact h
  · have := hs.fits _ _ h; exact absurd this.1 (Nat.lt_irrefl _)

/-- A worker leaves its loop when it has found its queue to be closed and empty. -/
theorem exit_move {p p' : Pool τ} {a : Nat} {pc : PC τ} (ha : p.agents[a]? = some pc) (hm : Move p a pc p') (h : p'.agents[a]? = some .exited) : ∃ j, pc = .ownUnlock j none := by
  have hlt := lt_of_getElem? ha
  have key : ∀ {x : PC τ}, (p.agents.set a x)[a]? = some .exited → x = .exited := by
    intro x h; rw [List.getElem?_set_self hlt] at h; injection h
  cases hm with
  | scanUnlock m j r q h1 => have := key h; cases r <;> cases this
  | ownUnlock j r q h1 =>
    have := key h
    cases r with
    | none => exact ⟨j, rfl⟩
    | some x => cases this
  | notify b j =>
    rw [go_agents, List.getElem?_set_self (by simpa using hlt)] at h
    injection h with h
    cases b <;> cases h
  | closeNotify j =>
    rw [go_agents, List.getElem?_set_self (by simpa using hlt)] at h
    injection h with h; cases h
  | _ => have := key h; cases this

theorem found_move {p p' : Pool τ} {a j : Nat} {pc pc' : PC τ} (ha : p.agents[a]? = some pc) (hm : Move p a pc p') (h : p'.agents[a]? = some pc') (hf : pc'.foundNone = some j) :
    p'.queues = p.queues ∧ ∃ q, p.queues[j]? = some q ∧ q.items = [] ∧ (pc' = .ownUnlock j none → q.closed = true) := by
  have hlt := lt_of_getElem? ha
  have key : ∀ {x : PC τ}, (p.agents.set a x)[a]? = some pc' → x = pc' := by
    intro x h; rw [List.getElem?_set_self hlt] at h; injection h
  cases hm with
  | scanNone m k q h1 h2 =>
    have := key h; subst this; injection hf with e; subst e
    exact ⟨rfl, q, h1, h2, fun e => by cases e⟩
  | ownClosed k q h1 h2 h3 =>
    have := key h; subst this; injection hf with e; subst e
    exact ⟨rfl, q, h1, h2, fun _ => h3⟩
  | scanUnlock m k r q h1 => have := key h; subst this; cases r <;> cases hf
  | ownUnlock k r q h1 => have := key h; subst this; cases r <;> cases hf
  | notify b k =>
    rw [go_agents, List.getElem?_set_self (by simpa using hlt)] at h
    injection h with h; subst h
    cases b <;> cases hf
  | closeNotify k =>
    rw [go_agents, List.getElem?_set_self (by simpa using hlt)] at h
    injection h with h; subst h; cases hf
  | _ => have := key h; subst this; cases hf

theorem wait_move {p p' : Pool τ} {a j : Nat} {pc : PC τ} (ha : p.agents[a]? = some pc) (hm : Move p a pc p') (h : p'.agents[a]? = some (.wait j)) {q' : Queue τ} (hq : p'.queues[j]? = some q') :
    q'.items = [] ∧ q'.closed = false := by
  have hlt := lt_of_getElem? ha
  have key : ∀ {x : PC τ}, (p.agents.set a x)[a]? = some (.wait j) → x = .wait j := by
    intro x h; rw [List.getElem?_set_self hlt] at h; injection h
  cases hm with
  | ownWait k q h1 h2 h3 =>
    have := key h; injection this with e; subst e
    rcases set_cases hq with ⟨_, rfl⟩ | ⟨h, _⟩
    · exact ⟨h2, h3⟩
    · exact absurd rfl h
  | scanUnlock m k r q h1 => have := key h; cases r <;> cases this
  | ownUnlock k r q h1 => have := key h; cases r <;> cases this
  | notify b k =>
    rw [go_agents, List.getElem?_set_self (by simpa using hlt)] at h
    injection h with h
    cases b <;> cases h
  | closeNotify k =>
    rw [go_agents, List.getElem?_set_self (by simpa using hlt)] at h
    injection h with h; cases h
  | _ => have := key h; cases this

theorem late_move {p p' : Pool τ} {a : Nat} {pc : PC τ} (hm : Move p a pc p') (h : p.late = true) : p'.late = true := by
  cases hm <;> simp [h]

theorem insert_move {p p' : Pool τ} {a j : Nat} {b : Option τ} {x : τ} (ha : p.agents[a]? = some (.insert b x j)) (hm : Move p a (.insert b x j) p') :
    p'.late = (p.late || p.destroying) ∧ p'.agents[a]? = some (.unlock b j) := by
  have hlt := lt_of_getElem? ha
  cases hm with
  | insert _ _ _ q h1 => exact ⟨rfl, by simp [hlt]⟩

theorem notifier_move {p p' : Pool τ} {a j : Nat} {pc : PC τ} (ha : p.agents[a]? = some pc) (hm : Move p a pc p') (hn : pc.notifies = some j) (hnow : pc.notifiesNow ≠ some j) :
    ∃ pc', p'.agents[a]? = some pc' ∧ pc'.notifies = some j := by
  have hlt := lt_of_getElem? ha
  cases hm with
  | unlock b k q h1 => exact ⟨.notify b k, by simp [hlt], hn⟩
  | closeUnlock k q h1 => exact ⟨.closeNotify k, by simp [hlt], hn⟩
  | notify b k => exact absurd hn hnow
  | closeNotify k => exact absurd hn hnow
  | _ => cases hn

theorem destroying_of {n : Nat} {p : Pool τ} {m : PC τ} (hs : Shape n p) (hm : p.agents[n]? = some m) (hu : m ≠ .uses) : p.destroying = true := by
  unfold Pool.destroying
  rw [hs.started, hm]
  cases m <;> first | rfl | exact absurd rfl hu

theorem past_uses {m : PC τ} {j : Nat} (h : m.past j) : m ≠ .uses := by rintro rfl; exact h

theorem ctl_move {n : Nat} (hn : 0 < n) {p p' : Pool τ} {a : Nat} {pc : PC τ} (h : Ctl n p) (ha : p.agents[a]? = some pc) (hm : Move p a pc p') : Ctl n p' := by
  have hs := h.shape
  have hs' := shape_move hn hs ha hm
  have hf := hs.fits a pc ha
  have hmain : ∃ m, p.agents[n]? = some m := ⟨_, List.getElem?_eq_getElem hs.agents⟩
  obtain ⟨m, hm0⟩ := hmain
  have hqe : ∀ j, j < n → ∃ q, p.queues[j]? = some q := fun j hj => ⟨_, List.getElem?_eq_getElem (by rw [hs.queues]; exact hj)⟩
  have hex : ∀ (b : Nat), b ≠ a → p'.agents[b]? = some .exited → p.agents[b]? = some .exited := by
    intro b hb he
    rcases others_move hm hb he with ⟨h1, _⟩ | ⟨h1, _, _⟩
    · exact h1
    · cases h1
  refine ⟨hs', owned_move h.owned ha hm, counted_move h.counted ha hm, ?_, ?_, ?_, ?_, ?_, ?_, ?_, ?_⟩
  · -- closed
    intro j q' m' hj hm'
    obtain ⟨q, hq, hc, _⟩ := queues_move hm hj
    have hjn : j < n := hs.queues ▸ lt_of_getElem? hq
    by_cases han : n = a
    · subst han
      rw [hm0] at ha; injection ha with e; subst e
      rw [(main_move hs hm hm0 hm').2.2.2.1 j hjn, ← h.closed j q m hq hm0]
      by_cases hcs : m = .closeSet j
      · subst hcs; simp [closeSet_move hm hj]
      · rcases hc with hc | ⟨hc, _⟩
        · simp [hcs, hc]
        · exact absurd hc hcs
    · have e := main_same hs hm han hm'
      rw [← h.closed j q m' hq e]
      rcases hc with hc | ⟨hc, _⟩
      · rw [hc]
      · subst hc; exact absurd hf.1.symm han
  · -- exited
    intro b m' hb hm'
    by_cases hba : b = a
    · subst hba
      obtain ⟨j, rfl⟩ := exit_move ha hm hb
      obtain ⟨hlt, rfl⟩ := hf
      have han : n ≠ j := by omega
      have e := main_same hs hm han hm'
      obtain ⟨q, hq⟩ := hqe j hlt
      have hc := (h.closed j q m' hq e).1 (h.ownNone j j q ha hq)
      cases m' with
      | closeUnlock k =>
        rcases Nat.lt_or_eq_of_le (show j ≤ k from hc) with hk | hk
        · exact hk
        · subst hk; exact absurd (owned_unique h.owned hq e ha rfl rfl) han
      | closeLock k => exact hc
      | closeSet k => exact hc
      | closeNotify k => exact hc
      | join k => trivial
      | done => trivial
      | _ => cases hc
    · have hb0 := hex b hba hb
      by_cases han : n = a
      · subst han
        rw [hm0] at ha; injection ha with e; subst e
        exact (main_move hs hm hm0 hm').1 b (h.exited b m hb0 hm0)
      · exact h.exited b m' hb0 (main_same hs hm han hm')
  · -- empties
    intro b j pb q' hb hfn hj
    by_cases hba : b = a
    · subst hba
      obtain ⟨he, q, hq, hi, _⟩ := found_move ha hm hb hfn
      rw [he, hq] at hj; injection hj with e; subst e; exact hi
    · have hb0 : p.agents[b]? = some pb := by
        rcases others_move hm hba hb with ⟨h1, _⟩ | ⟨h1, _, _⟩
        · exact h1
        · subst h1; cases hfn
      obtain ⟨q, hq, _, hi⟩ := queues_move hm hj
      have he := h.empties b j pb q hb0 hfn hq
      rcases hi with hi | ⟨_, x, hi⟩ | ⟨c, x, hpc, hi⟩
      · rw [hi]; exact he
      · rw [he] at hi; cases hi
      · subst hpc
        exact absurd (owned_unique h.owned hq hb0 ha (foundNone_holds hfn) rfl) hba
  · -- ownNone
    intro b j q' hb hj
    by_cases hba : b = a
    · subst hba
      obtain ⟨he, q, hq, _, hc⟩ := found_move ha hm hb rfl
      rw [he, hq] at hj; injection hj with e; subst e; exact hc rfl
    · have hb0 : p.agents[b]? = some (.ownUnlock j none) := by
        rcases others_move hm hba hb with ⟨h1, _⟩ | ⟨h1, _, _⟩
        · exact h1
        · cases h1
      obtain ⟨q, hq, hc, _⟩ := queues_move hm hj
      rcases hc with hc | ⟨_, hc⟩
      · rw [hc]; exact h.ownNone b j q hb0 hq
      · exact hc
  · -- calls
    intro b pb m' hm' hu hnb hb
    by_cases hba : b = a
    · subst hba
      have e := main_same hs hm (by omega) hm'
      have := h.calls b pc m' e hu hnb ha
      subst this; cases hm
    · have hb0 : p.agents[b]? = some pb := by
        rcases others_move hm hba hb with ⟨h1, _⟩ | ⟨_, h1, _⟩
        · exact h1
        · have := (hs.fits _ _ h1).1; omega
      by_cases han : n = a
      · subst han
        rw [hm0] at ha; injection ha with e; subst e
        exact h.calls b pb m hm0 (main_move hs hm hm0 hm').2.1 hnb hb0
      · exact h.calls b pb m' (main_same hs hm han hm') hu hnb hb0
  · -- joined
    intro i m' hm' hj
    have hi : p.agents[i]? = some .exited := by
      by_cases han : n = a
      · subst han
        rw [hm0] at ha; injection ha with e; subst e
        rcases (main_move hs hm hm0 hm').2.2.2.2 i hj with hj | hj
        · exact h.joined i m hm0 hj
        · exact hj
      · exact h.joined i m' (main_same hs hm han hm') hj
    have hia : i ≠ a := by
      intro e; subst e; rw [ha] at hi; injection hi with e; subst e; cases hm
    exact others_keep hm hia hi (by simp)
  · -- wait
    intro j q' hj hq'
    by_cases hja : j = a
    · subst hja; exact .inl (wait_move ha hm hj hq')
    · have hj0 : p.agents[j]? = some (.wait j) ∧ pc.notifiesNow ≠ some j := by
        rcases others_move hm hja hj with ⟨h1, h2⟩ | ⟨h1, _, _⟩
        · exact ⟨h1, h2 rfl⟩
        · cases h1
      obtain ⟨q, hq, hc, hi⟩ := queues_move hm hq'
      rcases h.wait j q hj0.1 hq with ⟨h1, h2⟩ | ⟨b, pb, hb, hnb⟩
      · rcases hi with hi | ⟨_, x, hi⟩ | ⟨c, x, hpc, hi⟩
        · rcases hc with hc | ⟨hc, _⟩
          · exact .inl ⟨by rw [hi]; exact h1, by rw [hc]; exact h2⟩
          · subst hc
            right
            have hlt := lt_of_getElem? ha
            cases hm with
            | closeSet _ q h1 => exact ⟨a, .closeUnlock j, by simp [hlt], rfl⟩
        · rw [h1] at hi; cases hi
        · subst hpc
          exact .inr ⟨a, .unlock c j, (insert_move ha hm).2, rfl⟩
      · right
        by_cases hba : b = a
        · subst hba
          rw [ha] at hb; injection hb with e; subst e
          obtain ⟨pc', h1, h2⟩ := notifier_move ha hm hnb hj0.2
          exact ⟨b, pc', h1, h2⟩
        · exact ⟨b, pb, others_keep hm hba hb (by rintro k rfl; cases hnb), hnb⟩
  · -- lost
    intro j q' hj hq' hne
    obtain ⟨q, hq, _, hi⟩ := queues_move hm hq'
    by_cases hja : j = a
    · subst hja
      obtain ⟨k, rfl⟩ := exit_move ha hm hj
      obtain ⟨_, rfl⟩ := hf
      have he := h.empties k k _ q ha rfl hq
      rcases hi with hi | ⟨_, x, hi⟩ | ⟨c, x, hpc, hi⟩
      · rw [hi] at hne; exact absurd he hne
      · rw [he] at hi; cases hi
      · cases hpc
    · have hj0 := hex j hja hj
      by_cases he : q.items = []
      · rcases hi with hi | ⟨_, x, hi⟩ | ⟨c, x, hpc, hi⟩
        · rw [hi] at hne; exact absurd he hne
        · rw [he] at hi; cases hi
        · subst hpc
          have hu := past_uses (h.exited j m hj0 hm0)
          refine ⟨by rw [(insert_move ha hm).1, destroying_of hs hm0 hu, Bool.or_true], ?_⟩
          have hjn : j < n := hs.fits _ _ hj0
          cases c with
          | none => have := h.calls a _ m hm0 hu (hf.1 rfl) ha; cases this
          | some y => have := hf.2.1 (by simp); omega
      · obtain ⟨h1, h2⟩ := h.lost j q hj0 hq he
        exact ⟨late_move hm h1, h2⟩

/-! ### Somebody will look into a queue whose worker has left -/

/-- Thread `b` will look into queue `j` before it leaves. -/
def PC.looks (n b : Nat) : PC τ → Nat → Prop
  | .scan m, j => ∃ k, m ≤ k ∧ k < 2 * n ∧ (b + k) % 2 ^ 32 % n = j
  | .scanBody m _, j => ∃ k, m ≤ k ∧ k < 2 * n ∧ (b + k) % 2 ^ 32 % n = j
  | .scanUnlock m _ none, j => ∃ k, m + 1 ≤ k ∧ k < 2 * n ∧ (b + k) % 2 ^ 32 % n = j
  | .scanUnlock _ _ (some _), _ => True
  | .ownUnlock _ (some _), _ => True
  | .run _, _ => True
  | .await _ _, _ => True
  | .tryPush (some _) _ _ _, _ => True
  | .lock (some _) _ _, _ => True
  | .insert (some _) _ _, _ => True
  | .unlock (some _) _, _ => True
  | .notify (some _) _, _ => True
  | _, _ => False

def Served (n : Nat) (p : Pool τ) : Prop := ∀ (j : Nat) (q : Queue τ), p.agents[j]? = some .exited → p.queues[j]? = some q → q.items ≠ [] →
  p.spurious = true ∨ ∃ (b : Nat) (pc : PC τ), p.agents[b]? = some pc ∧ pc.looks n b j

/-- One round of a worker passes all queues. -/
theorem scan_all {n b j : Nat} (hs : n ≤ 2 ^ 31) (hb : b < n) (hj : j < n) : ∃ k, 0 ≤ k ∧ k < 2 * n ∧ (b + k) % 2 ^ 32 % n = j := by
  rcases Nat.lt_or_ge j b with h | h
  · refine ⟨j + n - b, Nat.zero_le _, by omega, ?_⟩
    rw [show b + (j + n - b) = j + n by omega, Nat.mod_eq_of_lt (show j + n < 2 ^ 32 by omega), Nat.add_mod_right, Nat.mod_eq_of_lt hj]
  · refine ⟨j - b, Nat.zero_le _, by omega, ?_⟩
    rw [show b + (j - b) = j by omega, Nat.mod_eq_of_lt (show j < 2 ^ 32 by omega), Nat.mod_eq_of_lt hj]

theorem spurious_move {p p' : Pool τ} {a : Nat} {pc : PC τ} (hm : Move p a pc p') (h : p.spurious = true) : p'.spurious = true := by
  cases hm <;> simp [h]

/-- If a worker fails to lock a queue whose worker has left, then whoever holds the mutex will look into it, or it is empty. -/
theorem holder_looks {n : Nat} {p : Pool τ} (h : Ctl n p) {j v : Nat} {q : Queue τ} (hj : p.agents[j]? = some .exited) (hq : p.queues[j]? = some q) (hne : q.items ≠ []) (ho : q.owner = some v) :
    ∃ pv : PC τ, p.agents[v]? = some pv ∧ pv.holds = some j ∧ pv.looks n v j := by
  have hh := (h.owned j v q hq).1 ho
  unfold heldBy at hh
  cases hv : p.agents[v]? with
  | none => rw [hv] at hh; cases hh
  | some pv =>
    rw [hv] at hh
    have hh : pv.holds = some j := hh
    refine ⟨pv, rfl, hh, ?_⟩
    have hf := h.shape.fits v pv hv
    obtain ⟨m, hm0⟩ : ∃ m, p.agents[n]? = some m := ⟨_, List.getElem?_eq_getElem h.shape.agents⟩
    have hp := h.exited j m hj hm0
    have hcall : ∀ pb : PC τ, p.agents[v]? = some pb → n < v → pb = .returned := fun pb hb hlt => h.calls v pb m hm0 (past_uses hp) hlt hb
    cases pv with
    | scanBody k i => injection hh with e; subst e; exact ⟨k, Nat.le_refl _, hf.2.1, hf.2.2.symm⟩
    | scanUnlock k i r =>
      injection hh with e; subst e
      cases r with
      | none => exact absurd (h.empties v i _ q hv rfl hq) hne
      | some x => trivial
    | ownCheck i => injection hh with e; subst e; obtain ⟨_, rfl⟩ := hf; rw [hv] at hj; cases hj
    | ownUnlock i r => injection hh with e; subst e; obtain ⟨_, rfl⟩ := hf; rw [hv] at hj; cases hj
    | insert b x i =>
      cases b with
      | none => have := hcall _ hv (hf.1 rfl); cases this
      | some y => trivial
    | unlock b i =>
      cases b with
      | none => have := hcall _ hv (hf.1 rfl); cases this
      | some y => trivial
    | closeSet i =>
      injection hh with e; subst e
      rw [hf.1] at hv; rw [hv] at hm0; injection hm0 with e; subst e
      exact absurd hp (Nat.lt_irrefl _)
    | closeUnlock i =>
      injection hh with e; subst e
      rw [hf.1] at hv; rw [hv] at hm0; injection hm0 with e; subst e
      exact absurd hp (Nat.lt_irrefl _)
    | _ => cases hh

theorem served_move {n : Nat} (hsm : n ≤ 2 ^ 31) {p p' : Pool τ} {a : Nat} {pc : PC τ} (h : Ctl n p) (hv : Served n p) (ha : p.agents[a]? = some pc) (hm : Move p a pc p') : Served n p' := by
  have hs := h.shape
  have hf := hs.fits a pc ha
  have hlt := lt_of_getElem? ha
  have hl : p.limit = 2 * n := by rw [Pool.limit, hs.threads]
  obtain ⟨m, hm0⟩ : ∃ m, p.agents[n]? = some m := ⟨_, List.getElem?_eq_getElem h.shape.agents⟩
  intro j q' hj hq' hne
  obtain ⟨q, hq, _, hi⟩ := queues_move hm hq'
  have hjn : j < n := hs.queues ▸ lt_of_getElem? hq
  by_cases hja : j = a
  · subst hja
    obtain ⟨k, rfl⟩ := exit_move ha hm hj
    obtain ⟨_, rfl⟩ := hf
    have he := h.empties k k _ q ha rfl hq
    rcases hi with hi | ⟨_, x, hi⟩ | ⟨c, x, hpc, hi⟩
    · rw [hi] at hne; exact absurd he hne
    · rw [he] at hi; cases hi
    · cases hpc
  have hj0 : p.agents[j]? = some .exited := by
    rcases others_move hm hja hj with ⟨h1, _⟩ | ⟨h1, _, _⟩
    · exact h1
    · cases h1
  have hp := h.exited j m hj0 hm0
  by_cases he : q.items = []
  · rcases hi with hi | ⟨_, x, hi⟩ | ⟨c, x, hpc, hi⟩
    · rw [hi] at hne; exact absurd he hne
    · rw [he] at hi; cases hi
    · subst hpc
      cases c with
      | none => have := h.calls a _ m hm0 (past_uses hp) (hf.1 rfl) ha; cases this
      | some y => exact .inr ⟨a, .unlock (some y) j, (insert_move ha hm).2, trivial⟩
  rcases hv j q hj0 hq he with h1 | ⟨b, pb, hb, hlook⟩
  · exact .inl (spurious_move hm h1)
  by_cases hba : b ≠ a
  · exact .inr ⟨b, pb, others_keep hm hba hb (by rintro k rfl; exact hlook), hlook⟩
  have hba := Decidable.not_not.1 hba
  subst hba
  rw [ha] at hb; injection hb with e; subst e
  have self : ∀ pc' : PC τ, pc'.looks n b j → ∃ (c : Nat) (pc : PC τ), (p.agents.set b pc')[c]? = some pc ∧ pc.looks n c j :=
    fun pc' hl => ⟨b, pc', by simp [hlt], hl⟩
  cases hm with
  | scanLock k i q1 h1 h2 h3 h4 => exact .inr (self _ hlook)
  | scanFail k i q1 h1 h2 h3 h4 =>
    obtain ⟨k', hk1, hk2, hk3⟩ := hlook
    rcases Nat.lt_or_eq_of_le hk1 with hk | hk
    · exact .inr (self _ ⟨k', hk, hk2, hk3⟩)
    · subst hk
      have hij : i = j := by rw [h2, hs.threads, hk3]
      subst hij
      rw [hq] at h3; injection h3 with e; subst e
      cases ho : q.owner with
      | none => exact absurd ho h4
      | some v =>
        obtain ⟨pv, hv1, hv2, hv3⟩ := holder_looks h hj0 hq he ho
        have hvb : v ≠ b := by intro e; subst e; rw [ha] at hv1; injection hv1 with e; subst e; cases hv2
        exact .inr ⟨v, pv, by simp only [go_agents]; rw [List.getElem?_set_ne (Ne.symm hvb)]; exact hv1, hv3⟩
  | scanSpurious k h1 => exact .inl rfl
  | scanEnd k h1 => obtain ⟨k', hk1, hk2, _⟩ := hlook; omega
  | scanNone k i q1 h1 h2 =>
    obtain ⟨k', hk1, hk2, hk3⟩ := hlook
    rcases Nat.lt_or_eq_of_le hk1 with hk | hk
    · exact .inr (self _ ⟨k', hk, hk2, hk3⟩)
    · subst hk
      have hij : i = j := by rw [hf.2.2, hk3]
      subst hij
      rw [hq] at h1; injection h1 with e; subst e
      exact absurd h2 he
  | scanSome k i q1 x items h1 h2 => exact .inr (self _ trivial)
  | scanUnlock k i r q1 h1 =>
    cases r with
    | none => exact .inr (self _ hlook)
    | some x => exact .inr (self _ trivial)
  | ownUnlock i r q1 h1 =>
    cases r with
    | none => cases hlook
    | some x => exact .inr (self _ trivial)
  | run x => exact .inr (self _ (scan_all hsm hf hjn))
  | await x y h1 => exact .inr (self _ trivial)
  | tryLock c x i k i' q1 h1 h2 h3 h4 =>
    cases c with
    | none => cases hlook
    | some y => exact .inr (self _ trivial)
  | tryFail c x i k h1 =>
    cases c with
    | none => cases hlook
    | some y => exact .inr (self _ trivial)
  | trySpurious c x i k h1 => exact .inl rfl
  | tryEnd c x i k h1 =>
    cases c with
    | none => cases hlook
    | some y => exact .inr (self _ trivial)
  | lock c x i q1 h1 h2 =>
    cases c with
    | none => cases hlook
    | some y => exact .inr (self _ trivial)
  | insert c x i q1 h1 =>
    cases c with
    | none => cases hlook
    | some y => exact .inr (self _ trivial)
  | unlock c i q1 h1 =>
    cases c with
    | none => cases hlook
    | some y => exact .inr (self _ trivial)
  | notify c i =>
    cases c with
    | none => cases hlook
    | some y => exact .inr ⟨b, .run y, by simp [hlt, after], trivial⟩
  | _ => cases hlook

/-! ### The other steps -/

theorem ctl_init (n hw : Nat) (hn : 0 < n) : Ctl n (Pool.init τ n hw) := by
  have h0 : ¬n = 0 := by omega
  have hag : (Pool.init τ n hw).agents = List.replicate n (.scan 0) ++ [.uses] := by simp [Pool.init, h0]
  have hqs : (Pool.init τ n hw).queues = List.replicate n {} := rfl
  have hget : ∀ (b : Nat) (pc : PC τ), (Pool.init τ n hw).agents[b]? = some pc → (b < n ∧ pc = .scan 0) ∨ (b = n ∧ pc = .uses) := by
    intro b pc hb
    rw [hag] at hb
    rcases Nat.lt_or_ge b n with hbn | hbn
    · rw [List.getElem?_append_left (by simpa using hbn)] at hb
      exact .inl ⟨hbn, List.eq_of_mem_replicate (List.mem_of_getElem? hb)⟩
    · rw [List.getElem?_append_right (by simpa using hbn)] at hb
      simp only [List.length_replicate] at hb
      have h1 := lt_of_getElem? hb
      simp only [List.length_singleton] at h1
      have h2 : b = n := by omega
      subst h2
      simp at hb
      exact .inr ⟨rfl, hb.symm⟩
  have hqget : ∀ (j : Nat) (q : Queue τ), (Pool.init τ n hw).queues[j]? = some q → q = {} := by
    intro j q hj; rw [hqs] at hj; exact List.eq_of_mem_replicate (List.mem_of_getElem? hj)
  refine ⟨⟨rfl, by simp [hqs], by simp [Pool.init, h0], by simp [hag], ?_⟩, ?_, ?_, ?_, ?_, ?_, ?_, ?_, ?_, ?_, ?_⟩
  · intro b pc hb
    rcases hget b pc hb with ⟨h1, rfl⟩ | ⟨h1, rfl⟩
    · exact ⟨h1, Nat.zero_le _⟩
    · exact h1
  · intro j b q hj
    rw [hqget j q hj]
    constructor
    · intro e; cases e
    · intro e
      unfold heldBy at e
      cases hb : (Pool.init τ n hw).agents[b]? with
      | none => rw [hb] at e; cases e
      | some pc =>
        rw [hb] at e
        rcases hget b pc hb with ⟨_, rfl⟩ | ⟨_, rfl⟩ <;> cases e
  · intro x
    have e1 : tot (fun q : Queue τ => q.items.count x) (Pool.init τ n hw).queues = 0 :=
      tot_zero _ _ fun q hq => by rw [hqs] at hq; rw [List.eq_of_mem_replicate hq]; rfl
    have e2 : tot (PC.has x) (Pool.init τ n hw).agents = 0 := by
      apply tot_zero
      intro pc hpc
      obtain ⟨b, hb⟩ := List.getElem?_of_mem hpc
      rcases hget b pc hb with ⟨_, rfl⟩ | ⟨_, rfl⟩ <;> rfl
    rw [e1, e2]; rfl
  · intro j q m hj hm
    rw [hqget j q hj]
    rcases hget n m hm with ⟨h1, _⟩ | ⟨_, rfl⟩
    · exact absurd h1 (Nat.lt_irrefl _)
    · exact ⟨fun e => (by cases e), fun e => (by cases e)⟩
  · intro b m hb; rcases hget b _ hb with ⟨_, e⟩ | ⟨_, e⟩ <;> cases e
  · intro b j pc q hb hf hj; rw [hqget j q hj]
  · intro b j q hb; rcases hget b _ hb with ⟨_, e⟩ | ⟨_, e⟩ <;> cases e
  · intro b pc m hm hu
    rcases hget n m hm with ⟨h1, _⟩ | ⟨_, rfl⟩
    · exact absurd h1 (Nat.lt_irrefl _)
    · exact absurd rfl hu
  · intro i m hm hj
    rcases hget n m hm with ⟨h1, _⟩ | ⟨_, rfl⟩
    · exact absurd h1 (Nat.lt_irrefl _)
    · cases hj
  · intro j q hj; rcases hget j _ hj with ⟨_, e⟩ | ⟨_, e⟩ <;> cases e
  · intro j q hj; rcases hget j _ hj with ⟨_, e⟩ | ⟨_, e⟩ <;> cases e

theorem served_init (n hw : Nat) (hn : 0 < n) : Served n (Pool.init τ n hw) := by
  intro j q hj
  have := (ctl_init (τ := τ) n hw hn).exited j _ hj (List.getElem?_eq_getElem (ctl_init (τ := τ) n hw hn).shape.agents)
  have h0 : ¬n = 0 := by omega
  simp [Pool.init, h0, PC.past] at this

/-- Steps of a worker that change nothing but where it is. -/
theorem ctl_change {n : Nat} {p p' : Pool τ} {a : Nat} {pc pc' : PC τ} (h : Ctl n p) (ha : p.agents[a]? = some pc) (han : a < n) (hag : p'.agents = p.agents.set a pc') (hqs : p'.queues = p.queues)
    (ht : p'.threads = p.threads) (hst : p'.started = p.started) (hl : p'.late = p.late) (hc : Counted p') (hf : Fits n a pc') (h0 : pc.holds = none) (h0' : pc'.holds = none)
    (hnn : pc.notifies = none) (hex : pc ≠ .exited) (hex' : pc' ≠ .exited) (hw' : pc' ≠ .wait a) : Ctl n p' := by
  have hother : ∀ (b : Nat), b ≠ a → p'.agents[b]? = p.agents[b]? := fun b hb => by rw [hag, List.getElem?_set_ne (Ne.symm hb)]
  have hself : p'.agents[a]? = some pc' := by rw [hag, List.getElem?_set_self (lt_of_getElem? ha)]
  have hn' : p'.agents[n]? = p.agents[n]? := hother n (by omega)
  have hexo : ∀ (b : Nat), p'.agents[b]? = some .exited → p.agents[b]? = some .exited := by
    intro b hb
    by_cases hba : b = a
    · subst hba; rw [hself] at hb; injection hb with e; exact absurd e hex'
    · rw [← hother b hba]; exact hb
  refine ⟨⟨by rw [ht]; exact h.shape.threads, by rw [hqs]; exact h.shape.queues, by rw [hst]; exact h.shape.started, by rw [hag]; simp [h.shape.agents], ?_⟩, ?_, hc, ?_, ?_, ?_, ?_, ?_, ?_, ?_, ?_⟩
  · rw [hag]; exact fits_set h.shape.fits hf
  · rw [hag, hqs]; exact owned_neutral h.owned (same_heldBy ha (h0'.trans h0.symm)) (fun k q' hk => ⟨q', hk, rfl⟩)
  · intro j q m hj hm; rw [hqs] at hj; rw [hn'] at hm; exact h.closed j q m hj hm
  · intro b m hb hm; rw [hn'] at hm; exact h.exited b m (hexo b hb) hm
  · intro b j pb q hb hfn hj
    rw [hqs] at hj
    by_cases hba : b = a
    · subst hba; rw [hself] at hb; injection hb with e; subst e; rw [foundNone_holds hfn] at h0'; cases h0'
    · rw [hother b hba] at hb; exact h.empties b j pb q hb hfn hj
  · intro b j q hb hj
    rw [hqs] at hj
    by_cases hba : b = a
    · subst hba; rw [hself] at hb; injection hb with e; subst e; cases h0'
    · rw [hother b hba] at hb; exact h.ownNone b j q hb hj
  · intro b pb m hm hu hnb hb
    rw [hn'] at hm; rw [hother b (by omega)] at hb
    exact h.calls b pb m hm hu hnb hb
  · intro i m hm hj
    rw [hn'] at hm
    have hi := h.joined i m hm hj
    have hia : i ≠ a := by intro e; subst e; rw [ha] at hi; injection hi with e; exact hex e
    rw [hother i hia]; exact hi
  · intro j q hj hq
    rw [hqs] at hq
    have hja : j ≠ a := by intro e; subst e; rw [hself] at hj; injection hj with e; exact hw' e
    rw [hother j hja] at hj
    rcases h.wait j q hj hq with h1 | ⟨b, pb, hb, hnb⟩
    · exact .inl h1
    · have hba : b ≠ a := by intro e; subst e; rw [ha] at hb; injection hb with e; subst e; rw [hnn] at hnb; cases hnb
      exact .inr ⟨b, pb, by rw [hother b hba]; exact hb, hnb⟩
  · intro j q hj hq hne
    rw [hqs] at hq; rw [hl]
    exact h.lost j q (hexo j hj) hq hne

theorem served_change {n : Nat} {p p' : Pool τ} {a : Nat} {pc pc' : PC τ} (hv : Served n p) (ha : p.agents[a]? = some pc) (hag : p'.agents = p.agents.set a pc') (hqs : p'.queues = p.queues)
    (hsp : p'.spurious = p.spurious) (hex' : pc' ≠ .exited) (hlook : ∀ j, pc.looks n a j → pc'.looks n a j) : Served n p' := by
  have hother : ∀ (b : Nat), b ≠ a → p'.agents[b]? = p.agents[b]? := fun b hb => by rw [hag, List.getElem?_set_ne (Ne.symm hb)]
  have hself : p'.agents[a]? = some pc' := by rw [hag, List.getElem?_set_self (lt_of_getElem? ha)]
  intro j q hj hq hne
  rw [hqs] at hq; rw [hsp]
  have hja : j ≠ a := by intro e; subst e; rw [hself] at hj; injection hj with e; exact hex' e
  rw [hother j hja] at hj
  rcases hv j q hj hq hne with h1 | ⟨b, pb, hb, hl⟩
  · exact .inl h1
  · by_cases hba : b = a
    · subst hba; rw [ha] at hb; injection hb with e; subst e; exact .inr ⟨b, pc', hself, hlook j hl⟩
    · exact .inr ⟨b, pb, by rw [hother b hba]; exact hb, hl⟩

theorem main_get {n : Nat} {p : Pool τ} (hs : Shape n p) : ∃ m, p.agents[n]? = some m := ⟨_, List.getElem?_eq_getElem hs.agents⟩

theorem uses_of {n : Nat} {p : Pool τ} (hs : Shape n p) (hd : p.destroying = false) : p.agents[n]? = some .uses := by
  obtain ⟨m, hm⟩ := main_get hs
  by_cases hu : m = .uses
  · rw [hm, hu]
  · rw [destroying_of hs hm hu] at hd; cases hd

theorem ctl_destroy {n : Nat} {p : Pool τ} (h : Ctl n p) (hd : p.destroying = false) (hr : ∀ pc ∈ p.agents.drop (p.started + 1), pc = .returned) : Ctl n (p.go p.started (.closeLock 0)) := by
  have hs := h.shape
  have hu := uses_of hs hd
  rw [hs.started]
  have hlt := lt_of_getElem? hu
  have hother : ∀ (b : Nat), b ≠ n → (p.go n (.closeLock 0)).agents[b]? = p.agents[b]? := fun b hb => by rw [go_agents, List.getElem?_set_ne (Ne.symm hb)]
  have hself : (p.go n (.closeLock 0)).agents[n]? = some (.closeLock 0) := by simp [hlt]
  have hnoex : ∀ (b : Nat), (p.go n (.closeLock 0)).agents[b]? ≠ some .exited := by
    intro b hb
    by_cases hbn : b = n
    · subst hbn; rw [hself] at hb; cases hb
    · rw [hother b hbn] at hb; exact h.exited b _ hb hu
  refine ⟨⟨hs.threads, hs.queues, hs.started, by simp [hlt], fits_set hs.fits ⟨rfl, Nat.zero_le _⟩⟩, ?_, ?_, ?_, ?_, ?_, ?_, ?_, ?_, ?_, ?_⟩
  · exact owned_neutral h.owned (same_heldBy hu rfl) (fun k q' hk => ⟨q', hk, rfl⟩)
  · intro x
    have := tot_set (PC.has x) _ _ _ (.closeLock 0) hu
    have := h.counted x
    simp only [go_agents, go_queues, go_enqueued, go_ran, PC.has] at *
    omega
  · intro j q m hj hm
    rw [hself] at hm; injection hm with e; subst e
    rw [h.closed j q _ hj hu]
    exact ⟨fun e => (by cases e), fun e => absurd e (Nat.not_lt_zero _)⟩
  · intro b m hb; exact absurd hb (hnoex b)
  · intro b j pb q hb hfn hj
    by_cases hba : b = n
    · subst hba; rw [hself] at hb; injection hb with e; subst e; cases hfn
    · rw [hother b hba] at hb; exact h.empties b j pb q hb hfn hj
  · intro b j q hb hj
    by_cases hba : b = n
    · subst hba; rw [hself] at hb; cases hb
    · rw [hother b hba] at hb; exact h.ownNone b j q hb hj
  · intro b pb m _ _ hnb hb
    rw [hother b (by omega)] at hb
    apply hr
    rw [hs.started]
    apply List.mem_of_getElem? (i := b - (n + 1))
    rw [List.getElem?_drop, show n + 1 + (b - (n + 1)) = b by omega]
    exact hb
  · intro i m hm hj; rw [hself] at hm; injection hm with e; subst e; cases hj
  · intro j q hj hq
    have hja : j ≠ n := by intro e; subst e; rw [hself] at hj; cases hj
    rw [hother j hja] at hj
    rcases h.wait j q hj hq with h1 | ⟨b, pb, hb, hnb⟩
    · exact .inl h1
    · have hba : b ≠ n := by intro e; subst e; rw [hu] at hb; injection hb with e; subst e; cases hnb
      exact .inr ⟨b, pb, by rw [hother b hba]; exact hb, hnb⟩
  · intro j q hj; exact absurd hj (hnoex j)

theorem append_get {l : List (PC τ)} {x pc : PC τ} {b : Nat} (h : (l ++ [x])[b]? = some pc) : l[b]? = some pc ∨ (b = l.length ∧ pc = x) := by
  rcases Nat.lt_or_ge b l.length with hb | hb
  · rw [List.getElem?_append_left hb] at h; exact .inl h
  · rw [List.getElem?_append_right hb] at h
    have h1 := lt_of_getElem? h
    simp only [List.length_singleton] at h1
    have h2 : b = l.length := by omega
    subst h2
    simp at h
    exact .inr ⟨rfl, h.symm⟩

theorem append_keep {l : List (PC τ)} {x pc : PC τ} {b : Nat} (h : l[b]? = some pc) : (l ++ [x])[b]? = some pc := by
  rw [List.getElem?_append_left (lt_of_getElem? h)]; exact h

theorem ctl_enqueue {n : Nat} {p : Pool τ} (h : Ctl n p) (hd : p.destroying = false) (x : τ) :
    Ctl n { p with agents := p.agents ++ [.tryPush none x p.index 0], index := (p.index + 1) % 2 ^ 32, enqueued := p.enqueued ++ [x] } := by
  have hs := h.shape
  have hu := uses_of hs hd
  have hn' : (p.agents ++ [.tryPush none x p.index 0])[n]? = some .uses := append_keep hu
  have hnoex : ∀ (b : Nat), (p.agents ++ [.tryPush none x p.index 0])[b]? ≠ some .exited := by
    intro b hb
    rcases append_get hb with hb | ⟨_, e⟩
    · exact h.exited b _ hb hu
    · cases e
  refine ⟨⟨hs.threads, hs.queues, hs.started, by simp; have := hs.agents; omega, ?_⟩, ?_, ?_, ?_, ?_, ?_, ?_, ?_, ?_, ?_, ?_⟩
  · intro b pc hb
    rcases append_get hb with hb | ⟨rfl, rfl⟩
    · exact hs.fits b pc hb
    · exact ⟨fun _ => hs.agents, fun e => absurd rfl e, Nat.zero_le _⟩
  · refine owned_neutral h.owned (fun b => ?_) (fun k q' hk => ⟨q', hk, rfl⟩)
    unfold heldBy
    rcases Nat.lt_or_ge b p.agents.length with hb | hb
    · rw [List.getElem?_append_left hb]
    · rw [List.getElem?_eq_none hb]
      cases hb' : (p.agents ++ [.tryPush none x p.index 0])[b]? with
      | none => rfl
      | some pc =>
        rcases append_get hb' with hb2 | ⟨_, rfl⟩
        · rw [List.getElem?_eq_none hb] at hb2; cases hb2
        · rfl
  · intro y
    have := h.counted y
    simp only [tot_append, tot_one, List.count_append, List.count_cons, List.count_nil, PC.has, oneOf, one, beq_iff_eq]
    omega
  · intro j q m hj hm; rw [hn'] at hm; injection hm with e; subst e; exact h.closed j q _ hj hu
  · intro b m hb; exact absurd hb (hnoex b)
  · intro b j pb q hb hfn hj
    rcases append_get hb with hb | ⟨_, rfl⟩
    · exact h.empties b j pb q hb hfn hj
    · cases hfn
  · intro b j q hb hj
    rcases append_get hb with hb | ⟨_, e⟩
    · exact h.ownNone b j q hb hj
    · cases e
  · intro b pb m hm hne; rw [hn'] at hm; injection hm with e; subst e; exact absurd rfl hne
  · intro i m hm hj; rw [hn'] at hm; injection hm with e; subst e; cases hj
  · intro j q hj hq
    rcases append_get hj with hj | ⟨_, e⟩
    · rcases h.wait j q hj hq with h1 | ⟨b, pb, hb, hnb⟩
      · exact .inl h1
      · exact .inr ⟨b, pb, append_keep hb, hnb⟩
    · cases e
  · intro j q hj; exact absurd hj (hnoex j)

/-- What holds in every state that can be reached. -/
theorem step_inv {n : Nat} (hn : 0 < n) (hsm : n ≤ 2 ^ 31) {p p' : Pool τ} {a : Act τ} (h : Ctl n p ∧ Served n p) (hs : p.step a = some (.ok p')) : Ctl n p' ∧ Served n p' := by
  obtain ⟨hc, hv⟩ := h
  cases a with
  | enqueue x =>
    simp only [Pool.step] at hs
    by_cases hd : p.destroying = true
    · rw [if_pos hd] at hs; cases hs
    · rw [if_neg hd] at hs
      injection hs with hs; injection hs with hs; subst hs
      have hd : p.destroying = false := by simpa using hd
      refine ⟨ctl_enqueue hc hd x, ?_⟩
      intro j q hj
      exact absurd ((ctl_enqueue hc hd x).exited j _ hj (append_keep (uses_of hc.shape hd))) (fun e => e)
  | spawn a y =>
    simp only [Pool.step] at hs
    split at hs
    · rename_i x hx
      injection hs with hs; injection hs with hs; subst hs
      have hf : a < n := hc.shape.fits a _ hx
      refine ⟨ctl_change (pc' := .tryPush (some x) y p.index 0) hc hx hf rfl rfl rfl rfl rfl ?_ ⟨fun e => (by cases e), fun _ => hf, Nat.zero_le _⟩ rfl rfl rfl (by simp) (by simp) (by simp), served_change (pc' := .tryPush (some x) y p.index 0) hv hx rfl rfl rfl (by simp) (fun j _ => trivial)⟩
      intro z
      have := tot_set (PC.has z) _ _ _ (.tryPush (some x) y p.index 0) hx
      have := hc.counted z
      simp only [go_agents, go_queues, go_ran, List.count_append, List.count_cons, List.count_nil, PC.has, oneOf, one, beq_iff_eq] at *
      omega
    · cases hs
  | await a y =>
    simp only [Pool.step] at hs
    split at hs
    · rename_i x hx
      injection hs with hs; injection hs with hs; subst hs
      have hf : a < n := hc.shape.fits a _ hx
      refine ⟨ctl_change (pc' := .await x y) hc hx hf rfl rfl rfl rfl rfl ?_ hf rfl rfl rfl (by simp) (by simp) (by simp), served_change (pc' := .await x y) hv hx rfl rfl rfl (by simp) (fun j _ => trivial)⟩
      intro z
      have := tot_set (PC.has z) _ _ _ (.await x y) hx
      have := hc.counted z
      simp only [go_agents, go_queues, go_ran, go_enqueued, PC.has] at *
      omega
    · cases hs
  | run a s =>
    simp only [Pool.step] at hs
    split at hs
    · rename_i pc hpc
      have hm := run_move hs
      exact ⟨ctl_move hn hc hpc hm, served_move hsm hc hv hpc hm⟩
    · cases hs
  | wakes a =>
    simp only [Pool.step] at hs
    split at hs
    · rename_i j hj
      injection hs with hs; injection hs with hs; subst hs
      have hf := hc.shape.fits a _ hj
      refine ⟨ctl_change (pc' := .woken j) hc hj hf.1 rfl rfl rfl rfl rfl ?_ hf rfl rfl rfl (by simp) (by simp) (by simp), served_change (pc' := .woken j) hv hj rfl rfl rfl (by simp) (fun j h => h)⟩
      intro z
      have := tot_set (PC.has z) _ _ _ (.woken j) hj
      have := hc.counted z
      simp only [go_agents, go_queues, go_ran, go_enqueued, PC.has] at *
      omega
    · cases hs
  | destroy =>
    simp only [Pool.step] at hs
    by_cases hd : (!p.destroying && (p.agents.drop (p.started + 1)).all PC.isReturned) = true
    · rw [if_pos hd] at hs
      injection hs with hs; injection hs with hs; subst hs
      rw [Bool.and_eq_true] at hd
      have h1 : p.destroying = false := by simpa using hd.1
      have h2 : ∀ pc ∈ p.agents.drop (p.started + 1), pc = .returned := by
        intro pc hpc
        have := List.all_eq_true.1 hd.2 pc hpc
        cases pc <;> first | rfl | cases this
      refine ⟨ctl_destroy hc h1 h2, ?_⟩
      have hu := uses_of hc.shape h1
      rw [hc.shape.started]
      exact served_change hv hu rfl rfl rfl (by simp) (fun j h => h)
    · rw [if_neg hd] at hs; cases hs

theorem Reachable.inv {n hw : Nat} (hn : 0 < n) (hsm : n ≤ 2 ^ 31) {p : Pool τ} (h : Reachable n hw p) : Ctl n p ∧ Served n p := by
  induction h with
  | init => exact ⟨ctl_init n hw hn, served_init n hw hn⟩
  | step a _ hs ih => exact step_inv hn hsm ih hs

/-! ### Nothing undefined -/

theorem acquire_fine {p : Pool τ} {a j : Nat} {pc : PC τ} (h : j < p.queues.length) : p.acquire a j pc ≠ some .ub ∧ p.acquire a j pc ≠ some .throws := by
  unfold Pool.acquire
  rw [List.getElem?_eq_getElem h]
  dsimp only
  split <;> simp

theorem tryAcquire_fine {p : Pool τ} {a j : Nat} {s : Bool} {pc pc' : PC τ} (h : j < p.queues.length) : some (p.tryAcquire a j s pc pc') ≠ some .ub ∧ some (p.tryAcquire a j s pc pc') ≠ some .throws := by
  unfold Pool.tryAcquire
  rw [List.getElem?_eq_getElem h]
  dsimp only
  split
  · split <;> simp
  · simp

theorem access_fine {p : Pool τ} {j : Nat} {f : Queue τ → Pool τ} (h : j < p.queues.length) : some (p.access j f) ≠ some .ub ∧ some (p.access j f) ≠ some .throws := by
  unfold Pool.access
  rw [List.getElem?_eq_getElem h]
  simp

theorem run_fine {n : Nat} (hn : 0 < n) {p : Pool τ} (hs : Shape n p) {a : Nat} {pc : PC τ} (ha : p.agents[a]? = some pc) (s : Bool) : p.run a s pc ≠ some .ub ∧ p.run a s pc ≠ some .throws := by
  have hf := hs.fits a pc ha
  have hq := hs.queues
  have hmod : ∀ k, k % p.threads < p.queues.length := fun k => by rw [hs.threads, hq]; exact Nat.mod_lt k hn
  cases pc with
  | scan m =>
    simp only [Pool.run]
    split
    · exact tryAcquire_fine (hmod _)
    · simp
  | scanBody m j => exact access_fine (by rw [hf.2.2, hq]; exact Nat.mod_lt _ hn)
  | scanUnlock m j r => exact access_fine (by rw [hf.2.2, hq]; exact Nat.mod_lt _ hn)
  | own => exact acquire_fine (by rw [hq]; exact hf)
  | ownCheck j => exact access_fine (by rw [hf.2, hq]; exact hf.1)
  | wait j => simp [Pool.run]
  | woken j => exact acquire_fine (by rw [hf.2, hq]; exact hf.1)
  | ownUnlock j r => exact access_fine (by rw [hf.2, hq]; exact hf.1)
  | run x => simp [Pool.run]
  | await x y => simp only [Pool.run]; split <;> simp
  | exited => simp [Pool.run]
  | tryPush b x i m =>
    simp only [Pool.run]
    split
    · exact tryAcquire_fine (hmod _)
    · simp
  | lock b x j => exact acquire_fine (by rw [hq]; exact hf.2.2)
  | insert b x j => exact access_fine (by rw [hq]; exact hf.2.2)
  | unlock b j => exact access_fine (by rw [hq]; exact hf.2.2)
  | notify b j => simp [Pool.run]
  | returned => simp [Pool.run]
  | uses => simp [Pool.run]
  | closeLock j =>
    simp only [Pool.run]
    split
    · rename_i h; exact acquire_fine h
    · simp
  | closeSet j => exact access_fine (by rw [hq]; exact hf.2)
  | closeUnlock j => exact access_fine (by rw [hq]; exact hf.2)
  | closeNotify j => simp [Pool.run]
  | join k =>
    simp only [Pool.run]
    split
    · split <;> simp
    · simp
  | done => simp [Pool.run]

/-! ### Everything ends -/

/-- The work of a task in a queue. -/
def cost (n : Nat) : Nat := 6 + 6 * n

def base (n : Nat) : Option τ → Nat
  | some _ => 5 + 6 * n
  | none => 0

def PC.weight (n : Nat) : PC τ → Nat
  | .scan m => 4 + 3 * (2 * n - m)
  | .scanBody m _ => 3 + 3 * (2 * n - m)
  | .scanUnlock m _ none => 2 + 3 * (2 * n - m)
  | .scanUnlock _ _ (some _) => 6 + 6 * n
  | .own => 3
  | .ownCheck _ => 2
  | .wait _ => 1
  | .woken _ => 3
  | .ownUnlock _ none => 1
  | .ownUnlock _ (some _) => 6 + 6 * n
  | .run _ => 5 + 6 * n
  | .await _ _ => 6 + 6 * n
  | .exited => 0
  | .tryPush b _ _ m => base n b + cost n + 8 + (2 * n - m)
  | .lock b _ _ => base n b + cost n + 7
  | .insert b _ _ => base n b + cost n + 6
  | .unlock b _ => base n b + 5
  | .notify b _ => base n b + 4
  | .returned => 0
  | .uses => n + 4 + 8 * n
  | .closeLock j => n + 3 + 8 * (n - j)
  | .closeSet j => n + 2 + 8 * (n - j)
  | .closeUnlock j => n + 1 + 8 * (n - j)
  | .closeNotify j => n + 8 * (n - j)
  | .join k => n + 2 - k
  | .done => 0

/-- A bound on the number of steps. -/
def Pool.left (n : Nat) (p : Pool τ) : Nat := tot (PC.weight n) p.agents + tot (fun q => cost n * q.items.length) p.queues

theorem weight_wake (n : Nat) (p : Pool τ) (j : Nat) : tot (PC.weight n) (p.wake j).agents ≤ tot (PC.weight n) p.agents + 2 := by
  rcases wake_eq p j with ⟨hw, e⟩ | ⟨_, e⟩
  · rw [e]; have := tot_set (PC.weight n) _ _ _ (.woken j) hw; simp only [go_agents, PC.weight] at *; omega
  · rw [e]; omega

theorem left_move {n : Nat} {p p' : Pool τ} {a : Nat} {pc : PC τ} (hs : Shape n p) (ha : p.agents[a]? = some pc) (hm : Move p a pc p') : p'.left n < p.left n := by
  have hf := hs.fits a pc ha
  have hl : p.limit = 2 * n := by rw [Pool.limit, hs.threads]
  have hst := hs.started
  have hql := hs.queues
  have hset := fun pc' => tot_set (PC.weight n) p.agents a pc pc' ha
  have hq := fun j q q' (e : p.queues[j]? = some q) => tot_set (fun q : Queue τ => cost n * q.items.length) p.queues j q q' e
  have hwset := fun j (hne : pc ≠ .wait j) pc' => tot_set (PC.weight n) (p.wake j).agents a pc pc' (wake_keeps ha hne)
  have hw := fun j => weight_wake n p j
  unfold Pool.left
  cases hm with
  | scanLock m j q h1 h2 h3 h4 => have := hset (.scanBody m j); have := hq j q { q with owner := some a } h3; simp only [go_agents, go_queues, put_agents, put_queues, PC.weight] at *; omega
  | scanFail m j q h1 h2 h3 h4 => have := hset (.scan (m + 1)); simp only [go_agents, go_queues, PC.weight] at *; omega
  | scanSpurious m h1 => have := hset (.scan (m + 1)); simp only [go_agents, go_queues, PC.weight] at *; omega
  | scanEnd m h1 => have := hset .own; simp only [go_agents, go_queues, PC.weight] at *; omega
  | scanNone m j q h1 h2 => have := hset (.scanUnlock m j none); simp only [go_agents, go_queues, PC.weight] at *; omega
  | scanSome m j q y items h1 h2 =>
    have := hset (.scanUnlock m j (some y)); have := hq j q { q with items := items } h1
    simp only [go_agents, go_queues, put_agents, put_queues, PC.weight, h2, List.length_cons, Nat.mul_succ] at *; simp only [cost] at *; omega
  | scanUnlock m j r q h1 =>
    have := hset (after (.scan (m + 1)) r); have := hq j q { q with owner := none } h1
    cases r <;> simp only [go_agents, go_queues, put_agents, put_queues, after, PC.weight, Fits] at * <;> omega
  | own q h1 h2 => have := hset (.ownCheck a); have := hq a q { q with owner := some a } h1; simp only [go_agents, go_queues, put_agents, put_queues, PC.weight] at *; omega
  | ownClosed j q h1 h2 h3 => have := hset (.ownUnlock j none); simp only [go_agents, go_queues, PC.weight] at *; omega
  | ownWait j q h1 h2 h3 => have := hset (.wait j); have := hq j q { q with owner := none } h1; simp only [go_agents, go_queues, put_agents, put_queues, PC.weight] at *; omega
  | ownSome j q y items h1 h2 =>
    have := hset (.ownUnlock j (some y)); have := hq j q { q with items := items } h1
    simp only [go_agents, go_queues, put_agents, put_queues, PC.weight, h2, List.length_cons, Nat.mul_succ] at *; simp only [cost] at *; omega
  | woken j q h1 h2 => have := hset (.ownCheck j); have := hq j q { q with owner := some a } h1; simp only [go_agents, go_queues, put_agents, put_queues, PC.weight] at *; omega
  | ownUnlock j r q h1 =>
    have := hset (after .exited r); have := hq j q { q with owner := none } h1
    cases r <;> simp only [go_agents, go_queues, put_agents, put_queues, after, PC.weight] at * <;> omega
  | run y => have := hset (.scan 0); simp only [go_agents, go_queues, PC.weight] at *; omega
  | await y z h1 => have := hset (.run y); simp only [go_agents, go_queues, PC.weight] at *; omega
  | tryLock b y i m j q h1 h2 h3 h4 => have := hset (.insert b y j); have := hq j q { q with owner := some a } h3; simp only [go_agents, go_queues, put_agents, put_queues, PC.weight] at *; omega
  | tryFail b y i m h1 => have := hset (.tryPush b y i (m + 1)); simp only [go_agents, go_queues, PC.weight] at *; omega
  | trySpurious b y i m h1 => have := hset (.tryPush b y i (m + 1)); simp only [go_agents, go_queues, PC.weight] at *; omega
  | tryEnd b y i m h1 => have := hset (.lock b y (i % p.threads)); simp only [go_agents, go_queues, PC.weight] at *; omega
  | lock b y j q h1 h2 => have := hset (.insert b y j); have := hq j q { q with owner := some a } h1; simp only [go_agents, go_queues, put_agents, put_queues, PC.weight] at *; omega
  | insert b y j q h1 =>
    have := hset (.unlock b j); have := hq j q { q with items := q.items ++ [y] } h1
    simp only [go_agents, go_queues, put_agents, put_queues, PC.weight, List.length_append, List.length_cons, List.length_nil, Nat.mul_succ, Nat.mul_add, Nat.mul_zero, Nat.zero_add] at *; omega
  | unlock b j q h1 => have := hset (.notify b j); have := hq j q { q with owner := none } h1; simp only [go_agents, go_queues, put_agents, put_queues, PC.weight] at *; omega
  | notify b j =>
    have := hwset j (by simp) (after .returned b)
    have := hw j
    cases b <;> simp only [go_agents, go_queues, wake_queues, after, PC.weight, base] at * <;> omega
  | closeLock j q h1 h2 => have := hset (.closeSet j); have := hq j q { q with owner := some a } h1; simp only [go_agents, go_queues, put_agents, put_queues, PC.weight] at *; omega
  | closeEnd j h1 => have := hset (.join 0); simp only [go_agents, go_queues, PC.weight] at *; omega
  | closeSet j q h1 => have := hset (.closeUnlock j); have := hq j q { q with closed := true } h1; simp only [go_agents, go_queues, put_agents, put_queues, PC.weight] at *; omega
  | closeUnlock j q h1 => have := hset (.closeNotify j); have := hq j q { q with owner := none } h1; simp only [go_agents, go_queues, put_agents, put_queues, PC.weight] at *; omega
  | closeNotify j =>
    have := hwset j (by simp) (.closeLock (j + 1))
    have := hw j
    simp only [go_agents, go_queues, wake_queues, PC.weight, Fits] at *; omega
  | join k h1 h2 => have := hset (.join (k + 1)); simp only [go_agents, go_queues, PC.weight, Fits] at *; omega
  | joinEnd k h1 => have := hset .done; simp only [go_agents, go_queues, PC.weight, Fits] at *; omega

/-! ### When nothing can happen -/

/-- Where threads may be when none can take a step. -/
def Rests (n : Nat) (p : Pool τ) (b : Nat) : PC τ → Prop
  | .wait j => j = b ∧ ∃ q, p.queues[b]? = some q ∧ q.items = [] ∧ q.closed = false
  | .exited => True
  | .await _ y => y ∉ p.ran
  | .returned => True
  | .uses => True
  | .join k => k < n ∧ p.agents[k]? ≠ some .exited
  | .done => True
  | _ => False

theorem rests {n : Nat} (hn : 0 < n) {p : Pool τ} (h : Ctl n p) (hq : ∀ a, p.step (.run a false) = none) {b : Nat} {pc : PC τ} (hb : p.agents[b]? = some pc) : Rests n p b pc := by
  have hs := h.shape
  have hrun : ∀ {c : Nat} {pc : PC τ}, p.agents[c]? = some pc → p.run c false pc = none := by
    intro c pc hc
    have := hq c
    simp only [Pool.step, hc] at this
    exact this
  have hmod : ∀ k, k % p.threads < p.queues.length := fun k => by rw [hs.threads, hs.queues]; exact Nat.mod_lt k hn
  have hmoves : ∀ {c : Nat} {pc : PC τ}, p.agents[c]? = some pc → pc.holds = none ∧ pc.notifies = none := by
    intro c pc hc
    have hr := hrun hc
    cases pc with
    | closeNotify j => cases hr
    | notify c j => cases hr
    | scanBody m j => cases hr
    | scanUnlock m j r => cases hr
    | ownCheck j => cases hr
    | ownUnlock j r => cases hr
    | insert b x j => cases hr
    | unlock b j => cases hr
    | closeSet j => cases hr
    | closeUnlock j => cases hr
    | _ => exact ⟨rfl, rfl⟩
  have hfree : ∀ (j : Nat) (q : Queue τ), p.queues[j]? = some q → q.owner = none := by
    intro j q hj
    cases ho : q.owner with
    | none => rfl
    | some v =>
      have := (h.owned j v q hj).1 ho
      unfold heldBy at this
      cases hv : p.agents[v]? with
      | none => rw [hv] at this; cases this
      | some pv =>
        rw [hv] at this
        have this : pv.holds = some j := this
        rw [(hmoves hv).1] at this; cases this
  have hacq : ∀ (a j : Nat) (pc : PC τ), j < p.queues.length → p.acquire a j pc ≠ none := by
    intro a j pc hj
    unfold Pool.acquire
    rw [List.getElem?_eq_getElem hj]
    dsimp only
    rw [if_pos (hfree j _ (List.getElem?_eq_getElem hj))]
    simp
  have hf := hs.fits b pc hb
  have hr := hrun hb
  cases pc with
  | wait j =>
    obtain ⟨hbn, rfl⟩ := hf
    have hqj := List.getElem?_eq_getElem (l := p.queues) (i := j) (by rw [hs.queues]; exact hbn)
    rcases h.wait j _ hb hqj with ⟨h1, h2⟩ | ⟨c, pc, hc, hnc⟩
    · exact ⟨rfl, _, hqj, h1, h2⟩
    · rw [(hmoves hc).2] at hnc; cases hnc
  | exited => trivial
  | await x y =>
    simp only [Pool.run] at hr
    by_cases hy : y ∈ p.ran
    · rw [if_pos hy] at hr; cases hr
    · exact hy
  | returned => trivial
  | uses => trivial
  | done => trivial
  | join k =>
    simp only [Pool.run] at hr
    by_cases hk : k < p.started
    · rw [if_pos hk] at hr
      refine ⟨by rw [← hs.started]; exact hk, fun e => ?_⟩
      rw [e] at hr; cases hr
    · rw [if_neg hk] at hr; cases hr
  | scan m => simp only [Pool.run] at hr; split at hr <;> cases hr
  | tryPush c x i m => simp only [Pool.run] at hr; split at hr <;> cases hr
  | own => exact absurd hr (hacq _ _ _ (by rw [hs.queues]; exact hf))
  | woken j => exact absurd hr (hacq _ _ _ (by rw [hs.queues, hf.2]; exact hf.1))
  | lock c x j => exact absurd hr (hacq _ _ _ (by rw [hs.queues]; exact hf.2.2))
  | closeLock j =>
    simp only [Pool.run] at hr
    by_cases hj : j < p.queues.length
    · rw [if_pos hj] at hr; exact absurd hr (hacq _ _ _ hj)
    · rw [if_neg hj] at hr; cases hr
  | _ => cases hr

end Esl.Workers
