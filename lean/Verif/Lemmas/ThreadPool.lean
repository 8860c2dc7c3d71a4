import Verif.Model.ThreadPool
/-! Invariants of the thread pool. -/
namespace Esl.TPool

variable {τ : Type}

/-- Sum of a number over a list. -/
def tot {β : Type} (f : β → Nat) (l : List β) : Nat := (l.map f).sum

theorem tot_append {β : Type} (f : β → Nat) (l m : List β) : tot f (l ++ m) = tot f l + tot f m := by simp [tot]

theorem tot_one {β : Type} (f : β → Nat) (a : β) : tot f [a] = f a := by simp [tot]

theorem tot_set {β : Type} (f : β → Nat) (l : List β) (t : Nat) (a b : β) (h : l[t]? = some a) : tot f (l.set t b) + f a = tot f l + f b := by
  unfold tot
  induction l generalizing t with
  | nil => simp at h
  | cons c l ih =>
    cases t with
    | zero => simp at h; subst h; simp; omega
    | succ t =>
      simp at h
      have := ih t h
      simp only [List.set_cons_succ, List.map_cons, List.sum_cons]
      omega

theorem tot_erase {β : Type} (f : β → Nat) (l : List β) (t : Nat) (a : β) (h : l[t]? = some a) : tot f (l.eraseIdx t) + f a = tot f l := by
  unfold tot
  induction l generalizing t with
  | nil => simp at h
  | cons c l ih =>
    cases t with
    | zero => simp at h; subst h; simp; omega
    | succ t =>
      simp at h
      have := ih t h
      simp only [List.eraseIdx_cons_succ, List.map_cons, List.sum_cons]
      omega

theorem tot_zero {β : Type} (f : β → Nat) (l : List β) (h : ∀ p ∈ l, f p = 0) : tot f l = 0 := by
  unfold tot
  induction l with
  | nil => rfl
  | cons a l ih => simp [h a (by simp), ih fun p hp => h p (List.mem_cons_of_mem _ hp)]

theorem le_tot {β : Type} (f : β → Nat) (l : List β) (t : Nat) (a : β) (h : l[t]? = some a) : f a ≤ tot f l := by
  have := tot_erase f l t a h; omega

theorem lt_of_getElem? {β : Type} {l : List β} {i : Nat} {a : β} (h : l[i]? = some a) : i < l.length := by
  rcases Nat.lt_or_ge i l.length with h1 | h1
  · exact h1
  · rw [List.getElem?_eq_none h1] at h; cases h

theorem set_cases {β : Type} {l : List β} {t i : Nat} {p q : β} (h : (l.set t p)[i]? = some q) : (i = t ∧ q = p) ∨ (i ≠ t ∧ l[i]? = some q) := by
  by_cases hi : i = t
  · subst hi
    rw [List.getElem?_set_self'] at h
    left
    refine ⟨rfl, ?_⟩
    cases hl : l[i]? with
    | none => rw [hl] at h; simp at h
    | some r => rw [hl] at h; simp at h; exact h.symm
  · rw [List.getElem?_set_ne (Ne.symm hi)] at h
    exact .inr ⟨hi, h⟩

def Worker.has [DecidableEq τ] (x : τ) : Worker τ → Nat
  | .run y => if y = x then 1 else 0
  | _ => 0

def Call.has [DecidableEq τ] (x : τ) (c : Call τ) : Nat := if c.task = x then 1 else 0

/-- Queues that have to be closed. -/
def Main.closed : Main → Nat → Prop
  | .using, _ => False
  | .closing k, j => j < k
  | _, _ => True

/-- Threads that have been joined. -/
def Main.joined : Main → Nat → Prop
  | .joining k, j => j < k
  | .done, _ => True
  | _, _ => False

structure Inv [DecidableEq τ] (n : Nat) (p : Pool τ) : Prop where
  threads : p.threads = n
  lenQ : p.queues.length = n
  lenW : p.workers.length = n
  closed : ∀ (j : Nat) (q : Queue τ), p.queues[j]? = some q → (q.closed = true ↔ p.main.closed j)
  joined : ∀ (j : Nat) (w : Worker τ), p.workers[j]? = some w → p.main.joined j → w = .exited
  calls : p.main ≠ .using → p.calls = []
  exited : ∀ (j : Nat) (q : Queue τ), p.workers[j]? = some .exited → p.queues[j]? = some q → q.closed = true ∧ q.items = []
  count : ∀ x, p.enqueued.count x = tot (Call.has x) p.calls + tot (fun q => q.items.count x) p.queues + tot (Worker.has x) p.workers + p.ran.count x

theorem inv_init [DecidableEq τ] (n hw : Nat) (hn : 0 < n) : Inv n (Pool.init τ n hw) := by
  have h0 : ¬n = 0 := by omega
  refine ⟨rfl, by simp [Pool.init], by simp [Pool.init, h0], ?_, ?_, ?_, ?_, ?_⟩
  · intro j q h
    have := List.eq_of_mem_replicate (List.mem_of_getElem? h)
    subst this
    simp [Pool.init, Main.closed]
  · intro j w _ h; cases h
  · intro _; rfl
  · intro j q h
    have := List.eq_of_mem_replicate (List.mem_of_getElem? h)
    cases this
  · intro x
    have e1 : tot (fun q : Queue τ => q.items.count x) (Pool.init τ n hw).queues = 0 := by
      apply tot_zero
      intro q hq
      rw [List.eq_of_mem_replicate hq]; rfl
    have e2 : tot (Worker.has x) (Pool.init τ n hw).workers = 0 := by
      apply tot_zero
      intro q hq
      rw [List.eq_of_mem_replicate hq]; rfl
    rw [e1, e2]; rfl

/-- A worker moves on, and perhaps takes a task from a queue. -/
theorem Inv.take [DecidableEq τ] {n : Nat} {p : Pool τ} (h : Inv n p) {i j : Nat} {w : Worker τ} {q : Queue τ} {x : τ} {items : List τ}
    (hw : p.workers[i]? = some w) (hwx : ∀ y, w.has y = 0) (hne : w ≠ .exited) (hq : p.queues[j]? = some q) (hx : q.items = x :: items) :
    Inv n { p with queues := p.queues.set j { q with items := items }, workers := p.workers.set i (.run x) } := by
  refine ⟨h.threads, by simpa using h.lenQ, by simpa using h.lenW, ?_, ?_, h.calls, ?_, ?_⟩
  · intro k r hk
    rcases set_cases hk with ⟨rfl, rfl⟩ | ⟨_, hk⟩
    · exact h.closed k q hq
    · exact h.closed k r hk
  · intro k v hk hj
    rcases set_cases hk with ⟨rfl, rfl⟩ | ⟨_, hk⟩
    · exact absurd (h.joined k w hw hj) hne
    · exact h.joined k v hk hj
  · intro k r hk hr
    rcases set_cases hk with ⟨_, hk2⟩ | ⟨_, hk2⟩
    · cases hk2
    · rcases set_cases hr with ⟨rfl, rfl⟩ | ⟨_, hr2⟩
      · have := h.exited k q hk2 hq
        rw [hx] at this; simp at this
      · exact h.exited k r hk2 hr2
  · intro y
    have a1 := tot_set (fun q : Queue τ => q.items.count y) p.queues j q { q with items := items } hq
    have a2 := tot_set (Worker.has y) p.workers i w (.run x) hw
    have := h.count y
    have e1 : Worker.has y (.run x) = if x = y then 1 else 0 := rfl
    rw [hwx y, e1] at a2
    simp only [hx, List.count_cons, beq_iff_eq] at *
    omega

theorem Inv.move [DecidableEq τ] {n : Nat} {p : Pool τ} (h : Inv n p) {i : Nat} {w v : Worker τ}
    (hw : p.workers[i]? = some w) (hwx : ∀ y, w.has y = v.has y) (hne : w ≠ .exited) (hv : v = .exited → ∀ q, p.queues[i]? = some q → q.closed = true ∧ q.items = []) :
    Inv n { p with workers := p.workers.set i v } := by
  refine ⟨h.threads, h.lenQ, by simpa using h.lenW, h.closed, ?_, h.calls, ?_, ?_⟩
  · intro k v hk hj
    rcases set_cases hk with ⟨rfl, rfl⟩ | ⟨_, hk⟩
    · exact absurd (h.joined k w hw hj) hne
    · exact h.joined k v hk hj
  · intro k r hk hr
    rcases set_cases hk with ⟨rfl, hk2⟩ | ⟨_, hk2⟩
    · exact hv hk2.symm r hr
    · exact h.exited k r hk2 hr
  · intro y
    have a2 := tot_set (Worker.has y) p.workers i w v hw
    have := h.count y
    have := hwx y
    simp only at *
    omega

theorem Inv.finish [DecidableEq τ] {n : Nat} {p : Pool τ} (h : Inv n p) {i : Nat} {x : τ} (hw : p.workers[i]? = some (.run x)) :
    Inv n { p with ran := p.ran ++ [x], workers := p.workers.set i (.scan 0) } := by
  refine ⟨h.threads, h.lenQ, by simpa using h.lenW, h.closed, ?_, h.calls, ?_, ?_⟩
  · intro k v hk hj
    rcases set_cases hk with ⟨rfl, rfl⟩ | ⟨_, hk⟩
    · have := h.joined k _ hw hj; cases this
    · exact h.joined k v hk hj
  · intro k r hk hr
    rcases set_cases hk with ⟨rfl, hk2⟩ | ⟨_, hk2⟩
    · cases hk2
    · exact h.exited k r hk2 hr
  · intro y
    have a2 := tot_set (Worker.has y) p.workers i (.run x) (.scan 0) hw
    have := h.count y
    simp only [Worker.has, List.count_append, List.count_singleton, beq_iff_eq] at *
    omega

theorem work_ok [DecidableEq τ] {n : Nat} (hn : 0 < n) {p : Pool τ} (h : Inv n p) {i : Nat} {ok : Bool} {w : Worker τ} (hw : p.workers[i]? = some w) {o : Outcome (Pool τ)}
    (hs : p.work i ok w = some o) : ∃ p', o = .ok p' ∧ Inv n p' := by
  have hi : i < n := h.lenW ▸ lt_of_getElem? hw
  cases w with
  | scan k =>
    simp only [Pool.work] at hs
    split at hs
    · have hlt : (i + k) % 2 ^ 32 % p.threads < p.queues.length := by
        rw [h.lenQ, h.threads]; exact Nat.mod_lt _ hn
      rw [List.getElem?_eq_getElem hlt] at hs
      have hq := List.getElem?_eq_getElem hlt
      generalize p.queues[(i + k) % 2 ^ 32 % p.threads] = q at hs hq
      simp only at hs
      cases ok with
      | false => injection hs with hs; subst hs; exact ⟨_, rfl, h.move hw (fun _ => rfl) (by simp) (by simp)⟩
      | true =>
        cases hx : q.items with
        | nil => rw [hx] at hs; injection hs with hs; subst hs; exact ⟨_, rfl, h.move hw (fun _ => rfl) (by simp) (by simp)⟩
        | cons x items => rw [hx] at hs; injection hs with hs; subst hs; exact ⟨_, rfl, h.take hw (fun _ => rfl) (by simp) hq hx⟩
    · injection hs with hs; subst hs; exact ⟨_, rfl, h.move hw (fun _ => rfl) (by simp) (by simp)⟩
  | own =>
    simp only [Pool.work] at hs
    have hlt : i < p.queues.length := by rw [h.lenQ]; exact hi
    rw [List.getElem?_eq_getElem hlt] at hs
    have hq := List.getElem?_eq_getElem hlt
    generalize p.queues[i] = q at hs hq
    simp only at hs
    cases hx : q.items with
    | nil =>
      rw [hx] at hs
      simp only at hs
      split at hs
      · rename_i hc
        injection hs with hs; subst hs
        refine ⟨_, rfl, h.move hw (fun _ => rfl) (by simp) fun _ r hr => ?_⟩
        rw [hq] at hr; injection hr with hr; subst hr; exact ⟨hc, hx⟩
      · cases hs
    | cons x items => rw [hx] at hs; injection hs with hs; subst hs; exact ⟨_, rfl, h.take hw (fun _ => rfl) (by simp) hq hx⟩
  | run x => injection hs with hs; subst hs; exact ⟨_, rfl, h.finish hw⟩
  | exited => cases hs

theorem put_ok [DecidableEq τ] {n : Nat} {p : Pool τ} (h : Inv n p) {c j : Nat} {a : Call τ} (hc : p.calls[c]? = some a) (hj : j < n) : ∃ p', p.put c j a.task = .ok p' ∧ Inv n p' := by
  have hu : p.main = .using := by
    refine Classical.byContradiction fun hm => ?_
    rw [h.calls hm] at hc; simp at hc
  have hlt : j < p.queues.length := by rw [h.lenQ]; exact hj
  have hq := List.getElem?_eq_getElem hlt
  generalize p.queues[j] = q at hq
  have hopen : q.closed = false := by
    have := h.closed j q hq
    rw [hu] at this
    cases hqc : q.closed with
    | false => rfl
    | true => exact absurd (this.1 hqc) (by simp [Main.closed])
  have e : p.put c j a.task = .ok { p with queues := p.queues.set j { q with items := q.items ++ [a.task] }, calls := p.calls.eraseIdx c } := by
    unfold Pool.put; rw [hq]
  refine ⟨_, e, h.threads, by simpa using h.lenQ, h.lenW, ?_, h.joined, ?_, ?_, ?_⟩
  · intro k r hk
    rcases set_cases hk with ⟨rfl, rfl⟩ | ⟨_, hk⟩
    · exact h.closed k q hq
    · exact h.closed k r hk
  · intro hm; exact absurd hu hm
  · intro k r hk hr
    rcases set_cases hr with ⟨rfl, rfl⟩ | ⟨_, hr⟩
    · have := h.exited k q hk hq
      rw [hopen] at this; cases this.1
    · exact h.exited k r hk hr
  · intro y
    have a1 := tot_set (fun q : Queue τ => q.items.count y) p.queues j q { q with items := q.items ++ [a.task] } hq
    have a2 := tot_erase (Call.has y) p.calls c a hc
    have := h.count y
    simp only [List.count_append, List.count_singleton, beq_iff_eq, Call.has] at *
    omega

theorem step_ok [DecidableEq τ] {n : Nat} (hn : 0 < n) {p : Pool τ} (h : Inv n p) {a : Act τ} {o : Outcome (Pool τ)} (hs : p.step a = some o) : ∃ p', o = .ok p' ∧ Inv n p' := by
  cases a with
  | enqueue x =>
    simp only [Pool.step] at hs
    split at hs
    · rename_i hm
      injection hs with hs; subst hs
      refine ⟨_, rfl, h.threads, h.lenQ, h.lenW, h.closed, h.joined, fun hc => absurd hm hc, h.exited, ?_⟩
      intro y
      have := h.count y
      simp only [tot_append, tot_one, List.count_append, List.count_singleton, beq_iff_eq, Call.has] at *
      omega
    · cases hs
  | call c ok =>
    simp only [Pool.step] at hs
    split at hs
    · rename_i b hc
      injection hs with hs; subst hs
      have ht : ¬p.threads = 0 := by rw [h.threads]; omega
      have hu : p.main = .using := by
        refine Classical.byContradiction fun hm => ?_
        rw [h.calls hm] at hc; simp at hc
      unfold Pool.call
      simp only [if_neg ht]
      split
      · cases ok with
        | true =>
          obtain ⟨p', e, hi⟩ := put_ok h hc (j := (b.i + b.n) % 2 ^ 32 % p.threads) (by rw [h.threads]; exact Nat.mod_lt _ hn)
          exact ⟨p', e, hi⟩
        | false =>
          refine ⟨_, rfl, h.threads, h.lenQ, h.lenW, h.closed, h.joined, fun hm => absurd hu hm, h.exited, ?_⟩
          intro y
          have a2 := tot_set (Call.has y) p.calls c b { b with n := b.n + 1 } hc
          have := h.count y
          simp only [Call.has] at *
          omega
      · exact put_ok h hc (by rw [h.threads]; exact Nat.mod_lt _ hn)
    · cases hs
  | worker i ok =>
    simp only [Pool.step] at hs
    split at hs
    · rename_i w hw; exact work_ok hn h hw hs
    · cases hs
  | destroy =>
    simp only [Pool.step] at hs
    split at hs
    · rename_i hm hc
      injection hs with hs; subst hs
      refine ⟨_, rfl, h.threads, h.lenQ, h.lenW, ?_, ?_, fun _ => hc, h.exited, h.count⟩
      · intro j q hq
        have := h.closed j q hq
        rw [hm] at this
        simpa [Main.closed] using this
      · intro j w _ hj; cases hj
    · cases hs
  | main =>
    simp only [Pool.step] at hs
    split at hs
    · cases hs
    · rename_i k hm
      have hc := h.calls (by rw [hm]; simp)
      split at hs
      · rename_i q hq
        injection hs with hs; subst hs
        refine ⟨_, rfl, h.threads, by simpa using h.lenQ, h.lenW, ?_, ?_, fun _ => hc, ?_, ?_⟩
        · intro j r hr
          rcases set_cases hr with ⟨rfl, rfl⟩ | ⟨hne, hr⟩
          · simp [Main.closed]
          · rw [h.closed j r hr, hm]
            simp only [Main.closed]
            omega
        · intro j w _ hj; cases hj
        · intro j r hj hr
          rcases set_cases hr with ⟨rfl, rfl⟩ | ⟨hne, hr⟩
          · exact ⟨rfl, (h.exited j q hj hq).2⟩
          · exact h.exited j r hj hr
        · intro y
          have a1 := tot_set (fun q : Queue τ => q.items.count y) p.queues k q { q with closed := true } hq
          have := h.count y
          simp only at *
          omega
      · rename_i hq
        injection hs with hs; subst hs
        refine ⟨_, rfl, h.threads, h.lenQ, h.lenW, ?_, ?_, fun _ => hc, h.exited, h.count⟩
        · intro j r hr
          have h1 := h.closed j r hr
          rw [hm] at h1
          have h2 : j < p.queues.length := lt_of_getElem? hr
          have h3 := List.getElem?_eq_none_iff.1 hq
          simp only [Main.closed] at h1 ⊢
          rw [h1]
          simp; omega
        · intro j w _ hj
          simp only [Main.joined] at hj
          omega
    · rename_i k hm
      have hc := h.calls (by rw [hm]; simp)
      have hcl : ∀ (j : Nat) (q : Queue τ), p.queues[j]? = some q → q.closed = true := by
        intro j q hq
        have := h.closed j q hq
        rw [hm] at this
        exact this.2 trivial
      split at hs
      · rename_i hw
        injection hs with hs; subst hs
        refine ⟨_, rfl, h.threads, h.lenQ, h.lenW, ?_, ?_, fun _ => hc, h.exited, h.count⟩
        · intro j q hq; simp [hcl j q hq, Main.closed]
        · intro j w hj hlt
          simp only [Main.joined] at hlt
          by_cases hjk : j = k
          · subst hjk; rw [hw] at hj; injection hj with hj; exact hj.symm
          · exact h.joined j w hj (by rw [hm]; simp only [Main.joined]; omega)
      · cases hs
      · rename_i hw
        injection hs with hs; subst hs
        refine ⟨_, rfl, h.threads, h.lenQ, h.lenW, ?_, ?_, fun _ => hc, h.exited, h.count⟩
        · intro j q hq; simp [hcl j q hq, Main.closed]
        · intro j w hj _
          have h2 : j < p.workers.length := lt_of_getElem? hj
          have h3 := List.getElem?_eq_none_iff.1 hw
          exact h.joined j w hj (by rw [hm]; simp only [Main.joined]; omega)
    · cases hs

theorem Reachable.inv [DecidableEq τ] {n hw : Nat} (hn : 0 < n) {p : Pool τ} (h : Reachable n hw p) : Inv n p := by
  induction h with
  | init => exact inv_init n hw hn
  | step a _ hs ih =>
    obtain ⟨p', e, hi⟩ := step_ok hn ih hs
    injection e with e
    exact e ▸ hi

/-! ## The number of steps -/

def Worker.left (n : Nat) : Worker τ → Nat
  | .scan k => 2 * n - k + 2
  | .own => 1
  | .run _ => 2 * n + 3
  | .exited => 0

def Call.left (n : Nat) (c : Call τ) : Nat := 2 * n + 3 + 1 + (2 * n - c.n)

def Main.left (q w : Nat) : Main → Nat
  | .using => q + w + 3
  | .closing k => q - k + w + 2
  | .joining k => w - k + 1
  | .done => 0

/-- A bound for the steps that are still to be taken. -/
def Pool.left (p : Pool τ) : Nat :=
  tot (Call.left p.threads) p.calls + tot (fun q => (2 * p.threads + 3) * q.items.length) p.queues + tot (Worker.left p.threads) p.workers +
    p.main.left p.queues.length p.workers.length

def Act.progress : Act τ → Prop
  | .enqueue _ => False
  | _ => True

theorem step_decreases [DecidableEq τ] {n : Nat} (hn : 0 < n) {p p' : Pool τ} (h : Inv n p) {a : Act τ} (ha : a.progress) (hs : p.step a = some (.ok p')) : p'.left < p.left := by
  have hth := h.threads
  cases a with
  | enqueue x => cases ha
  | call c ok =>
    simp only [Pool.step] at hs
    split at hs
    · rename_i b hc
      injection hs with hs
      have hput : ∀ j, p.put c j b.task = .ok p' → p'.left < p.left := by
        intro j hj
        unfold Pool.put at hj
        split at hj
        · cases hj
        · rename_i q hq
          injection hj with hj; subst hj
          have a1 := tot_set (fun q : Queue τ => (2 * p.threads + 3) * q.items.length) p.queues j q { q with items := q.items ++ [b.task] } hq
          have a2 := tot_erase (Call.left p.threads) p.calls c b hc
          simp only [Pool.left, List.length_append, List.length_singleton, Nat.mul_add, Nat.mul_one, Call.left, List.length_set] at *
          omega
      unfold Pool.call at hs
      split at hs
      · rename_i hlim
        split at hs
        · cases hs
        · split at hs
          · exact hput _ hs
          · injection hs with hs; subst hs
            have a2 := tot_set (Call.left p.threads) p.calls c b { b with n := b.n + 1 } hc
            simp only [Pool.left, Pool.limit, Call.left] at *
            omega
      · split at hs
        · cases hs
        · exact hput _ hs
    · cases hs
  | worker i ok =>
    simp only [Pool.step] at hs
    split at hs
    · rename_i w hw
      have htake : ∀ (j : Nat) (q : Queue τ) (x : τ) (items : List τ), p.queues[j]? = some q → q.items = x :: items → 0 < w.left p.threads →
          Pool.left { p with queues := p.queues.set j { q with items := items }, workers := p.workers.set i (.run x) } < p.left := by
        intro j q x items hq hx h0
        have a1 := tot_set (fun q : Queue τ => (2 * p.threads + 3) * q.items.length) p.queues j q { q with items := items } hq
        have a2 := tot_set (Worker.left p.threads) p.workers i w (.run x) hw
        rw [hx] at a1
        simp only [Pool.left, List.length_cons, Nat.mul_add, Nat.mul_one, List.length_set] at *
        have e1 : Worker.left p.threads (.run x) = 2 * p.threads + 3 := rfl
        omega
      have hmove : ∀ v : Worker τ, v.left p.threads < w.left p.threads → Pool.left { p with workers := p.workers.set i v } < p.left := by
        intro v hv
        have a2 := tot_set (Worker.left p.threads) p.workers i w v hw
        simp only [Pool.left, List.length_set] at *
        omega
      cases w with
      | scan k =>
        simp only [Pool.work] at hs
        split at hs
        · rename_i hk
          split at hs
          · cases hs
          · rename_i q hq
            split at hs
            · rename_i x items hx
              injection hs with hs; injection hs with hs; subst hs
              exact htake _ q x items hq hx (by simp [Worker.left])
            · injection hs with hs; injection hs with hs; subst hs
              exact hmove _ (by simp only [Worker.left, Pool.limit] at *; omega)
        · injection hs with hs; injection hs with hs; subst hs
          exact hmove _ (by simp only [Worker.left]; omega)
      | own =>
        simp only [Pool.work] at hs
        split at hs
        · cases hs
        · rename_i q hq
          split at hs
          · rename_i x items hx
            injection hs with hs; injection hs with hs; subst hs
            exact htake _ q x items hq hx (by simp [Worker.left])
          · split at hs
            · injection hs with hs; injection hs with hs; subst hs
              exact hmove _ (by simp only [Worker.left]; omega)
            · cases hs
      | run x =>
        injection hs with hs; injection hs with hs; subst hs
        have := hmove (.scan 0) (by simp only [Worker.left]; omega)
        simpa [Pool.left] using this
      | exited => cases hs
    · cases hs
  | destroy =>
    simp only [Pool.step] at hs
    split at hs
    · rename_i hm _
      injection hs with hs; injection hs with hs; subst hs
      simp only [Pool.left, hm, Main.left]
      omega
    · cases hs
  | main =>
    simp only [Pool.step] at hs
    split at hs
    · cases hs
    · rename_i k hm
      split at hs
      · rename_i q hq
        have := lt_of_getElem? hq
        injection hs with hs; injection hs with hs; subst hs
        have a1 := tot_set (fun q : Queue τ => (2 * p.threads + 3) * q.items.length) p.queues k q { q with closed := true } hq
        simp only [Pool.left, hm, Main.left, List.length_set] at *
        omega
      · injection hs with hs; injection hs with hs; subst hs
        simp only [Pool.left, hm, Main.left]
        omega
    · rename_i k hm
      split at hs
      · rename_i hw
        have := lt_of_getElem? hw
        injection hs with hs; injection hs with hs; subst hs
        simp only [Pool.left, hm, Main.left]
        omega
      · cases hs
      · injection hs with hs; injection hs with hs; subst hs
        simp only [Pool.left, hm, Main.left]
        omega
    · cases hs

end Esl.TPool
