import Verif.Model.Seeds
import Verif.Props.Scheduler
/-!
C177: every turn of an agent has random numbers of its own.
-/
namespace Esl.Seeds
open Esl.Sched

variable {σ : Type}

/-- What a turn is: an agent, at a time, in a round. -/
def Spec.turn (e : Event) : Nat × Nat × Nat := (e.agent, e.time, e.round)

/-- Turns that differ. -/
def Spec.Different (a b : Event) : Prop := Spec.turn a ≠ Spec.turn b

/-- Agents that have different hashes in the lowest 32 bits. -/
def Spec.Told (combine : Nat → Nat → Nat) (identity : Nat → List Nat) (agents : List Nat) : Prop :=
  ∀ a ∈ agents, ∀ b ∈ agents, Hashing.identityHash combine (identity a) % 2 ^ 32 = Hashing.identityHash combine (identity b) % 2 ^ 32 → a = b

theorem stepLoop_turns {P : Program σ} {end_ : Nat} {step : Comm.Step} (fuel n : Nat) (w w' : World σ) (hu : (w.agents.map (·.id)).Nodup) (h : stepLoop P end_ step fuel n w = some (.ok w')) :
    ∃ l, w'.log = w.log ++ l ∧ l.Pairwise Spec.Different ∧ ∀ e ∈ l, e.agent ∈ w.agents.map (·.id) ∧ e.time = step.lower ∧ n ≤ e.round ∧ e.round < n + fuel := by
  induction fuel generalizing n w with
  | zero => simp [stepLoop] at h
  | succ fuel ih =>
    unfold stepLoop at h
    cases hr : round P end_ step n w with
    | ok w1 =>
      rw [hr] at h
      simp only at h
      obtain ⟨l, h1, h2, h3⟩ := round_log hr
      have hm : ∀ e ∈ l, e.agent ∈ w.agents.map (·.id) := by
        intro e he
        have : e.agent ∈ l.map (·.agent) := List.mem_map.2 ⟨e, he, rfl⟩
        rw [h2] at this
        exact ((List.filter_sublist ..).map _).subset this
      have hl : l.Pairwise Spec.Different := by
        have hn : (l.map (·.agent)).Nodup := by
          rw [h2]
          exact ((List.filter_sublist ..).map _).nodup hu
        rw [List.nodup_iff_pairwise_ne, List.pairwise_map] at hn
        exact hn.imp fun hab he => hab (congrArg Prod.fst he)
      split at h
      · obtain ⟨l', g1, g2, g3⟩ := ih (n + 1) w1 (by rw [round_ids hu hr]; exact hu) h
        refine ⟨l ++ l', by rw [g1, h1, List.append_assoc], ?_, ?_⟩
        · rw [List.pairwise_append]
          refine ⟨hl, g2, fun a ha b hb he => ?_⟩
          have e1 := (h3 a ha).2.2
          have e2 := (g3 b hb).2.2.1
          have := congrArg (fun x => x.2.2) he
          simp only [Spec.turn] at this
          omega
        · intro e he
          rcases List.mem_append.1 he with he | he
          · have := h3 e he
            exact ⟨hm e he, this.1, by omega, by omega⟩
          · have := g3 e he
            rw [round_ids hu hr] at this
            exact ⟨this.1, this.2.1, by omega, by omega⟩
      · simp at h
        subst h
        refine ⟨l, h1, hl, fun e he => ?_⟩
        have := h3 e he
        exact ⟨hm e he, this.1, by omega, by omega⟩
    | throws => rw [hr] at h; simp at h
    | ub => rw [hr] at h; simp at h

theorem runLoop_turns (P : Program σ) (end_ fuel k lower : Nat) (w w' : World σ) (ts : List Nat) (hu : Sched.Spec.UniqueIds w) (h : runLoop P end_ fuel k lower w = some (.ok (w', ts))) :
    ∃ l, w'.log = w.log ++ l ∧ l.Pairwise Spec.Different ∧ ∀ e ∈ l, e.agent ∈ w.agents.map (·.id) ∧ lower ≤ e.time ∧ e.time < end_ ∧ e.round < fuel := by
  induction k generalizing lower w w' ts with
  | zero => simp [runLoop] at h
  | succ k ih =>
    unfold runLoop at h
    cases hs : modelStep P end_ fuel ⟨lower, end_⟩ w with
    | none => rw [hs] at h; simp at h
    | some o =>
      cases o with
      | throws => rw [hs] at h; simp at h
      | ub => rw [hs] at h; simp at h
      | ok w1 =>
        rw [hs] at h
        simp only at h
        unfold modelStep at hs
        split at hs
        · simp at hs
        · rename_i hne
          simp only at hne
          obtain ⟨h1, -, h3⟩ := stepLoop_last fuel 0 w w1 hu hs
          obtain ⟨l, g1, g2, g3⟩ := stepLoop_turns fuel 0 w w1 hu hs
          simp only [Nat.zero_add] at g3 h1
          have hu1 : Sched.Spec.UniqueIds w1 := by
            unfold Sched.Spec.UniqueIds
            rw [h3]; exact hu
          split at h
          · split at h
            · rename_i w2 ts2 hr
              simp at h
              obtain ⟨rfl, rfl⟩ := h
              obtain ⟨l', f1, f2, f3⟩ := ih _ _ _ _ hu1 hr
              refine ⟨l ++ l', by rw [f1, g1, List.append_assoc], ?_, ?_⟩
              · rw [List.pairwise_append]
                refine ⟨g2, f2, fun a ha b hb he => ?_⟩
                have e1 := (g3 a ha).2.1
                have e2 := (f3 b hb).2.1
                have := congrArg (fun x => x.2.1) he
                simp only [Spec.turn] at this
                omega
              · intro e he
                rcases List.mem_append.1 he with he | he
                · have := g3 e he
                  exact ⟨this.1, by omega, by omega, this.2.2.2⟩
                · have := f3 e he
                  rw [h3] at this
                  exact ⟨this.1, by omega, this.2.2.1, this.2.2.2⟩
            · rename_i hne
              exact absurd h (hne w' ts)
          · simp at h
            obtain ⟨rfl, rfl⟩ := h
            refine ⟨l, g1, g2, fun e he => ?_⟩
            have := g3 e he
            exact ⟨this.1, by omega, by omega, this.2.2.2⟩

/-- **C177, turns.** In every run, an agent has at most one turn in each round of each step. -/
theorem C177_turns (P : Program σ) (start end_ fuel k : Nat) (w w' : World σ) (ts : List Nat) (hu : (w.agents.map (·.id)).Nodup) (hl : w.log = [])
    (h : runLoop P end_ fuel k start w = some (.ok (w', ts))) : (w'.log.map Spec.turn).Nodup := by
  obtain ⟨l, h1, h2, -⟩ := runLoop_turns P end_ fuel k start w w' ts hu h
  rw [h1, hl, List.nil_append, List.nodup_iff_pairwise_ne, List.pairwise_map]
  exact h2

/-- **C177 (partial).** In every run that ends before the time 2^32, has at most 2^32 rounds in each step and whose agents are told apart by the lowest 32 bits of their hashes, no two turns have the same seed. Missing: later times and other agents, see the counterexamples. -/
theorem C177_seeds_partial (combine : Nat → Nat → Nat) (sample : Nat) (identity : Nat → List Nat) (P : Program σ) (start end_ fuel k : Nat) (w w' : World σ)
    (ha : Spec.Told combine identity (w.agents.map (·.id))) (ts : List Nat) (hu : (w.agents.map (·.id)).Nodup) (hl : w.log = []) (he : end_ ≤ 2 ^ 32) (hf : fuel ≤ 2 ^ 32) (h : runLoop P end_ fuel k start w = some (.ok (w', ts))) :
    (w'.log.map (seedOf combine sample identity)).Nodup := by
  obtain ⟨l, h1, h2, h3⟩ := runLoop_turns P end_ fuel k start w w' ts hu h
  rw [h1, hl, List.nil_append, List.nodup_iff_pairwise_ne, List.pairwise_map]
  refine List.Pairwise.imp_of_mem (fun {a b} hma hmb hab hs => hab ?_) h2
  simp only [seedOf, turnSeed, words, List.map_cons, List.map_nil, List.cons.injEq, and_true] at hs
  have s1 := hs.1
  have s2 := hs.2.1
  have s3 := hs.2.2
  clear hs
  have ta := h3 a hma
  have tb := h3 b hmb
  rw [Nat.mod_eq_of_lt (by omega), Nat.mod_eq_of_lt (by omega)] at s2 s3
  have := ha _ ta.1 _ tb.1 s1
  simp only [Spec.turn, this, s2, s3]

/-- **C177, samples (partial).** Samples of a model have different seeds in all turns. Missing: sample numbers from 2^32 on. -/
theorem C177_samples_partial (combine : Nat → Nat → Nat) (s s' : Nat) (i : List Nat) (time round : Nat) (h : s < 2 ^ 32) (h' : s' < 2 ^ 32) : turnSeed combine s i time round = turnSeed combine s' i time round ↔ s = s' := by
  simp only [turnSeed, words, List.map_cons, List.map_nil, List.cons.injEq, and_true, true_and]
  rw [Nat.mod_eq_of_lt h, Nat.mod_eq_of_lt h']

theorem low_inverse (x y : Nat) (h : x * factor % 4294967296 = y * factor % 4294967296) : x % 4294967296 = y % 4294967296 := by
  have key : ∀ z : Nat, z * factor * 3852147133 % 4294967296 = z % 4294967296 := by
    intro z
    rw [Nat.mul_assoc, Nat.mul_mod, show factor * 3852147133 % 4294967296 = 1 by decide +kernel, Nat.mul_one, Nat.mod_mod]
  rw [← key x, ← key y, Nat.mul_mod, h, ← Nat.mul_mod]

theorem combine64_low (h h' k : Nat) (e : combine64 h k % 4294967296 = combine64 h' k % 4294967296) : h % 4294967296 = h' % 4294967296 := by
  unfold combine64 at e
  generalize mixed k = q at e
  have e2 : (h ^^^ q) * factor % 4294967296 = (h' ^^^ q) * factor % 4294967296 := by
    generalize (h ^^^ q) * factor = a at e ⊢
    generalize (h' ^^^ q) * factor = b at e ⊢
    unfold u64 at e
    omega
  have e3 := low_inverse _ _ e2
  rw [show 4294967296 = 2 ^ 32 from rfl, Nat.xor_mod_two_pow, Nat.xor_mod_two_pow] at e3
  have e4 := congrArg (· ^^^ (q % 2 ^ 32)) e3
  simpa [Nat.xor_assoc] using e4

/-- **C177, created agents.** Agents that are created by the same parent, which number them, are told apart by the lowest 32 bits of their hashes as long as there are at most 2^32, with the `hash_combine` of the versions 1.56 to 1.80 of Boost. -/
theorem C177_siblings (parent : List Nat) (m n : Nat) (hm : m < 2 ^ 32) (hn : n < 2 ^ 32)
    (h : Hashing.identityHash combine64 (parent ++ [m]) % 2 ^ 32 = Hashing.identityHash combine64 (parent ++ [n]) % 2 ^ 32) : m = n := by
  have key : ∀ (l : List Nat) (x y : Nat), l.foldl combine64 x % 4294967296 = l.foldl combine64 y % 4294967296 → x % 4294967296 = y % 4294967296 := by
    intro l
    induction l with
    | nil => exact fun x y h => h
    | cons k l ih =>
      intro x y h
      rw [List.foldl_cons, List.foldl_cons] at h
      exact combine64_low x y k (ih (combine64 x k) (combine64 y k) h)
  simp only [Hashing.identityHash, List.reverse_append, List.reverse_cons, List.reverse_nil, List.nil_append, List.singleton_append] at h
  have := key _ _ _ h
  rw [Nat.mod_eq_of_lt hm, Nat.mod_eq_of_lt hn] at this
  exact this

/-- **C177 is violated** at later times: an agent has the same seed again after 2^32 units of time, in the same round. -/
theorem C177_counterexample_time (combine : Nat → Nat → Nat) (sample : Nat) (i : List Nat) (time round n : Nat) : turnSeed combine sample i (time + 2 ^ 32 * n) round = turnSeed combine sample i time round := by
  simp [turnSeed, words]

/-- **C177 is violated** for agents whose numbers differ by a multiple of 2^32: they have the same seeds in all turns. So have samples whose numbers do. -/
theorem C177_counterexample_numbers (combine : Nat → Nat → Nat) (sample d time round n : Nat) (i : List Nat) :
    turnSeed combine sample [d + 2 ^ 32 * n] time round = turnSeed combine sample [d] time round ∧ turnSeed combine (sample + 2 ^ 32 * n) i time round = turnSeed combine sample i time round := by
  simp [turnSeed, words, Hashing.identityHash]

example : turnSeed combine64 7 [3, 1] 10 0 ≠ turnSeed combine64 7 [3, 2] 10 0 ∧ turnSeed combine64 7 [3, 1] 10 0 ≠ turnSeed combine64 7 [3, 1] 10 1 ∧ turnSeed combine64 0 [2 ^ 32 + 5] 1 0 = [5, 1, 0, 0] := by decide +kernel

/-- Two agents that act every second. -/
def twice : Program Nat := ⟨fun _ _ _ => [], fun _ _ s step => (s + 1, [], step.lower + 1), fun _ _ _ l => l⟩

/-- Non-vacuity: the children 0 and 1 of the entity 8 are told apart. -/
example : Spec.Told combine64 (fun a => [8, a]) [0, 1] := by
  intro a ha b hb h
  exact C177_siblings [8] a b (by simp at ha; omega) (by simp at hb; omega) h

/-- Non-vacuity of `C177_turns` and `C177_seeds_partial`: these two agents have six turns before the time 3. -/
example : ∃ w', runLoop twice 3 9 9 0 pair = some (.ok (w', [0, 1, 2])) ∧ (pair.agents.map (·.id)).Nodup ∧ pair.log = [] ∧ w'.log.map Spec.turn = [(0, 0, 0), (1, 0, 0), (0, 1, 0), (1, 1, 0), (0, 2, 0), (1, 2, 0)] :=
  ⟨_, rfl, by unfold pair; simp, rfl, rfl⟩

end Esl.Seeds
