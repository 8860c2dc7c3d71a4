import Verif.Lemmas.Threads
/-! # C23, C24: worker threads -/
namespace Esl.Threads
open Esl.Comm Esl.Sched
variable {σ : Type}

/-- What can be observed of a world: everything but the ghost log. -/
def Spec.observe (w : World σ) : Shared σ := ⟨w.agents, w.wake, w.first⟩

/-- What can be observed of the outcome of a computation. -/
def Spec.observed {α β : Type} (f : α → β) : Outcome α → Outcome β
  | .ok a => .ok (f a)
  | .throws => .throws
  | .ub => .ub

/-- **C23, splitting.** The tasks handed to the threads contain every acting agent exactly once and in order; there are as many
tasks as threads. -/
theorem C23_tasks {α : Type} (threads : Nat) (acting : List α) (ht : 0 < threads) (hl : acting.length < 2 ^ 64) :
    ∃ parts, tasks threads acting = .ok parts ∧ parts.flatten = acting ∧ parts.length = threads := by
  obtain ⟨_, sizes, h1, h2, h3, _⟩ := Quantity.C05_split acting.length threads ht hl
  obtain ⟨r, g1, g2, g3⟩ := splitTasks_spec sizes acting (by omega)
  refine ⟨r, ?_, ?_, ?_⟩
  · unfold tasks; rw [h1, Outcome.bind_ok, g1]
  · rw [g2, h3, List.take_length]
  · rw [← h2, ← g3, List.length_map]

/-- Two schedules of complete jobs of the same agents have the same outcome. -/
theorem same_outcome (P : Program σ) (end_ : Nat) (step : Step) (n : Nat) (as : List (Agent σ)) (w : World σ)
    (hm : Mid step.lower as w) (hk : (w.wake.map (·.1)).Nodup) (tr : List Op)
    (htr : ∀ i, tr.filter (fun op => op.agent == i) = if i ∈ as.map (·.id) then jobOps i else []) :
    (runJobs P end_ step n as w = .throws ∧ execAll P end_ step n tr (ofWorld w fun _ => none) = .throws) ∨
    ∃ w' loc', runJobs P end_ step n as w = .ok w' ∧
      execAll P end_ step n tr (ofWorld w fun _ => none) = .ok (ofWorld w' loc') := by
  have hc : canon P step n w.agents w.wake (fun _ => 0) (ofWorld w fun _ => none) := by
    refine ⟨?_, ?_, ?_⟩
    · simp [ofWorld, agentAt]
    · simp only [ofWorld, wakeAt]
      conv => lhs; rw [← List.map_id w.wake]
      apply List.map_congr_left
      intro e _
      split <;> simp
    · intro x _; simp [ofWorld]
  have hkey : ∀ a ∈ as, a.id ∈ w.wake.map (·.1) := by
    intro a ha
    exact List.mem_map.2 ⟨_, findWake_mem _ _ _ (hm.due a ha), rfl⟩
  have hseq : ∀ i, (threadOps (as.map (·.id))).filter (fun op => op.agent == i) =
      if i ∈ as.map (·.id) then (jobOps i).drop 0 else [] := fun i => threadOps_filter i _ hm.remIds
  by_cases hall : ∀ a ∈ as, step.lower ≤ (job P step n a).2.requested
  · have hact : ∀ i ∈ as.map (·.id), ∃ x ∈ w.agents, x.id = i ∧ i ∈ w.wake.map (·.1) ∧
        step.lower ≤ (job P step n x).2.requested := by
      intro i hi
      obtain ⟨a, ha, rfl⟩ := List.mem_map.1 hi
      exact ⟨a, hm.sub a ha, rfl, hkey a ha, hall a ha⟩
    obtain ⟨s1, φ1, a1, a2, a3, a4, a5⟩ := execAll_canon P end_ step n w.agents w.wake hm.ids hk _ hact
      (threadOps (as.map (·.id))) (fun _ => 0) _ hc hseq (.inr fun _ _ => by simp)
    obtain ⟨s2, φ2, b1, b2, b3, b4, b5⟩ := execAll_canon P end_ step n w.agents w.wake hm.ids hk _ hact
      tr (fun _ => 0) _ hc htr (.inr fun _ _ => by simp)
    rcases execAll_runJobs P end_ step n as w (fun _ => none) hm with ⟨_, h2⟩ | ⟨w', loc', h1, h2⟩
    · rw [a1] at h2; simp at h2
    · right
      rw [a1] at h2
      simp only [Outcome.ok.injEq] at h2
      subst h2
      have hφ : ∀ i, (φ1 i = 0 ∧ φ2 i = 0) ∨ (3 ≤ φ1 i ∧ 3 ≤ φ2 i) := by
        intro i
        by_cases hi : i ∈ as.map (·.id)
        · exact .inr ⟨a3 i hi, b3 i hi⟩
        · exact .inl ⟨a4 i hi, b4 i hi⟩
      have hag : s2.agents = w'.agents := by
        have e : (ofWorld w' loc').agents = w'.agents := rfl
        rw [← e, a2.1, b2.1]
        apply List.map_congr_left
        intro x _
        rcases hφ x.id with ⟨h, h'⟩ | ⟨h, h'⟩
        · rw [h, h']
        · unfold agentAt
          rw [if_neg (by omega), if_neg (by omega), if_neg (by omega), if_neg (by omega)]
      have hwk : s2.wake = w'.wake := by
        have e : (ofWorld w' loc').wake = w'.wake := rfl
        rw [← e, a2.2.1, b2.2.1]
        unfold wakeAt
        apply List.map_congr_left
        intro x _
        rcases hφ x.1 with ⟨h, h'⟩ | ⟨h, h'⟩
        · rw [h, h']
        · have g : 2 ≤ φ1 x.1 := by omega
          have g' : 2 ≤ φ2 x.1 := by omega
          simp only [g, g', if_true]
      have hfi : s2.first = w'.first := by
        rcases b5 with b5 | ⟨b5, b6⟩
        · rcases a5 with a5 | ⟨a5, _⟩
          · rw [b5, hwk]; exact a5.symm
          · have e0 : as = [] := by simpa using a5
            subst e0
            simp [runJobs] at h1
            subst h1
            have : tr = [] := by
              cases tr with
              | nil => rfl
              | cons op tr => have := htr op.agent; simp at this
            subst this
            simp [execAll] at b1
            rw [← b1]; rfl
        · have e0 : as = [] := by simpa using b5
          subst e0
          simp [runJobs] at h1
          subst h1
          rw [b6]; rfl
      refine ⟨w', s2.loc, h1, ?_⟩
      rw [b1, ofWorld, ← hag, ← hwk, ← hfi]
  · left
    rw [Classical.not_forall] at hall
    obtain ⟨b, hb⟩ := hall
    rw [Classical.not_imp] at hb
    obtain ⟨hb, hlt⟩ := hb
    have hact : ∀ i ∈ as.map (·.id), ∃ x ∈ w.agents, x.id = i ∧ i ∈ w.wake.map (·.1) := by
      intro i hi
      obtain ⟨a, ha, rfl⟩ := List.mem_map.1 hi
      exact ⟨a, hm.sub a ha, rfl, hkey a ha⟩
    have key : ∀ tr, (∀ i, tr.filter (fun op => op.agent == i) = if i ∈ as.map (·.id) then (jobOps i).drop 0 else []) →
        execAll P end_ step n tr (ofWorld w fun _ => none) = .throws := fun tr htr =>
      execAll_throws P end_ step n w.agents w.wake hm.ids hk _ hact b (hm.sub b hb) (List.mem_map_of_mem hb)
        (by omega) tr (fun _ => 0) _ hc htr (by simp)
    refine ⟨?_, key tr htr⟩
    rcases execAll_runJobs P end_ step n as w (fun _ => none) hm with ⟨h1, _⟩ | ⟨w', loc', _, h2⟩
    · exact h1
    · rw [key _ hseq] at h2; simp at h2

theorem jobsWith_iff (threads : Nat) (P : Program σ) (end_ : Nat) (step : Step) (n : Nat) (as : List (Agent σ)) (w : World σ)
    (hm : Mid step.lower as w) (hk : (w.wake.map (·.1)).Nodup) (hlen : as.length < 2 ^ 64) :
    (∃ o, JobsWith threads P end_ step n (as.map (·.id)) (ofWorld w fun _ => none) o) ∧
    ∀ o, JobsWith threads P end_ step n (as.map (·.id)) (ofWorld w fun _ => none) o →
      (runJobs P end_ step n as w = .throws ∧ o = .throws) ∨
      ∃ w' loc', runJobs P end_ step n as w = .ok w' ∧ o = .ok (ofWorld w' loc') := by
  unfold JobsWith
  by_cases ht : threads ≤ 1
  · simp only [ht, if_true]
    refine ⟨⟨_, rfl⟩, ?_⟩
    rintro o rfl
    exact execAll_runJobs P end_ step n as w _ hm
  · simp only [ht, if_false]
    obtain ⟨parts, h1, h2, _⟩ := C23_tasks threads (as.map (·.id)) (by omega) (by simpa using hlen)
    rw [h1]
    simp only
    refine ⟨⟨_, _, interleaves_exists _, rfl⟩, ?_⟩
    rintro o ⟨tr, htr, rfl⟩
    apply same_outcome P end_ step n as w hm hk
    intro i
    obtain ⟨g1, g2⟩ := one_threads i parts (by rw [h2]; exact hm.remIds)
    rw [interleaves_filter _ _ _ htr g1, g2, h2]

theorem roundWith_iff (threads : Nat) (P : Program σ) (end_ : Nat) (step : Step) (n : Nat) (w : World σ)
    (hn : Sched.Spec.UniqueIds w) (hk : Sched.Spec.WakeMap w) (hlen : w.agents.length < 2 ^ 64) (o : Outcome (Shared σ)) :
    RoundWith threads P end_ step n (Spec.observe w) o ↔ o = Spec.observed Spec.observe (round P end_ step n w) := by
  have hm := mid_start step.lower w hn (determineNext end_ w.wake)
  obtain ⟨g1, g2⟩ := jobsWith_iff threads P end_ step n _ _ hm (emplace_nodup _ _ _ hk)
    (Nat.lt_of_le_of_lt (List.length_filter_le ..) hlen)
  have key : ∀ oj, JobsWith threads P end_ step n
      ((w.agents.filter fun a => findWake (emplaceMissing step.lower (w.agents.map (·.id)) w.wake) a.id == some step.lower).map (·.id))
      ⟨w.agents, emplaceMissing step.lower (w.agents.map (·.id)) w.wake, determineNext end_ w.wake, fun _ => none⟩ oj →
      (oj >>= fun w1 => sendMessages (w1.agents, w1.wake) >>= fun (s, sent) =>
        Outcome.ok (⟨s.1, s.2, if 0 < sent then determineNext end_ s.2 else w1.first⟩ : Shared σ)) =
      Spec.observed Spec.observe (round P end_ step n w) := by
    intro oj hj
    unfold round
    rcases g2 oj hj with ⟨h1, rfl⟩ | ⟨w', loc', h1, rfl⟩
    · simp only [h1]; rfl
    · simp only [h1, Outcome.bind_ok, ofWorld]
      cases sendMessages (w'.agents, w'.wake) <;> rfl
  unfold RoundWith
  simp only [Spec.observe]
  constructor
  · rintro ⟨oj, hj, rfl⟩
    exact key oj hj
  · rintro rfl
    obtain ⟨oj, hj⟩ := g1
    exact ⟨oj, hj, (key oj hj).symm⟩

theorem runJobs_keys (P : Program σ) (end_ : Nat) (step : Step) (n : Nat) (as : List (Agent σ)) (w w' : World σ)
    (hk : (w.wake.map (·.1)).Nodup) (h : runJobs P end_ step n as w = .ok w') : (w'.wake.map (·.1)).Nodup := by
  induction as generalizing w with
  | nil => simp [runJobs] at h; subst h; exact hk
  | cons a as ih =>
    unfold runJobs at h
    obtain ⟨w1, h1, h2⟩ := Outcome.bind_eq_ok.1 h
    obtain ⟨_, rfl⟩ := runJob_ok h1
    exact ih _ (setWake_nodup _ _ _ hk) h2

theorem round_keys (P : Program σ) (end_ : Nat) (step : Step) (n : Nat) (w w' : World σ)
    (hn : Sched.Spec.UniqueIds w) (hk : Sched.Spec.WakeMap w) (h : round P end_ step n w = .ok w') :
    Sched.Spec.UniqueIds w' ∧ Sched.Spec.WakeMap w' ∧ w'.agents.length = w.agents.length := by
  have hid := round_ids hn h
  refine ⟨by unfold Sched.Spec.UniqueIds; rw [hid]; exact hn, ?_, by simpa using congrArg List.length hid⟩
  obtain ⟨w1, s, sent, h1, h2, rfl⟩ := round_ok h
  have e1 := runJobs_ids _ _ _ _ _ _ _ h1
  obtain ⟨_, _, e3, _⟩ := sendMessages_inv (by rw [e1]; exact hn) h2
  unfold Sched.Spec.WakeMap
  simp only [e3]
  exact lowerWake_nodup _ _ (runJobs_keys P end_ step n _ _ _ (emplace_nodup _ _ _ hk) h1)

theorem stepLoopWith_iff (threads : Nat) (P : Program σ) (end_ : Nat) (step : Step) (fuel n : Nat) (w : World σ)
    (hn : Sched.Spec.UniqueIds w) (hk : Sched.Spec.WakeMap w) (hlen : w.agents.length < 2 ^ 64)
    (r : Option (Outcome (Shared σ))) :
    StepLoopWith threads P end_ step fuel n (Spec.observe w) r ↔
      r = (stepLoop P end_ step fuel n w).map (Spec.observed Spec.observe) := by
  induction fuel generalizing n w with
  | zero => simp [StepLoopWith, stepLoop]
  | succ fuel ih =>
    simp only [StepLoopWith, stepLoop, roundWith_iff threads P end_ step n w hn hk hlen, exists_eq_left]
    cases hr : round P end_ step n w with
    | throws => simp [Spec.observed]
    | ub => simp [Spec.observed]
    | ok w' =>
      obtain ⟨h1, h2, h3⟩ := round_keys P end_ step n w w' hn hk hr
      simp only [Spec.observed]
      have e : (Spec.observe w').first = w'.first := rfl
      rw [e]
      split
      · exact ih (n + 1) w' h1 h2 (by omega)
      · simp [Spec.observed]

theorem stepLoop_keys (P : Program σ) (end_ : Nat) (step : Step) (fuel n : Nat) (w w' : World σ)
    (hn : Sched.Spec.UniqueIds w) (hk : Sched.Spec.WakeMap w) (h : stepLoop P end_ step fuel n w = some (.ok w')) :
    Sched.Spec.UniqueIds w' ∧ Sched.Spec.WakeMap w' ∧ w'.agents.length = w.agents.length := by
  induction fuel generalizing n w with
  | zero => simp [stepLoop] at h
  | succ fuel ih =>
    unfold stepLoop at h
    cases hr : round P end_ step n w with
    | throws => simp [hr] at h
    | ub => simp [hr] at h
    | ok w1 =>
      obtain ⟨h1, h2, h3⟩ := round_keys P end_ step n w w1 hn hk hr
      rw [hr] at h
      simp only at h
      split at h
      · rw [← h3]; exact ih _ w1 h1 h2 h
      · simp at h; subst h; exact ⟨h1, h2, h3⟩

/-- **C23.** A simulation with any number of threads has exactly one outcome, whatever the scheduling of the threads, and it is the outcome of the
simulation with one thread: the same agents (states, inboxes and outboxes), wake-up times, step times, and the same failures.
Ranges over all agent programs (an agent only changes itself), all populations, starts, ends, and interleavings of the atomic parts of the
jobs. -/
theorem C23_independence (threads : Nat) (P : Program σ) (end_ fuel k lower : Nat) (w : World σ)
    (hn : Sched.Spec.UniqueIds w) (hk : Sched.Spec.WakeMap w) (hlen : w.agents.length < 2 ^ 64)
    (r : Option (Outcome (Shared σ × List Nat))) :
    RunWith threads P end_ fuel k lower (Spec.observe w) r ↔
      r = (runLoop P end_ fuel k lower w).map (Spec.observed fun p => (Spec.observe p.1, p.2)) := by
  induction k generalizing lower w r with
  | zero => simp [RunWith, runLoop]
  | succ k ih =>
    have hq : ∀ q, (if end_ ≤ lower then q = some .throws else
        StepLoopWith threads P end_ ⟨lower, end_⟩ fuel 0 (Spec.observe w) q) ↔
        q = (modelStep P end_ fuel ⟨lower, end_⟩ w).map (Spec.observed Spec.observe) := by
      intro q
      unfold modelStep
      simp only
      split
      · simp [Spec.observed]
      · exact stepLoopWith_iff threads P end_ _ fuel 0 w hn hk hlen q
    simp only [RunWith, runLoop, hq, exists_eq_left]
    cases hr : modelStep P end_ fuel ⟨lower, end_⟩ w with
    | none => simp
    | some o =>
      cases o with
      | throws => simp [Spec.observed]
      | ub => simp [Spec.observed]
      | ok w' =>
        have hs : stepLoop P end_ ⟨lower, end_⟩ fuel 0 w = some (.ok w') := by
          unfold modelStep at hr
          split at hr
          · simp at hr
          · exact hr
        obtain ⟨h1, h2, h3⟩ := stepLoop_keys P end_ _ fuel 0 w w' hn hk hs
        simp only [Option.map, Spec.observed]
        have e : (Spec.observe w').first = w'.first := rfl
        rw [e]
        by_cases hlt : w'.first < end_
        · simp only [hlt, if_true]
          constructor
          · rintro ⟨r', hr', rfl⟩
            rw [(ih w'.first w' h1 h2 (by omega) r').1 hr']
            cases runLoop P end_ fuel k w'.first w' with
            | none => rfl
            | some o => cases o <;> rfl
          · intro h
            refine ⟨_, (ih w'.first w' h1 h2 (by omega) _).2 rfl, ?_⟩
            rw [h]
            cases runLoop P end_ fuel k w'.first w' with
            | none => rfl
            | some o => cases o <;> rfl
        · simp only [hlt, if_false]

/-- Two numbers of threads give the same results. -/
theorem C23_any_two (t1 t2 : Nat) (P : Program σ) (end_ fuel k lower : Nat) (w : World σ)
    (hn : Sched.Spec.UniqueIds w) (hk : Sched.Spec.WakeMap w) (hlen : w.agents.length < 2 ^ 64)
    (r1 r2 : Option (Outcome (Shared σ × List Nat)))
    (h1 : RunWith t1 P end_ fuel k lower (Spec.observe w) r1) (h2 : RunWith t2 P end_ fuel k lower (Spec.observe w) r2) :
    r1 = r2 := by
  rw [(C23_independence t1 P end_ fuel k lower w hn hk hlen r1).1 h1,
    (C23_independence t2 P end_ fuel k lower w hn hk hlen r2).1 h2]

/-- Non-vacuity: with three threads, two agents and real interleavings, a run completes. -/
example : Sched.Spec.UniqueIds pair ∧ Sched.Spec.WakeMap pair ∧
    ∃ r, RunWith 3 pingers 6 5 5 0 (Spec.observe pair) (some (.ok r)) ∧ r.2 = [0, 2, 3, 5] := by
  refine ⟨by unfold Sched.Spec.UniqueIds pair; simp, by unfold Sched.Spec.WakeMap pair; simp, ?_⟩
  refine ⟨_, (C23_independence 3 pingers 6 5 5 0 pair (by unfold Sched.Spec.UniqueIds pair; simp)
    (by unfold Sched.Spec.WakeMap pair; simp) (by decide) _).2 rfl, ?_⟩
  rfl

/-- There are interleavings that are not just the threads one after the other. -/
example : Interleaves [jobOps 0, jobOps 1] [.compute 1, .compute 0, .commit 0, .commit 1, .prune 1, .prune 0] :=
  .step [jobOps 0] [] _ _ _ <| .step [] [[.commit 1, .prune 1]] _ _ _ <| .step [] [[.commit 1, .prune 1]] _ _ _ <|
  .step [[.prune 0]] [] _ _ _ <| .step [[.prune 0]] [] _ _ _ <| .step [] [[]] _ _ _ <| .done _ (by simp)

/-! ## C24 -/

/-- **C24, negation.** The number of worker threads is not the parameter: for every requested number, the model uses the verbosity (at
least one). -/
theorem C24_counterexample_threads_ignored (sample start stop verbosity threads : Nat) :
    modelThreads (Parameters.make sample start stop verbosity threads) = max 1 verbosity := rfl

/-- So eight requested threads with no verbosity are one thread, and changing the request changes nothing. -/
theorem C24_counterexample_eight : modelThreads (Parameters.make 0 0 100 0 8) ≠ 8 ∧
    ∀ t t', Parameters.make 0 0 100 0 t = Parameters.make 0 0 100 0 t' := by
  exact ⟨by decide, fun _ _ => rfl⟩

/-- **C24 (partial).** At least one thread is used, and a request that equals the verbosity is honoured. Missing: all other
requests, for which the claim is false. -/
theorem C24_at_least_one_partial (sample start stop verbosity threads : Nat) :
    1 ≤ modelThreads (Parameters.make sample start stop verbosity threads) ∧
    (threads = verbosity → 1 ≤ threads → modelThreads (Parameters.make sample start stop verbosity threads) = threads) := by
  unfold modelThreads Parameters.make
  simp only
  omega

end Esl.Threads
