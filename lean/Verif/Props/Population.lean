import Verif.Lemmas.Population
/-!
# C149: agents that are created and deleted during a simulation
-/
namespace Esl.Population
open Esl.Comm Esl.Sched
variable {σ : Type}

/-- **C149.** Whatever agents are created and deleted, and whatever the environment does with the lists of them: a run visits strictly increasing times in `[start, end)`, starting with `start`, and ends at `end`.
Agents act at visited times only, in the order of time, never ask to be woken in the past, and no agent acts twice in a round. The identifiers of the agents are different at the end. -/
theorem C149_time (P : Program σ) (env : Environment σ) (start end_ fuel k : Nat) (w w' : World σ) (ts : List Nat) (hw : Spec.Start w) (h : runLoop P env end_ fuel k [] start w = some (.ok (w', ts))) :
    w'.first = end_ ∧ ts.head? = some start ∧ ts.Pairwise (· < ·) ∧ (∀ t ∈ ts, start ≤ t ∧ t < end_) ∧ (w'.history.map (·.time)).Pairwise (· ≤ ·) ∧ (w'.agents.map (·.id)).Nodup ∧
    ∀ r ∈ w'.history, r.time ∈ ts ∧ (Spec.acts r).Nodup ∧ ∀ j ∈ r.jobs, j.1.time = r.time ∧ r.time ≤ j.1.requested := by
  obtain ⟨h1, h2, -, h3, h4, h5, rs, h6, h7, h8⟩ := run_reach P env end_ fuel k [] start w w' ts hw.ids hw.outboxes h
  rw [hw.history, List.nil_append] at h6
  refine ⟨h2, h3, h4, h5, by rw [h6]; exact h8, (h1.well hw.ids hw.outboxes).1, ?_⟩
  intro r hr
  refine ⟨h7 r (h6 ▸ hr), ?_⟩
  obtain ⟨pre, post, hs⟩ := List.append_of_mem hr
  obtain ⟨v1, v2, step, n, -, -, g, -⟩ := h1.split hw.ids hw.outboxes pre post r (by rw [hw.history, List.nil_append]; exact hs)
  refine ⟨g.once, fun j hj => ?_⟩
  obtain ⟨e1, -, e3⟩ := g.events j hj
  rw [g.time.1]
  exact ⟨e1, e3⟩

/-- **C149 (partial).** An agent with a new identifier that is created in a round acts in the next round of the run, if it is not deleted in the round in which it was created and no message is sent to it in this round.
Missing: agents to which messages are sent, see `C149_counterexample_postponed`; a next round, see `C149_counterexample_idle`. -/
theorem C149_created_acts_partial (P : Program σ) (env : Environment σ) (start end_ fuel k : Nat) (w w' : World σ) (ts : List Nat) (hw : Spec.Start w) (h : runLoop P env end_ fuel k [] start w = some (.ok (w', ts)))
    (pre post : List (Record σ)) (r next : Record σ) (hh : w'.history = pre ++ r :: next :: post) (i : Nat) (hnew : Spec.New w pre i) (hc : i ∈ Spec.created r) (hd : i ∉ Spec.deleted r) (hm : ∀ m ∈ Spec.sent r, m.recipient ≠ i) :
    i ∈ Spec.acts next := by
  obtain ⟨h1, -⟩ := run_reach P env end_ fuel k [] start w w' ts hw.ids hw.outboxes h
  obtain ⟨v1, v2, step, n, g1, g2, g3, g4, g5⟩ := h1.split hw.ids hw.outboxes pre (next :: post) r (by rw [hw.history, List.nil_append]; exact hh)
  obtain ⟨n1, n2⟩ := g1.new hw.ids hw.outboxes pre g2 i hnew
  obtain ⟨u1, u2, step', n', f1, f2, f3, -, -⟩ := g4.split g3.nodup g3.outboxes [] post next (by rw [g5]; rfl)
  have hu : u1 = v2 := by
    cases f1 with
    | start => rfl
    | round st m x x' hx hr =>
      exfalso
      have hwell := hx.well g3.nodup g3.outboxes
      obtain ⟨q, gq⟩ := round_spec P end_ st m x _ hwell.1 hwell.2 hr
      obtain ⟨rs, hrs⟩ := hx.history g3.nodup g3.outboxes
      have := congrArg List.length f2
      rw [gq.history, hrs] at this
      simp at this
  subst hu
  refine (f3.acts i).mpr ⟨g3.changed.born i hc hd, .inl ?_⟩
  rw [g3.quiet i n1 hm]
  exact n2

/-- **C149.** An agent that is deleted in a round, and neither created in it nor later, does not act in any later round and is not there at the end. -/
theorem C149_deleted_gone (P : Program σ) (env : Environment σ) (start end_ fuel k : Nat) (w w' : World σ) (ts : List Nat) (hw : Spec.Start w) (h : runLoop P env end_ fuel k [] start w = some (.ok (w', ts)))
    (pre post : List (Record σ)) (r : Record σ) (hh : w'.history = pre ++ r :: post) (i : Nat) (hd : i ∈ Spec.deleted r) (hc : ∀ x ∈ r :: post, i ∉ Spec.created x) :
    (∀ x ∈ post, i ∉ Spec.acts x) ∧ i ∉ w'.agents.map (·.id) := by
  obtain ⟨h1, -⟩ := run_reach P env end_ fuel k [] start w w' ts hw.ids hw.outboxes h
  obtain ⟨v1, v2, step, n, g1, g2, g3, g4, g5⟩ := h1.split hw.ids hw.outboxes pre post r (by rw [hw.history, List.nil_append]; exact hh)
  obtain ⟨a, b⟩ := g4.absent g3.nodup g3.outboxes post g5 i (g3.changed.gone i hd (hc r (List.mem_cons_self ..))) fun x hx => hc x (List.mem_cons_of_mem _ hx)
  exact ⟨b, a⟩

/-- **C149.** Agents act only if they were there at the start or were created in an earlier round. -/
theorem C149_acts_known (P : Program σ) (env : Environment σ) (start end_ fuel k : Nat) (w w' : World σ) (ts : List Nat) (hw : Spec.Start w) (h : runLoop P env end_ fuel k [] start w = some (.ok (w', ts)))
    (pre post : List (Record σ)) (r : Record σ) (hh : w'.history = pre ++ r :: post) (i : Nat) (ha : i ∈ Spec.acts r) : i ∈ w.agents.map (·.id) ∨ ∃ x ∈ pre, i ∈ Spec.created x := by
  obtain ⟨h1, -⟩ := run_reach P env end_ fuel k [] start w w' ts hw.ids hw.outboxes h
  obtain ⟨v1, v2, step, n, g1, g2, g3, g4, g5⟩ := h1.split hw.ids hw.outboxes pre post r (by rw [hw.history, List.nil_append]; exact hh)
  have hm := ((g3.acts i).mp ha).1
  apply Classical.byContradiction
  intro hc
  rw [not_or, not_exists] at hc
  exact (g1.absent hw.ids hw.outboxes pre g2 i hc.1 fun x hx hx' => hc.2 x ⟨hx, hx'⟩).1 hm

/-- **C149.** Agents stay until they are deleted: those of the start, and those that are created. -/
theorem C149_stays (P : Program σ) (env : Environment σ) (start end_ fuel k : Nat) (w w' : World σ) (ts : List Nat) (hw : Spec.Start w) (h : runLoop P env end_ fuel k [] start w = some (.ok (w', ts)))
    (i : Nat) (hi : i ∈ w.agents.map (·.id) ∨ ∃ r ∈ w'.history, i ∈ Spec.created r) (hd : ∀ r ∈ w'.history, i ∉ Spec.deleted r) : i ∈ w'.agents.map (·.id) := by
  obtain ⟨h1, -⟩ := run_reach P env end_ fuel k [] start w w' ts hw.ids hw.outboxes h
  rcases hi with hi | ⟨r, hr, hi⟩
  · exact h1.present hw.ids hw.outboxes w'.history (by rw [hw.history, List.nil_append]) i hi hd
  · obtain ⟨pre, post, hs⟩ := List.append_of_mem hr
    obtain ⟨v1, v2, step, n, g1, g2, g3, g4, g5⟩ := h1.split hw.ids hw.outboxes pre post r (by rw [hw.history, List.nil_append]; exact hs)
    exact g4.present g3.nodup g3.outboxes post g5 i (g3.changed.born i hi (hd r hr)) fun x hx => hd x (by rw [hs]; exact List.mem_append_right _ (List.mem_cons_of_mem _ hx))

/-- **C149.** In every run that completes, every wake-up time that any agent asked for, also one that is deleted, is honoured: the agent acts again at or before that time, unless the time lies at or behind the end. -/
theorem C149_wakeups (P : Program σ) (env : Environment σ) (start end_ fuel k : Nat) (w w' : World σ) (ts : List Nat) (hw : Spec.Start w) (h : runLoop P env end_ fuel k [] start w = some (.ok (w', ts))) :
    Sched.Spec.WakeUpsHonoured end_ (Spec.log w'.history) := by
  obtain ⟨h1, h2, h3, -⟩ := run_reach P env end_ fuel k [] start w w' ts hw.ids hw.outboxes h
  have hp := h1.honoured hw.ids hw.outboxes (by intro b e c hb; rw [hw.history] at hb; simp [Spec.log] at hb)
  intro b e c hl
  rcases hp b e c hl with h4 | ⟨t, h4, h5⟩
  · exact .inr h4
  · left
    have := determineNext_le_find end_ w'.wake _ _ h4
    omega

/-- **C149 (partial).** In every run that completes, the messages between agents that are never deleted, whether they were there at the start or created, are processed by the recipient in an action at exactly their delivery time, or are due at or behind the end.
As in C20, no agent may ask to be woken later than the delivery of a message that waits in its inbox. Missing: messages from and to agents that are deleted, see `C149_counterexample_silenced` and `C149_counterexample_unreachable`. -/
theorem C149_delivered_partial (P : Program σ) (env : Environment σ) (start end_ fuel k : Nat) (w w' : World σ) (ts : List Nat) (hw : Spec.Start w) (h : runLoop P env end_ fuel k [] start w = some (.ok (w', ts)))
    (hat : Sched.Spec.Attentive (Spec.log w'.history)) (before after : List Event) (e : Event) (hl : Spec.log w'.history = before ++ e :: after) (m : Msg) (hm : m ∈ e.sent)
    (hs : ∀ r ∈ w'.history, e.agent ∉ Spec.deleted r) (hr : ∀ r ∈ w'.history, m.recipient ∉ Spec.deleted r) :
    end_ ≤ m.received ∨ ∃ e' ∈ after, e'.agent = m.recipient ∧ e'.time = m.received ∧ m ∈ e'.due := by
  obtain ⟨h1, h2, h3, -⟩ := run_reach P env end_ fuel k [] start w w' ts hw.ids hw.outboxes h
  have ht := h1.transit (fun i => ∀ r ∈ w'.history, i ∉ Spec.deleted r) hw.ids hw.outboxes (by intro b e c hb; rw [hw.history] at hb; simp [Spec.log] at hb) hat
    fun r hr i hi hS => hS r hr hi
  rcases ht before e after hl m hm hs hr with ⟨x, hx, -, h4⟩ | ⟨x, hx, -, -, t, h4, h5⟩ | h4
  · rw [(h1.well hw.ids hw.outboxes).2 x hx] at h4
    cases h4
  · left
    have := determineNext_le_find end_ w'.wake _ _ h4
    omega
  · exact .inr h4

/-- A world without the ghost history of populations. -/
def Spec.plain (w : World σ) : Sched.World σ := ⟨w.agents, w.wake, w.first, Spec.log w.history⟩

/-- The result of a run without the ghost history of populations. -/
def Spec.plainRun : Option (Outcome (World σ × List Nat)) → Option (Outcome (Sched.World σ × List Nat))
  | none => none
  | some .throws => some .throws
  | some .ub => some .ub
  | some (.ok (w, ts)) => some (.ok (Spec.plain w, ts))

theorem static_runJobs (P : Program σ) (hP : ∀ n step a, P.changes n step a = []) (end_ : Nat) (step : Step) (n : Nat) (L : List Event) (as : List (Agent σ)) (b : Busy σ) :
    Sched.runJobs P.toProgram end_ step n as ⟨b.agents, b.wake, b.first, L ++ b.jobs.map (·.1)⟩ =
      match runJobs P end_ step n as b with
      | .ok b' => .ok ⟨b'.agents, b'.wake, b'.first, L ++ b'.jobs.map (·.1)⟩
      | .throws => .throws
      | .ub => .ub := by
  induction as generalizing b with
  | nil => rfl
  | cons a as ih =>
    unfold Sched.runJobs runJobs Sched.runJob runJob
    simp only [hP, List.foldl_nil]
    split
    · rfl
    · rw [Outcome.bind_ok]
      simp only
      rw [← ih]
      simp

theorem static_round (P : Program σ) (hP : ∀ n step a, P.changes n step a = []) (end_ : Nat) (step : Step) (n : Nat) (w : World σ) :
    Sched.round P.toProgram end_ step n (Spec.plain w) =
      match round P end_ step n w with
      | .ok w' => .ok (Spec.plain w')
      | .throws => .throws
      | .ub => .ub := by
  unfold Sched.round round
  have := static_runJobs P hP end_ step n (Spec.log w.history) (w.agents.filter fun a => findWake (emplaceMissing step.lower (w.agents.map (·.id)) w.wake) a.id == some step.lower)
    ⟨w.agents, emplaceMissing step.lower (w.agents.map (·.id)) w.wake, determineNext end_ w.wake, []⟩
  simp only [List.map_nil, List.append_nil] at this
  unfold Spec.plain
  simp only
  rw [this]
  cases runJobs P end_ step n _ _ with
  | throws => rfl
  | ub => rfl
  | ok b =>
    simp only [Outcome.bind_ok]
    cases sendMessages (b.agents, b.wake) with
    | throws => rfl
    | ub => rfl
    | ok x =>
      simp only [Outcome.bind_ok]
      rw [log_append]

theorem static_stepLoop (P : Program σ) (hP : ∀ n step a, P.changes n step a = []) (end_ : Nat) (step : Step) (fuel n : Nat) (w : World σ) :
    Sched.stepLoop P.toProgram end_ step fuel n (Spec.plain w) =
      match stepLoop P end_ step fuel n w with
      | none => none
      | some (.ok w') => some (.ok (Spec.plain w'))
      | some .throws => some .throws
      | some .ub => some .ub := by
  induction fuel generalizing n w with
  | zero => rfl
  | succ fuel ih =>
    unfold Sched.stepLoop stepLoop
    rw [static_round P hP]
    cases round P end_ step n w with
    | throws => rfl
    | ub => rfl
    | ok w' =>
      simp only
      by_cases hc : step.lower ≥ w'.first
      · rw [if_pos (by exact hc), if_pos hc]
        exact ih _ _
      · rw [if_neg (by exact hc), if_neg hc]

/-- Rounds without changes to the population. -/
def Spec.Unchanged (rs : List (Record σ)) : Prop := ∀ r ∈ rs, ∀ j ∈ r.jobs, j.2 = []

theorem unchanged_runJobs (P : Program σ) (hP : ∀ n step a, P.changes n step a = []) (end_ : Nat) (step : Step) (n : Nat) (as : List (Agent σ)) (b b' : Busy σ) (h : runJobs P end_ step n as b = .ok b') (h0 : ∀ j ∈ b.jobs, j.2 = []) :
    ∀ j ∈ b'.jobs, j.2 = [] := by
  induction as generalizing b with
  | nil => simp only [runJobs, Outcome.ok.injEq] at h; rw [← h]; exact h0
  | cons a as ih =>
    unfold runJobs at h
    split at h
    · rename_i b1 hr
      refine ih b1 h ?_
      rw [(runJob_ok P end_ step n a b b1 hr).2.2.2, hP]
      intro j hj
      rcases List.mem_append.mp hj with hj | hj
      · exact h0 j hj
      · rw [List.mem_singleton.mp hj]
    · cases h
    · cases h

theorem unchanged_stepLoop (P : Program σ) (hP : ∀ n step a, P.changes n step a = []) (end_ : Nat) (step : Step) (fuel n : Nat) (w w' : World σ) (h : stepLoop P end_ step fuel n w = some (.ok w')) :
    ∃ rs, w'.history = w.history ++ rs ∧ Spec.Unchanged rs := by
  induction fuel generalizing n w with
  | zero => cases h
  | succ fuel ih =>
    have hround : ∀ w1, round P end_ step n w = .ok w1 → ∃ r, w1.history = w.history ++ [r] ∧ ∀ j ∈ r.jobs, j.2 = [] := by
      intro w1 hr
      unfold round at hr
      simp only at hr
      split at hr
      · cases hr
      · cases hr
      · rename_i b hb
        split at hr
        · cases hr
        · cases hr
        · simp only [Outcome.ok.injEq] at hr
          exact ⟨_, by rw [← hr], unchanged_runJobs P hP end_ step n _ _ b hb fun j (hj : j ∈ []) => by cases hj⟩
    unfold stepLoop at h
    split at h
    · rename_i w1 hr
      obtain ⟨r, e1, e2⟩ := hround w1 hr
      split at h
      · obtain ⟨rs, i1, i2⟩ := ih (n + 1) w1 h
        refine ⟨r :: rs, by rw [i1, e1, List.append_assoc]; rfl, ?_⟩
        intro x hx
        rcases List.mem_cons.mp hx with rfl | hx
        · exact e2
        · exact i2 x hx
      · simp only [Option.some.injEq, Outcome.ok.injEq] at h
        subst h
        refine ⟨[r], e1, ?_⟩
        intro x hx
        rw [List.mem_singleton.mp hx]
        exact e2
    · cases h
    · cases h

/-- **C149.** If agents create and delete nobody, runs are those of a fixed population (C18-C22, C71): with the same result, whether or not they complete, for every environment that has nothing to do if nobody is created or deleted. -/
theorem C149_static (P : Program σ) (env : Environment σ) (hP : ∀ n step a, P.changes n step a = []) (he : ∀ rs, Spec.Unchanged rs → env rs = .ok ()) (end_ fuel k : Nat) (since : List (Record σ)) (hs : Spec.Unchanged since) (lower : Nat) (w : World σ) :
    Sched.runLoop P.toProgram end_ fuel k lower (Spec.plain w) = Spec.plainRun (runLoop P env end_ fuel k since lower w) := by
  induction k generalizing since lower w with
  | zero => rfl
  | succ k ih =>
    unfold Sched.runLoop runLoop
    rw [he since hs]
    simp only
    unfold Sched.modelStep modelStep
    by_cases hlt : (⟨lower, end_⟩ : Step).upper ≤ (⟨lower, end_⟩ : Step).lower
    · rw [if_pos hlt, if_pos hlt]
      rfl
    · rw [if_neg hlt, if_neg hlt, static_stepLoop P hP]
      cases hr : stepLoop P end_ ⟨lower, end_⟩ fuel 0 w with
      | none => rfl
      | some o =>
        cases o with
        | throws => rfl
        | ub => rfl
        | ok w' =>
          obtain ⟨rs, h1, h2⟩ := unchanged_stepLoop P hP end_ _ fuel 0 w w' hr
          simp only
          by_cases hc : w'.first < end_
          · rw [if_pos (by exact hc), if_pos hc]
            have := ih (w'.history.drop w.history.length) (by rw [h1, List.drop_left]; exact h2) w'.first w'
            simp only [Spec.plain] at this ⊢
            rw [this]
            cases runLoop P env end_ fuel k (w'.history.drop w.history.length) w'.first w' with
            | none => rfl
            | some o =>
              cases o with
              | throws => rfl
              | ub => rfl
              | ok x => rfl
          · rw [if_neg (by exact hc), if_neg hc]
            rfl

example : ∀ rs : List (Record σ), Spec.Unchanged rs → base rs = .ok () := by
  intro rs h
  have : announced rs = [] := by
    unfold announced
    rw [List.flatMap_eq_nil_iff]
    intro r hr
    rw [List.flatMap_eq_nil_iff]
    intro j hj
    rw [h r hr j hj]
    rfl
  unfold base
  rw [this]
  rfl

/-! ### What does not hold -/

/-- **C149 (negation, in general).** Whatever agents do: in the environment of the library, if an agent is created in a step and the simulation goes on after it, the run is undefined behaviour (see C74). -/
theorem C149_counterexample_activation (P : Program σ) (end_ fuel k : Nat) (since : List (Record σ)) (lower : Nat) (w w' : World σ) (hb : base since = .ok ()) (h : modelStep P end_ fuel ⟨lower, end_⟩ w = some (.ok w')) (hf : w'.first < end_)
    (r : Record σ) (hr : r ∈ w'.history.drop w.history.length) (i : Nat) (hi : i ∈ Spec.created r) : runLoop P base end_ fuel (k + 2) since lower w = some .ub := by
  have hne : announced (w'.history.drop w.history.length) ≠ [] := by
    intro hc
    have : i ∈ announced (w'.history.drop w.history.length) := List.mem_flatMap.mpr ⟨r, hr, hi⟩
    rw [hc] at this
    cases this
  have hub : base (w'.history.drop w.history.length) = .ub := by
    unfold base Sched.activate
    rw [if_neg hne]
  unfold runLoop
  rw [hb]
  simp only
  rw [h]
  simp only
  rw [if_pos hf]
  unfold runLoop
  rw [hub]

/-- An environment that has nothing to do. -/
def lax : Environment Unit := fun _ => .ok ()

/-- A simulation of agents that ignore messages, given by what they send, when they want to be woken, and how they change the population. -/
def script (out : Nat → Step → List Msg) (wake : Nat → Step → Nat) (changes : Nat → Step → List (Change Unit)) : Program Unit where
  handlers := fun _ _ _ => []
  act := fun i _ _ step => ((), out i step, wake i step)
  shuffle := fun _ _ _ l => l
  changes := fun _ step a => changes a.id step

/-- Agents with some identifiers. -/
def crowd (ids : List Nat) : World Unit := ⟨ids.map fun i => ⟨i, (), [], []⟩, [], 0, []⟩

theorem crowd_start (ids : List Nat) (h : ids.Nodup) : Spec.Start (crowd ids) := by
  refine ⟨?_, ?_, rfl⟩
  · unfold crowd
    simpa [Function.comp_def] using h
  · intro a ha
    unfold crowd at ha
    obtain ⟨i, -, rfl⟩ := List.mem_map.mp ha
    rfl

/-- Agent 0 creates agent 5 at time 0, and acts again at time 3. -/
def nursery : Program Unit := script (fun _ _ => []) (fun i step => if i = 0 ∧ step.lower = 0 then 3 else step.upper) fun i step => if i = 0 ∧ step.lower = 0 then [.create 5 ()] else []

/-- Agent 0 creates agent 5 at time 0, and sleeps until the end. -/
def farewell : Program Unit := script (fun _ _ => []) (fun _ step => step.upper) fun i step => if i = 0 ∧ step.lower = 0 then [.create 5 ()] else []

/-- Agent 0 creates agent 5 at time 0, sends it a message for time 7, and acts again at time 3. -/
def invitation : Program Unit := script (fun i step => if i = 0 ∧ step.lower = 0 then [⟨1, 0, 5, 0, 7, 42⟩] else []) (fun i step => if i = 0 ∧ step.lower = 0 then 3 else step.upper)
  fun i step => if i = 0 ∧ step.lower = 0 then [.create 5 ()] else []

/-- Agent 0 deletes agent 1 at time 0, when agent 1 sends agent 2 a message for time 4. -/
def silence : Program Unit := script (fun i step => if i = 1 ∧ step.lower = 0 then [⟨1, 1, 2, 0, 4, 42⟩] else []) (fun _ step => step.upper) fun i step => if i = 0 ∧ step.lower = 0 then [.delete 1] else []

/-- Agent 0 deletes agent 1 at time 0, when agent 2 sends agent 1 a message for time 4. -/
def obituary : Program Unit := script (fun i step => if i = 2 ∧ step.lower = 0 then [⟨1, 2, 1, 0, 4, 42⟩] else []) (fun _ step => step.upper) fun i step => if i = 0 ∧ step.lower = 0 then [.delete 1] else []

/-- Agent 0 deletes agent 1 at time 0, when agent 1 asks to be woken at time 5. -/
def insomnia : Program Unit := script (fun _ _ => []) (fun i step => if i = 1 ∧ step.lower = 0 then 5 else step.upper) fun i step => if i = 0 ∧ step.lower = 0 then [.delete 1] else []

/-- What the agents of a run do in each round: the time, and who acts. -/
def acting (o : Option (Outcome (World Unit × List Nat))) : Option (List (Nat × List Nat)) :=
  match o with
  | some (.ok (w, _)) => some (w.history.map fun r => (r.time, Spec.acts r))
  | _ => none

example : acting (runLoop nursery lax 10 3 3 [] 0 (crowd [0])) = some [(0, [0]), (3, [0, 5])] := by decide +kernel

/-- The hypotheses of `C149_created_acts_partial` hold for `nursery`, whose agent 5 acts at time 3. -/
example : ∃ w' ts r next, runLoop nursery lax 10 3 3 [] 0 (crowd [0]) = some (.ok (w', ts)) ∧ Spec.Start (crowd [0]) ∧ w'.history = [] ++ r :: next :: [] ∧ Spec.New (crowd [0]) [] 5 ∧ 5 ∈ Spec.created r ∧ 5 ∉ Spec.deleted r ∧
    (∀ m ∈ Spec.sent r, m.recipient ≠ 5) ∧ next.time = 3 :=
  ⟨_, _, _, _, rfl, crowd_start _ (by decide), rfl, ⟨by decide, by decide, fun r hr => by cases hr⟩, by decide, by decide, by decide, rfl⟩

/-- **C149 (negation).** An agent that is created does not act at all if no other agent wants to be woken before the end: `wake_up_times` has no entry for it when the next event is determined. -/
theorem C149_counterexample_idle (fuel k : Nat) : ∃ w' ts, runLoop farewell lax 10 (fuel + 1) (k + 1) [] 0 (crowd [0]) = some (.ok (w', ts)) ∧ w'.agents.map (·.id) = [0, 5] ∧ Spec.log w'.history ≠ [] ∧ ∀ e ∈ Spec.log w'.history, e.agent ≠ 5 := by
  refine ⟨_, _, rfl, by decide, by decide, by decide⟩

/-- **C149 (negation).** An agent to which a message is sent in the round in which it is created does not act in the next round, but only at the delivery. -/
theorem C149_counterexample_postponed : acting (runLoop invitation lax 10 3 5 [] 0 (crowd [0])) = some [(0, [0]), (3, [0]), (7, [5])] := by decide +kernel

/-- **C149 (negation).** An agent that is deleted in a round by an agent that acts before it still acts in this round, and what it sends is lost: the run completes, and agent 2 is never sent the message of agent 1. -/
theorem C149_counterexample_silenced (fuel k : Nat) : ∃ w' ts r, runLoop silence lax 10 (fuel + 1) (k + 1) [] 0 (crowd [0, 1, 2]) = some (.ok (w', ts)) ∧ w'.history = [r] ∧ Spec.acts r = [0, 1, 2] ∧
    r.jobs.map (fun j => Spec.deletions j.2) = [[1], [], []] ∧ Spec.sent r = [⟨1, 1, 2, 0, 4, 42⟩] ∧ ∀ a ∈ w'.agents, a.inbox = [] ∧ a.outbox = [] := by
  refine ⟨_, _, _, rfl, rfl, by decide, by decide, by decide, by decide⟩

/-- **C149 (negation).** A message to an agent that is deleted in the round in which the message is sent ends the whole run with an exception. -/
theorem C149_counterexample_unreachable (fuel k : Nat) : runLoop obituary lax 10 (fuel + 1) (k + 1) [] 0 (crowd [0, 1, 2]) = some .throws := by
  rfl

/-- **C149 (negation).** A simulation in which an agent is deleted that asked to be woken before the end never completes, however long it runs. -/
theorem C149_counterexample_never_completes (fuel k : Nat) (w' : World Unit) (ts : List Nat) : runLoop insomnia lax 10 fuel k [] 0 (crowd [0, 1, 2]) ≠ some (.ok (w', ts)) := by
  have hstuck : ∀ fuel n h, stepLoop insomnia 10 ⟨5, 10⟩ fuel n ⟨[⟨0, (), [], []⟩, ⟨2, (), [], []⟩], [(0, 10), (1, 5), (2, 10)], 5, h⟩ = none := by
    intro fuel
    induction fuel with
    | zero => intro n h; rfl
    | succ fuel ih =>
      intro n h
      unfold stepLoop
      have : round insomnia 10 ⟨5, 10⟩ n ⟨[⟨0, (), [], []⟩, ⟨2, (), [], []⟩], [(0, 10), (1, 5), (2, 10)], 5, h⟩ = .ok ⟨[⟨0, (), [], []⟩, ⟨2, (), [], []⟩], [(0, 10), (1, 5), (2, 10)], 5, h ++ [⟨5, n, []⟩]⟩ := rfl
      rw [this]
      simp only
      rw [if_pos (by decide)]
      exact ih _ _
  cases k with
  | zero => intro h; cases h
  | succ k =>
    cases fuel with
    | zero => intro h; cases h
    | succ fuel =>
      unfold runLoop
      have h1 : ∃ h, modelStep insomnia 10 (fuel + 1) ⟨0, 10⟩ (crowd [0, 1, 2]) = some (.ok ⟨[⟨0, (), [], []⟩, ⟨2, (), [], []⟩], [(0, 10), (1, 5), (2, 10)], 5, h⟩) := ⟨_, rfl⟩
      obtain ⟨h, h1⟩ := h1
      rw [h1]
      simp only [lax]
      rw [if_pos (by decide)]
      cases k with
      | zero => intro h; cases h
      | succ k =>
        unfold runLoop modelStep
        simp only
        rw [if_neg (by decide), hstuck]
        intro h
        cases h

/-- **C149 (negation, in general).** Whatever agents do: in a run that completes, an agent that is deleted for good had asked for no wake-up before the end when it acted last. So every other run with a deletion goes on forever, or fails. -/
theorem C149_counterexample_deleted_blocks (P : Program σ) (env : Environment σ) (start end_ fuel k : Nat) (w w' : World σ) (ts : List Nat) (hw : Spec.Start w) (h : runLoop P env end_ fuel k [] start w = some (.ok (w', ts)))
    (pre post : List (Record σ)) (r : Record σ) (hh : w'.history = pre ++ r :: post) (i : Nat) (hd : i ∈ Spec.deleted r) (hc : ∀ x ∈ r :: post, i ∉ Spec.created x)
    (before after : List Event) (e : Event) (hl : Spec.log (pre ++ [r]) = before ++ e :: after) (he : e.agent = i) (ha : ∀ e' ∈ after, e'.agent ≠ i) : end_ ≤ e.requested := by
  have hlog : Spec.log w'.history = before ++ e :: (after ++ Spec.log post) := by
    rw [hh, show pre ++ r :: post = (pre ++ [r]) ++ post by simp]
    unfold Spec.log at hl ⊢
    rw [List.flatMap_append, hl]
    simp
  rcases C149_wakeups P env start end_ fuel k w w' ts hw h before e _ hlog with h1 | ⟨e', he', h1, -⟩
  · exact h1
  · exfalso
    rcases List.mem_append.mp he' with he' | he'
    · exact ha e' he' (h1.trans he)
    · unfold Spec.log at he'
      obtain ⟨x, hx, hex⟩ := List.mem_flatMap.mp he'
      obtain ⟨j, hj, rfl⟩ := List.mem_map.mp hex
      exact (C149_deleted_gone P env start end_ fuel k w w' ts hw h pre post r hh i hd hc).1 x hx (List.mem_map.mpr ⟨j, hj, h1.trans he⟩)

/-- The hypotheses of `C149_counterexample_deleted_blocks`, `C149_deleted_gone` and `C149_delivered_partial` are met by `silence`, whose agent 1 is deleted and asks for no wake-up. -/
example : ∃ w' ts r, runLoop silence lax 10 3 3 [] 0 (crowd [0, 1, 2]) = some (.ok (w', ts)) ∧ w'.history = [] ++ r :: [] ∧ 1 ∈ Spec.deleted r ∧ (∀ x ∈ [r], 1 ∉ Spec.created x) ∧
    (Spec.log ([] ++ [r])).map (·.agent) = [0, 1, 2] ∧ Sched.Spec.Attentive (Spec.log w'.history) := by
  refine ⟨_, _, _, rfl, rfl, by decide, by decide, by decide, ?_⟩
  intro e he t ht
  have : ∀ e ∈ Spec.log [(⟨0, 0, [(⟨0, 0, 0, [], [], [], [], 10⟩, [Change.delete 1]), (⟨1, 0, 0, [], [], [⟨1, 1, 2, 0, 4, 42⟩], [], 10⟩, []), (⟨2, 0, 0, [], [], [], [], 10⟩, [])]⟩ : Record Unit)], e.pending = [] := by
    decide
  rw [this e he] at ht
  cases ht

/-- Agent 5, created at time 0, is sent a message at time 3 and processes it at time 7; no agent is deleted. -/
example : acting (runLoop (script (fun i step => if i = 0 ∧ step.lower = 3 then [⟨1, 0, 5, 3, 7, 42⟩] else []) (fun i step => if i = 0 ∧ step.lower = 0 then 3 else step.upper) fun i step => if i = 0 ∧ step.lower = 0 then [.create 5 ()] else [])
    lax 10 3 5 [] 0 (crowd [0])) = some [(0, [0]), (3, [0, 5]), (7, [5])] := by decide +kernel

/-- In the environment of the library, `nursery` is undefined behaviour. -/
example : runLoop nursery base 10 3 3 [] 0 (crowd [0]) = some .ub := by rfl

end Esl.Population
