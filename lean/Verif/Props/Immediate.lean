import Verif.Props.Scheduler
/-! # C20, C21: messages that are delivered at once, or dated in the past -/
namespace Esl.Sched
open Esl.Comm
variable {σ : Type}

/-- Everything in the log happened at or before a time. -/
def Until (t : Nat) (w : World σ) : Prop := ∀ e ∈ w.log, e.time ≤ t

theorem stepLoop_induct_until {P : Program σ} {end_ : Nat} {step : Step} (I : World σ → Prop)
    (hI : ∀ n w w', (w.agents.map (·.id)).Nodup → Until step.lower w → round P end_ step n w = .ok w' → I w → I w') (fuel n : Nat) (w w' : World σ)
    (hu : (w.agents.map (·.id)).Nodup) (ht : Until step.lower w) (h : stepLoop P end_ step fuel n w = some (.ok w')) (h0 : I w) : I w' ∧ Until step.lower w' := by
  induction fuel generalizing n w with
  | zero => cases h
  | succ fuel ih =>
    unfold stepLoop at h
    cases hr : round P end_ step n w with
    | throws => rw [hr] at h; cases h
    | ub => rw [hr] at h; cases h
    | ok w1 =>
      rw [hr] at h
      simp only at h
      have ht1 : Until step.lower w1 := by
        obtain ⟨l, h1, -, h3⟩ := round_log hr
        intro e he
        rw [h1] at he
        rcases List.mem_append.mp he with he | he
        · exact ht e he
        · exact Nat.le_of_eq (h3 e he).1
      split at h
      · exact ih (n + 1) w1 (by rw [round_ids hu hr]; exact hu) ht1 h (hI n w w1 hu ht hr h0)
      · simp only [Option.some.injEq, Outcome.ok.injEq] at h
        subst h
        exact ⟨hI n w w1 hu ht hr h0, ht1⟩

/-- Induction over the rounds of a run, with the times of what happened before. -/
theorem run_induct_until (P : Program σ) (end_ fuel : Nat) (I : World σ → Prop)
    (hI : ∀ step n w w', step.upper = end_ → (w.agents.map (·.id)).Nodup → Until step.lower w → round P end_ step n w = .ok w' → I w → I w')
    (k lower : Nat) (w w' : World σ) (ts : List Nat) (hu : (w.agents.map (·.id)).Nodup) (ht : Until lower w) (h : runLoop P end_ fuel k lower w = some (.ok (w', ts))) (h0 : I w) : I w' := by
  induction k generalizing lower w w' ts with
  | zero => cases h
  | succ k ih =>
    unfold runLoop at h
    cases hs : modelStep P end_ fuel ⟨lower, end_⟩ w with
    | none => rw [hs] at h; cases h
    | some o =>
      cases o with
      | throws => rw [hs] at h; cases h
      | ub => rw [hs] at h; cases h
      | ok w1 =>
        rw [hs] at h
        simp only at h
        have hf := C18_step_forward P end_ fuel _ w w1 hu hs
        unfold modelStep at hs
        split at hs
        · cases hs
        · have h1 := stepLoop_last fuel 0 w w1 hu hs
          obtain ⟨h2, h3⟩ := stepLoop_induct_until I (fun n v v' => hI ⟨lower, end_⟩ n v v' rfl) fuel 0 w w1 hu ht hs h0
          split at h
          · split at h
            · rename_i w2 ts2 hr
              simp only [Option.some.injEq, Outcome.ok.injEq, Prod.mk.injEq] at h
              obtain ⟨rfl, rfl⟩ := h
              refine ih _ _ _ _ (by rw [h1.2.2]; exact hu) ?_ hr h2
              intro e he
              have h4 := h3 e he
              have h5 := hf.1
              simp only at h4 h5
              omega
            · rename_i hne
              exact absurd h (hne w' ts)
          · simp only [Option.some.injEq, Outcome.ok.injEq, Prod.mk.injEq] at h
            obtain ⟨rfl, rfl⟩ := h
            exact h2

/-- Where a message is that was sent for a time that is not later than that of sending. -/
def Prompt (w : World σ) : Prop :=
  ∀ before e after, w.log = before ++ e :: after → ∀ m ∈ e.sent, m.received ≤ e.time →
    (∃ x ∈ w.agents, m ∈ x.outbox) ∨
    (∃ x ∈ w.agents, x.id = m.recipient ∧ (m.received, m) ∈ x.inbox ∧ ∃ t, findWake w.wake m.recipient = some t ∧ t ≤ m.received) ∨
    ∃ e' ∈ after, e'.agent = m.recipient ∧ e'.time = m.received ∧ m ∈ e'.due

theorem prompt_runJob {P : Program σ} {end_ : Nat} {step : Step} {n : Nat} {a : Agent σ} {rem : List (Agent σ)} {w w' : World σ} (hm : Mid step.lower (a :: rem) w) (ht : Until step.lower w) (h : runJob P end_ step n a w = .ok w')
    (hp : Prompt w) : Prompt w' := by
  obtain ⟨-, rfl⟩ := runJob_ok h
  obtain ⟨jid, ja, jt, -, jin, jdue, jpend, jout⟩ := job_fields P step n a
  have ham := hm.sub a (List.mem_cons_self ..)
  intro b e c hl m hme hle
  simp only at hl ⊢
  rcases split_append_singleton hl with ⟨rfl, rfl, rfl⟩ | ⟨c', rfl, hl'⟩
  · left
    exact ⟨_, mem_putAgent_self _ a _ ham jid, by rw [jout]; exact List.mem_append_right _ hme⟩
  · have hte : e.time ≤ step.lower := ht e (by rw [hl']; exact List.mem_append_right _ (List.mem_cons_self ..))
    rcases hp b e c' hl' m hme hle with ⟨x, hx, h1⟩ | ⟨x, hx, h1, h2, t, h3, h4⟩ | ⟨e', he', h1⟩
    · left
      by_cases hxa : x.id = a.id
      · have := eq_of_id hm.ids hx ham hxa
        subst this
        exact ⟨_, mem_putAgent_self _ x _ ham jid, by rw [jout]; exact List.mem_append_left _ h1⟩
      · exact ⟨x, mem_putAgent_of_ne _ _ _ hx (by rw [jid]; exact hxa), h1⟩
    · by_cases hxa : x.id = a.id
      · have := eq_of_id hm.ids hx ham hxa
        subst this
        have hd := hm.due x (List.mem_cons_self ..)
        rw [← h1, hd, Option.some.injEq] at h3
        right; right
        refine ⟨_, List.mem_append_right _ (List.mem_singleton_self _), by rw [ja, h1], by rw [jt]; omega, ?_⟩
        rw [jdue]
        exact List.mem_map.2 ⟨_, List.mem_filter.2 ⟨h2, by simp; omega⟩, rfl⟩
      · right; left
        refine ⟨x, mem_putAgent_of_ne _ _ _ hx (by rw [jid]; exact hxa), h1, h2, t, ?_, h4⟩
        rw [findWake_setWake, if_neg (by rw [← h1]; exact hxa)]
        exact h3
    · exact .inr (.inr ⟨e', List.mem_append_left _ he', h1⟩)

theorem prompt_round {P : Program σ} {end_ : Nat} {step : Step} {n : Nat} {w w' : World σ} (hn : (w.agents.map (·.id)).Nodup) (ht : Until step.lower w) (h : round P end_ step n w = .ok w') (hp : Prompt w) : Prompt w' := by
  obtain ⟨w1, s, sent, h1, h2, rfl⟩ := round_ok h
  have e1 := runJobs_ids _ _ _ _ _ _ _ h1
  obtain ⟨e0, e2, e3, _⟩ := sendMessages_inv (by rw [e1]; exact hn) h2
  have hp1 : Prompt w1 ∧ Until step.lower w1 := by
    refine runJobs_induct (fun v => Prompt v ∧ Until step.lower v) (fun a rem w w' hm hj hI => ⟨prompt_runJob hm hI.2 hj hI.1, ?_⟩) _ _ _ (mid_start _ w hn _) h1 ⟨?_, ht⟩
    · obtain ⟨-, rfl⟩ := runJob_ok hj
      intro e he
      rcases List.mem_append.mp he with he | he
      · exact hI.2 e he
      · rw [List.mem_singleton.mp he, (job_fields P step n a).2.2.1]
        exact Nat.le_refl _
    · intro b e c hl m hme hle
      rcases hp b e c hl m hme hle with h | ⟨x, hx, g1, g2, t, g3, g4⟩ | h
      · exact .inl h
      · right; left
        exact ⟨x, hx, g1, g2, t, by simp only; rw [findWake_emplace, g3], g4⟩
      · exact .inr (.inr h)
  have hinb : ∀ x ∈ w1.agents, { receive (w1.agents.flatMap (·.outbox)) x with outbox := [] } ∈ s.1 := by
    intro x hx
    rw [e2]
    exact List.mem_map_of_mem (f := fun x : Agent σ => { receive (w1.agents.flatMap (·.outbox)) x with outbox := [] }) hx
  intro b e c hl m hme hle
  simp only
  rcases hp1.1 b e c hl m hme hle with ⟨x, hx, g1⟩ | ⟨x, hx, g1, g2, t, g3, g4⟩ | h
  · right; left
    obtain ⟨y, hy, hyr⟩ := e0 x hx m g1
    have hall : m ∈ w1.agents.flatMap (·.outbox) := List.mem_flatMap.2 ⟨x, hx, g1⟩
    refine ⟨_, hinb y hy, hyr, ?_, ?_⟩
    · apply (receive_inbox_perm _ y).mem_iff.2
      apply List.mem_append_right
      exact List.mem_map.2 ⟨m, List.mem_filter.2 ⟨hall, by simpa using hyr⟩, rfl⟩
    · rw [e3]
      exact (foldl_lowerWake _ w1.wake m.recipient).2.1 m hall rfl
  · right; left
    refine ⟨_, hinb x hx, g1, ?_, ?_⟩
    · exact (receive_inbox_perm _ x).mem_iff.2 (List.mem_append_left _ g2)
    · rw [e3]
      obtain ⟨t', g5, g6, _⟩ := (foldl_lowerWake (w1.agents.flatMap (·.outbox)) w1.wake m.recipient).1 t g3
      exact ⟨t', g5, by omega⟩
  · exact .inr (.inr h)

/-- **C20.** In a completed run, every message that an agent sends for the time at which it sends it is processed at this time, in a later action of the recipient. This needs no assumption on the agents. -/
theorem C20_immediate (P : Program σ) (start end_ fuel k : Nat) (w w' : World σ) (ts : List Nat) (hu : Spec.UniqueIds w) (hl : w.log = []) (h : runLoop P end_ fuel k start w = some (.ok (w', ts)))
    (before after : List Event) (e : Event) (he : w'.log = before ++ e :: after) (m : Msg) (hm : m ∈ e.sent) (hle : m.received ≤ e.time) :
    ∃ e' ∈ after, e'.agent = m.recipient ∧ e'.time = m.received ∧ m ∈ e'.due := by
  obtain ⟨hf, -, -, hts, acts, hacts, hin, -⟩ := C18_run P start end_ fuel k w w' ts hu h
  have hp := run_induct_until P end_ fuel (fun v => Prompt v ∧ (NoOutbox v ∨ v.log = [])) (fun step n w w' _ hn ht hr hp => ⟨prompt_round hn ht hr hp.1, .inl (noOutbox_round hn hr)⟩) k start w w' ts hu
    (by intro e he; rw [hl] at he; cases he) h ⟨by intro b e c hb; rw [hl] at hb; simp at hb, .inr hl⟩
  obtain ⟨-, h2⟩ := run_induct P end_ fuel (fun _ => True) (fun _ _ _ _ _ _ _ => trivial) k start w w' ts hu h trivial
  rcases hp.1 before e after he m hm hle with ⟨x, hx, h3⟩ | ⟨x, hx, _, _, t, h3, h4⟩ | h3
  · rcases hp.2 with h4 | h4
    · rw [h4 x hx] at h3; cases h3
    · rw [h4] at he; simp at he
  · exfalso
    have h5 := determineNext_le_find end_ w'.wake _ _ h3
    have h6 : e.time ∈ ts := hin e (by
      have : e ∈ w'.log := by rw [he]; exact List.mem_append_right _ (List.mem_cons_self ..)
      rw [hacts, hl] at this
      simpa using this)
    have := (hts _ h6).2
    omega
  · exact h3

/-- **C21 (negation, in general).** Whatever the agents do: no run in which a message is sent that is dated before the time of sending completes. -/
theorem C21_counterexample_dated_past (P : Program σ) (start end_ fuel k : Nat) (w w' : World σ) (ts : List Nat) (hu : Spec.UniqueIds w) (hl : w.log = []) (h : runLoop P end_ fuel k start w = some (.ok (w', ts)))
    (e : Event) (he : e ∈ w'.log) (m : Msg) (hm : m ∈ e.sent) : e.time ≤ m.received := by
  obtain ⟨before, after, hs⟩ := List.append_of_mem he
  obtain ⟨-, -, -, -, acts, hacts, -, hsort⟩ := C18_run P start end_ fuel k w w' ts hu h
  apply Classical.byContradiction
  intro hlt
  obtain ⟨e', he', -, ht, -⟩ := C20_immediate P start end_ fuel k w w' ts hu hl h before after e hs m hm (by omega)
  rw [hl, List.nil_append] at hacts
  rw [← hacts, hs, List.pairwise_append] at hsort
  have := (List.pairwise_cons.mp hsort.2.1).1 e' he'
  omega

/-- An agent that at time 3 sends itself a message for time 3, in the first round. -/
def prompt : Program Unit where
  handlers := fun _ _ _ => []
  act := fun _ n _ step => ((), (if step.lower = 3 ∧ n = 0 then [⟨1, 0, 0, 3, 3, 42⟩] else []), if step.lower < 3 then 3 else step.upper)
  shuffle := fun _ _ _ l => l

example : ∃ w' ts before e after, runLoop prompt 10 5 5 0 lone = some (.ok (w', ts)) ∧ w'.log = before ++ e :: after ∧ e.time = 3 ∧ e.sent = [⟨1, 0, 0, 3, 3, 42⟩] :=
  ⟨_, _, [⟨0, 0, 0, [], [], [], [], 3⟩], ⟨0, 3, 0, [], [], [⟨1, 0, 0, 3, 3, 42⟩], [], 10⟩, _, rfl, rfl, rfl, rfl⟩

end Esl.Sched
