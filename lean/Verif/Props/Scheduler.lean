import Verif.Lemmas.Scheduler
import Verif.Props.Communicator
/-! # C18-C22, C71, C74: the scheduler -/
namespace Esl.Sched
open Esl.Comm
variable {σ : Type}

/-! ## Specifications -/

/-- Identities are unique (`local_agents_` is a map; see also C02). -/
def Spec.UniqueIds (w : World σ) : Prop := (w.agents.map (·.id)).Nodup

/-- In a log of actions: every wake-up time asked for is honoured, i.e. the action is followed by another action of the same
agent at a time not later than the one asked for, unless the time asked for lies at or behind `horizon`. -/
def Spec.WakeUpsHonoured (horizon : Nat) (log : List Event) : Prop :=
  ∀ before e after, log = before ++ e :: after →
    horizon ≤ e.requested ∨ ∃ e' ∈ after, e'.agent = e.agent ∧ e'.time ≤ e.requested

/-- In a log of actions: every message sent is among the due messages of an action of its recipient that happens
later in the log and at exactly its delivery time, unless the delivery time lies at or behind `horizon`. -/
def Spec.DeliveredOnTime (horizon : Nat) (log : List Event) : Prop :=
  ∀ before e after, log = before ++ e :: after → ∀ m ∈ e.sent,
    horizon ≤ m.received ∨ ∃ e' ∈ after, e'.agent = m.recipient ∧ e'.time = m.received ∧ m ∈ e'.due

/-- No agent goes to sleep beyond the delivery of a message that already waits in its inbox. -/
def Spec.Attentive (log : List Event) : Prop := ∀ e ∈ log, ∀ t ∈ e.pending, e.requested ≤ t

/-! ## C18 -/

/-- **C18.** A completed step that starts at `t` returns a time after `t` and not after the end of the
simulation, all actions happen at time `t`, and no accepted request lies in the past. This holds for all agents. -/
theorem C18_step_forward (P : Program σ) (end_ fuel : Nat) (step : Step) (w w' : World σ) (hu : Spec.UniqueIds w)
    (h : modelStep P end_ fuel step w = some (.ok w')) :
    step.lower < w'.first ∧ w'.first ≤ end_ ∧
    ∃ acts, w'.log = w.log ++ acts ∧ ∀ e ∈ acts, e.time = step.lower ∧ step.lower ≤ e.requested := by
  unfold modelStep at h
  split at h
  · simp at h
  · have h1 := stepLoop_last fuel 0 w w' hu h
    exact ⟨h1.1, by rw [h1.2.1]; exact determineNext_le_end _ _, stepLoop_log fuel 0 w w' h⟩

theorem runLoop_spec (P : Program σ) (end_ fuel k lower : Nat) (w w' : World σ) (ts : List Nat)
    (hu : Spec.UniqueIds w) (h : runLoop P end_ fuel k lower w = some (.ok (w', ts))) :
    w'.first = end_ ∧ ts.head? = some lower ∧ ts.Pairwise (· < ·) ∧ (∀ t ∈ ts, lower ≤ t ∧ t < end_) ∧
    ∃ acts, w'.log = w.log ++ acts ∧ (∀ e ∈ acts, e.time ∈ ts) ∧ acts.Pairwise fun a b => a.time ≤ b.time := by
  induction k generalizing lower w w' ts with
  | zero => simp [runLoop] at h
  | succ k ih =>
    unfold runLoop at h
    cases hs : modelStep P end_ fuel ⟨lower, end_⟩ w with
    | none => rw [hs] at h; simp at h
    | some o =>
      cases o with
      | throws => rw [hs] at h; simp at h
      | ub => rw [hs] at h; simp at h
      | ok w1 =>
        rw [hs] at h
        simp only at h
        obtain ⟨h1, h2, acts, h3, h4⟩ := C18_step_forward P end_ fuel _ w w1 hu hs
        have hu1 : Spec.UniqueIds w1 := by
          unfold modelStep at hs
          split at hs
          · simp at hs
          · have := (stepLoop_last fuel 0 w w1 hu hs).2.2
            unfold Spec.UniqueIds
            rw [this]; exact hu
        split at h
        · rename_i hlt
          split at h
          · rename_i w2 ts2 hr
            simp at h
            obtain ⟨rfl, rfl⟩ := h
            obtain ⟨g1, g2, g3, g4, acts2, g5, g6, g7⟩ := ih _ _ _ _ hu1 hr
            simp only at h1
            refine ⟨g1, rfl, ?_, ?_, acts ++ acts2, by rw [g5, h3, List.append_assoc], ?_, ?_⟩
            · rw [List.pairwise_cons]
              exact ⟨fun t ht => by have := (g4 t ht).1; omega, g3⟩
            · intro t ht
              rcases List.mem_cons.1 ht with rfl | ht
              · omega
              · have := g4 t ht; omega
            · intro e he
              rcases List.mem_append.1 he with he | he
              · rw [(h4 e he).1]; exact List.mem_cons_self ..
              · exact List.mem_cons_of_mem _ (g6 e he)
            · rw [List.pairwise_append]
              refine ⟨?_, g7, ?_⟩
              · rw [List.pairwise_iff_forall_sublist]
                intro a b hab
                rw [(h4 a (hab.subset (by simp))).1, (h4 b (hab.subset (by simp))).1]
                exact Nat.le_refl _
              · intro a ha b hb
                have := (g4 _ (g6 b hb)).1
                rw [(h4 a ha).1]
                simp only
                omega
          · rename_i hne
            exact absurd h (hne w' ts)
        · simp at h
          obtain ⟨rfl, rfl⟩ := h
          simp only at h1
          refine ⟨by omega, rfl, by simp, ?_, acts, h3, ?_, ?_⟩
          · intro t ht; simp at ht; subst ht; omega
          · intro e he; simp [(h4 e he).1]
          · rw [List.pairwise_iff_forall_sublist]
            intro a b hab
            rw [(h4 a (hab.subset (by simp))).1, (h4 b (hab.subset (by simp))).1]
            exact Nat.le_refl _

/-- **C18.** A completed run over `[start, end)` visits strictly increasing times in `[start, end)`, starting with
`start`, ends at `end`; agents act only at visited times, in order of time. -/
theorem C18_run (P : Program σ) (start end_ fuel k : Nat) (w w' : World σ) (ts : List Nat)
    (hu : Spec.UniqueIds w) (h : runLoop P end_ fuel k start w = some (.ok (w', ts))) :
    w'.first = end_ ∧ ts.head? = some start ∧ ts.Pairwise (· < ·) ∧ (∀ t ∈ ts, start ≤ t ∧ t < end_) ∧
    ∃ acts, w'.log = w.log ++ acts ∧ (∀ e ∈ acts, e.time ∈ ts) ∧ acts.Pairwise fun a b => a.time ≤ b.time :=
  runLoop_spec P end_ fuel k start w w' ts hu h

/-! ## C19 -/

/-- **C19.** The time returned by a completed step is the minimum of the end of the simulation and all
wake-up times. -/
theorem C19_minimum (P : Program σ) (end_ fuel : Nat) (step : Step) (w w' : World σ) (hu : Spec.UniqueIds w)
    (h : modelStep P end_ fuel step w = some (.ok w')) :
    (∀ t ∈ end_ :: w'.wake.map (·.2), w'.first ≤ t) ∧ w'.first ∈ end_ :: w'.wake.map (·.2) := by
  unfold modelStep at h
  split at h
  · simp at h
  · have h1 := (stepLoop_last fuel 0 w w' hu h).2.1
    rw [h1]
    constructor
    · intro t ht
      rcases List.mem_cons.1 ht with rfl | ht
      · exact determineNext_le_end _ _
      · obtain ⟨e, he, rfl⟩ := List.mem_map.1 ht
        exact determineNext_le _ _ e he
    · rcases determineNext_mem end_ w'.wake with h2 | ⟨e, he, h2⟩
      · rw [h2]; exact List.mem_cons_self ..
      · rw [h2]; exact List.mem_cons_of_mem _ (List.mem_map_of_mem he)

/-- Requests are honoured or the agent still has a wake-up time that honours it. -/
def Pending (w : World σ) : Prop :=
  ∀ before e after, w.log = before ++ e :: after →
    (∃ e' ∈ after, e'.agent = e.agent ∧ e'.time ≤ e.requested) ∨
    ∃ t, findWake w.wake e.agent = some t ∧ t ≤ e.requested

theorem split_append_singleton {α : Type} {l b c : List α} {x y : α} (h : l ++ [x] = b ++ y :: c) :
    (c = [] ∧ l = b ∧ x = y) ∨ ∃ c', c = c' ++ [x] ∧ l = b ++ y :: c' := by
  rcases List.eq_nil_or_concat c with rfl | ⟨c', z, rfl⟩
  · left
    have h2 := List.append_inj' h rfl
    refine ⟨rfl, h2.1, ?_⟩
    simpa using h2.2
  · right
    rw [List.concat_eq_append] at h ⊢
    rw [show b ++ y :: (c' ++ [z]) = (b ++ y :: c') ++ [z] by simp] at h
    have h2 := List.append_inj' h rfl
    simp only [List.cons.injEq, and_true] at h2
    exact ⟨c', by rw [h2.2], h2.1⟩

theorem pending_runJob {P : Program σ} {end_ : Nat} {step : Step} {n : Nat} {a : Agent σ} {rem : List (Agent σ)}
    {w w' : World σ} (hm : Mid step.lower (a :: rem) w) (h : runJob P end_ step n a w = .ok w') (hp : Pending w) :
    Pending w' := by
  obtain ⟨_, rfl⟩ := runJob_ok h
  obtain ⟨_, ja, jt, _⟩ := job_fields P step n a
  intro b e c hl
  simp only at hl ⊢
  rcases split_append_singleton hl with ⟨rfl, rfl, rfl⟩ | ⟨c', rfl, hl'⟩
  · right
    exact ⟨_, by rw [ja, findWake_setWake, if_pos rfl], Nat.le_refl _⟩
  · rcases hp b e c' hl' with ⟨e', he', h1⟩ | ⟨t, h1, h2⟩
    · left; exact ⟨e', List.mem_append_left _ he', h1⟩
    · by_cases hea : e.agent = a.id
      · left
        refine ⟨_, List.mem_append_right _ (List.mem_singleton_self _), by rw [ja, hea], ?_⟩
        have hd := hm.due a (List.mem_cons_self ..)
        rw [hea, hd] at h1
        simp at h1
        omega
      · right
        exact ⟨t, by rw [findWake_setWake, if_neg hea]; exact h1, h2⟩

theorem pending_round {P : Program σ} {end_ : Nat} {step : Step} {n : Nat} {w w' : World σ}
    (hn : (w.agents.map (·.id)).Nodup) (h : round P end_ step n w = .ok w') (hp : Pending w) : Pending w' := by
  obtain ⟨w1, s, sent, h1, h2, rfl⟩ := round_ok h
  have e1 := runJobs_ids _ _ _ _ _ _ _ h1
  obtain ⟨_, _, e2, _⟩ := sendMessages_inv (by rw [e1]; exact hn) h2
  have hp1 : Pending w1 := by
    refine runJobs_induct Pending (fun a rem w w' hm hj hI => pending_runJob hm hj hI) _ _ _ (mid_start _ w hn _) h1 ?_
    intro b e c hl
    rcases hp b e c hl with h | ⟨t, h3, h4⟩
    · exact .inl h
    · right
      exact ⟨t, by simp only; rw [findWake_emplace, h3], h4⟩
  intro b e c hl
  rcases hp1 b e c hl with h | ⟨t, h3, h4⟩
  · exact .inl h
  · right
    obtain ⟨t', h5, h6, _⟩ := (foldl_lowerWake (w1.agents.flatMap (·.outbox)) w1.wake e.agent).1 t h3
    exact ⟨t', by simp only; rw [e2]; exact h5, by omega⟩

theorem run_induct (P : Program σ) (end_ fuel : Nat) (I : World σ → Prop)
    (hI : ∀ step n w w', (w.agents.map (·.id)).Nodup → round P end_ step n w = .ok w' → I w → I w')
    (k lower : Nat) (w w' : World σ) (ts : List Nat)
    (hu : (w.agents.map (·.id)).Nodup) (h : runLoop P end_ fuel k lower w = some (.ok (w', ts))) (h0 : I w) :
    I w' ∧ w'.first = determineNext end_ w'.wake := by
  induction k generalizing lower w w' ts with
  | zero => simp [runLoop] at h
  | succ k ih =>
    unfold runLoop at h
    cases hs : modelStep P end_ fuel ⟨lower, end_⟩ w with
    | none => rw [hs] at h; simp at h
    | some o =>
      cases o with
      | throws => rw [hs] at h; simp at h
      | ub => rw [hs] at h; simp at h
      | ok w1 =>
        rw [hs] at h
        simp only at h
        unfold modelStep at hs
        split at hs
        · simp at hs
        · have h1 := stepLoop_last fuel 0 w w1 hu hs
          have hu1 : (w1.agents.map (·.id)).Nodup := by rw [h1.2.2]; exact hu
          have h2 := stepLoop_induct (I := fun v => (v.agents.map (·.id)).Nodup ∧ I v)
            (fun n v v' hv hr => ⟨by rw [round_ids hv.1 hr]; exact hv.1, hI _ n v v' hv.1 hr hv.2⟩) fuel 0 w w1 hs ⟨hu, h0⟩
          split at h
          · split at h
            · rename_i w2 ts2 hr
              simp at h
              obtain ⟨rfl, rfl⟩ := h
              exact ih _ _ _ _ hu1 hr h2.2
            · rename_i hne
              exact absurd h (hne w' ts)
          · simp at h
            obtain ⟨rfl, rfl⟩ := h
            exact ⟨h2.2, h1.2.1⟩

/-- **C19.** In a completed run, every wake-up time that any agent asked for in an action is honoured: the agent
acts again, at or before that time, unless it asked for a time at or after the end of the simulation. -/
theorem C19_no_wakeup_skipped (P : Program σ) (start end_ fuel k : Nat) (w w' : World σ) (ts : List Nat)
    (hu : Spec.UniqueIds w) (hl : w.log = [])
    (h : runLoop P end_ fuel k start w = some (.ok (w', ts))) : Spec.WakeUpsHonoured end_ w'.log := by
  have hf := (C18_run P start end_ fuel k w w' ts hu h).1
  obtain ⟨hp, h2⟩ := run_induct P end_ fuel Pending (fun step n w w' hn hr hp => pending_round hn hr hp) k start w w' ts hu h
    (by intro b e c hb; rw [hl] at hb; simp at hb)
  intro b e c hlog
  rcases hp b e c hlog with h3 | ⟨t, h3, h4⟩
  · exact .inr h3
  · left
    have := determineNext_le_find end_ w'.wake _ _ h3
    omega

/-- **C19.** In a completed step, every agent that was to wake up at the time of the step, and every new agent, acts. -/
theorem C19_acts_when_due (P : Program σ) (end_ fuel : Nat) (step : Step) (w w' : World σ)
    (h : modelStep P end_ fuel step w = some (.ok w')) (a : Agent σ) (ha : a ∈ w.agents)
    (hd : findWake w.wake a.id = none ∨ findWake w.wake a.id = some step.lower) :
    ∃ e ∈ w'.log.drop w.log.length, e.agent = a.id ∧ e.time = step.lower := by
  unfold modelStep at h
  split at h
  · simp at h
  · cases fuel with
    | zero => simp [stepLoop] at h
    | succ fuel =>
      unfold stepLoop at h
      cases hr : round P end_ step 0 w with
      | throws => rw [hr] at h; simp at h
      | ub => rw [hr] at h; simp at h
      | ok w1 =>
        obtain ⟨l, h1, h2, h3⟩ := round_log hr
        have hmem : a.id ∈ l.map (·.agent) := by
          rw [h2]
          refine List.mem_map_of_mem (List.mem_filter.2 ⟨ha, ?_⟩)
          rw [findWake_emplace]
          rcases hd with hd | hd
          · rw [hd]; simp only; rw [if_pos (List.mem_map_of_mem ha)]; simp
          · rw [hd]; simp
        obtain ⟨e, he, hea⟩ := List.mem_map.1 hmem
        have hpre : ∃ l2, w'.log = w1.log ++ l2 := by
          rw [hr] at h
          simp only at h
          split at h
          · obtain ⟨l2, h4, _⟩ := stepLoop_log _ _ _ _ h
            exact ⟨l2, h4⟩
          · simp at h; subst h; exact ⟨[], by simp⟩
        obtain ⟨l2, h4⟩ := hpre
        refine ⟨e, ?_, hea, (h3 e he).1⟩
        rw [h4, h1, List.append_assoc, List.drop_left]
        exact List.mem_append_left _ he


/-! ## C20 -/

/-- Where a message that was sent can be: still in the outbox of its sender, in the inbox of its recipient (who will be
awake by its delivery time), or processed at its delivery time. -/
def InTransit (w : World σ) : Prop :=
  ∀ before e after, w.log = before ++ e :: after → ∀ m ∈ e.sent,
    (∃ x ∈ w.agents, m ∈ x.outbox) ∨
    (∃ x ∈ w.agents, x.id = m.recipient ∧ (m.received, m) ∈ x.inbox ∧
      ∃ t, findWake w.wake m.recipient = some t ∧ t ≤ m.received) ∨
    ∃ e' ∈ after, e'.agent = m.recipient ∧ e'.time = m.received ∧ m ∈ e'.due

theorem mem_putAgent_self (ags : List (Agent σ)) (a a' : Agent σ) (ha : a ∈ ags) (hid : a'.id = a.id) :
    a' ∈ putAgent ags a' := by
  unfold putAgent
  rw [List.mem_map]
  exact ⟨a, ha, by simp [hid]⟩

theorem eq_of_id {ags : List (Agent σ)} (hn : (ags.map (·.id)).Nodup) {x y : Agent σ} (hx : x ∈ ags) (hy : y ∈ ags)
    (h : x.id = y.id) : x = y := by
  induction ags with
  | nil => simp at hx
  | cons z l ih =>
    rw [List.map_cons, List.nodup_cons] at hn
    rcases List.mem_cons.1 hx with rfl | hx <;> rcases List.mem_cons.1 hy with rfl | hy
    · rfl
    · exact absurd (h ▸ List.mem_map_of_mem hy) hn.1
    · exact absurd (h ▸ List.mem_map_of_mem (f := fun a : Agent σ => a.id) (by assumption)) hn.1
    · exact ih hn.2 hx hy

theorem transit_runJob {P : Program σ} {end_ : Nat} {step : Step} {n : Nat} {a : Agent σ} {rem : List (Agent σ)}
    {w w' : World σ} (hm : Mid step.lower (a :: rem) w) (h : runJob P end_ step n a w = .ok w')
    (hat : Spec.Attentive w'.log) (hp : InTransit w) : InTransit w' := by
  obtain ⟨_, rfl⟩ := runJob_ok h
  obtain ⟨jid, ja, jt, _, jin, jdue, jpend, jout⟩ := job_fields P step n a
  have ham := hm.sub a (List.mem_cons_self ..)
  intro b e c hl m hme
  simp only at hl ⊢
  rcases split_append_singleton hl with ⟨rfl, rfl, rfl⟩ | ⟨c', rfl, hl'⟩
  · left
    exact ⟨_, mem_putAgent_self _ a _ ham jid, by rw [jout]; exact List.mem_append_right _ hme⟩
  · rcases hp b e c' hl' m hme with ⟨x, hx, h1⟩ | ⟨x, hx, h1, h2, t, h3, h4⟩ | ⟨e', he', h1⟩
    · left
      by_cases hxa : x.id = a.id
      · have := eq_of_id hm.ids hx ham hxa
        subst this
        exact ⟨_, mem_putAgent_self _ x _ ham jid, by rw [jout]; exact List.mem_append_left _ h1⟩
      · exact ⟨x, mem_putAgent_of_ne _ _ _ hx (by rw [jid]; exact hxa), h1⟩
    · by_cases hxa : x.id = a.id
      · have := eq_of_id hm.ids hx ham hxa
        subst this
        have hd := hm.due x (List.mem_cons_self ..)
        rw [← h1, hd, Option.some.injEq] at h3
        by_cases hle : m.received ≤ step.lower
        · right; right
          refine ⟨_, List.mem_append_right _ (List.mem_singleton_self _), by rw [ja, h1], by rw [jt]; omega, ?_⟩
          rw [jdue]
          exact List.mem_map.2 ⟨_, List.mem_filter.2 ⟨h2, by simpa using hle⟩, rfl⟩
        · right; left
          have hin : (m.received, m) ∈ x.inbox.filter (fun e => decide (e.1 > step.lower)) :=
            List.mem_filter.2 ⟨h2, by simp; omega⟩
          refine ⟨_, mem_putAgent_self _ x _ ham jid, by rw [jid, h1], by rw [jin]; exact hin, ?_⟩
          refine ⟨_, by rw [← h1, findWake_setWake, if_pos rfl], ?_⟩
          apply hat _ (by simp only; exact List.mem_append_right _ (List.mem_singleton_self _))
          rw [jpend]
          exact List.mem_map.2 ⟨_, hin, rfl⟩
      · right; left
        refine ⟨x, mem_putAgent_of_ne _ _ _ hx (by rw [jid]; exact hxa), h1, h2, t, ?_, h4⟩
        rw [findWake_setWake, if_neg (by rw [← h1]; exact hxa)]
        exact h3
    · right; right
      exact ⟨e', List.mem_append_left _ he', h1⟩

theorem transit_round {P : Program σ} {end_ : Nat} {step : Step} {n : Nat} {w w' : World σ}
    (hn : (w.agents.map (·.id)).Nodup) (h : round P end_ step n w = .ok w')
    (hat : Spec.Attentive w'.log) (hp : InTransit w) : InTransit w' := by
  obtain ⟨w1, s, sent, h1, h2, rfl⟩ := round_ok h
  have e1 := runJobs_ids _ _ _ _ _ _ _ h1
  obtain ⟨e0, e2, e3, _⟩ := sendMessages_inv (by rw [e1]; exact hn) h2
  have hp1 : InTransit w1 := by
    have hgen : ∀ (as : List (Agent σ)) (v v' : World σ), Mid step.lower as v → runJobs P end_ step n as v = .ok v' →
        Spec.Attentive v'.log → InTransit v → InTransit v' := by
      intro as
      induction as with
      | nil => intro v v' _ hr _ hv; simp [runJobs] at hr; subst hr; exact hv
      | cons a rem ih =>
        intro v v' hm hr hat hv
        unfold runJobs at hr
        obtain ⟨v1, g1, g2⟩ := Outcome.bind_eq_ok.1 hr
        refine ih v1 v' (hm.step g1) g2 hat (transit_runJob hm g1 ?_ hv)
        obtain ⟨l, g3, _⟩ := runJobs_log _ _ _ _ _ _ _ g2
        intro e he
        exact hat e (by rw [g3]; exact List.mem_append_left _ he)
    refine hgen _ _ _ (mid_start _ w hn _) h1 hat ?_
    intro b e c hl m hme
    rcases hp b e c hl m hme with h | ⟨x, hx, g1, g2, t, g3, g4⟩ | h
    · exact .inl h
    · right; left
      exact ⟨x, hx, g1, g2, t, by simp only; rw [findWake_emplace, g3], g4⟩
    · exact .inr (.inr h)
  have hinb : ∀ x ∈ w1.agents, { receive (w1.agents.flatMap (·.outbox)) x with outbox := [] } ∈ s.1 := by
    intro x hx
    rw [e2]
    exact List.mem_map_of_mem (f := fun x : Agent σ => { receive (w1.agents.flatMap (·.outbox)) x with outbox := [] }) hx
  intro b e c hl m hme
  simp only
  rcases hp1 b e c hl m hme with ⟨x, hx, g1⟩ | ⟨x, hx, g1, g2, t, g3, g4⟩ | h
  · right; left
    obtain ⟨y, hy, hyr⟩ := e0 x hx m g1
    have hall : m ∈ w1.agents.flatMap (·.outbox) := List.mem_flatMap.2 ⟨x, hx, g1⟩
    refine ⟨_, hinb y hy, hyr, ?_, ?_⟩
    · apply (receive_inbox_perm _ y).mem_iff.2
      apply List.mem_append_right
      exact List.mem_map.2 ⟨m, List.mem_filter.2 ⟨hall, by simpa using hyr⟩, rfl⟩
    · rw [e3]
      exact (foldl_lowerWake _ w1.wake m.recipient).2.1 m hall rfl
  · right; left
    refine ⟨_, hinb x hx, g1, ?_, ?_⟩
    · exact (receive_inbox_perm _ x).mem_iff.2 (List.mem_append_left _ g2)
    · rw [e3]
      obtain ⟨t', g5, g6, _⟩ := (foldl_lowerWake (w1.agents.flatMap (·.outbox)) w1.wake m.recipient).1 t g3
      exact ⟨t', g5, by omega⟩
  · exact .inr (.inr h)

/-- After a round all outboxes are empty. -/
def NoOutbox (w : World σ) : Prop := ∀ x ∈ w.agents, x.outbox = []

theorem noOutbox_round {P : Program σ} {end_ : Nat} {step : Step} {n : Nat} {w w' : World σ}
    (hn : (w.agents.map (·.id)).Nodup) (h : round P end_ step n w = .ok w') : NoOutbox w' := by
  obtain ⟨w1, s, sent, h1, h2, rfl⟩ := round_ok h
  have e1 := runJobs_ids _ _ _ _ _ _ _ h1
  obtain ⟨e0, e2, e3, _⟩ := sendMessages_inv (by rw [e1]; exact hn) h2
  intro x hx
  simp only [e2] at hx
  obtain ⟨y, _, rfl⟩ := List.mem_map.1 hx
  rfl

/-- **C20 (partial).** In a completed run, every message that any agent sends is processed by its recipient in an action at
exactly its delivery time (or is due at or after the end), provided that agents are attentive: no agent that acts asks
to be woken later than the delivery of a message that already waits in its inbox. Missing: agents that are not attentive, for which
the code loses the wake-up (see the counterexample). -/
theorem C20_on_time_partial (P : Program σ) (start end_ fuel k : Nat) (w w' : World σ) (ts : List Nat)
    (hu : Spec.UniqueIds w) (hl : w.log = [])
    (h : runLoop P end_ fuel k start w = some (.ok (w', ts))) (hat : Spec.Attentive w'.log) :
    Spec.DeliveredOnTime end_ w'.log := by
  have hf := (C18_run P start end_ fuel k w w' ts hu h).1
  obtain ⟨hp, h2⟩ := run_induct P end_ fuel (fun v => (Spec.Attentive v.log → InTransit v) ∧ (NoOutbox v ∨ v.log = []))
    (fun step n w w' hn hr hp => by
      refine ⟨fun ha => transit_round hn hr ha (hp.1 ?_), .inl (noOutbox_round hn hr)⟩
      obtain ⟨l, g, _⟩ := round_log hr
      intro e he
      exact ha e (by rw [g]; exact List.mem_append_left _ he)) k start w w' ts hu h
    ⟨fun _ => by intro b e c hb; rw [hl] at hb; simp at hb, .inr hl⟩
  intro b e c hlog m hm
  rcases hp.1 hat b e c hlog m hm with ⟨x, hx, h3⟩ | ⟨x, hx, _, _, t, h3, h4⟩ | h3
  · rcases hp.2 with h4 | h4
    · rw [h4 x hx] at h3; simp at h3
    · rw [h4] at hlog; simp at hlog
  · left
    have := determineNext_le_find end_ w'.wake _ _ h3
    omega
  · exact .inr h3

/-- An agent that at time 0 sends itself a message for time 5 and asks to be woken at time 3, and then asks to sleep
until the end. -/
def forgetful : Program Unit where
  handlers := fun _ _ _ => []
  act := fun _ _ _ step =>
    if step.lower = 0 then ((), [⟨1, 0, 0, 0, 5, 42⟩], 3) else ((), [], step.upper)
  shuffle := fun _ _ _ l => l

/-- One agent without messages. -/
def lone : World Unit := ⟨[⟨0, (), [], []⟩], [], 0, []⟩

/-- **C20 (negation).** The message of `forgetful` for time 5 is never processed, although the run to time 10 completes: the
agent is woken at time 0 and 3 only. -/
theorem C20_counterexample_lost_wakeup :
    ∃ w' ts, runLoop forgetful 10 5 5 0 lone = some (.ok (w', ts)) ∧ Spec.UniqueIds lone ∧
      ¬ Spec.DeliveredOnTime 10 w'.log := by
  refine ⟨⟨[⟨0, (), [(5, ⟨1, 0, 0, 0, 5, 42⟩)], []⟩], [(0, 10)], 10,
    [⟨0, 0, 0, [], [], [⟨1, 0, 0, 0, 5, 42⟩], [], 3⟩, ⟨0, 3, 0, [], [], [], [5], 10⟩]⟩, [0, 3], ?_,
    by unfold Spec.UniqueIds lone; simp, ?_⟩
  · rfl
  · intro h
    have h := h [] ⟨0, 0, 0, [], [], [⟨1, 0, 0, 0, 5, 42⟩], [], 3⟩
      [⟨0, 3, 0, [], [], [], [5], 10⟩] rfl ⟨1, 0, 0, 0, 5, 42⟩ (by simp)
    simp at h

/-! ## C21, C71: what keeps a step from completing -/

/-- An agent whose wake-up time lies in the past stays there in every round. -/
theorem overdue_round {P : Program σ} {end_ : Nat} {step : Step} {n : Nat} {w w' : World σ}
    (hn : (w.agents.map (·.id)).Nodup) (h : round P end_ step n w = .ok w') (i t : Nat)
    (hw : findWake w.wake i = some t) (hno : t < step.lower ∨ i ∉ w.agents.map (·.id)) :
    ∃ t', findWake w'.wake i = some t' ∧ t' ≤ t := by
  obtain ⟨w1, s, sent, h1, h2, rfl⟩ := round_ok h
  have e1 := runJobs_ids _ _ _ _ _ _ _ h1
  obtain ⟨e0, e2, e3, _⟩ := sendMessages_inv (by rw [e1]; exact hn) h2
  have hw1 : findWake w1.wake i = some t := by
    refine runJobs_induct (fun v => v.agents.map (·.id) = w.agents.map (·.id) ∧ findWake v.wake i = some t) ?_ _ _ _
      (mid_start _ w hn _) h1 ⟨rfl, ?_⟩ |>.2
    · rintro a rem v v' hm hj ⟨hids, hv⟩
      have hd := hm.due a (List.mem_cons_self ..)
      have hmem := hm.sub a (List.mem_cons_self ..)
      have hne : i ≠ a.id := by
        rintro rfl
        rcases hno with h | h
        · rw [hv] at hd; simp at hd; omega
        · exact h (hids ▸ List.mem_map_of_mem hmem)
      obtain ⟨_, rfl⟩ := runJob_ok hj
      simp only
      exact ⟨by rw [putAgent_ids]; exact hids, by rw [findWake_setWake, if_neg hne]; exact hv⟩
    · simp only
      rw [findWake_emplace, hw]
  obtain ⟨t', g5, g6, _⟩ := (foldl_lowerWake (w1.agents.flatMap (·.outbox)) w1.wake i).1 t hw1
  exact ⟨t', by simp only; rw [e3]; exact g5, g6⟩

theorem never_completes (P : Program σ) (end_ : Nat) (step : Step) (fuel n : Nat) (w w' : World σ)
    (hn : (w.agents.map (·.id)).Nodup) (i t : Nat) (hw : findWake w.wake i = some t)
    (hno : t < step.lower ∨ (t ≤ step.lower ∧ i ∉ w.agents.map (·.id))) :
    stepLoop P end_ step fuel n w ≠ some (.ok w') := by
  induction fuel generalizing n w t with
  | zero => simp [stepLoop]
  | succ fuel ih =>
    unfold stepLoop
    cases hr : round P end_ step n w with
    | throws => simp
    | ub => simp
    | ok w1 =>
      simp only
      obtain ⟨t', h1, h2⟩ := overdue_round hn hr i t hw (hno.imp id (·.2))
      have h3 := round_ids hn hr
      have h4 := determineNext_le_find end_ _ _ _ h1
      rw [← round_first hn hr] at h4
      rw [if_pos (by omega)]
      apply ih (n + 1) w1 (by rw [h3]; exact hn) t' h1
      rw [h3]
      rcases hno with h | h
      · left; omega
      · right; exact ⟨by omega, h.2⟩

/-- **C21 (negation, in general).** Whatever the agents do: if at the start of a step some agent's wake-up time lies before the
current time, which is what a message dated in the past leads to (see `C21_counterexample_late_message`), the step never completes. -/
theorem C21_counterexample_overdue (P : Program σ) (end_ fuel : Nat) (step : Step) (w w' : World σ)
    (hu : Spec.UniqueIds w) (i t : Nat) (hw : findWake w.wake i = some t) (ht : t < step.lower) :
    modelStep P end_ fuel step w ≠ some (.ok w') := by
  unfold modelStep
  split
  · simp
  · exact never_completes P end_ step fuel 0 w w' hu i t hw (.inl ht)

/-- A simulation in which the only agent sends itself one message at time 5, dated time 3. -/
def late : Program Unit where
  handlers := fun _ _ _ => []
  act := fun _ n _ step => if n = 0 then ((), [⟨1, 0, 0, 5, 3, 42⟩], step.upper) else ((), [], step.upper)
  shuffle := fun _ _ _ l => l

/-- The world after the first round. -/
def stuck : World Unit :=
  ⟨[⟨0, (), [(3, ⟨1, 0, 0, 5, 3, 42⟩)], []⟩], [(0, 3)], 3, [⟨0, 5, 0, [], [], [⟨1, 0, 0, 5, 3, 42⟩], [], 10⟩]⟩

/-- **C21 (negation).** A step in which an agent sends a single message dated in the past does not end: the loop keeps going for any
number of rounds, without an exception. -/
theorem C21_counterexample_late_message (fuel : Nat) : modelStep late 10 fuel ⟨5, 10⟩ lone = none := by
  have hstuck : ∀ n, round late 10 ⟨5, 10⟩ n stuck = .ok stuck := by
    intro n
    rfl
  have hrest : ∀ fuel n, stepLoop late 10 ⟨5, 10⟩ fuel n stuck = none := by
    intro fuel
    induction fuel with
    | zero => intro n; rfl
    | succ fuel ih =>
      intro n
      unfold stepLoop
      rw [hstuck]
      simp only
      rw [if_pos (by decide)]
      exact ih _
  cases fuel with
  | zero => rfl
  | succ fuel =>
    have h0 : round late 10 ⟨5, 10⟩ 0 lone = .ok stuck := rfl
    unfold modelStep stepLoop
    rw [h0]
    simp only
    rw [if_pos (by decide : (5 : Nat) ≥ stuck.first)]
    simpa using hrest fuel 1

/-- Wake-up times are stored once per agent (`wake_up_times` is a map). -/
def Spec.WakeMap (w : World σ) : Prop := (w.wake.map (·.1)).Nodup

theorem setWake_keys (wake : Wake) (a t : Nat) :
    (setWake wake a t).map (·.1) = wake.map (·.1) ∨
    ((setWake wake a t).map (·.1) = wake.map (·.1) ++ [a] ∧ a ∉ wake.map (·.1)) := by
  induction wake with
  | nil => right; simp [setWake]
  | cons e l ih =>
    obtain ⟨b, s⟩ := e
    unfold setWake
    by_cases h : b = a
    · left; simp [h]
    · have h' : ¬ a = b := fun e => h e.symm
      rcases ih with ih | ⟨ih, ih2⟩
      · left; simp [h, ih]
      · right; simp [h, h', ih]; simpa using ih2

theorem setWake_nodup (wake : Wake) (a t : Nat) (h : (wake.map (·.1)).Nodup) : ((setWake wake a t).map (·.1)).Nodup := by
  rcases setWake_keys wake a t with h1 | ⟨h1, h2⟩
  · rw [h1]; exact h
  · rw [h1, List.nodup_append]
    refine ⟨h, by simp, ?_⟩
    intro x hx y hy
    simp at hy
    subst hy
    exact fun e => h2 (e ▸ hx)

theorem findWake_of_mem (wake : Wake) (h : (wake.map (·.1)).Nodup) (e : Nat × Nat) (he : e ∈ wake) :
    findWake wake e.1 = some e.2 := by
  induction wake with
  | nil => simp at he
  | cons x l ih =>
    rw [List.map_cons, List.nodup_cons] at h
    unfold findWake at *
    rcases List.mem_cons.1 he with rfl | he
    · simp
    · have : ¬ x.1 = e.1 := fun hx => h.1 (hx ▸ List.mem_map_of_mem he)
      simp [this]
      simpa using ih h.2 he

theorem emplace_nodup (now : Nat) (ids : List Nat) (wake : Wake) (h : (wake.map (·.1)).Nodup) :
    ((emplaceMissing now ids wake).map (·.1)).Nodup := by
  induction ids generalizing wake with
  | nil => exact h
  | cons i ids ih =>
    have : emplaceMissing now (i :: ids) wake =
        emplaceMissing now ids (if findWake wake i = none then setWake wake i now else wake) := rfl
    rw [this]
    apply ih
    split
    · exact setWake_nodup _ _ _ h
    · exact h

theorem lowerWake_nodup (ms : List Msg) (wake : Wake) (h : (wake.map (·.1)).Nodup) :
    ((ms.foldl (fun wk m => lowerWake wk m.recipient m.received) wake).map (·.1)).Nodup := by
  induction ms generalizing wake with
  | nil => exact h
  | cons m ms ih =>
    simp only [List.foldl_cons]
    apply ih
    unfold lowerWake
    split <;> exact setWake_nodup _ _ _ h

theorem future_runJobs {P : Program σ} {end_ : Nat} {step : Step} {n : Nat} (as : List (Agent σ)) (v v' : World σ)
    (hm : Mid step.lower as v) (h : runJobs P end_ step n as v = .ok v')
    (hfut : ∀ e ∈ v'.log.drop v.log.length, step.lower < e.requested ∧ ∀ m ∈ e.sent, step.lower < m.received)
    (hk : (v.wake.map (·.1)).Nodup)
    (hw : ∀ i t, findWake v.wake i = some t → (∃ a ∈ as, a.id = i) ∨ step.lower < t)
    (ho : ∀ x ∈ v.agents, ∀ m ∈ x.outbox, step.lower < m.received) :
    (v'.wake.map (·.1)).Nodup ∧ (∀ i t, findWake v'.wake i = some t → step.lower < t) ∧
    (∀ x ∈ v'.agents, ∀ m ∈ x.outbox, step.lower < m.received) := by
  induction as generalizing v with
  | nil =>
    simp [runJobs] at h; subst h
    exact ⟨hk, fun i t hi => (hw i t hi).resolve_left (by simp), ho⟩
  | cons a rem ih =>
    unfold runJobs at h
    obtain ⟨v1, h1, h2⟩ := Outcome.bind_eq_ok.1 h
    have hm1 := hm.step h1
    obtain ⟨l, hl, _⟩ := runJobs_log _ _ _ _ _ _ _ h2
    obtain ⟨_, rfl⟩ := runJob_ok h1
    obtain ⟨jid, ja, jt, _, jin, jdue, jpend, jout⟩ := job_fields P step n a
    have hev : (job P step n a).2 ∈ v'.log.drop v.log.length := by
      rw [hl]; simp
    have hr := hm.remIds
    rw [List.map_cons, List.nodup_cons] at hr
    refine ih _ hm1 h2 ?_ (setWake_nodup _ _ _ hk) ?_ ?_
    · intro e he
      apply hfut
      rw [hl] at he ⊢
      simp only [List.drop_left] at he
      simp only [List.append_assoc, List.drop_left]
      exact List.mem_append_right _ he
    · intro i t hi
      simp only [findWake_setWake] at hi
      by_cases hia : i = a.id
      · rw [if_pos hia] at hi
        simp at hi
        right
        have := (hfut _ hev).1
        omega
      · rw [if_neg hia] at hi
        rcases hw i t hi with ⟨x, hx, hxi⟩ | h
        · rcases List.mem_cons.1 hx with rfl | hx
          · exact absurd hxi.symm hia
          · exact .inl ⟨x, hx, hxi⟩
        · exact .inr h
    · intro x hx m hmx
      rcases mem_putAgent _ _ _ hx with rfl | ⟨hx, _⟩
      · rw [jout] at hmx
        rcases List.mem_append.1 hmx with hmx | hmx
        · exact ho a (hm.sub a (List.mem_cons_self ..)) m hmx
        · exact (hfut _ hev).2 m hmx
      · exact ho x hx m hmx

/-- **C21 (partial).** If no wake-up time is overdue when a step starts, the actions of a round ask for times after the current one, and the messages sent in it are
dated after the current time, the step completes with that round. So what keeps a step going is only a message or a wake-up
dated now (handled in the next round) or in the past. Missing: messages dated in the past, which stall the simulation (see the
counterexamples). -/
theorem C21_terminates_partial (P : Program σ) (end_ fuel : Nat) (step : Step) (n : Nat) (w w1 : World σ)
    (hu : Spec.UniqueIds w) (hwm : Spec.WakeMap w) (hempty : ∀ x ∈ w.agents, x.outbox = [])
    (hend : step.lower < end_)
    (hdue : ∀ e ∈ w.wake, e.1 ∈ w.agents.map (·.id) ∧ step.lower ≤ e.2)
    (hr : round P end_ step n w = .ok w1)
    (hfut : ∀ e ∈ w1.log.drop w.log.length, step.lower < e.requested ∧ ∀ m ∈ e.sent, step.lower < m.received) :
    stepLoop P end_ step (fuel + 1) n w = some (.ok w1) := by
  unfold stepLoop
  rw [hr]
  simp only
  have hf := round_first hu hr
  have key : step.lower < w1.first := by
    obtain ⟨w2, s, sent, h1, h2, rfl⟩ := round_ok hr
    have e1 := runJobs_ids _ _ _ _ _ _ _ h1
    obtain ⟨_, _, e3, _⟩ := sendMessages_inv (by rw [e1]; exact hu) h2
    obtain ⟨g1, g2, g3⟩ := future_runJobs _ _ _ (mid_start _ w hu _) h1 hfut (emplace_nodup _ _ _ hwm) (by
      intro i t hi
      simp only at hi
      have hi2 := hi
      rw [findWake_emplace] at hi
      by_cases ht : t = step.lower
      · left
        subst ht
        have hmem : i ∈ w.agents.map (·.id) := by
          split at hi
          · rename_i t' h'
            exact (hdue _ (findWake_mem _ _ _ h')).1
          · split at hi
            · assumption
            · simp at hi
        obtain ⟨a, ha, rfl⟩ := List.mem_map.1 hmem
        exact ⟨a, List.mem_filter.2 ⟨ha, by simp [hi2]⟩, rfl⟩
      · right
        split at hi
        · rename_i t' h'
          have := (hdue _ (findWake_mem _ _ _ h')).2
          simp at hi
          simp at this
          omega
        · split at hi
          · simp at hi; omega
          · simp at hi) (by
      intro x hx m hm
      rw [hempty x hx] at hm
      simp at hm)
    simp only at hf ⊢
    rw [hf]
    have hk2 := lowerWake_nodup (w2.agents.flatMap (·.outbox)) _ g1
    rw [← e3] at hk2
    rcases determineNext_mem end_ s.2 with h | ⟨e, he, h⟩
    · omega
    · rw [h]
      have hfw := findWake_of_mem _ hk2 e he
      rw [e3] at hfw
      rcases (foldl_lowerWake _ w2.wake e.1).2.2 _ hfw with h3 | ⟨m, hm, _, h3⟩
      · exact g2 _ _ h3
      · obtain ⟨x, hx, hxm⟩ := List.mem_flatMap.1 hm
        rw [h3]
        exact g3 x hx m hxm
  rw [if_neg (by omega)]

/-- **C71 (negation, in general).** Whatever the agents do: once an agent was deactivated, no step at or after its last wake-up
time completes. -/
theorem C71_counterexample_deactivated (P : Program σ) (end_ fuel : Nat) (step : Step) (w w' : World σ)
    (hu : Spec.UniqueIds w) (i t : Nat) (hw : findWake w.wake i = some t) (ht : t ≤ step.lower) :
    modelStep P end_ fuel step (deactivateAgent w i) ≠ some (.ok w') := by
  unfold modelStep
  split
  · simp
  · apply never_completes P end_ step fuel 0 (deactivateAgent w i) w' ?_ i t hw (.inr ⟨ht, ?_⟩)
    · unfold deactivateAgent
      exact List.Nodup.sublist (List.Sublist.map _ List.filter_sublist) hu
    · unfold deactivateAgent
      simp

/-- **C71 (partial).** A deactivated agent does not act, and a step can still only return times up to its last wake-up. Missing: advancing
beyond it, which is impossible in the code. -/
theorem C71_bounded_partial (P : Program σ) (end_ fuel : Nat) (step : Step) (w w' : World σ)
    (hu : Spec.UniqueIds w) (i t : Nat) (hw : findWake w.wake i = some t)
    (h : modelStep P end_ fuel step (deactivateAgent w i) = some (.ok w')) :
    w'.first ≤ t ∧ step.lower < t := by
  have hu' : Spec.UniqueIds (deactivateAgent w i) := by
    unfold deactivateAgent
    exact List.Nodup.sublist (List.Sublist.map _ List.filter_sublist) hu
  have hni : i ∉ (deactivateAgent w i).agents.map (·.id) := by
    unfold deactivateAgent; simp
  have hlt : step.lower < t := by
    apply Classical.byContradiction
    intro hge
    exact C71_counterexample_deactivated P end_ fuel step w w' hu i t hw (by omega) h
  refine ⟨?_, hlt⟩
  unfold modelStep at h
  split at h
  · simp at h
  · have h1 := stepLoop_last fuel 0 _ w' hu' h
    have h2 := stepLoop_induct (I := fun v => v.agents.map (·.id) = (deactivateAgent w i).agents.map (·.id) ∧
        ∃ t', findWake v.wake i = some t' ∧ t' ≤ t) (fun n v v' hv hr => by
          have hn : (v.agents.map (·.id)).Nodup := by rw [hv.1]; exact hu'
          refine ⟨(round_ids hn hr).trans hv.1, ?_⟩
          obtain ⟨t', g1, g2⟩ := hv.2
          obtain ⟨t'', g3, g4⟩ := overdue_round hn hr i t' g1 (.inr (by rw [hv.1]; exact hni))
          exact ⟨t'', g3, by omega⟩) fuel 0 _ w' h ⟨rfl, t, hw, Nat.le_refl _⟩
    obtain ⟨_, t', g1, g2⟩ := h2
    have := determineNext_le_find end_ _ _ _ g1
    omega

/-! ## C22 -/

/-- The messages in all outboxes. -/
def Spec.allSent (ags : List (Agent σ)) : List Msg := ags.flatMap (·.outbox)

/-- The messages for agent `i`, filed under their delivery times. -/
def Spec.mailFor (i : Nat) (ms : List Msg) : Inbox := (ms.filter fun m => decide (i = m.recipient)).map fun m => (m.received, m)

/-- **C22.** If all recipients exist, the exchange of messages succeeds, returns the number of messages, and every agent ends up with the
same identity and state, an empty outbox, and an inbox that contains exactly what was there before and all messages addressed to it,
filed under their delivery times and ordered by time. -/
theorem C22_conservation (ags : List (Agent σ)) (wake : Wake) (hn : (ags.map (·.id)).Nodup)
    (h : ∀ m ∈ Spec.allSent ags, ∃ y ∈ ags, y.id = m.recipient) :
    ∃ f wake', sendMessages (ags, wake) = .ok ((ags.map f, wake'), (Spec.allSent ags).length) ∧
      ∀ x ∈ ags, (f x).id = x.id ∧ (f x).state = x.state ∧ (f x).outbox = [] ∧
        (f x).inbox.Perm (x.inbox ++ Spec.mailFor x.id (Spec.allSent ags)) ∧
        (Esl.Comm.Spec.InboxSorted x.inbox → Esl.Comm.Spec.InboxSorted (f x).inbox) := by
  refine ⟨fun x => { receive (ags.flatMap (·.outbox)) x with outbox := [] }, _, sendMessages_ok ags wake hn ?_, ?_⟩
  · intro x hx m hm
    exact h m (List.mem_flatMap.2 ⟨x, hx, hm⟩)
  · intro x _
    exact ⟨rfl, rfl, rfl, receive_inbox_perm _ x, receive_inbox_sorted _ x⟩

/-- **C22.** A message to an agent that does not exist is reported. -/
theorem C22_unknown_recipient (ags : List (Agent σ)) (wake : Wake) (hn : (ags.map (·.id)).Nodup)
    (h : ∃ m ∈ Spec.allSent ags, ¬ ∃ y ∈ ags, y.id = m.recipient) : sendMessages (ags, wake) = .throws := by
  obtain ⟨m, hm, hno⟩ := h
  obtain ⟨x, hx, hm⟩ := List.mem_flatMap.1 hm
  exact sendMessages_throws ags wake hn ⟨x, hx, m, hm, hno⟩

/-- **C22.** No message is lost or duplicated in total. -/
theorem C22_total (ags : List (Agent σ)) (wake : Wake) (hn : (ags.map (·.id)).Nodup)
    (h : ∀ m ∈ Spec.allSent ags, ∃ y ∈ ags, y.id = m.recipient) (m : Msg) :
    ∃ ags' wake' n, sendMessages (ags, wake) = .ok ((ags', wake'), n) ∧
      (ags'.flatMap (·.inbox)).count (m.received, m) =
        (ags.flatMap (·.inbox)).count (m.received, m) + (Spec.allSent ags).count m := by
  obtain ⟨f, wake', h1, h2⟩ := C22_conservation ags wake hn h
  refine ⟨_, _, _, h1, ?_⟩
  have hcount : ∀ (i : Nat) (ms : List Msg), (Spec.mailFor i ms).count (m.received, m) = if i = m.recipient then ms.count m else 0 := by
    intro i ms
    induction ms with
    | nil => simp [Spec.mailFor]
    | cons m' ms ih =>
      unfold Spec.mailFor at ih ⊢
      by_cases hi : i = m'.recipient
      · simp only [List.filter_cons, hi, decide_true, if_true, List.map_cons, List.count_cons] at ih ⊢
        rw [ih]
        by_cases hm : m' = m
        · subst hm; simp
        · simp [hm]
      · simp only [List.filter_cons, hi, decide_false, List.count_cons] at ih ⊢
        rw [if_neg (by simp), ih]
        by_cases hm : m' = m
        · subst hm; simp [hi]
        · simp [hm]
  have hgen : ∀ l : List (Agent σ), (∀ x ∈ l, x ∈ ags) →
      ((l.map f).flatMap (·.inbox)).count (m.received, m) =
      (l.flatMap (·.inbox)).count (m.received, m) + (l.map (·.id)).count m.recipient * (Spec.allSent ags).count m := by
    intro l
    induction l with
    | nil => intro _; simp
    | cons x l ih =>
      intro hl
      have hx := h2 x (hl x (List.mem_cons_self ..))
      have := hx.2.2.2.1.count_eq (m.received, m)
      simp only [List.map_cons, List.flatMap_cons, List.count_append, List.count_cons]
      rw [this, ih fun y hy => hl y (List.mem_cons_of_mem _ hy), List.count_append, hcount]
      by_cases hi : x.id = m.recipient
      · simp [hi, Nat.add_mul]; omega
      · simp [hi]; omega
  rw [hgen ags fun x hx => hx]
  by_cases hm : m ∈ Spec.allSent ags
  · obtain ⟨y, hy, hyr⟩ := h m hm
    have : (ags.map (·.id)).count m.recipient = 1 := by
      have h3 : m.recipient ∈ ags.map (·.id) := hyr ▸ List.mem_map_of_mem hy
      have h4 := List.nodup_iff_count.1 hn m.recipient
      have h5 := List.count_pos_iff.2 h3
      omega
    rw [this, Nat.one_mul]
  · rw [List.count_eq_zero.2 hm]; simp

/-! ## C74 -/

/-- **C74 (negation).** Before every step the environment processes the list of newly created agents; with at least one new agent this
is undefined behaviour. -/
theorem C74_counterexample_activate (l : List Nat) (h : l ≠ []) : activate l = .ub := by
  simp [activate, h]

/-- **C74 (partial).** Without new agents it does nothing. -/
theorem C74_activate_partial : activate [] = .ok ([], 0) := rfl

/-! ## Non-vacuity: a run with two agents -/

/-- Agent 0 sends a message for two units later to agent 1, and wakes up every three units; agent 1 only wakes up for messages. -/
def pingers : Program Nat where
  handlers := fun _ _ _ => []
  act := fun i _ s step =>
    if i = 0 then (s + 1, [⟨1, 0, 1, step.lower, step.lower + 2, s⟩], step.lower + 3) else (s + 1, [], step.upper)
  shuffle := fun _ _ _ l => l

def pair : World Nat := ⟨[⟨0, 0, [], []⟩, ⟨1, 0, [], []⟩], [], 0, []⟩

/-- The run completes, visits 0, 2, 3, 5 and satisfies all hypotheses of C18-C20. -/
example : ∃ w', runLoop pingers 6 9 9 0 pair = some (.ok (w', [0, 2, 3, 5])) ∧ Spec.UniqueIds pair ∧ pair.log = [] ∧
    Spec.Attentive w'.log ∧ w'.log.length = 5 := by
  refine ⟨_, rfl, by unfold Spec.UniqueIds pair; simp, rfl, ?_, rfl⟩
  unfold Spec.Attentive
  decide

/-- The hypotheses of `C21_terminates_partial` are met by the first round of that run. -/
example : ∃ w1, round pingers 6 ⟨0, 6⟩ 0 pair = .ok w1 ∧ Spec.WakeMap pair ∧
    (∀ e ∈ w1.log.drop pair.log.length, 0 < e.requested ∧ ∀ m ∈ e.sent, 0 < m.received) := by
  refine ⟨_, rfl, by unfold Spec.WakeMap pair; simp, ?_⟩
  decide

/-- The hypotheses of `C22_conservation` and `C22_total`: two agents, three messages between them, one of them to the sender itself; and of `C22_unknown_recipient`, if there is no agent 1. -/
example : let ags : List (Agent Nat) := [⟨0, 7, [(1, ⟨1, 1, 0, 1, 1, 9⟩)], [⟨1, 0, 1, 3, 5, 2⟩, ⟨1, 0, 0, 3, 4, 2⟩]⟩, ⟨1, 8, [], [⟨1, 1, 0, 3, 3, 6⟩]⟩]
    (ags.map (·.id)).Nodup ∧ (∀ m ∈ Spec.allSent ags, ∃ y ∈ ags, y.id = m.recipient) ∧ (Spec.allSent ags).length = 3 ∧
    (∃ m ∈ Spec.allSent (ags.take 1), ¬ ∃ y ∈ ags.take 1, y.id = m.recipient) := by decide

/-- The hypotheses of `C71_bounded_partial`: agent 1, which wakes up at time 4, is deactivated, and the step at time 0 completes. -/
example : ∃ w', modelStep (⟨fun _ _ _ => [], fun _ _ s step => (s, [], step.lower + 3), fun _ _ _ l => l⟩ : Program Nat) 6 9 ⟨0, 6⟩ (deactivateAgent ⟨[⟨0, 0, [], []⟩, ⟨1, 0, [], []⟩], [(1, 4)], 0, []⟩ 1) = some (.ok w') ∧
    findWake [(1, 4)] 1 = some 4 ∧ w'.first = 3 := ⟨_, rfl, rfl, rfl⟩

/-- The hypotheses of `C19_acts_when_due`: in a completed step, an agent without a time to wake up and one that is due. -/
example : ∃ w', modelStep pingers 6 9 ⟨0, 6⟩ { pair with wake := [(1, 0)] } = some (.ok w') ∧ findWake [(1, 0)] 0 = none ∧ findWake [(1, 0)] 1 = some 0 := ⟨_, rfl, rfl, rfl⟩

/-- The hypotheses of `C21_counterexample_overdue`. -/
example : Spec.UniqueIds stuck ∧ findWake stuck.wake 0 = some 3 ∧ 3 < (⟨5, 10⟩ : Step).lower := ⟨by unfold Spec.UniqueIds stuck; simp, rfl, by decide⟩

end Esl.Sched
