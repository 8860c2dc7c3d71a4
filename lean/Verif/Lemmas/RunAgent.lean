import Verif.Props.Immediate
import Verif.Lemmas.Ledger
/-!
# One agent in a run

Induction over the jobs of a run, for a property of the state of one agent and the log.
-/
namespace Esl.Sched
open Esl.Comm Esl.Ledger
variable {σ : Type}

/-- An agent whose state fits the log. -/
def Fits (c : Nat) (Q : σ → List Event → Prop) (w : World σ) : Prop := ∃ a ∈ w.agents, a.id = c ∧ InboxOk a ∧ Q a.state w.log

theorem fits_round {P : Program σ} {end_ : Nat} (c : Nat) (Q : σ → List Event → Prop)
    (hself : ∀ step n (a : Agent σ) log, step.upper = end_ → (∀ e ∈ log, e.time ≤ step.lower) → a.id = c → InboxOk a → Q a.state log → Q (job P step n a).1.state (log ++ [(job P step n a).2]))
    (hother : ∀ s log e, e.agent ≠ c → Q s log → Q s (log ++ [e])) {step : Step} {n : Nat} {w w' : World σ} (hupper : step.upper = end_) (hn : (w.agents.map (·.id)).Nodup) (ht : Until step.lower w)
    (h : round P end_ step n w = .ok w') (hf : Fits c Q w) : Fits c Q w' := by
  obtain ⟨w1, s, sent, h1, h2, rfl⟩ := round_ok h
  have e1 := runJobs_ids _ _ _ _ _ _ _ h1
  obtain ⟨-, e2, -, -⟩ := sendMessages_inv (by rw [e1]; exact hn) h2
  have hf1 : Fits c Q w1 ∧ Until step.lower w1 := by
    refine runJobs_induct (fun v => Fits c Q v ∧ Until step.lower v) (fun a rem w w' hm hj hI => ?_) _ _ _ (mid_start _ w hn _) h1 ⟨hf, ht⟩
    obtain ⟨-, rfl⟩ := runJob_ok hj
    obtain ⟨jid, ja, jt, -⟩ := job_fields P step n a
    have ham := hm.sub a (List.mem_cons_self ..)
    refine ⟨?_, fun e he => ?_⟩
    · obtain ⟨⟨x, hx, hxc, hxi, hxq⟩, ht'⟩ := hI
      by_cases hxa : x.id = a.id
      · have := eq_of_id hm.ids hx ham hxa
        subst this
        exact ⟨_, mem_putAgent_self _ x _ ham jid, by rw [jid]; exact hxc, job_inboxOk step n x hxi, hself step n x w.log hupper ht' hxc hxi hxq⟩
      · exact ⟨x, mem_putAgent_of_ne _ _ _ hx (by rw [jid]; exact hxa), hxc, hxi, hother _ _ _ (by rw [ja, ← hxc]; exact fun e => hxa e.symm) hxq⟩
    · rcases List.mem_append.mp he with he | he
      · exact hI.2 e he
      · rw [List.mem_singleton.mp he, jt]
        exact Nat.le_refl _
  obtain ⟨x, hx, hxc, hxi, hxq⟩ := hf1.1
  refine ⟨{ receive (w1.agents.flatMap (·.outbox)) x with outbox := [] }, ?_, hxc, receive_inboxOk _ x hxi, hxq⟩
  simp only [e2]
  exact List.mem_map_of_mem (f := fun x : Agent σ => { receive (w1.agents.flatMap (·.outbox)) x with outbox := [] }) hx

/-- A property of the state of an agent and the log that every job of the agent keeps, and the actions of others, holds at the end. -/
theorem run_agent (P : Program σ) (start end_ fuel k : Nat) (w w' : World σ) (ts : List Nat) (hu : Spec.UniqueIds w) (hl : w.log = []) (h : runLoop P end_ fuel k start w = some (.ok (w', ts)))
    (a : Agent σ) (ha : a ∈ w.agents) (hin : InboxOk a) (Q : σ → List Event → Prop)
    (hself : ∀ step n (x : Agent σ) log, step.upper = end_ → (∀ e ∈ log, e.time ≤ step.lower) → x.id = a.id → InboxOk x → Q x.state log → Q (job P step n x).1.state (log ++ [(job P step n x).2]))
    (hother : ∀ s log e, e.agent ≠ a.id → Q s log → Q s (log ++ [e])) (h0 : Q a.state []) : ∃ a' ∈ w'.agents, a'.id = a.id ∧ Q a'.state w'.log := by
  obtain ⟨x, hx, h1, -, h2⟩ := run_induct_until P end_ fuel (Fits a.id Q) (fun step n w w' hup hn ht hr hf => fits_round a.id Q hself hother hup hn ht hr hf) k start w w' ts hu
    (by intro e he; rw [hl] at he; cases he) h ⟨a, ha, rfl, hin, by rw [hl]; exact h0⟩
  exact ⟨x, hx, h1, h2⟩

/-- An agent without a wake-up time acts at the start. -/
theorem acts_at_start (P : Program σ) (start end_ fuel k : Nat) (w w' : World σ) (ts : List Nat) (hu : Spec.UniqueIds w) (hl : w.log = []) (h : runLoop P end_ fuel k start w = some (.ok (w', ts)))
    (a : Agent σ) (ha : a ∈ w.agents) (hw : findWake w.wake a.id = none ∨ findWake w.wake a.id = some start) : ∃ e ∈ w'.log, e.agent = a.id ∧ e.time = start := by
  cases k with
  | zero => cases h
  | succ k =>
    unfold runLoop at h
    cases hs : modelStep P end_ fuel ⟨start, end_⟩ w with
    | none => rw [hs] at h; cases h
    | some o =>
      cases o with
      | throws => rw [hs] at h; cases h
      | ub => rw [hs] at h; cases h
      | ok w1 =>
        rw [hs] at h
        simp only at h
        obtain ⟨e, he, h1⟩ := C19_acts_when_due P end_ fuel _ w w1 hs a ha hw
        have he1 : e ∈ w1.log := List.mem_of_mem_drop he
        have hids : w1.agents.map (·.id) = w.agents.map (·.id) := by
          unfold modelStep at hs
          split at hs
          · cases hs
          · exact (stepLoop_last fuel 0 w w1 hu hs).2.2
        split at h
        · split at h
          · rename_i w2 ts2 hr
            simp only [Option.some.injEq, Outcome.ok.injEq, Prod.mk.injEq] at h
            obtain ⟨rfl, rfl⟩ := h
            obtain ⟨-, -, -, -, acts, hacts, -⟩ := C18_run P _ end_ fuel k w1 w2 ts2 (by unfold Spec.UniqueIds; rw [hids]; exact hu) hr
            exact ⟨e, by rw [hacts]; exact List.mem_append_left _ he1, h1⟩
          · rename_i hne
            exact absurd h (hne w' ts)
        · simp only [Option.some.injEq, Outcome.ok.injEq, Prod.mk.injEq] at h
          obtain ⟨rfl, rfl⟩ := h
          exact ⟨e, he1, h1⟩

/-- A list with an element that satisfies a predicate has a last one. -/
theorem exists_last {α : Type} (p : α → Prop) (l : List α) (h : ∃ x ∈ l, p x) : ∃ b y c, l = b ++ y :: c ∧ p y ∧ ∀ z ∈ c, ¬p z := by
  induction l with
  | nil => obtain ⟨x, hx, _⟩ := h; cases hx
  | cons u l ih =>
    by_cases hl : ∃ x ∈ l, p x
    · obtain ⟨b, y, c, h1, h2⟩ := ih hl
      exact ⟨u :: b, y, c, by rw [h1]; rfl, h2⟩
    · obtain ⟨x, hx, hp⟩ := h
      rcases List.mem_cons.1 hx with rfl | hx
      · exact ⟨[], x, l, rfl, hp, fun z hz hpz => hl ⟨z, hz, hpz⟩⟩
      · exact absurd ⟨x, hx, hp⟩ hl

/-- And a first one. -/
theorem exists_first {α : Type} (p : α → Prop) (l : List α) (h : ∃ x ∈ l, p x) : ∃ b y c, l = b ++ y :: c ∧ p y ∧ ∀ z ∈ b, ¬p z := by
  obtain ⟨b, y, c, h1, h2, h3⟩ := exists_last p l.reverse (by obtain ⟨x, hx, hp⟩ := h; exact ⟨x, List.mem_reverse.2 hx, hp⟩)
  refine ⟨c.reverse, y, b.reverse, ?_, h2, fun z hz => h3 z (List.mem_reverse.1 hz)⟩
  have := congrArg List.reverse h1
  simpa using this

/-- An agent that, until a time, always asks to be woken at this time at the latest acts at this time. -/
theorem acts_at (P : Program σ) (start end_ fuel k : Nat) (w w' : World σ) (ts : List Nat) (hu : Spec.UniqueIds w) (hl : w.log = []) (h : runLoop P end_ fuel k start w = some (.ok (w', ts)))
    (a : Agent σ) (ha : a ∈ w.agents) (hw : findWake w.wake a.id = none ∨ findWake w.wake a.id = some start) (t : Nat) (h1 : start ≤ t) (h2 : t < end_)
    (hreq : ∀ e ∈ w'.log, e.agent = a.id → e.time < t → e.requested ≤ t) : ∃ b e c, w'.log = b ++ e :: c ∧ e.agent = a.id ∧ e.time = t ∧ ∀ e' ∈ c, e'.agent = a.id → t < e'.time := by
  obtain ⟨e0, he0, h3, h4⟩ := acts_at_start P start end_ fuel k w w' ts hu hl h a ha hw
  obtain ⟨b, e, c, h5, ⟨h6, h7⟩, h8⟩ := exists_last (fun e : Event => e.agent = a.id ∧ e.time ≤ t) w'.log ⟨e0, he0, h3, by omega⟩
  refine ⟨b, e, c, h5, h6, ?_, fun e' he' ha' => ?_⟩
  · apply Classical.byContradiction
    intro hne
    have h9 := hreq e (by rw [h5]; exact List.mem_append_right _ (List.mem_cons_self ..)) h6 (by omega)
    rcases C19_no_wakeup_skipped P start end_ fuel k w w' ts hu hl h b e c h5 with h10 | ⟨e', he', h10, h11⟩
    · omega
    · exact h8 e' he' ⟨by rw [h10, h6], by omega⟩
  · apply Classical.byContradiction
    intro hlt
    exact h8 e' he' ⟨ha', by omega⟩

end Esl.Sched
