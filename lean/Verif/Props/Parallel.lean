import Verif.Props.Threads
import Verif.Props.Scheduler
import Verif.Props.Ledger
import Verif.Props.Holders
/-! # C18, C19, C139, C140 with any number of threads

What these properties say of simulations with one thread, for simulations with several threads and every interleaving. What agents did (the log) is that of the simulation with one thread, which C23 shows to have the same outcome. -/
namespace Esl.Threads
open Esl.Comm Esl.Sched
variable {σ τ : Type}

/-- **C23.** Whenever a simulation with several threads completes, the one with one thread completes with the same agents, wake-ups and times. -/
theorem C23_completed (threads : Nat) (P : Program σ) (start end_ fuel k : Nat) (w : World σ) (s : Shared σ) (ts : List Nat) (hn : Sched.Spec.UniqueIds w) (hk : Sched.Spec.WakeMap w) (hlen : w.agents.length < 2 ^ 64)
    (h : RunWith threads P end_ fuel k start (Spec.observe w) (some (.ok (s, ts)))) : ∃ w', runLoop P end_ fuel k start w = some (.ok (w', ts)) ∧ Spec.observe w' = s := by
  have e := (C23_independence threads P end_ fuel k start w hn hk hlen _).1 h
  cases hr : runLoop P end_ fuel k start w with
  | none => simp [hr] at e
  | some o =>
    cases o with
    | throws => simp [hr, Spec.observed] at e
    | ub => simp [hr, Spec.observed] at e
    | ok p =>
      simp only [hr, Option.map, Spec.observed, Option.some.injEq, Outcome.ok.injEq, Prod.mk.injEq] at e
      exact ⟨p.1, by rw [e.2], e.1.symm⟩

/-- **C18, with threads.** A simulation that completes ends at the end time, its steps begin at the start time, and their times increase strictly and stay before the end. -/
theorem C18_threads (threads : Nat) (P : Program σ) (start end_ fuel k : Nat) (w : World σ) (s : Shared σ) (ts : List Nat) (hn : Sched.Spec.UniqueIds w) (hk : Sched.Spec.WakeMap w) (hlen : w.agents.length < 2 ^ 64)
    (h : RunWith threads P end_ fuel k start (Spec.observe w) (some (.ok (s, ts)))) : s.first = end_ ∧ ts.head? = some start ∧ ts.Pairwise (· < ·) ∧ ∀ t ∈ ts, start ≤ t ∧ t < end_ := by
  obtain ⟨w', h1, rfl⟩ := C23_completed threads P start end_ fuel k w s ts hn hk hlen h
  obtain ⟨a, b, c, d, -⟩ := C18_run P start end_ fuel k w w' ts hn h1
  exact ⟨a, b, c, d⟩

/-- **C19, with threads.** A step that completes moves time forward, to the minimum of the end of the simulation and all wake-up times. -/
theorem C19_threads (threads : Nat) (P : Program σ) (end_ fuel : Nat) (step : Step) (w : World σ) (s : Shared σ) (hn : Sched.Spec.UniqueIds w) (hk : Sched.Spec.WakeMap w) (hlen : w.agents.length < 2 ^ 64)
    (hlt : step.lower < step.upper) (h : StepLoopWith threads P end_ step fuel 0 (Spec.observe w) (some (.ok s))) :
    step.lower < s.first ∧ (∀ t ∈ end_ :: s.wake.map (·.2), s.first ≤ t) ∧ s.first ∈ end_ :: s.wake.map (·.2) := by
  have e := (stepLoopWith_iff threads P end_ step fuel 0 w hn hk hlen _).1 h
  cases hr : stepLoop P end_ step fuel 0 w with
  | none => simp [hr] at e
  | some o =>
    cases o with
    | throws => simp [hr, Spec.observed] at e
    | ub => simp [hr, Spec.observed] at e
    | ok w' =>
      simp only [hr, Option.map, Spec.observed, Option.some.injEq, Outcome.ok.injEq] at e
      subst e
      have hm : modelStep P end_ fuel step w = some (.ok w') := by
        unfold modelStep
        rw [if_neg (by omega)]
        exact hr
      exact ⟨(C18_step_forward P end_ fuel step w w' hn hm).1, C19_minimum P end_ fuel step w w' hn hm⟩

/-- The mail that waits in inboxes and outboxes. -/
def Spec.waiting (ags : List (Agent σ)) : List Msg := ags.flatMap fun a => a.inbox.map (·.2) ++ a.outbox

/-- **C140, with threads.** No message is lost or duplicated: what waits at the end, together with what was handled, is what waited at the start together with what was sent. What was handled and sent is that of the simulation with one thread,
where each agent handles messages for itself only, none before its delivery, and each once by each callback for its kind. At the end every message waits in the inbox of its recipient. -/
theorem C140_threads (threads : Nat) (P : Program σ) (hsh : ∀ i t r, Comm.Spec.IsShuffle (P.shuffle i t r)) (start end_ fuel k : Nat) (w : World σ) (s : Shared σ) (ts : List Nat) (hn : Sched.Spec.UniqueIds w) (hk : Sched.Spec.WakeMap w)
    (hlen : w.agents.length < 2 ^ 64) (hl : w.log = []) (hin : Ledger.Spec.Inboxes w) (hout : ∀ a ∈ w.agents, a.outbox = []) (h : RunWith threads P end_ fuel k start (Spec.observe w) (some (.ok (s, ts)))) :
    (∃ w', runLoop P end_ fuel k start w = some (.ok (w', ts)) ∧ Spec.observe w' = s ∧ (Spec.waiting s.agents ++ w'.log.flatMap (·.due)).Perm (Spec.waiting w.agents ++ w'.log.flatMap (·.sent)) ∧ ∀ e ∈ w'.log, Ledger.Spec.InOrder P e) ∧
    ∀ a ∈ s.agents, a.outbox = [] ∧ Comm.Spec.InboxSorted a.inbox ∧ ∀ e ∈ a.inbox, e.2.recipient = a.id := by
  obtain ⟨w', h1, rfl⟩ := C23_completed threads P start end_ fuel k w s ts hn hk hlen h
  obtain ⟨g1, g2⟩ := Ledger.C140_waiting P hsh start end_ fuel k w w' ts hn hl hin hout h1
  exact ⟨⟨w', h1, rfl, Ledger.C140_accounted P hsh start end_ fuel k w w' ts hn hl hin h1, Ledger.C140_handled P hsh start end_ fuel k w w' ts hn hl hin h1⟩, fun a ha => ⟨g2 a ha, (g1 a ha).1, fun e he => ((g1 a ha).2 e he).1⟩⟩

/-- **C139, with threads (partial).** What all agents hold of a property once no transfer is on its way is what they held at the start, under the assumptions of `C139_conserved_partial`, whatever the number of threads and the interleaving. -/
theorem C139_threads_partial (threads : Nat) {decode : Nat → Inventory.Transfer} {P : Program (Holders.Holder τ)} (hP : Holders.Spec.Owners decode P) (start end_ fuel n k : Nat) (w : World (Holders.Holder τ)) (s : Shared (Holders.Holder τ)) (ts : List Nat)
    (hu : Sched.Spec.UniqueIds w) (hk : Sched.Spec.WakeMap w) (hlen : w.agents.length < 2 ^ 64) (hl : w.log = []) (hin : Holders.Spec.Inboxes w)
    (h : RunWith threads P end_ fuel n start (Spec.observe w) (some (.ok (s, ts)))) (hal : ∀ a ∈ s.agents, a.state.failed = false) (transfers : List Inventory.Transfer)
    (hpairs : ∀ w', runLoop P end_ fuel n start w = some (.ok (w', ts)) →
      (Holders.Spec.underway decode w ++ Holders.Spec.copies decode (w'.log.flatMap (·.sent))).Perm (transfers.flatMap fun t => [(t.transferor, t), (t.transferee, t)]))
    (hsmall : Holders.Spec.totalHeld w k + (transfers.map fun t => Inventory.Spec.inBundle t.items k).sum < 2 ^ 64) (hdone : Holders.Spec.copies decode (Spec.waiting s.agents) = []) :
    (s.agents.map fun a => Inventory.Spec.held a.state.inventory k).sum = (w.agents.map fun a => Inventory.Spec.held a.state.inventory k).sum := by
  obtain ⟨w', h1, rfl⟩ := C23_completed threads P start end_ fuel n w s ts hu hk hlen h
  exact Holders.C139_conserved_partial hP start end_ fuel n k w w' ts hu hl hin h1 hal transfers (hpairs w' h1) hsmall hdone

/-- With four threads, the brokered transfer of C139 completes and meets the hypotheses. -/
example : ∃ s ts, RunWith 4 (Holders.brokered fun _ => true) 10 5 5 0 (Spec.observe (Holders.holders 10 3)) (some (.ok (s, ts))) ∧ Sched.Spec.WakeMap (Holders.holders 10 3) ∧ (∀ a ∈ s.agents, a.state.failed = false) ∧
    Holders.Spec.copies (fun p => ⟨0, 1, [(7, p)]⟩) (Spec.waiting s.agents) = [] ∧ s.agents.map (fun a => Inventory.Spec.held a.state.inventory 7) = [5, 8, 0] := by
  have hu : Sched.Spec.UniqueIds (Holders.holders 10 3) := by unfold Sched.Spec.UniqueIds Holders.holders; simp
  have hk : Sched.Spec.WakeMap (Holders.holders 10 3) := by unfold Sched.Spec.WakeMap Holders.holders; simp
  refine ⟨_, _, (C23_independence 4 (Holders.brokered fun _ => true) 10 5 5 0 (Holders.holders 10 3) hu hk (by decide) _).2 rfl, hk, ?_, rfl, rfl⟩
  intro a ha
  have : a.state.failed ∈ [false, false, false] := List.mem_map_of_mem (f := fun a : Agent (Holders.Holder Unit) => a.state.failed) ha
  simpa using this

/-- With three threads, agents that send each other messages meet the hypotheses of `C140_threads`. -/
example : ∃ s ts, RunWith 3 pingers 4 9 9 0 (Spec.observe pair) (some (.ok (s, ts))) ∧ Sched.Spec.UniqueIds pair ∧ Sched.Spec.WakeMap pair ∧ Ledger.Spec.Inboxes pair ∧ (Spec.waiting s.agents).length = 1 ∧ ts = [0, 2, 3] := by
  have hu : Sched.Spec.UniqueIds pair := by unfold Sched.Spec.UniqueIds pair; simp
  have hk : Sched.Spec.WakeMap pair := by unfold Sched.Spec.WakeMap pair; simp
  exact ⟨_, _, (C23_independence 3 pingers 4 9 9 0 pair hu hk (by decide) _).2 rfl, hu, hk, by unfold Ledger.Spec.Inboxes pair Comm.Spec.InboxSorted; simp, rfl, rfl⟩

end Esl.Threads
