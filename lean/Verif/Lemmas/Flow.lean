import Verif.Lemmas.Ledger
/-!
# Ledgers with sources

As `Lemmas/Ledger.lean`, for agents that turn what they hold into messages. Besides its weight, a message has a source: what is created when the message is sent. Over a whole run, what is held by the agents and carried by
messages changes by the sources of the messages that are sent.
-/
namespace Esl.Ledger
open Esl.Comm Esl.Sched
variable {σ : Type}

/-- What changes the value of states. `alive` tells states in which no exception has been thrown, `good` is an invariant of states. -/
structure Flow (alive good : Nat → σ → Prop) (value : Nat → σ → Int) (weight source : Msg → Int) (P : Program σ) : Prop where
  shuffles : ∀ i t r, Comm.Spec.IsShuffle (P.shuffle i t r)
  backMessage : ∀ i r step m (run : Run σ), alive i (processMessage (P.handlers i r) step m run).1.agent → alive i run.agent
  backAct : ∀ i r s step, alive i (P.act i r s step).1 → alive i s
  message : ∀ i r step m (run : Run σ), m.recipient = i → good i run.agent → alive i (processMessage (P.handlers i r) step m run).1.agent →
    good i (processMessage (P.handlers i r) step m run).1.agent ∧ ∃ out, (processMessage (P.handlers i r) step m run).1.outbox = run.outbox ++ out ∧
      value i (processMessage (P.handlers i r) step m run).1.agent + weigh weight out = value i run.agent + weight m + weigh source out
  act : ∀ i r s step, good i s → alive i (P.act i r s step).1 →
    good i (P.act i r s step).1 ∧ value i (P.act i r s step).1 + weigh weight (P.act i r s step).2.1 = value i s + weigh source (P.act i r s step).2.1

variable {alive good : Nat → σ → Prop} {value : Nat → σ → Int} {weight source : Msg → Int} {P : Program σ}

theorem Flow.backAll (L : Flow alive good value weight source P) (i r : Nat) (step : Step) (ms : List Msg) (run : Run σ) (first : Nat)
    (h : alive i (processAll (P.handlers i r) step ms (run, first)).1.agent) : alive i run.agent := by
  induction ms generalizing run first with
  | nil => exact h
  | cons m ms ih =>
    rw [Comm.processAll] at h
    exact L.backMessage i r step m run (ih _ _ h)

theorem Flow.processAll (L : Flow alive good value weight source P) (i r : Nat) (step : Step) (ms : List Msg) (hm : ∀ m ∈ ms, m.recipient = i) (run : Run σ) (first : Nat) (hg : good i run.agent)
    (h : alive i (processAll (P.handlers i r) step ms (run, first)).1.agent) :
    good i (Comm.processAll (P.handlers i r) step ms (run, first)).1.agent ∧ ∃ out, (Comm.processAll (P.handlers i r) step ms (run, first)).1.outbox = run.outbox ++ out ∧
      value i (Comm.processAll (P.handlers i r) step ms (run, first)).1.agent + weigh weight out = value i run.agent + weigh weight ms + weigh source out := by
  induction ms generalizing run first with
  | nil => exact ⟨hg, [], by simp [Comm.processAll], by simp [weigh, Comm.processAll]⟩
  | cons m ms ih =>
    rw [Comm.processAll] at h ⊢
    simp only at h ⊢
    obtain ⟨g1, o1, e1, v1⟩ := L.message i r step m run (hm m (List.mem_cons_self ..)) hg (L.backAll i r step ms _ _ h)
    obtain ⟨g2, o2, e2, v2⟩ := ih (fun m' h' => hm m' (List.mem_cons_of_mem _ h')) _ _ g1 h
    refine ⟨g2, o1 ++ o2, by rw [e2, e1, List.append_assoc], ?_⟩
    rw [weigh_append, weigh_append, weigh_cons]
    omega

/-- Messages without callbacks weigh nothing. -/
theorem Flow.unhandled (L : Flow alive good value weight source P) (i r : Nat) (s : σ) (hs : alive i s) (hg : good i s) (ms : List Msg) (hm : ∀ m ∈ ms, m.recipient = i ∧ P.handlers i r m.type = []) : weigh weight ms = 0 := by
  induction ms with
  | nil => rfl
  | cons m ms ih =>
    obtain ⟨h1, h2⟩ := hm m (List.mem_cons_self ..)
    have e : (processMessage (P.handlers i r) ⟨0, 0⟩ m ⟨s, [], []⟩).1 = ⟨s, [], []⟩ := by
      unfold processMessage
      rw [h2]
      rfl
    obtain ⟨-, out, h3, h4⟩ := L.message i r ⟨0, 0⟩ m ⟨s, [], []⟩ h1 hg (by rw [e]; exact hs)
    rw [e] at h3 h4
    have : out = [] := by simpa using h3.symm
    subst this
    rw [weigh_cons, ih fun m' h' => hm m' (List.mem_cons_of_mem _ h')]
    simp [weigh] at h4
    omega

/-- One job. -/
theorem Flow.job (L : Flow alive good value weight source P) (step : Step) (n : Nat) (a : Agent σ) (ha : InboxOk a) (hg : good a.id a.state) (h : alive a.id (job P step n a).1.state) :
    alive a.id a.state ∧ good a.id (Sched.job P step n a).1.state ∧ flow value weight (Sched.job P step n a).1 = flow value weight a + weigh source (Sched.job P step n a).2.sent := by
  obtain ⟨j1, -, -, -, j2, -, -, j3⟩ := job_fields P step n a
  have hstate : (Sched.job P step n a).1.state = (P.act a.id n (processMessages (P.handlers a.id n) (P.shuffle a.id step.lower n) step a.inbox ⟨a.state, [], []⟩).1.agent step).1 := rfl
  have hsent : (Sched.job P step n a).2.sent = (processMessages (P.handlers a.id n) (P.shuffle a.id step.lower n) step a.inbox ⟨a.state, [], []⟩).1.outbox ++
    (P.act a.id n (processMessages (P.handlers a.id n) (P.shuffle a.id step.lower n) step a.inbox ⟨a.state, [], []⟩).1.agent step).2.1 := rfl
  rw [hstate] at h
  have hp := handled_perm (P.handlers a.id n) (P.shuffle a.id step.lower n) (L.shuffles _ _ _) step.lower a.inbox
  rw [filter_isEmpty_split _ _ _ ha.1] at hp
  have hdue : ∀ m ∈ (a.inbox.filter fun e => decide (e.1 ≤ step.lower)).map (·.2), m.recipient = a.id := by
    intro m hm
    obtain ⟨e, he, rfl⟩ := List.mem_map.1 hm
    exact ha.2 e ((List.mem_filter.1 he).1)
  have h1 := L.backAct _ _ _ _ h
  have h3 : alive a.id a.state := by
    unfold processMessages at h1
    exact L.backAll a.id n step _ ⟨a.state, [], []⟩ step.upper h1
  have hall := L.processAll a.id n step (handled (P.handlers a.id n) (P.shuffle a.id step.lower n) step.lower a.inbox)
    (fun m hm => hdue m ((List.mem_filter.1 (hp.mem_iff.1 hm)).1)) ⟨a.state, [], []⟩ step.upper hg (by unfold processMessages at h1; exact h1)
  have hunfold : processMessages (P.handlers a.id n) (P.shuffle a.id step.lower n) step a.inbox ⟨a.state, [], []⟩ =
    Comm.processAll (P.handlers a.id n) step (handled (P.handlers a.id n) (P.shuffle a.id step.lower n) step.lower a.inbox) (⟨a.state, [], []⟩, step.upper) := rfl
  rw [← hunfold] at hall
  obtain ⟨g1, out, e1, v1⟩ := hall
  obtain ⟨g2, v2⟩ := L.act _ _ _ _ g1 h
  have h5 := L.unhandled a.id n a.state h3 hg (((a.inbox.filter fun e => decide (e.1 ≤ step.lower)).map (·.2)).filter fun m => !(!(P.handlers a.id n m.type).isEmpty))
    (fun m hm => ⟨hdue m ((List.mem_filter.1 hm).1), by
      have := (List.mem_filter.1 hm).2
      simpa using this⟩)
  refine ⟨h3, by rw [hstate]; exact g2, ?_⟩
  have hw : weigh weight (a.inbox.map (·.2)) = weigh weight ((a.inbox.filter fun e => decide (e.1 ≤ step.lower)).map (·.2)) + weigh weight ((a.inbox.filter fun e => decide (e.1 > step.lower)).map (·.2)) := by
    generalize a.inbox = l
    induction l with
    | nil => rfl
    | cons e l ih =>
      rw [List.map_cons, weigh_cons, ih]
      by_cases he : e.1 ≤ step.lower
      · have : ¬ e.1 > step.lower := by omega
        simp [he, weigh_cons]; omega
      · have : e.1 > step.lower := by omega
        simp [he, this, weigh_cons]; omega
  have hsplit := weigh_split weight (fun m => !(P.handlers a.id n m.type).isEmpty) ((a.inbox.filter fun e => decide (e.1 ≤ step.lower)).map (·.2))
  have hpw := weigh_perm weight hp
  unfold flow
  rw [j1, j2, j3, hstate, hw, hsplit, weigh_append, h5, ← hpw, hsent, weigh_append, weigh_append, e1, List.nil_append]
  simp only at v1
  omega

/-- What holds between rounds. -/
def Holds (alive good : Nat → σ → Prop) (value : Nat → σ → Int) (weight source : Msg → Int) (start : Int) (w : World σ) : Prop :=
  (∀ a ∈ w.agents, InboxOk a) ∧ ((∀ a ∈ w.agents, alive a.id a.state) →
    (∀ a ∈ w.agents, good a.id a.state) ∧ ledger value weight w.agents = start + weigh source (w.log.flatMap (·.sent)))

theorem holds_runJob (L : Flow alive good value weight source P) {end_ : Nat} {step : Step} {n : Nat} {start : Int} (a : Agent σ) (rem : List (Agent σ)) (w w' : World σ)
    (back : ∀ a : Agent σ, alive a.id (job P step n a).1.state → alive a.id a.state)
    (hm : Mid step.lower (a :: rem) w) (h : runJob P end_ step n a w = .ok w') (hI : Holds alive good value weight source start w) : Holds alive good value weight source start w' := by
  obtain ⟨_, rfl⟩ := runJob_ok h
  have ha := hm.sub a (List.mem_cons_self ..)
  have hid := (job_fields P step n a).1
  refine ⟨fun x hx => ?_, fun hal => ?_⟩
  · rcases mem_putAgent _ _ _ hx with rfl | ⟨hx, _⟩
    · exact job_inboxOk step n a (hI.1 a ha)
    · exact hI.1 x hx
  · simp only at hal ⊢
    have hmem : (job P step n a).1 ∈ putAgent w.agents (job P step n a).1 := by
      unfold putAgent
      exact List.mem_map.2 ⟨a, ha, by rw [if_pos hid.symm]⟩
    have hlast := hal _ hmem
    rw [hid] at hlast
    have hbefore : ∀ x ∈ w.agents, alive x.id x.state := by
      intro x hx
      by_cases hxa : x.id = a.id
      · have : x = a := eq_of_id w.agents hm.ids x a hx ha hxa
        rw [this]; exact back a hlast
      · exact hal x (mem_putAgent_of_ne _ _ _ hx (by rw [hid]; exact hxa))
    obtain ⟨hg, hv⟩ := hI.2 hbefore
    obtain ⟨_, h1, h2⟩ := L.job step n a (hI.1 a ha) (hg a ha) hlast
    refine ⟨fun x hx => ?_, ?_⟩
    · rcases mem_putAgent _ _ _ hx with rfl | ⟨hx, _⟩
      · rw [hid]; exact h1
      · exact hg x hx
    · have h3 := sum_putAgent (rel := (· = ·)) ⟨fun _ => rfl, fun _ _ _ h h' => h.trans h', fun _ _ _ h => by rw [h]⟩ (flow value weight) w.agents hm.ids a _ ha hid _ h2
      rw [List.flatMap_append, weigh_append]
      unfold ledger at hv ⊢
      rw [h3, hv]
      simp only [List.flatMap_cons, List.flatMap_nil, List.append_nil]
      omega

theorem Flow.backJob (L : Flow alive good value weight source P) (step : Step) (n : Nat) (a : Agent σ) (h : alive a.id (Sched.job P step n a).1.state) : alive a.id a.state := by
  have h1 : alive a.id (processMessages (P.handlers a.id n) (P.shuffle a.id step.lower n) step a.inbox ⟨a.state, [], []⟩).1.agent := L.backAct _ _ _ _ h
  unfold processMessages at h1
  exact L.backAll a.id n step _ ⟨a.state, [], []⟩ step.upper h1

theorem holds_round (L : Flow alive good value weight source P) {end_ : Nat} {start : Int} (step : Step) (n : Nat) (w w' : World σ) (hn : (w.agents.map (·.id)).Nodup)
    (h : round P end_ step n w = .ok w') (hI : Holds alive good value weight source start w) : Holds alive good value weight source start w' := by
  obtain ⟨w1, s, sent, h1, h2, rfl⟩ := round_ok h
  have e1 := runJobs_ids _ _ _ _ _ _ _ h1
  have hn1 : (w1.agents.map (·.id)).Nodup := by rw [e1]; exact hn
  have hI1 : Holds alive good value weight source start w1 :=
    runJobs_induct (Holds alive good value weight source start) (fun a rem w w' hm hr hi => holds_runJob L a rem w w' (fun a h => L.backJob step n a h) hm hr hi) _ _ _ (mid_start _ w hn _) h1 hI
  obtain ⟨_, e2, _, _⟩ := sendMessages_inv hn1 h2
  refine ⟨fun x hx => ?_, fun hal => ?_⟩
  · simp only [e2] at hx
    obtain ⟨y, hy, rfl⟩ := List.mem_map.1 hx
    exact receive_inboxOk _ y (hI1.1 y hy)
  · simp only at hal ⊢
    rw [ledger_send hn1 h2]
    have hal1 : ∀ x ∈ w1.agents, alive x.id x.state := by
      intro x hx
      have hmem : { receive (w1.agents.flatMap (·.outbox)) x with outbox := [] } ∈ s.1 := by
        rw [e2]; exact List.mem_map_of_mem (f := fun x : Agent σ => { receive (w1.agents.flatMap (·.outbox)) x with outbox := [] }) hx
      have hst := hal _ hmem
      exact hst
    obtain ⟨hg, hv⟩ := hI1.2 hal1
    refine ⟨fun x hx => ?_, hv⟩
    rw [e2] at hx
    obtain ⟨y, hy, rfl⟩ := List.mem_map.1 hx
    exact hg y hy

/-- **The ledger of a run with sources.** -/
theorem flow_run (L : Flow alive good value weight source P) (start end_ fuel k : Nat) (w w' : World σ) (ts : List Nat) (hu : Sched.Spec.UniqueIds w) (hl : w.log = [])
    (hin : ∀ a ∈ w.agents, InboxOk a) (hg : ∀ a ∈ w.agents, good a.id a.state) (h : runLoop P end_ fuel k start w = some (.ok (w', ts))) (hal : ∀ a ∈ w'.agents, alive a.id a.state) :
    (∀ a ∈ w'.agents, good a.id a.state) ∧ ledger value weight w'.agents = ledger value weight w.agents + weigh source (w'.log.flatMap (·.sent)) :=
  (run_induct P end_ fuel (Holds alive good value weight source (ledger value weight w.agents)) (fun step n w w' hn hr hi => holds_round L step n w w' hn hr hi) k start w w' ts hu h
    ⟨hin, fun _ => ⟨hg, by rw [hl]; simp [weigh]⟩⟩).1.2 hal

end Esl.Ledger
