import Verif.Lemmas.Ledger
/-! # C140: every message of a simulation is accounted for -/
namespace Esl.Ledger
open Esl.Comm Esl.Sched
variable {σ : Type}

/-! ## Specification -/

/-- All messages that wait in the inboxes and outboxes. -/
def Spec.mail (w : World σ) : List Msg := w.agents.flatMap fun a => a.inbox.map (·.2) ++ a.outbox

/-- Every inbox is ordered by the time of delivery, and holds messages for its agent only, under their time of delivery. -/
def Spec.Inboxes (w : World σ) : Prop := ∀ a ∈ w.agents, Comm.Spec.InboxSorted a.inbox ∧ ∀ e ∈ a.inbox, e.2.recipient = a.id ∧ e.1 = e.2.received

/-- The calls that a message should cause: one for every callback for messages of its kind. -/
def Spec.callsFor (P : Program σ) (agent round : Nat) (m : Msg) : List (Msg × Int × Nat) := (P.handlers agent round m.type).map fun c => (m, c.1, c.2.line)

/-- An action is in order: its messages are for the agent, none is handled before its delivery, and each of them is handed to each callback for its kind exactly once. Nothing else is handed to a callback. -/
def Spec.InOrder (P : Program σ) (e : Event) : Prop := (∀ m ∈ e.due, m.recipient = e.agent ∧ m.received ≤ e.time) ∧ e.calls.Perm (e.due.flatMap (Spec.callsFor P e.agent e.round))

/-! ## Lemmas -/

theorem eq_relates : Relates (fun a b : Int => a = b) := ⟨fun _ => rfl, fun _ _ _ h1 h2 => h1.trans h2, fun _ _ c h => by rw [h]⟩

theorem job_inOrder (P : Program σ) (hsh : ∀ i t r, Comm.Spec.IsShuffle (P.shuffle i t r)) (step : Step) (n : Nat) (a : Agent σ) (ha : Comm.Spec.InboxSorted a.inbox ∧ ∀ e ∈ a.inbox, e.2.recipient = a.id ∧ e.1 = e.2.received) :
    Spec.InOrder P (job P step n a).2 := by
  obtain ⟨-, j1, j2, j3, -, j4, -, -⟩ := job_fields P step n a
  unfold Spec.InOrder
  rw [j1, j2, j3, j4]
  refine ⟨fun m hm => ?_, ?_⟩
  · obtain ⟨e, he, rfl⟩ := List.mem_map.1 hm
    obtain ⟨he, ht⟩ := List.mem_filter.1 he
    obtain ⟨h1, h2⟩ := ha.2 e he
    simp only [decide_eq_true_eq] at ht
    exact ⟨h1, by omega⟩
  · have hcalls : (job P step n a).2.calls = (processMessages (P.handlers a.id n) (P.shuffle a.id step.lower n) step a.inbox ⟨a.state, [], []⟩).1.calls := rfl
    rw [hcalls]
    unfold processMessages
    rw [processAll_calls, List.nil_append]
    have hp := handled_perm (P.handlers a.id n) (P.shuffle a.id step.lower n) (hsh _ _ _) step.lower a.inbox
    rw [filter_isEmpty_split _ _ _ ha.1] at hp
    refine (hp.flatMap_right _).trans ?_
    generalize (a.inbox.filter fun e => decide (e.1 ≤ step.lower)).map (·.2) = l
    induction l with
    | nil => exact List.Perm.refl _
    | cons m l ih =>
      have hm : (callsOf (P.handlers a.id n) m).Perm (Spec.callsFor P a.id n m) := by
        unfold callsOf Spec.callsFor
        exact (List.reverse_perm _).map _
      rw [List.flatMap_cons]
      by_cases he : P.handlers a.id n m.type = []
      · rw [List.filter_cons_of_neg (by simp [he])]
        have : Spec.callsFor P a.id n m = [] := by simp [Spec.callsFor, he]
        rw [this, List.nil_append]
        exact ih
      · rw [List.filter_cons_of_pos (by simpa using he), List.flatMap_cons]
        exact hm.append ih

theorem job_weigh (P : Program σ) (weight : Msg → Int) (step : Step) (n : Nat) (a : Agent σ) :
    flow (fun _ _ => 0) weight (job P step n a).1 = flow (fun _ _ => 0) weight a + (weigh weight (job P step n a).2.sent - weigh weight (job P step n a).2.due) := by
  obtain ⟨-, -, -, -, j1, j2, -, j3⟩ := job_fields P step n a
  unfold flow
  rw [j1, j2, j3, weigh_append]
  have hw : weigh weight (a.inbox.map (·.2)) = weigh weight ((a.inbox.filter fun e => decide (e.1 ≤ step.lower)).map (·.2)) + weigh weight ((a.inbox.filter fun e => decide (e.1 > step.lower)).map (·.2)) := by
    generalize a.inbox = l
    induction l with
    | nil => rfl
    | cons e l ih =>
      rw [List.map_cons, weigh_cons, ih]
      by_cases he : e.1 ≤ step.lower
      · have : ¬ e.1 > step.lower := by omega
        simp [he, weigh_cons]; omega
      · have : e.1 > step.lower := by omega
        simp [he, this, weigh_cons]; omega
  simp only
  omega

/-- What holds between rounds. -/
def Account (P : Program σ) (weight : Msg → Int) (start : Int) (w : World σ) : Prop :=
  Spec.Inboxes w ∧ (∀ e ∈ w.log, Spec.InOrder P e) ∧ ledger (fun _ _ => 0) weight w.agents + weigh weight (w.log.flatMap (·.due)) = start + weigh weight (w.log.flatMap (·.sent))

theorem account_runJob {P : Program σ} (hsh : ∀ i t r, Comm.Spec.IsShuffle (P.shuffle i t r)) {weight : Msg → Int} {end_ : Nat} {step : Step} {n : Nat} {start : Int} (a : Agent σ) (rem : List (Agent σ)) (w w' : World σ)
    (hm : Mid step.lower (a :: rem) w) (h : runJob P end_ step n a w = .ok w') (hI : Account P weight start w) : Account P weight start w' := by
  obtain ⟨_, rfl⟩ := runJob_ok h
  obtain ⟨h1, h2, h3⟩ := hI
  have ha := hm.sub a (List.mem_cons_self ..)
  obtain ⟨hid, -, -, -, hin, -⟩ := job_fields P step n a
  refine ⟨fun x hx => ?_, fun e he => ?_, ?_⟩
  · rcases mem_putAgent _ _ _ hx with rfl | ⟨hx, _⟩
    · rw [hid, hin]
      exact ⟨List.Pairwise.sublist List.filter_sublist (h1 a ha).1, fun e he => (h1 a ha).2 e (List.mem_filter.1 he).1⟩
    · exact h1 x hx
  · rcases List.mem_append.1 he with he | he
    · exact h2 e he
    · rw [List.mem_singleton.1 he]
      exact job_inOrder P hsh step n a (h1 a ha)
  · have := sum_putAgent eq_relates (flow (fun _ _ => 0) weight) w.agents hm.ids a _ ha hid _ (job_weigh P weight step n a)
    unfold ledger at h3 ⊢
    simp only [List.flatMap_append, weigh_append, List.flatMap_cons, List.flatMap_nil, List.append_nil]
    omega

theorem account_round {P : Program σ} (hsh : ∀ i t r, Comm.Spec.IsShuffle (P.shuffle i t r)) {weight : Msg → Int} {end_ : Nat} {start : Int} (step : Step) (n : Nat) (w w' : World σ) (hn : (w.agents.map (·.id)).Nodup)
    (h : round P end_ step n w = .ok w') (hI : Account P weight start w) : Account P weight start w' := by
  obtain ⟨w1, s, sent, h1, h2, rfl⟩ := round_ok h
  have e1 := runJobs_ids _ _ _ _ _ _ _ h1
  have hn1 : (w1.agents.map (·.id)).Nodup := by rw [e1]; exact hn
  obtain ⟨i1, i2, i3⟩ : Account P weight start w1 := runJobs_induct (Account P weight start) (fun a rem w w' hm hr hi => account_runJob hsh a rem w w' hm hr hi) _ _ _ (mid_start _ w hn _) h1 hI
  obtain ⟨_, e2, _, _⟩ := sendMessages_inv hn1 h2
  refine ⟨fun x hx => ?_, i2, ?_⟩
  · simp only [e2] at hx
    obtain ⟨y, hy, rfl⟩ := List.mem_map.1 hx
    refine ⟨receive_inbox_sorted _ y (i1 y hy).1, fun e he => ?_⟩
    rcases List.mem_append.1 ((receive_inbox_perm _ y).mem_iff.1 he) with he | he
    · exact (i1 y hy).2 e he
    · obtain ⟨m, hm, rfl⟩ := List.mem_map.1 he
      have := (List.mem_filter.1 hm).2
      simp only [decide_eq_true_eq] at this
      exact ⟨this.symm, rfl⟩
  · simp only
    rw [ledger_send hn1 h2]
    exact i3

theorem account_run (P : Program σ) (hsh : ∀ i t r, Comm.Spec.IsShuffle (P.shuffle i t r)) (weight : Msg → Int) (start end_ fuel k : Nat) (w w' : World σ) (ts : List Nat) (hu : Sched.Spec.UniqueIds w) (hl : w.log = [])
    (hin : Spec.Inboxes w) (h : runLoop P end_ fuel k start w = some (.ok (w', ts))) : Account P weight (ledger (fun _ _ => 0) weight w.agents) w' :=
  (run_induct P end_ fuel (Account P weight (ledger (fun _ _ => 0) weight w.agents)) (fun step n w w' hn hr hi => account_round hsh step n w w' hn hr hi) k start w w' ts hu h
    ⟨hin, fun e he => by rw [hl] at he; simp at he, by rw [hl]; simp [weigh]⟩).1

theorem weigh_count (m : Msg) (ms : List Msg) : weigh (fun x => if x = m then 1 else 0) ms = (ms.count m : Nat) := by
  induction ms with
  | nil => rfl
  | cons x l ih =>
    rw [weigh_cons, ih]
    by_cases h : x = m
    · subst h; simp; omega
    · simp [h]

theorem ledger_mail (weight : Msg → Int) (w : World σ) : ledger (fun _ _ => 0) weight w.agents = weigh weight (Spec.mail w) := by
  unfold ledger Spec.mail
  induction w.agents with
  | nil => rfl
  | cons a l ih =>
    rw [List.map_cons, List.sum_cons, ih, List.flatMap_cons, weigh_append, weigh_append]
    unfold flow
    simp only
    omega

/-! ## C140 -/

/-- **C140.** Over a whole simulation no message is lost or duplicated: the messages that wait at the end, together with those that were handled, are those that waited at the start, together with those that were sent, each as often. -/
theorem C140_accounted (P : Program σ) (hsh : ∀ i t r, Comm.Spec.IsShuffle (P.shuffle i t r)) (start end_ fuel k : Nat) (w w' : World σ) (ts : List Nat) (hu : Sched.Spec.UniqueIds w) (hl : w.log = []) (hin : Spec.Inboxes w)
    (h : runLoop P end_ fuel k start w = some (.ok (w', ts))) : (Spec.mail w' ++ w'.log.flatMap (·.due)).Perm (Spec.mail w ++ w'.log.flatMap (·.sent)) := by
  rw [List.perm_iff_count]
  intro m
  obtain ⟨-, -, h3⟩ := account_run P hsh (fun x => if x = m then 1 else 0) start end_ fuel k w w' ts hu hl hin h
  rw [ledger_mail, ledger_mail, weigh_count, weigh_count, weigh_count, weigh_count] at h3
  rw [List.count_append, List.count_append]
  omega

/-- **C140.** Whenever an agent acts, it handles messages for itself only, none before its delivery, and every one of them goes to each callback for its kind exactly once; callbacks get no other messages. -/
theorem C140_handled (P : Program σ) (hsh : ∀ i t r, Comm.Spec.IsShuffle (P.shuffle i t r)) (start end_ fuel k : Nat) (w w' : World σ) (ts : List Nat) (hu : Sched.Spec.UniqueIds w) (hl : w.log = []) (hin : Spec.Inboxes w)
    (h : runLoop P end_ fuel k start w = some (.ok (w', ts))) : ∀ e ∈ w'.log, Spec.InOrder P e :=
  (account_run P hsh (fun _ => 0) start end_ fuel k w w' ts hu hl hin h).2.1

/-- **C140.** What waits at the end waits in the inbox of its recipient, and nothing waits in an outbox. -/
theorem C140_waiting (P : Program σ) (hsh : ∀ i t r, Comm.Spec.IsShuffle (P.shuffle i t r)) (start end_ fuel k : Nat) (w w' : World σ) (ts : List Nat) (hu : Sched.Spec.UniqueIds w) (hl : w.log = []) (hin : Spec.Inboxes w)
    (hout : ∀ a ∈ w.agents, a.outbox = []) (h : runLoop P end_ fuel k start w = some (.ok (w', ts))) : Spec.Inboxes w' ∧ ∀ a ∈ w'.agents, a.outbox = [] :=
  ⟨(account_run P hsh (fun _ => 0) start end_ fuel k w w' ts hu hl hin h).1,
    (run_induct P end_ fuel NoOutbox (fun _ _ _ _ hn hr _ => noOutbox_round hn hr) k start w w' ts hu h hout).1⟩

/-- In the run of `pingers`, two messages are sent, and one of them is handled before the end. -/
example : ∃ w', runLoop pingers 4 9 9 0 pair = some (.ok (w', [0, 2, 3])) ∧ Sched.Spec.UniqueIds pair ∧ pair.log = [] ∧ Spec.Inboxes pair ∧ (∀ a ∈ pair.agents, a.outbox = []) ∧ (∀ i t r, Comm.Spec.IsShuffle (pingers.shuffle i t r)) ∧
    (w'.log.flatMap (·.sent)).length = 2 ∧ (w'.log.flatMap (·.due)).length = 1 ∧ (Spec.mail w').length = 1 := by
  refine ⟨_, rfl, by unfold Sched.Spec.UniqueIds pair; simp, rfl, by unfold Spec.Inboxes pair Comm.Spec.InboxSorted; simp, by unfold pair; simp, fun _ _ _ _ => List.Perm.refl _, rfl, rfl, rfl⟩

end Esl.Ledger
