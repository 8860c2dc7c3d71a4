import Verif.Props.Scheduler
import Verif.Lemmas.List
/-!
# Ledgers: what is held by the agents and carried by the messages of a run

The states of agents have a value and messages have a weight. If handling a message changes the value of an agent by the weight of the message, and nothing else does, then over a whole run the value of all agents
and the weight of all messages on their way change by the weight of the messages that are sent. This holds for equality and for other relations, such as "at most" and "congruent".
-/
namespace Esl.Ledger
open Esl.Comm Esl.Sched
variable {σ : Type}

/-- A relation between sums. -/
structure Relates (rel : Int → Int → Prop) : Prop where
  refl : ∀ a, rel a a
  trans : ∀ a b c, rel a b → rel b c → rel a c
  add : ∀ a b c, rel a b → rel (a + c) (b + c)

/-- The value of the state changes as the weights of the messages say. `alive` tells states in which no exception has been thrown. -/
structure Law (rel : Int → Int → Prop) (alive : σ → Prop) (value : Nat → σ → Int) (weight : Msg → Int) (P : Program σ) : Prop where
  shuffles : ∀ i t r, Comm.Spec.IsShuffle (P.shuffle i t r)
  message : ∀ i r step m (run : Run σ), m.recipient = i → alive (processMessage (P.handlers i r) step m run).1.agent →
    alive run.agent ∧ rel (value i (processMessage (P.handlers i r) step m run).1.agent) (value i run.agent + weight m)
  act : ∀ i r s step, alive (P.act i r s step).1 → alive s ∧ rel (value i (P.act i r s step).1) (value i s)

/-- The weights of messages. -/
def weigh (weight : Msg → Int) (ms : List Msg) : Int := (ms.map weight).sum

/-- What an agent holds, together with its inbox and its outbox. -/
def flow (value : Nat → σ → Int) (weight : Msg → Int) (a : Agent σ) : Int := value a.id a.state + weigh weight (a.inbox.map (·.2)) + weigh weight a.outbox

/-- All agents together. -/
def ledger (value : Nat → σ → Int) (weight : Msg → Int) (ags : List (Agent σ)) : Int := (ags.map (flow value weight)).sum

/-- The inbox of an agent is ordered, and all messages are for the agent. -/
def InboxOk (a : Agent σ) : Prop := Comm.Spec.InboxSorted a.inbox ∧ ∀ e ∈ a.inbox, e.2.recipient = a.id

theorem weigh_append (weight : Msg → Int) (l m : List Msg) : weigh weight (l ++ m) = weigh weight l + weigh weight m := by
  simp [weigh]

theorem weigh_cons (weight : Msg → Int) (x : Msg) (m : List Msg) : weigh weight (x :: m) = weight x + weigh weight m := by
  simp [weigh]

theorem weigh_perm (weight : Msg → Int) {l m : List Msg} (h : l.Perm m) : weigh weight l = weigh weight m := perm_sum_int (h.map weight)

theorem weigh_split (weight : Msg → Int) (p : Msg → Bool) (l : List Msg) : weigh weight l = weigh weight (l.filter p) + weigh weight (l.filter fun m => !p m) := by
  induction l with
  | nil => rfl
  | cons x l ih =>
    rw [weigh_cons, ih]
    cases h : p x
    · simp [h, weigh_cons]; omega
    · simp [h, weigh_cons]; omega

variable {rel : Int → Int → Prop} {alive : σ → Prop} {value : Nat → σ → Int} {weight : Msg → Int} {P : Program σ}

theorem Law.processAll (R : Relates rel) (L : Law rel alive value weight P) (i r : Nat) (step : Step) (ms : List Msg) (hm : ∀ m ∈ ms, m.recipient = i) (run : Run σ) (first : Nat)
    (h : alive (processAll (P.handlers i r) step ms (run, first)).1.agent) :
    alive run.agent ∧ rel (value i (Comm.processAll (P.handlers i r) step ms (run, first)).1.agent) (value i run.agent + weigh weight ms) := by
  induction ms generalizing run first with
  | nil => exact ⟨h, by simp [weigh, Comm.processAll]; exact R.refl _⟩
  | cons m ms ih =>
    rw [Comm.processAll] at h ⊢
    simp only at h ⊢
    obtain ⟨h1, h2⟩ := ih (fun m' h' => hm m' (List.mem_cons_of_mem _ h')) _ _ h
    obtain ⟨h3, h4⟩ := L.message i r step m run (hm m (List.mem_cons_self ..)) h1
    refine ⟨h3, R.trans _ _ _ h2 ?_⟩
    rw [weigh_cons, ← Int.add_assoc]
    exact R.add _ _ _ h4

/-- Messages without callbacks weigh nothing, as far as the relation tells. -/
theorem Law.unhandled (R : Relates rel) (L : Law rel alive value weight P) (i r : Nat) (s : σ) (hs : alive s) (ms : List Msg) (hm : ∀ m ∈ ms, m.recipient = i ∧ P.handlers i r m.type = []) :
    rel (value i s) (value i s + weigh weight ms) := by
  induction ms with
  | nil => simp [weigh]; exact R.refl _
  | cons m ms ih =>
    obtain ⟨h1, h2⟩ := hm m (List.mem_cons_self ..)
    have e : (processMessage (P.handlers i r) ⟨0, 0⟩ m ⟨s, [], []⟩).1.agent = s := by
      unfold processMessage
      rw [h2]
      rfl
    have h3 := (L.message i r ⟨0, 0⟩ m ⟨s, [], []⟩ h1 (by rw [e]; exact hs)).2
    rw [e] at h3
    have h4 := R.add _ _ (weigh weight ms) h3
    refine R.trans _ _ _ (ih fun m' h' => hm m' (List.mem_cons_of_mem _ h')) ?_
    rw [weigh_cons, ← Int.add_assoc]
    exact h4

theorem filter_isEmpty_split (hs : Nat → Handlers σ) (now : Nat) (inbox : Inbox) (h : Comm.Spec.InboxSorted inbox) :
    (dueList hs now inbox).map (·.2) = (((inbox.filter fun e => decide (e.1 ≤ now)).map (·.2)).filter fun m => !(hs m.type).isEmpty) := by
  unfold dueList
  rw [takeWhile_eq_filter_of_sorted now inbox h, List.map_map, List.filter_map]
  rfl

/-- One job. -/
theorem Law.job (R : Relates rel) (L : Law rel alive value weight P) (step : Step) (n : Nat) (a : Agent σ) (ha : InboxOk a) (h : alive (job P step n a).1.state) :
    alive a.state ∧ rel (flow value weight (Sched.job P step n a).1) (flow value weight a + weigh weight (Sched.job P step n a).2.sent) := by
  obtain ⟨j1, -, -, -, j2, -, -, j3⟩ := job_fields P step n a
  have hstate : (Sched.job P step n a).1.state = (P.act a.id n (processMessages (P.handlers a.id n) (P.shuffle a.id step.lower n) step a.inbox ⟨a.state, [], []⟩).1.agent step).1 := rfl
  rw [hstate] at h
  obtain ⟨h1, h2⟩ := L.act _ _ _ _ h
  have hp := handled_perm (P.handlers a.id n) (P.shuffle a.id step.lower n) (L.shuffles _ _ _) step.lower a.inbox
  rw [filter_isEmpty_split _ _ _ ha.1] at hp
  have hdue : ∀ m ∈ (a.inbox.filter fun e => decide (e.1 ≤ step.lower)).map (·.2), m.recipient = a.id := by
    intro m hm
    obtain ⟨e, he, rfl⟩ := List.mem_map.1 hm
    exact ha.2 e ((List.mem_filter.1 he).1)
  unfold processMessages at h1 h2
  obtain ⟨h3, h4⟩ := L.processAll R a.id n step (handled (P.handlers a.id n) (P.shuffle a.id step.lower n) step.lower a.inbox)
    (fun m hm => hdue m ((List.mem_filter.1 (hp.mem_iff.1 hm)).1)) ⟨a.state, [], []⟩ step.upper h1
  have h5 := L.unhandled R a.id n a.state h3 (((a.inbox.filter fun e => decide (e.1 ≤ step.lower)).map (·.2)).filter fun m => !(!(P.handlers a.id n m.type).isEmpty))
    (fun m hm => ⟨hdue m ((List.mem_filter.1 hm).1), by
      have := (List.mem_filter.1 hm).2
      simpa using this⟩)
  refine ⟨h3, ?_⟩
  have hw : weigh weight (a.inbox.map (·.2)) = weigh weight ((a.inbox.filter fun e => decide (e.1 ≤ step.lower)).map (·.2)) + weigh weight ((a.inbox.filter fun e => decide (e.1 > step.lower)).map (·.2)) := by
    generalize a.inbox = l
    induction l with
    | nil => rfl
    | cons e l ih =>
      rw [List.map_cons, weigh_cons, ih]
      by_cases he : e.1 ≤ step.lower
      · have : ¬ e.1 > step.lower := by omega
        simp [he, weigh_cons]; omega
      · have : e.1 > step.lower := by omega
        simp [he, this, weigh_cons]; omega
  have hsplit := weigh_split weight (fun m => !(P.handlers a.id n m.type).isEmpty) ((a.inbox.filter fun e => decide (e.1 ≤ step.lower)).map (·.2))
  unfold flow
  rw [j1, j2, j3, hstate, hw, hsplit, weigh_append]
  have hmain := R.trans _ _ _ h2 h4
  rw [weigh_perm weight hp] at hmain
  have h6 := R.trans _ _ _ hmain (R.add _ _ _ h5)
  have h7 := R.add _ _ (weigh weight ((a.inbox.filter fun e => decide (e.1 > step.lower)).map (·.2)) + (weigh weight a.outbox + weigh weight (Sched.job P step n a).2.sent)) h6
  simp only at h7
  unfold processMessages
  have e1 : ∀ v b c d : Int, v + b + (c + d) = v + (b + (c + d)) := fun v b c d => by omega
  have e2 : ∀ v x y b c d : Int, v + (x + y + b) + c + d = v + y + x + (b + (c + d)) := fun v x y b c d => by omega
  rw [e1, e2]
  exact h7

/-- Replacing one agent. -/
theorem sum_putAgent (R : Relates rel) (f : Agent σ → Int) (ags : List (Agent σ)) (hn : (ags.map (·.id)).Nodup) (a a' : Agent σ) (ha : a ∈ ags) (hid : a'.id = a.id) (c : Int) (h : rel (f a') (f a + c)) :
    rel ((putAgent ags a').map f).sum ((ags.map f).sum + c) := by
  induction ags with
  | nil => simp at ha
  | cons x l ih =>
    rw [List.map_cons, List.nodup_cons] at hn
    have hput : putAgent (x :: l) a' = (if x.id = a'.id then a' else x) :: putAgent l a' := rfl
    rw [hput, List.map_cons, List.map_cons, List.sum_cons, List.sum_cons]
    by_cases hx : x.id = a'.id
    · rw [if_pos hx]
      have hrest : putAgent l a' = l := by
        unfold putAgent
        conv => rhs; rw [← List.map_id l]
        apply List.map_congr_left
        intro y hy
        rw [if_neg]; rfl
        intro e
        exact hn.1 (List.mem_map.2 ⟨y, hy, by rw [e, hx]⟩)
      rw [hrest]
      have hax : a = x := by
        rcases List.mem_cons.1 ha with h | h
        · exact h
        · exact absurd (List.mem_map.2 ⟨a, h, by rw [hx, hid]⟩) hn.1
      subst hax
      have := R.add _ _ (l.map f).sum h
      have e : f a + c + (l.map f).sum = f a + (l.map f).sum + c := by omega
      rwa [e] at this
    · rw [if_neg hx]
      have hal : a ∈ l := by
        rcases List.mem_cons.1 ha with h | h
        · exact absurd (by rw [← h, hid]) hx
        · exact h
      have := R.add _ _ (f x) (ih hn.2 hal)
      have e1 : ((putAgent l a').map f).sum + f x = f x + ((putAgent l a').map f).sum := by omega
      have e2 : (l.map f).sum + c + f x = f x + (l.map f).sum + c := by omega
      rwa [e1, e2] at this

theorem job_inboxOk (step : Step) (n : Nat) (a : Agent σ) (h : InboxOk a) : InboxOk (job P step n a).1 := by
  obtain ⟨j1, -, -, -, j2, -, -, -⟩ := job_fields P step n a
  unfold InboxOk
  rw [j1, j2]
  exact ⟨List.Pairwise.sublist List.filter_sublist h.1, fun e he => h.2 e (List.mem_filter.1 he).1⟩

theorem receive_inboxOk (ms : List Msg) (x : Agent σ) (h : InboxOk x) : InboxOk { receive ms x with outbox := [] } := by
  refine ⟨receive_inbox_sorted ms x h.1, fun e he => ?_⟩
  rcases List.mem_append.1 ((receive_inbox_perm ms x).mem_iff.1 he) with he | he
  · exact h.2 e he
  · obtain ⟨m, hm, rfl⟩ := List.mem_map.1 he
    have := (List.mem_filter.1 hm).2
    simp only [decide_eq_true_eq] at this
    exact this.symm

/-- Every message goes to exactly one of the agents. -/
theorem sum_mail (ags : List (Agent σ)) (hn : (ags.map (·.id)).Nodup) (ms : List Msg) (h : ∀ m ∈ ms, ∃ y ∈ ags, y.id = m.recipient) :
    (ags.map fun x => weigh weight (ms.filter fun m => decide (x.id = m.recipient))).sum = weigh weight ms := by
  induction ms with
  | nil =>
    have : ∀ l : List (Agent σ), (l.map fun _ => (0 : Int)).sum = 0 := by
      intro l
      induction l with
      | nil => rfl
      | cons x l ih => rw [List.map_cons, List.sum_cons, ih]; rfl
    exact this ags
  | cons m ms ih =>
    rw [weigh_cons, ← ih fun m' h' => h m' (List.mem_cons_of_mem _ h')]
    obtain ⟨y, hy, hym⟩ := h m (List.mem_cons_self ..)
    clear ih h
    induction ags with
    | nil => simp at hy
    | cons x l ihl =>
      rw [List.map_cons, List.nodup_cons] at hn
      rw [List.map_cons, List.sum_cons, List.map_cons, List.sum_cons]
      by_cases hx : x.id = m.recipient
      · have hrest : (l.map fun x => weigh weight ((m :: ms).filter fun m => decide (x.id = m.recipient))) = l.map fun x => weigh weight (ms.filter fun m => decide (x.id = m.recipient)) := by
          apply List.map_congr_left
          intro z hz
          rw [List.filter_cons_of_neg]
          simp only [decide_eq_true_eq]
          intro e
          exact hn.1 (List.mem_map.2 ⟨z, hz, by rw [e, hx]⟩)
        rw [hrest, List.filter_cons_of_pos (by simpa using hx), weigh_cons]
        omega
      · have hyl : y ∈ l := by
          rcases List.mem_cons.1 hy with e | e
          · exact absurd (e ▸ hym) hx
          · exact e
        rw [ihl hn.2 hyl, List.filter_cons_of_neg (by simpa using hx)]
        omega

theorem sum_flow (ags : List (Agent σ)) : ledger value weight ags = (ags.map fun x => value x.id x.state + weigh weight (x.inbox.map (·.2))).sum + weigh weight (ags.flatMap (·.outbox)) := by
  unfold ledger
  induction ags with
  | nil => rfl
  | cons x l ih =>
    rw [List.map_cons, List.sum_cons, ih, List.map_cons, List.sum_cons, List.flatMap_cons, weigh_append]
    unfold flow
    omega

/-- Sending the messages moves their weight from outboxes to inboxes. -/
theorem ledger_send {ags : List (Agent σ)} {wake : Wake} (hn : (ags.map (·.id)).Nodup) {s : List (Agent σ) × Wake} {k : Nat} (h : sendMessages (ags, wake) = .ok (s, k)) :
    ledger value weight s.1 = ledger value weight ags := by
  obtain ⟨h1, h2, -, -⟩ := sendMessages_inv hn h
  have hmail := sum_mail (weight := weight) ags hn (ags.flatMap (·.outbox)) (by
    intro m hm
    obtain ⟨x, hx, hm⟩ := List.mem_flatMap.1 hm
    exact h1 x hx m hm)
  rw [sum_flow ags, ← hmail, h2]
  generalize ags.flatMap (·.outbox) = ms
  unfold ledger
  rw [List.map_map]
  clear hn h h1 h2 hmail
  induction ags with
  | nil => rfl
  | cons x l ih =>
    rw [List.map_cons, List.sum_cons, ih, List.map_cons, List.sum_cons, List.map_cons, List.sum_cons]
    have hp := weigh_perm weight ((receive_inbox_perm ms x).map (·.2))
    rw [List.map_append, weigh_append, List.map_map] at hp
    have e : ((ms.filter fun m => decide (x.id = m.recipient)).map ((fun e : Nat × Msg => e.2) ∘ fun m => (m.received, m))) = ms.filter fun m => decide (x.id = m.recipient) := by
      conv => rhs; rw [← List.map_id (ms.filter _)]
      rfl
    rw [e] at hp
    have hf : flow value weight { receive ms x with outbox := [] } = value x.id x.state + weigh weight ((receive ms x).inbox.map (·.2)) := by
      unfold flow
      show value x.id x.state + _ + 0 = _
      rw [Int.add_zero]
    rw [Function.comp, hf, hp]
    omega

theorem eq_of_id (l : List (Agent σ)) (hn : (l.map (·.id)).Nodup) (x a : Agent σ) (hx : x ∈ l) (ha : a ∈ l) (h : x.id = a.id) : x = a := by
  induction l with
  | nil => simp at hx
  | cons y l ih =>
    rw [List.map_cons, List.nodup_cons] at hn
    rcases List.mem_cons.1 hx with h1 | h1
    · rcases List.mem_cons.1 ha with h2 | h2
      · rw [h1, h2]
      · exact absurd (List.mem_map.2 ⟨a, h2, by rw [← h, h1]⟩) hn.1
    · rcases List.mem_cons.1 ha with h2 | h2
      · exact absurd (List.mem_map.2 ⟨x, h1, by rw [h, h2]⟩) hn.1
      · exact ih hn.2 h1 h2

/-- What holds between rounds. -/
def Inv (rel : Int → Int → Prop) (alive : σ → Prop) (value : Nat → σ → Int) (weight : Msg → Int) (start : Int) (w : World σ) : Prop :=
  (∀ a ∈ w.agents, InboxOk a) ∧ ((∀ a ∈ w.agents, alive a.state) → rel (ledger value weight w.agents) (start + weigh weight (w.log.flatMap (·.sent))))

theorem inv_runJob (R : Relates rel) (L : Law rel alive value weight P) {end_ : Nat} {step : Step} {n : Nat} {start : Int} (a : Agent σ) (rem : List (Agent σ)) (w w' : World σ)
    (hm : Mid step.lower (a :: rem) w) (h : runJob P end_ step n a w = .ok w') (hI : Inv rel alive value weight start w) : Inv rel alive value weight start w' := by
  obtain ⟨_, rfl⟩ := runJob_ok h
  have ha := hm.sub a (List.mem_cons_self ..)
  have hid := (job_fields P step n a).1
  refine ⟨fun x hx => ?_, fun hal => ?_⟩
  · rcases mem_putAgent _ _ _ hx with rfl | ⟨hx, _⟩
    · exact job_inboxOk step n a (hI.1 a ha)
    · exact hI.1 x hx
  · simp only at hal ⊢
    have hmem : (job P step n a).1 ∈ putAgent w.agents (job P step n a).1 := by
      unfold putAgent
      exact List.mem_map.2 ⟨a, ha, by rw [if_pos hid.symm]⟩
    obtain ⟨h1, h2⟩ := L.job R step n a (hI.1 a ha) (hal _ hmem)
    have hbefore : ∀ x ∈ w.agents, alive x.state := by
      intro x hx
      by_cases hxa : x.id = a.id
      · have : x = a := eq_of_id w.agents hm.ids x a hx ha hxa
        rw [this]; exact h1
      · exact hal x (mem_putAgent_of_ne _ _ _ hx (by rw [hid]; exact hxa))
    have h3 := sum_putAgent R (flow value weight) w.agents hm.ids a _ ha hid _ h2
    refine R.trans _ _ _ h3 ?_
    have h4 := R.add _ _ (weigh weight (job P step n a).2.sent) (hI.2 hbefore)
    rw [List.flatMap_append, weigh_append, ← Int.add_assoc]
    simpa [ledger] using h4

theorem inv_round (R : Relates rel) (L : Law rel alive value weight P) {end_ : Nat} {start : Int} (step : Step) (n : Nat) (w w' : World σ) (hn : (w.agents.map (·.id)).Nodup)
    (h : round P end_ step n w = .ok w') (hI : Inv rel alive value weight start w) : Inv rel alive value weight start w' := by
  obtain ⟨w1, s, sent, h1, h2, rfl⟩ := round_ok h
  have e1 := runJobs_ids _ _ _ _ _ _ _ h1
  have hn1 : (w1.agents.map (·.id)).Nodup := by rw [e1]; exact hn
  have hI1 : Inv rel alive value weight start w1 := runJobs_induct (Inv rel alive value weight start) (fun a rem w w' hm hr hi => inv_runJob R L a rem w w' hm hr hi) _ _ _ (mid_start _ w hn _) h1 hI
  obtain ⟨_, e2, _, _⟩ := sendMessages_inv hn1 h2
  refine ⟨fun x hx => ?_, fun hal => ?_⟩
  · simp only [e2] at hx
    obtain ⟨y, hy, rfl⟩ := List.mem_map.1 hx
    exact receive_inboxOk _ y (hI1.1 y hy)
  · simp only at hal ⊢
    rw [ledger_send hn1 h2]
    refine hI1.2 fun x hx => ?_
    have hmem : { receive (w1.agents.flatMap (·.outbox)) x with outbox := [] } ∈ s.1 := by
      rw [e2]; exact List.mem_map_of_mem (f := fun x : Agent σ => { receive (w1.agents.flatMap (·.outbox)) x with outbox := [] }) hx
    have hst := hal _ hmem
    exact hst

/-- **The ledger of a run.** -/
theorem ledger_run (R : Relates rel) (L : Law rel alive value weight P) (start end_ fuel k : Nat) (w w' : World σ) (ts : List Nat) (hu : Sched.Spec.UniqueIds w) (hl : w.log = [])
    (hin : ∀ a ∈ w.agents, InboxOk a) (h : runLoop P end_ fuel k start w = some (.ok (w', ts))) (hal : ∀ a ∈ w'.agents, alive a.state) :
    rel (ledger value weight w'.agents) (ledger value weight w.agents + weigh weight (w'.log.flatMap (·.sent))) :=
  (run_induct P end_ fuel (Inv rel alive value weight (ledger value weight w.agents)) (fun step n w w' hn hr hi => inv_round R L step n w w' hn hr hi) k start w w' ts hu h
    ⟨hin, fun _ => by rw [hl]; simp [weigh]; exact R.refl _⟩).1.2 hal

/-- If whatever is sent at once weighs nothing together, then everything that is sent in a run weighs nothing together. -/
theorem log_balanced (hc : ∀ i r c, ∀ e ∈ P.handlers i r c, ∀ s m step, weigh weight (e.2.function s m step).2.1 = 0) (ha : ∀ i r s step, weigh weight (P.act i r s step).2.1 = 0) (start end_ fuel k : Nat) (w w' : World σ)
    (ts : List Nat) (hu : Sched.Spec.UniqueIds w) (hl : w.log = []) (h : runLoop P end_ fuel k start w = some (.ok (w', ts))) : weigh weight (w'.log.flatMap (·.sent)) = 0 := by
  have hrun : ∀ (l : Handlers σ) step m, (∀ e ∈ l, ∀ s m step, weigh weight (e.2.function s m step).2.1 = 0) → ∀ (r : Run σ) first, weigh weight (runCallbacks step m l (r, first)).1.outbox = weigh weight r.outbox := by
    intro l step m
    induction l with
    | nil => intro _ r first; rfl
    | cons e l ih =>
      intro he r first
      obtain ⟨p, f⟩ := e
      rw [runCallbacks]
      simp only
      rw [ih (fun e h' => he e (List.mem_cons_of_mem _ h')), weigh_append, he (p, f) (List.mem_cons_self ..), Int.add_zero]
  have hall : ∀ i r step (ms : List Msg) (run : Run σ) first, weigh weight (Comm.processAll (P.handlers i r) step ms (run, first)).1.outbox = weigh weight run.outbox := by
    intro i r step ms
    induction ms with
    | nil => intro run first; rfl
    | cons m ms ih =>
      intro run first
      rw [Comm.processAll]
      simp only
      rw [ih]
      exact hrun _ _ _ (fun e h' => hc i r m.type e (List.mem_reverse.1 h')) _ _
  have hjob : ∀ step n (a : Agent σ), weigh weight (job P step n a).2.sent = 0 := by
    intro step n a
    unfold job processMessages
    simp only
    rw [weigh_append, hall, ha]
    rfl
  refine (run_induct P end_ fuel (fun w => weigh weight (w.log.flatMap (·.sent)) = 0) ?_ k start w w' ts hu h (by rw [hl]; rfl)).1
  intro step n w w' hn hr hI
  obtain ⟨w1, s, sent, h1, _, rfl⟩ := round_ok hr
  have : weigh weight (w1.log.flatMap (·.sent)) = 0 := runJobs_induct (fun w => weigh weight (w.log.flatMap (·.sent)) = 0) (fun a rem w w' _ hr hi => by
    obtain ⟨_, rfl⟩ := runJob_ok hr
    simp only [List.flatMap_append, List.flatMap_cons, List.flatMap_nil, List.append_nil]
    rw [weigh_append, hi, hjob]; rfl) _ _ _ (mid_start _ w hn _) h1 hI
  exact this

end Esl.Ledger
