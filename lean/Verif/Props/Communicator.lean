import Verif.Lemmas.Communicator
/-! # C15-C17, C72: callbacks and message handling -/
namespace Esl.Comm
variable {σ : Type}

/-- A registration: message code, priority, callback. -/
abbrev Registration (σ : Type) := Nat × Int × Entry σ

/-- A history of calls of `register_callback` (the constructor of an agent). -/
def registerAll (t : Table σ) : List (Registration σ) → Outcome (Table σ)
  | [] => .ok t
  | (c, p, f) :: rs => register t c p f >>= fun t' => registerAll t' rs

/-! Specifications -/

/-- The inbox is ordered by delivery time. -/
def Spec.InboxSorted (inbox : Inbox) : Prop := inbox.Pairwise fun x y => x.1 ≤ y.1

/-- What a shuffle may do: any reordering, which may depend on the messages. -/
def Spec.IsShuffle (s : List Msg → List Msg) : Prop := ∀ l, (s l).Perm l

/-- The callbacks registered for a message code, in order of registration. -/
def Spec.registeredFor (regs : List (Registration σ)) (code : Nat) : List (Int × Nat) :=
  (regs.filter fun r => r.1 == code).map fun r => (r.2.1, r.2.2.line)

/-- All calls that should be made for a message: one for every callback registered for its code. -/
def Spec.expectedCalls (regs : List (Registration σ)) (m : Msg) : List (Msg × Int × Nat) :=
  (Spec.registeredFor regs m.type).map fun c => (m, c.1, c.2)

/-- The messages in an inbox that are due. -/
def Spec.due (now : Nat) (inbox : Inbox) : List Msg := (inbox.filter fun e => decide (e.1 ≤ now)).map (·.2)

/-! Invariants of registration -/

theorem registerAll_ok (regs : List (Registration σ)) (t : Table σ) (hu : t.locked = false) :
    ∃ t', registerAll t regs = .ok t' ∧ t'.locked = false := by
  induction regs generalizing t with
  | nil => exact ⟨t, rfl, hu⟩
  | cons r rs ih =>
    obtain ⟨c, p, f⟩ := r
    simp only [registerAll, register, hu, Bool.false_eq_true, if_false, Outcome.bind_ok]
    exact ih _ rfl

theorem registerAll_sorted (regs : List (Registration σ)) (t t' : Table σ)
    (h : registerAll t regs = .ok t')
    (hs : ∀ c, (t.handlers c).Pairwise fun x y => x.1 ≤ y.1) :
    ∀ c, (t'.handlers c).Pairwise fun x y => x.1 ≤ y.1 := by
  induction regs generalizing t with
  | nil => simp [registerAll] at h; subst h; exact hs
  | cons r rs ih =>
    obtain ⟨c, p, f⟩ := r
    simp only [registerAll, register] at h
    split at h
    · simp at h
    · simp at h
      refine ih _ h ?_
      intro c'
      simp only
      split
      · exact mmInsert_sorted_int _ _ _ (hs c')
      · exact hs c'

theorem registerAll_perm (regs : List (Registration σ)) (t t' : Table σ)
    (h : registerAll t regs = .ok t') (c : Nat) :
    ((t'.handlers c).map fun e => (e.1, e.2.line)).Perm
      (((t.handlers c).map fun e => (e.1, e.2.line)) ++ Spec.registeredFor regs c) := by
  induction regs generalizing t with
  | nil => simp [registerAll] at h; subst h; simp [Spec.registeredFor]
  | cons r rs ih =>
    obtain ⟨c', p, f⟩ := r
    simp only [registerAll, register] at h
    split at h
    · simp at h
    · simp at h
      refine (ih _ h).trans ?_
      simp only
      by_cases hc : c = c'
      · subst hc
        simp only [if_pos]
        refine (((mmInsert_perm _ _ _ _).map _).append_right _).trans ?_
        have : Spec.registeredFor ((c, p, f) :: rs) c = (p, f.line) :: Spec.registeredFor rs c := by
          simp [Spec.registeredFor]
        rw [this]
        simpa using List.perm_middle.symm
      · have : Spec.registeredFor ((c', p, f) :: rs) c = Spec.registeredFor rs c := by
          simp [Spec.registeredFor, Ne.symm hc]
        simp [hc, this]

/-! ## C15 -/

/-- **C15.** For an agent with any registered callbacks, and any inbox: processing messages at time
`step.lower` calls every callback registered for the code of a due message exactly once per due
message, and makes no other call (as multisets of calls: no message is lost, duplicated or handled
early). This holds for every shuffle. -/
theorem C15_exactly_once (regs : List (Registration σ)) (t : Table σ) (hreg : registerAll .empty regs = .ok t)
    (shuffle : List Msg → List Msg) (hsh : Spec.IsShuffle shuffle)
    (step : Step) (inbox : Inbox) (hin : Spec.InboxSorted inbox) (a : σ) :
    (processMessages t.handlers shuffle step inbox ⟨a, [], []⟩).1.calls.Perm
      ((Spec.due step.lower inbox).flatMap (Spec.expectedCalls regs)) := by
  unfold processMessages
  rw [processAll_calls, List.nil_append]
  have h1 := (handled_perm t.handlers shuffle hsh step.lower inbox).flatMap_right (callsOf t.handlers)
  refine h1.trans ?_
  unfold dueList
  rw [takeWhile_eq_filter_of_sorted _ _ hin]
  unfold Spec.due
  have hp : ∀ m, (callsOf t.handlers m).Perm (Spec.expectedCalls regs m) := by
    intro m
    unfold callsOf Spec.expectedCalls
    have := (registerAll_perm regs _ _ hreg m.type).map fun c : Int × Nat => (m, c.1, c.2)
    simp [Table.empty, Function.comp_def] at this
    refine ((List.reverse_perm _).map _).trans ?_
    simpa [Function.comp_def] using this
  generalize inbox.filter _ = l
  induction l with
  | nil => simp
  | cons e l ih =>
    by_cases he : (t.handlers e.2.type).isEmpty = true
    · have : Spec.expectedCalls regs e.2 = [] := by
        have := hp e.2
        simp [callsOf, List.isEmpty_iff.1 he] at this
        exact this
      simpa [he, this] using ih
    · simp only [List.filter_cons, he, Bool.not_false, if_true, List.map_cons, List.flatMap_cons]
      exact (hp _).append ih

/-- **C15.** In particular a message of the future is never handled, and neither is a message that is
not in the inbox. -/
theorem C15_not_early (t : Table σ) (shuffle : List Msg → List Msg) (hsh : Spec.IsShuffle shuffle)
    (step : Step) (inbox : Inbox) (hin : Spec.InboxSorted inbox) (a : σ) (m : Msg) (p : Int) (l : Nat)
    (hc : (m, p, l) ∈ (processMessages t.handlers shuffle step inbox ⟨a, [], []⟩).1.calls) :
    ∃ time, (time, m) ∈ inbox ∧ time ≤ step.lower := by
  unfold processMessages at hc
  rw [processAll_calls, List.nil_append, List.mem_flatMap] at hc
  obtain ⟨m', h1, h2⟩ := hc
  have h3 := (handled_perm t.handlers shuffle hsh step.lower inbox).mem_iff.1 h1
  unfold dueList at h3
  rw [takeWhile_eq_filter_of_sorted _ _ hin] at h3
  simp [callsOf] at h2
  obtain ⟨_, _, _, rfl, _⟩ := h2
  simp at h3
  obtain ⟨time, h4, _, h5⟩ := h3
  exact ⟨time, h4, h5⟩

/-! ## C16 -/

/-- The highest priority registered for the code of a message is at least `p`. -/
def Spec.HasPriority (regs : List (Registration σ)) (m : Msg) (p : Int) : Prop :=
  ∃ c ∈ Spec.registeredFor regs m.type, p ≤ c.1

/-- **C16.** The calls are made message by message. A message is handled before another one only if it
has a callback whose priority is at least that of every callback of the other message; and the
callbacks of one message are called in order of descending priority. Priorities are `int8_t`. -/
theorem C16_priority (regs : List (Registration σ)) (t : Table σ) (hreg : registerAll .empty regs = .ok t)
    (hint8 : ∀ r ∈ regs, -128 ≤ r.2.1 ∧ r.2.1 ≤ 127)
    (shuffle : List Msg → List Msg) (hsh : Spec.IsShuffle shuffle)
    (step : Step) (inbox : Inbox) (a : σ) :
    ∃ (ms : List Msg) (calls : Msg → List (Msg × Int × Nat)),
      (processMessages t.handlers shuffle step inbox ⟨a, [], []⟩).1.calls = ms.flatMap calls ∧
      (∀ m, (calls m).Perm (Spec.expectedCalls regs m)) ∧
      (∀ m, (calls m).Pairwise fun x y => y.2.1 ≤ x.2.1) ∧
      ms.Pairwise fun m m' => ∀ c ∈ Spec.expectedCalls regs m', Spec.HasPriority regs m c.2.1 := by
  have hp : ∀ c, ((t.handlers c).map fun e => (e.1, e.2.line)).Perm (Spec.registeredFor regs c) := by
    intro c
    simpa [Table.empty] using registerAll_perm regs _ _ hreg c
  have hr : ∀ c, ∀ e ∈ t.handlers c, -128 ≤ e.1 := by
    intro c e he
    have h1 := (hp c).mem_iff.1 (List.mem_map_of_mem he)
    simp only [Spec.registeredFor, List.mem_map, List.mem_filter] at h1
    obtain ⟨f, h2, h3⟩ := h1
    have := (hint8 _ h2.1).1
    simp only [Prod.mk.injEq] at h3
    omega
  refine ⟨handled t.handlers shuffle step.lower inbox, callsOf t.handlers, ?_, ?_, ?_, ?_⟩
  · unfold processMessages
    rw [processAll_calls, List.nil_append]
  · intro m
    unfold callsOf Spec.expectedCalls
    have := (hp m.type).map fun c : Int × Nat => (m, c.1, c.2)
    simp only [List.map_map, Function.comp_def] at this
    exact ((List.reverse_perm _).map _).trans this
  · intro m
    unfold callsOf
    rw [List.pairwise_map, List.pairwise_reverse]
    exact registerAll_sorted regs _ _ hreg (by simp [Table.empty]) _
  · have hsrt := handled_sorted t.handlers shuffle hsh step.lower inbox
    refine List.Pairwise.imp_of_mem ?_ hsrt
    intro m m' hm hm' hle c hc
    have hne : t.handlers m.type ≠ [] := by
      have := (handled_perm t.handlers shuffle hsh step.lower inbox).mem_iff.1 hm
      simp [dueList] at this
      obtain ⟨_, h⟩ := this
      exact h
    obtain ⟨e, he, heq⟩ := (highest_spec _ (hr m.type)).2 hne
    have hc2 : (c.2.1, c.2.2) ∈ Spec.registeredFor regs m'.type := by
      simp [Spec.expectedCalls] at hc
      obtain ⟨x, y, h, rfl⟩ := hc
      exact h
    have hc3 := (hp m'.type).mem_iff.2 hc2
    rw [List.mem_map] at hc3
    obtain ⟨x, hx, hxe⟩ := hc3
    simp only [Prod.mk.injEq] at hxe
    have hxle := (highest_spec _ (hr m'.type)).1 _ hx
    refine ⟨(e.1, e.2.line), (hp m.type).mem_iff.1 (List.mem_map_of_mem he), ?_⟩
    simp only
    omega

/-! ## C17 -/

/-- **C17 (partial).** With the in-order schedule, the messages that have the same highest priority `p` are
handled in an order that is determined by the inbox alone: exactly the reverse of the order of the
inbox. Missing: the documented order (order of the inbox, i.e. by delivery time and, among equal delivery times,
order of arrival), which the code does not implement; see the counterexample. -/
theorem C17_in_order_reversed_partial (t : Table σ) (now : Nat) (inbox : Inbox)
    (hin : Spec.InboxSorted inbox) (p : Int) :
    (handled t.handlers id now inbox).filter (fun m => decide (highest (t.handlers m.type) = p)) =
    ((Spec.due now inbox).filter fun m =>
      !(t.handlers m.type).isEmpty && decide (highest (t.handlers m.type) = p)).reverse := by
  unfold handled
  rw [order_id]
  have hk : ∀ e ∈ collect t.handlers now inbox [], e.1 = highest (t.handlers e.2.type) := by
    intro e he
    have := (collect_perm t.handlers now inbox []).mem_iff.1 he
    simp [dueList] at this
    obtain ⟨a, b, h, rfl⟩ := this
    rfl
  have h2 := collect_filter t.handlers now p inbox [] List.Pairwise.nil
  have h3 : (collect t.handlers now inbox []).filter (fun e => decide (e.1 = p)) =
      (collect t.handlers now inbox []).filter (fun e => decide (highest (t.handlers e.2.type) = p)) := by
    apply List.filter_congr
    intro e he
    rw [hk e he]
  rw [h3] at h2
  rw [List.map_reverse, List.filter_reverse, List.filter_map]
  congr 1
  rw [show ((fun m => decide (highest (t.handlers m.type) = p)) ∘ fun x : Int × Msg => x.2) =
      fun e => decide (highest (t.handlers e.2.type) = p) from rfl]
  rw [h2]
  unfold dueList Spec.due
  rw [takeWhile_eq_filter_of_sorted _ _ hin]
  simp only [List.filter_nil, List.nil_append, List.filter_map, List.map_map, List.filter_filter,
    Function.comp_def]
  congr 1
  apply List.filter_congr
  intro e _
  simp only [Bool.and_assoc]
  cases decide (e.1 ≤ now) <;> cases (t.handlers e.2.type).isEmpty <;> simp

/-- A message for the examples. -/
def msg (type payload : Nat) (received : Nat := 0) : Msg := ⟨type, 0, 0, 0, received, payload⟩

/-- The callback for the examples: writes down the payload. -/
def note : Entry (List Nat) := ⟨1, fun s m step => (s ++ [m.payload], [], step.upper)⟩

/-- **C17 (negation).** Two messages delivered at the same time, with the same priority, are handled last
first by the in-order schedule. -/
theorem C17_counterexample_last_first :
    ∃ t : Table (List Nat), registerAll .empty [(7, 0, note)] = .ok t ∧
      (processMessages t.handlers id ⟨5, 10⟩ [(5, msg 7 1 5), (5, msg 7 2 5)] ⟨[], [], []⟩).1.agent = [2, 1] := by
  refine ⟨_, rfl, ?_⟩
  simp [processMessages, handled, collect, Table.empty, mmInsert, msg, order_id, processAll,
    processMessage, runCallbacks, note]

/-! ## C72 -/

/-- **C72.** While the agent is constructed every registration succeeds; afterwards every registration is
refused and the callbacks stay as they are. -/
theorem C72_locked (regs : List (Registration σ)) :
    ∃ t, registerAll .empty regs = .ok t ∧
      ∀ c p (f : Entry σ), register (lock t) c p f = .throws := by
  obtain ⟨t, h, _⟩ := registerAll_ok regs (.empty : Table σ) rfl
  refine ⟨t, h, ?_⟩
  intro c p f
  simp [register, lock]

/-- **C72.** The callbacks that are present after construction are exactly the registered ones. -/
theorem C72_registered (regs : List (Registration σ)) (t : Table σ) (h : registerAll .empty regs = .ok t) (c : Nat) :
    (((lock t).handlers c).map fun e => (e.1, e.2.line)).Perm (Spec.registeredFor regs c) := by
  simpa [Table.empty, lock] using registerAll_perm regs _ _ h c

/-! Non-vacuity: two callbacks for code 7 and one for code 8; three due messages and one future one. -/
example : ∃ t : Table (List Nat),
    registerAll .empty [(7, 0, note), (7, 5, { note with line := 2 }), (8, 3, { note with line := 3 })] = .ok t ∧
    Spec.InboxSorted [(1, msg 7 1), (2, msg 8 2), (2, msg 7 3), (9, msg 7 4)] ∧
    Spec.IsShuffle List.reverse ∧
    Spec.due 2 [(1, msg 7 1), (2, msg 8 2), (2, msg 7 3), (9, msg 7 4)] = [msg 7 1, msg 8 2, msg 7 3] := by
  refine ⟨_, rfl, ?_, fun l => List.reverse_perm l, by decide⟩
  simp [Spec.InboxSorted]

end Esl.Comm
