import Verif.Model.Overrides
/-!
C153: classes written in Python extend the classes of the library.
-/
namespace Esl.Overrides

/-! ## Specification -/

/-- What the statements of a method that calls no method do. -/
def Spec.owns (l : List Statement) : List Event := l.filterMap fun
  | .own n => some (.own n)
  | _ => none

/-- The methods of the classes call neither the methods they replace nor other methods of the library. -/
def Spec.Plain (c : Classes) : Prop := ∀ m b a, c m = some b → ∀ x ∈ (b a).statements, ∃ n, x = .own n

/-- A call of a method that calls no other: the method of the Python class if there is one, and else that of the library. -/
def Spec.hook (c : Classes) (m : Method) (a : Nat) : List Event :=
  match c m with
  | some b => .python m a :: Spec.owns (b a).statements
  | none => [.library m a]

/-- A number that fits. -/
def Spec.Number : Returned → Prop
  | .number n => n < 2 ^ 64
  | _ => False

/-- Methods return what is asked for: numbers of agents and of messages are numbers, times are numbers or nothing. -/
def Spec.Returns (c : Classes) : Prop :=
  (∀ m ∈ [Method.activate, .deactivate, .sendMessages], ∀ b a, c m = some b → Spec.Number (b a).result) ∧
  ∀ b a, c .modelStep = some b → (b a).result = .none ∨ Spec.Number (b a).result

/-- The time after the step at `t`. -/
def Spec.time (s : Simulation) (c : Classes) (t : Nat) : Nat :=
  match c .modelStep with
  | some b =>
    match (b t).result with
    | .number n => n
    | _ => s.stop
  | none => s.next t

/-- The step at `t`: the step of the Python model, or that of the library with the methods around it. -/
def Spec.step (s : Simulation) (c : Classes) (t : Nat) : List Event :=
  match c .modelStep with
  | some b => .python .modelStep t :: Spec.owns (b t).statements
  | none => .library .modelStep t :: (Spec.hook c .beforeStep 0 ++ (List.replicate (s.rounds t + 1) (Spec.hook c .sendMessages 0)).flatten ++ Spec.hook c .afterStep 0)

/-- The times of the steps, beginning with the step at `t`: the last one is the first that leads to the end of the simulation. -/
inductive Spec.Steps (s : Simulation) (c : Classes) : Nat → List Nat → Prop where
  | last (t : Nat) (h : s.stop ≤ Spec.time s c t) : Spec.Steps s c t [t]
  | more (t : Nat) (l : List Nat) (h : Spec.time s c t < s.stop) (hl : Spec.Steps s c (Spec.time s c t) l) : Spec.Steps s c t (t :: l)

/-- A whole run. -/
def Spec.run (s : Simulation) (c : Classes) (times : List Nat) : List Event :=
  Spec.hook c .initialize 0 ++ times.flatMap (fun t => Spec.hook c .activate 0 ++ Spec.hook c .deactivate 0 ++ Spec.step s c t) ++ Spec.hook c .terminate 0 ++ Spec.hook c .afterRun 0

/-! ## Calls -/

@[simp] theorem bind_ok {α β : Type} (a : α) (f : α → Result β) : (Result.ok a).bind f = f a := rfl
@[simp] theorem bind_throws {α β : Type} (f : α → Result β) : (Result.throws).bind f = .throws := rfl
@[simp] theorem bind_running {α β : Type} (f : α → Result β) : (Result.running).bind f = .running := rfl
@[simp] theorem andThen_ok (a b : Trace) : (Result.ok a).andThen (.ok b) = .ok (a.1 ++ b.1, b.2) := rfl

theorem bind_eq_ok {α β : Type} {x : Result α} {f : α → Result β} {r : β} : x.bind f = .ok r ↔ ∃ a, x = .ok a ∧ f a = .ok r := by
  cases x <;> simp

theorem andThen_eq_ok {x y : Result Trace} {r : Trace} : x.andThen y = .ok r ↔ ∃ a b, x = .ok a ∧ y = .ok b ∧ (a.1 ++ b.1, b.2) = r := by
  cases x <;> cases y <;> simp [Result.andThen]

theorem execute_plain (s : Simulation) (c : Classes) (k : Nat) (p : Method → Nat → Result Trace) (m : Method) (a : Nat) :
    ∀ l : List Statement, (∀ x ∈ l, ∃ n, x = .own n) → execute s c k p m a l = .ok (Spec.owns l)
  | [], _ => rfl
  | x :: l, h => by
    obtain ⟨n, rfl⟩ := h x List.mem_cons_self
    rw [execute, execute_plain s c k p m a l fun y hy => h y (List.mem_cons_of_mem _ hy)]
    rfl

/-- A Python method that calls no method. -/
theorem python_plain (s : Simulation) (c : Classes) (k d : Nat) (hc : Spec.Plain c) (m : Method) (a : Nat) (b : Nat → Body) (hb : c m = some b) :
    python s c k (d + 1) m a = (convert s m (b a).result).bind fun v => .ok (.python m a :: Spec.owns (b a).statements, v) := by
  rw [python]
  simp only [hb]
  rw [execute_plain s c k _ m a _ (hc m b a hb)]
  rfl

/-- A call of a method that calls no other, when the result is accepted. -/
theorem dispatch_hook (s : Simulation) (c : Classes) (k d : Nat) (hc : Spec.Plain c) (l : Method → Nat → Result Trace) (m : Method) (a : Nat) (hm : wrapped m = true) (hl : ∃ v, l m a = .ok ([.library m a], v))
    (hv : ∀ b, c m = some b → ∃ v, convert s m (b a).result = .ok v) : ∃ v, dispatch c (python s c k (d + 1)) l m a = .ok (Spec.hook c m a, v) := by
  unfold dispatch overridden Spec.hook
  cases hb : c m with
  | none => simpa [hm] using hl
  | some b =>
    obtain ⟨v, hv⟩ := hv b hb
    simp only [hm, Option.isSome_some, Bool.and_self, if_true, python_plain s c k d hc m a b hb, hv]
    exact ⟨v, rfl⟩

theorem convert_number (s : Simulation) {m : Method} (hm : m ∈ [Method.activate, .deactivate, .sendMessages, .modelStep, .act]) {r : Returned} (h : Spec.Number r) : ∃ n, r = .number n ∧ convert s m r = .ok n := by
  cases r with
  | number n =>
    refine ⟨n, rfl, ?_⟩
    simp only [Spec.Number] at h
    simp only [List.mem_cons, List.not_mem_nil, or_false] at hm
    rcases hm with rfl | rfl | rfl | rfl | rfl <;> simp [convert, h]
  | none => cases h
  | text => cases h
  | other => cases h

theorem convert_void (s : Simulation) {m : Method} (hm : m ∈ [Method.initialize, .terminate, .beforeStep, .afterStep, .afterRun]) (r : Returned) : convert s m r = .ok 0 := by
  simp only [List.mem_cons, List.not_mem_nil, or_false] at hm
  rcases hm with rfl | rfl | rfl | rfl | rfl <;> cases r <;> rfl

/-- Calls of the methods without an effect on the time. -/
theorem hooks (s : Simulation) (c : Classes) (k d : Nat) (hc : Spec.Plain c) (hr : Spec.Returns c) (l : Method → Nat → Result Trace) (m : Method)
    (hm : m ∈ [Method.initialize, .terminate, .beforeStep, .afterStep, .afterRun, .activate, .deactivate, .sendMessages]) (a : Nat) (hl : ∃ v, l m a = .ok ([.library m a], v)) :
    ∃ v, dispatch c (python s c k (d + 1)) l m a = .ok (Spec.hook c m a, v) := by
  apply dispatch_hook s c k d hc l m a
  · simp only [List.mem_cons, List.not_mem_nil, or_false] at hm
    rcases hm with rfl | rfl | rfl | rfl | rfl | rfl | rfl | rfl <;> rfl
  · exact hl
  · intro b hb
    by_cases h : m ∈ [Method.initialize, .terminate, .beforeStep, .afterStep, .afterRun]
    · exact ⟨0, convert_void s h _⟩
    · have h' : m ∈ [Method.activate, .deactivate, .sendMessages] := by
        simp only [List.mem_cons, List.not_mem_nil, or_false] at hm h ⊢
        rcases hm with h1 | h1 | h1 | h1 | h1 | h1 | h1 | h1 <;> simp_all
      obtain ⟨n, _, h2⟩ := convert_number s (m := m) (by simp only [List.mem_cons, List.not_mem_nil, or_false] at h' ⊢; rcases h' with h | h | h <;> simp [h]) (hr.1 m h' b a hb)
      exact ⟨n, h2⟩

theorem again_hook (f : Result Trace) (e : List Event) (v : Nat) (h : f = .ok (e, v)) : ∀ n, ∃ w, again f n = .ok ((List.replicate n e).flatten, w)
  | 0 => ⟨0, rfl⟩
  | n + 1 => by
    obtain ⟨w, hw⟩ := again_hook f e v h n
    refine ⟨w, ?_⟩
    rw [again, hw, h, andThen_ok]
    simp [List.replicate_succ]

/-- The step at `t`. -/
theorem step_spec (s : Simulation) (c : Classes) (k d : Nat) (hc : Spec.Plain c) (hr : Spec.Returns c) (t : Nat) (ht : c .modelStep = none → t < s.stop) :
    dispatch c (python s c k (d + 1)) (stepLibrary s c (python s c k (d + 1))) .modelStep t = .ok (Spec.step s c t, Spec.time s c t) := by
  unfold dispatch overridden Spec.step Spec.time
  cases hb : c .modelStep with
  | some b =>
    simp only [wrapped, Option.isSome_some, Bool.and_self, if_true, python_plain s c k d hc _ _ b hb]
    rcases hr.2 b t hb with h | h
    · simp [h, convert]
    · obtain ⟨n, h1, h2⟩ := convert_number s (m := .modelStep) (by simp) h
      rw [h2, h1]
      rfl
  | none =>
    have hs := ht hb
    obtain ⟨v1, h1⟩ := hooks s c k d hc hr (leaf s) .beforeStep (by simp) 0 ⟨_, rfl⟩
    obtain ⟨v2, h2⟩ := hooks s c k d hc hr (leaf s) .sendMessages (by simp) 0 ⟨_, rfl⟩
    obtain ⟨v3, h3⟩ := hooks s c k d hc hr (leaf s) .afterStep (by simp) 0 ⟨_, rfl⟩
    obtain ⟨v4, h4⟩ := again_hook _ _ _ h2 (s.rounds t + 1)
    simp only [Option.isSome_none, Bool.and_false, Bool.false_eq_true, if_false, stepLibrary, if_true, if_neg (Nat.not_le.mpr hs), h1, h3, h4, andThen_ok, bind_ok]
    simp [List.append_assoc]

theorem stepLibrary_leaf (s : Simulation) (c : Classes) (p : Method → Nat → Result Trace) {m : Method} (hm : m ≠ .modelStep) (a : Nat) : ∃ v, stepLibrary s c p m a = .ok ([.library m a], v) := by
  unfold stepLibrary
  rw [if_neg hm]
  exact ⟨_, rfl⟩

/-- One step of the loop. -/
theorem loop_step (s : Simulation) (c : Classes) (k d : Nat) (hc : Spec.Plain c) (hr : Spec.Returns c) (n t : Nat) (ht : c .modelStep = none → t < s.stop) :
    runLoop s c (python s c k (d + 1)) (n + 1) t =
      if Spec.time s c t < s.stop then
        (Result.ok (Spec.hook c .activate 0 ++ Spec.hook c .deactivate 0 ++ Spec.step s c t, Spec.time s c t)).andThen (runLoop s c (python s c k (d + 1)) n (Spec.time s c t))
      else .ok (Spec.hook c .activate 0 ++ Spec.hook c .deactivate 0 ++ Spec.step s c t, Spec.time s c t) := by
  obtain ⟨v1, h1⟩ := hooks s c k d hc hr (stepLibrary s c (python s c k (d + 1))) .activate (by simp) 0 (stepLibrary_leaf s c _ (by decide) 0)
  obtain ⟨v2, h2⟩ := hooks s c k d hc hr (stepLibrary s c (python s c k (d + 1))) .deactivate (by simp) 0 (stepLibrary_leaf s c _ (by decide) 0)
  rw [runLoop, h1, h2, step_spec s c k d hc hr t ht]
  simp only [andThen_ok, bind_ok, List.append_assoc]

theorem loop_spec (s : Simulation) (c : Classes) (k d : Nat) (hc : Spec.Plain c) (hr : Spec.Returns c) {t : Nat} {times : List Nat} (h : Spec.Steps s c t times) :
    (c .modelStep = none → t < s.stop) → ∀ n, times.length ≤ n →
      ∃ v, runLoop s c (python s c k (d + 1)) n t = .ok (times.flatMap (fun t => Spec.hook c .activate 0 ++ Spec.hook c .deactivate 0 ++ Spec.step s c t), v) := by
  induction h with
  | last t h =>
    intro ht n hn
    obtain ⟨n, rfl⟩ : ∃ n', n = n' + 1 := ⟨n - 1, by simp at hn; omega⟩
    rw [loop_step s c k d hc hr n t ht, if_neg (Nat.not_lt.mpr h)]
    exact ⟨Spec.time s c t, by simp⟩
  | more t l h _ ih =>
    intro ht n hn
    obtain ⟨n, rfl⟩ : ∃ n', n = n' + 1 := ⟨n - 1, by simp at hn; omega⟩
    obtain ⟨v, hv⟩ := ih (fun _ => h) n (by simp at hn; omega)
    rw [loop_step s c k d hc hr n t ht, if_pos h, hv, andThen_ok]
    exact ⟨v, by simp [List.flatMap_cons]⟩

theorem loop_ok (s : Simulation) (c : Classes) (k d : Nat) (hc : Spec.Plain c) (hr : Spec.Returns c) :
    ∀ n t, (c .modelStep = none → t < s.stop) → (∃ r, runLoop s c (python s c k (d + 1)) n t = .ok r) → ∃ times, Spec.Steps s c t times ∧ times.length ≤ n
  | 0, t, _, h => by obtain ⟨r, h⟩ := h; cases h
  | n + 1, t, ht, h => by
    obtain ⟨r, h⟩ := h
    rw [loop_step s c k d hc hr n t ht] at h
    by_cases hs : Spec.time s c t < s.stop
    · rw [if_pos hs, andThen_eq_ok] at h
      obtain ⟨_, b, _, hb, _⟩ := h
      obtain ⟨times, h1, h2⟩ := loop_ok s c k d hc hr n _ (fun _ => hs) ⟨b, hb⟩
      exact ⟨t :: times, .more t times hs h1, by simpa using h2⟩
    · exact ⟨[t], .last t (Nat.not_lt.mp hs), by simp⟩

/-! ## C153 -/

/-- **C153 (partial)**: in a simulation whose environment and model are written in Python, each method that the classes define is called in place of the method of the library, and each that they do not define is that of the library: `initialize` once, then for each step `activate`,
`deactivate` and the step of the model, with `before_step`, `send_messages` once in each round and `after_step` within the step of the library, and at the end `terminate` and `after_run`. Steps begin at the start of the simulation and go on at the time that the step returns, or at the
end if it returns nothing, until the end is reached.
Missing: methods that call the methods they replace, methods that return no number where one is asked for, and the methods `activate_agent`, `deactivate_agent` and `act` of a company (see the counterexamples). -/
theorem C153_run_partial (s : Simulation) (c : Classes) (k depth a : Nat) (hc : Spec.Plain c) (hr : Spec.Returns c) (hrun : c .run = none) (hstart : s.start < s.stop) (hd : 0 < depth) :
    (∀ times, Spec.Steps s c s.start times → times.length ≤ k → invoke s c k depth .run a = .ok (.library .run a :: Spec.run s c times, 0)) ∧
    ((∃ r, invoke s c k depth .run a = .ok r) → ∃ times, Spec.Steps s c s.start times ∧ times.length ≤ k) := by
  obtain ⟨d, rfl⟩ : ∃ d, depth = d + 1 := ⟨depth - 1, by omega⟩
  have hl : ∀ m, m ≠ .modelStep → ∃ v, stepLibrary s c (python s c k (d + 1)) m 0 = .ok ([.library m 0], v) := fun m hm => stepLibrary_leaf s c _ hm 0
  obtain ⟨v1, h1⟩ := hooks s c k d hc hr (stepLibrary s c (python s c k (d + 1))) .initialize (by simp) 0 (hl _ (by decide))
  obtain ⟨v2, h2⟩ := hooks s c k d hc hr (stepLibrary s c (python s c k (d + 1))) .terminate (by simp) 0 (hl _ (by decide))
  obtain ⟨v3, h3⟩ := hooks s c k d hc hr (stepLibrary s c (python s c k (d + 1))) .afterRun (by simp) 0 (hl _ (by decide))
  have hi : invoke s c k (d + 1) .run a = ((Result.ok ([.library .run a], 0)).andThen ((Result.ok (Spec.hook c .initialize 0, v1)).andThen
      ((runLoop s c (python s c k (d + 1)) k s.start).andThen ((Result.ok (Spec.hook c .terminate 0, v2)).andThen (Result.ok (Spec.hook c .afterRun 0, v3)))))).bind fun t => .ok (t.1, 0) := by
    unfold invoke dispatch overridden
    rw [hrun]
    simp only [Option.isSome_none, Bool.and_false, Bool.false_eq_true, if_false, library, if_true, h1, h2, h3]
  constructor
  · intro times ht hk
    obtain ⟨v, hv⟩ := loop_spec s c k d hc hr ht (fun _ => hstart) k hk
    rw [hi, hv]
    simp [andThen_ok, Spec.run, List.append_assoc]
  · intro ⟨r, h⟩
    rw [hi, bind_eq_ok] at h
    obtain ⟨x, hx, _⟩ := h
    obtain ⟨_, y, _, hy, _⟩ := andThen_eq_ok.mp hx
    obtain ⟨_, z, _, hz, _⟩ := andThen_eq_ok.mp hy
    obtain ⟨w, _, hw, _⟩ := andThen_eq_ok.mp hz
    exact loop_ok s c k d hc hr k s.start (fun _ => hstart) ⟨w, hw⟩

/-- **C153 (partial)**: `environment.step` of the library takes the step at the start of the simulation and calls `activate` and `deactivate` after it, each in Python if it is defined there. Missing: as in C153_run_partial. -/
theorem C153_step_partial (s : Simulation) (c : Classes) (k depth a : Nat) (hc : Spec.Plain c) (hr : Spec.Returns c) (hstep : c .envStep = none) (hd : 0 < depth) :
    invoke s c k depth .envStep a = .ok (.library .envStep a :: ((if s.start < s.stop then Spec.step s c s.start else []) ++ Spec.hook c .activate 0 ++ Spec.hook c .deactivate 0), 0) := by
  obtain ⟨d, rfl⟩ : ∃ d, depth = d + 1 := ⟨depth - 1, by omega⟩
  obtain ⟨v1, h1⟩ := hooks s c k d hc hr (stepLibrary s c (python s c k (d + 1))) .activate (by simp) 0 (stepLibrary_leaf s c _ (by decide) 0)
  obtain ⟨v2, h2⟩ := hooks s c k d hc hr (stepLibrary s c (python s c k (d + 1))) .deactivate (by simp) 0 (stepLibrary_leaf s c _ (by decide) 0)
  unfold invoke dispatch overridden
  rw [hstep]
  simp only [Option.isSome_none, Bool.and_false, Bool.false_eq_true, if_false, library, if_true, h1, h2, if_neg (show Method.envStep ≠ Method.run by decide)]
  by_cases hs : s.start < s.stop
  · simp only [if_pos hs, step_spec s c k d hc hr s.start (fun _ => hs), andThen_ok, bind_ok]
    simp [List.append_assoc]
  · simp [if_neg hs]

/-- **C153 (partial)**: a method of the Python class is called with the argument of the call, whoever calls it, and what it returns is what the caller gets: a time for `step` and `act`, where nothing stands for the end of the step, a number of agents or messages, a text for `describe`;
anything else raises an exception. Without such a method the library does what it does. -/
theorem C153_call_partial (s : Simulation) (c : Classes) (k depth : Nat) (m : Method) (a : Nat) (hc : Spec.Plain c) (hd : 0 < depth) (hm : m ∉ [Method.activateAgent, .deactivateAgent, .companyAct]) :
    (∀ b, c m = some b →
      (∀ e v, invoke s c k depth m a = .ok (e, v) → e = .python m a :: Spec.owns (b a).statements) ∧
      invoke s c k depth m a ≠ .running ∧
      (m ∈ [Method.modelStep, .act, .activate, .deactivate, .sendMessages] → ∀ n, (b a).result = .number n → n < 2 ^ 64 → ∃ e, invoke s c k depth m a = .ok (e, n)) ∧
      (m ∈ [Method.modelStep, .act] → (b a).result = .none → ∃ e, invoke s c k depth m a = .ok (e, s.stop)) ∧
      (m ∈ [Method.modelStep, .act] → (b a).result ∈ [Returned.text, .other] → invoke s c k depth m a = .throws) ∧
      (m ∈ [Method.describe] → ((∃ r, invoke s c k depth m a = .ok r) ↔ (b a).result = .text)) ∧
      (m ∈ [Method.initialize, .terminate, .run, .envStep, .beforeStep, .afterStep, .afterRun] → ∃ r, invoke s c k depth m a = .ok r)) ∧
    (c m = none → m ∉ [Method.run, .envStep, .modelStep] → ∃ v, invoke s c k depth m a = .ok ([.library m a], v) ∧ (m = .act → v = s.stop)) := by
  obtain ⟨d, rfl⟩ : ∃ d, depth = d + 1 := ⟨depth - 1, by omega⟩
  have hw : wrapped m = true := by
    simp only [List.mem_cons, List.not_mem_nil, or_false, not_or] at hm
    cases m <;> simp_all [wrapped]
  constructor
  · intro b hb
    have hi : invoke s c k (d + 1) m a = (convert s m (b a).result).bind fun v => .ok (.python m a :: Spec.owns (b a).statements, v) := by
      unfold invoke dispatch overridden
      rw [hw, hb]
      simp only [Option.isSome_some, Bool.and_self, if_true, python_plain s c k d hc m a b hb]
    refine ⟨?_, ?_, ?_, ?_, ?_, ?_, ?_⟩
    · intro e v h
      rw [hi, bind_eq_ok] at h
      obtain ⟨_, _, h⟩ := h
      injection h with h
      injection h with h _
      exact h.symm
    · rw [hi]
      generalize (b a).result = r
      cases m <;> cases r <;> simp [convert] <;> split <;> simp
    · intro h n hn h64
      rw [hi, hn]
      simp only [List.mem_cons, List.not_mem_nil, or_false] at h
      rcases h with rfl | rfl | rfl | rfl | rfl <;> simp [convert, h64]
    · intro h hn
      rw [hi, hn]
      simp only [List.mem_cons, List.not_mem_nil, or_false] at h
      rcases h with rfl | rfl <;> simp [convert]
    · intro h hn
      rw [hi]
      simp only [List.mem_cons, List.not_mem_nil, or_false] at h hn
      rcases h with rfl | rfl <;> rcases hn with hn | hn <;> simp [convert, hn]
    · intro h
      rw [hi]
      simp only [List.mem_cons, List.not_mem_nil, or_false] at h
      subst h
      generalize (b a).result = r
      cases r <;> simp [convert]
    · intro h
      rw [hi]
      generalize (b a).result = r
      simp only [List.mem_cons, List.not_mem_nil, or_false] at h
      rcases h with rfl | rfl | rfl | rfl | rfl | rfl | rfl <;> cases r <;> simp [convert]
  · intro hn hm'
    simp only [List.mem_cons, List.not_mem_nil, or_false, not_or] at hm'
    unfold invoke dispatch overridden
    rw [hn]
    simp only [Option.isSome_none, Bool.and_false, Bool.false_eq_true, if_false, library, if_neg hm'.1, if_neg hm'.2.1, stepLibrary, if_neg hm'.2.2, leaf]
    exact ⟨_, rfl, fun h => by rw [if_pos h]⟩

/-- Nothing that has `super().m(...)` among its statements returns, if the call does not. -/
theorem execute_inherited (s : Simulation) (c : Classes) (k : Nat) (p : Method → Nat → Result Trace) (m : Method) (a : Nat) (h : ∀ r, dispatch c p (library s c k p) m a ≠ .ok r) :
    ∀ l : List Statement, .inherited ∈ l → ∀ r, execute s c k p m a l ≠ .ok r
  | [], hl, _ => by cases hl
  | .own n :: l, hl, r => by
    intro he
    rw [execute, bind_eq_ok] at he
    obtain ⟨t, ht, _⟩ := he
    exact execute_inherited s c k p m a h l (by simpa using hl) t ht
  | .inherited :: l, _, r => by
    intro he
    rw [execute, bind_eq_ok] at he
    obtain ⟨t, ht, _⟩ := he
    by_cases hm : m = .companyAct
    · rw [if_pos hm] at ht; cases ht
    · rw [if_neg hm] at ht; exact h t ht
  | .call m' a' :: l, hl, r => by
    intro he
    rw [execute, bind_eq_ok] at he
    obtain ⟨_, _, he⟩ := he
    rw [bind_eq_ok] at he
    obtain ⟨t, ht, _⟩ := he
    exact execute_inherited s c k p m a h l (by simpa using hl) t ht

/-- **C153 is violated**: a method of a Python class cannot call the method that it replaces. The call is a virtual call, which ends up in the same Python method, again and again, whatever the recursion limit: a method with such a call, wherever it is and whatever else the classes do, never
returns. If it does only things of its own before, it raises an exception. -/
theorem C153_counterexample_inherited (s : Simulation) (c : Classes) (m : Method) (b : Nat → Body) (hb : c m = some b) (hm : m ∉ [Method.activateAgent, .deactivateAgent, .companyAct]) (a : Nat) (hi : .inherited ∈ (b a).statements) (k depth : Nat) :
    (∀ r, invoke s c k depth m a ≠ .ok r) ∧
    ∀ before after, (b a).statements = before ++ .inherited :: after → (∀ x ∈ before, ∃ n, x = .own n) → invoke s c k depth m a = .throws := by
  have hw : wrapped m = true := by
    simp only [List.mem_cons, List.not_mem_nil, or_false, not_or] at hm
    cases m <;> simp_all [wrapped]
  have ho : overridden c m = true := by simp [overridden, hw, hb]
  have hd : ∀ p l, dispatch c p l m a = p m a := fun p l => by rw [dispatch, if_pos ho]
  have hcm : m ≠ .companyAct := by simp only [List.mem_cons, List.not_mem_nil, or_false, not_or] at hm; exact hm.2.2
  constructor
  · rw [invoke, hd]
    induction depth with
    | zero => intro r h; cases h
    | succ d ih =>
      intro r h
      rw [python] at h
      simp only [hb] at h
      rw [bind_eq_ok] at h
      obtain ⟨t, ht, _⟩ := h
      exact execute_inherited s c k _ m a (by rw [hd]; exact ih) _ hi t ht
  · intro before after hs hbefore
    rw [invoke, hd]
    induction depth with
    | zero => rfl
    | succ d ih =>
      rw [python]
      simp only [hb]
      rw [hs]
      have hx : ∀ l : List Statement, (∀ x ∈ l, ∃ n, x = .own n) → execute s c k (python s c k d) m a (l ++ .inherited :: after) = .throws := by
        intro l hl
        induction l with
        | nil => rw [List.nil_append, execute, if_neg hcm, hd, ih]; rfl
        | cons x l ihl =>
          obtain ⟨n, rfl⟩ := hl x List.mem_cons_self
          rw [List.cons_append, execute, ihl fun y hy => hl y (List.mem_cons_of_mem _ hy)]
          rfl
      rw [hx before hbefore]
      rfl

/-- **C153 is violated**: the methods `activate_agent` and `deactivate_agent` of an environment and the method `act` of a company that a Python class defines are not called by the library. -/
theorem C153_counterexample_ignored (s : Simulation) (c : Classes) (k depth a : Nat) (m : Method) (hm : m ∈ [Method.activateAgent, .deactivateAgent, .companyAct]) : ∃ v, invoke s c k depth m a = .ok ([.library m a], v) := by
  simp only [List.mem_cons, List.not_mem_nil, or_false] at hm
  rcases hm with rfl | rfl | rfl <;> exact ⟨_, rfl⟩

/-- **C153 is violated**: `activate`, `deactivate` and `send_messages` must return a number, although nothing uses the numbers of agents: a method that returns nothing raises an exception, and so does the run of the simulation. -/
theorem C153_counterexample_nothing (s : Simulation) (c : Classes) (k depth a : Nat) (m : Method) (hm : m ∈ [Method.activate, .deactivate, .sendMessages]) (b : Nat → Body) (hb : c m = some b) (hn : (b a).result = .none) :
    ∀ r, invoke s c k depth m a ≠ .ok r := by
  intro r h
  have ho : overridden c m = true := by
    simp only [List.mem_cons, List.not_mem_nil, or_false] at hm
    rcases hm with rfl | rfl | rfl <;> simp [overridden, wrapped, hb]
  rw [invoke, dispatch, if_pos ho] at h
  cases depth with
  | zero => cases h
  | succ d =>
    rw [python] at h
    simp only [hb] at h
    rw [bind_eq_ok] at h
    obtain ⟨_, _, h⟩ := h
    rw [hn] at h
    simp only [List.mem_cons, List.not_mem_nil, or_false] at hm
    rcases hm with rfl | rfl | rfl <;> cases h

/-! ## Examples -/

/-- A model with a step of its own, which skips one unit of time, and an environment with `before_step` and `activate`. -/
def exampleClasses : Classes := fun
  | .modelStep => some fun t => ⟨[.own 7], if t < 2 then .number (t + 2) else .none⟩
  | .activate => some fun _ => ⟨[.own 1, .own 2], .number 0⟩
  | .afterRun => some fun _ => ⟨[], .other⟩
  | _ => none

def exampleSimulation : Simulation := ⟨0, 5, fun _ => 0, fun t => t + 1⟩

example : Spec.Plain exampleClasses := by
  intro m b a h x hx
  cases m <;> simp [exampleClasses] at h <;> subst h <;> simp at hx
  · exact ⟨7, hx⟩
  · rcases hx with h | h
    · exact ⟨1, h⟩
    · exact ⟨2, h⟩

example : Spec.Returns exampleClasses := by
  constructor
  · intro m hm b a h
    simp only [List.mem_cons, List.not_mem_nil, or_false] at hm
    rcases hm with rfl | rfl | rfl <;> simp [exampleClasses] at h
    subst h
    simp [Spec.Number]
  · intro b a h
    simp [exampleClasses] at h
    subst h
    by_cases h : a < 2
    · exact Or.inr (by simp [h, Spec.Number]; omega)
    · exact Or.inl (by simp [h])

example : Spec.Steps exampleSimulation exampleClasses 0 [0, 2] := .more 0 [2] (by decide) (.last 2 (by decide))

example : invoke exampleSimulation exampleClasses 10 1000 .run 0 = .ok (.library .run 0 :: Spec.run exampleSimulation exampleClasses [0, 2], 0) := by decide +kernel

example : Spec.run exampleSimulation exampleClasses [0, 2] =
    [.library .initialize 0, .python .activate 0, .own 1, .own 2, .library .deactivate 0, .python .modelStep 0, .own 7, .python .activate 0, .own 1, .own 2, .library .deactivate 0, .python .modelStep 2, .own 7, .library .terminate 0, .python .afterRun 0] := by decide +kernel

/-- A model that does something of its own and then the step of the library. -/
example : invoke exampleSimulation (fun m => if m = .modelStep then some fun _ => ⟨[.own 7, .inherited], .none⟩ else none) 10 5 .run 0 = .throws := by decide +kernel

/-- In an environment that defines only `before_step`, the step of the library calls it. -/
example : invoke ⟨0, 1, fun _ => 1, fun t => t + 1⟩ (fun m => if m = .beforeStep then some fun _ => ⟨[.own 3], .none⟩ else none) 10 5 .modelStep 0 =
    .ok ([.library .modelStep 0, .python .beforeStep 0, .own 3, .library .sendMessages 0, .library .sendMessages 0, .library .afterStep 0], 1) := by decide +kernel

end Esl.Overrides
