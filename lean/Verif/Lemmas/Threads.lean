import Verif.Model.Threads
import Verif.Lemmas.Scheduler
import Verif.Props.Scheduler
import Verif.Props.Quantity
/-! Helper lemmas for C23: interleavings of jobs. -/
namespace Esl.Threads
open Esl.Comm Esl.Sched
variable {σ : Type}

theorem splitTasks_spec {α : Type} (ns : List Nat) (l : List α) (h : ns.sum ≤ l.length) :
    ∃ r, splitTasks ns l = .ok r ∧ r.flatten = l.take ns.sum ∧ r.map List.length = ns := by
  induction ns generalizing l with
  | nil => exact ⟨[], rfl, by simp, rfl⟩
  | cons n ns ih =>
    simp only [List.sum_cons] at h
    obtain ⟨r, h1, h2, h3⟩ := ih (l.drop n) (by simp; omega)
    refine ⟨l.take n :: r, ?_, ?_, ?_⟩
    · unfold splitTasks
      rw [if_neg (by omega), h1]
      rfl
    · simp [h2, List.take_add]
    · simp [h3]; omega

/-- At most one of the threads contains operations selected by `f`. -/
def One (p : Op → Bool) (ts : List (List Op)) : Prop := ts.Pairwise fun a b => a.filter p = [] ∨ b.filter p = []

theorem interleaves_filter (p : Op → Bool) (ts : List (List Op)) (tr : List Op) (h : Interleaves ts tr) (ho : One p ts) :
    tr.filter p = ts.flatMap (·.filter p) := by
  induction h with
  | done ts h =>
    have : ts.flatMap (·.filter p) = [] := by
      rw [List.flatMap_eq_nil_iff]
      intro t ht
      rw [h t ht]; rfl
    rw [this]; rfl
  | step ts1 ts2 t op tr _ ih =>
    unfold One at ho ih
    rw [List.pairwise_append, List.pairwise_cons] at ho
    obtain ⟨h1, ⟨h2, h3⟩, h4⟩ := ho
    by_cases hp : p op = true
    · have e1 : ∀ u ∈ ts1, u.filter p = [] := by
        intro u hu
        have := h4 u hu (op :: t) (List.mem_cons_self ..)
        simpa [hp] using this
      have e2 : ∀ u ∈ ts2, u.filter p = [] := by
        intro u hu
        have := h2 u hu
        simpa [hp] using this
      have f1 : ts1.flatMap (·.filter p) = [] := List.flatMap_eq_nil_iff.2 e1
      have f2 : ts2.flatMap (·.filter p) = [] := List.flatMap_eq_nil_iff.2 e2
      rw [List.filter_cons_of_pos hp, ih]
      · simp [f1, f2, hp]
      · rw [List.pairwise_append, List.pairwise_cons]
        exact ⟨h1, ⟨fun u hu => .inr (e2 u hu), h3⟩, fun u hu v _ => .inl (e1 u hu)⟩
    · have hf : (op :: t).filter p = t.filter p := List.filter_cons_of_neg hp
      rw [List.filter_cons_of_neg hp, ih]
      · simp only [List.flatMap_append, List.flatMap_cons, hf]
      · rw [List.pairwise_append, List.pairwise_cons]
        refine ⟨h1, ⟨fun u hu => by rw [← hf]; exact h2 u hu, h3⟩, fun u hu v hv => ?_⟩
        rcases List.mem_cons.1 hv with rfl | hv
        · rw [← hf]; exact h4 u hu _ (List.mem_cons_self ..)
        · exact h4 u hu v (List.mem_cons_of_mem _ hv)

theorem threadOps_filter (i : Nat) (is : List Nat) (h : is.Nodup) :
    (threadOps is).filter (fun op => op.agent == i) = if i ∈ is then jobOps i else [] := by
  induction is with
  | nil => rfl
  | cons j is ih =>
    rw [List.nodup_cons] at h
    have : threadOps (j :: is) = jobOps j ++ threadOps is := rfl
    rw [this, List.filter_append, ih h.2]
    by_cases hij : j = i
    · subst hij
      simp [h.1, jobOps, Op.agent]
    · have : ¬ i = j := fun e => hij e.symm
      simp [jobOps, Op.agent, hij, this]

theorem one_threads (i : Nat) (parts : List (List Nat)) (h : parts.flatten.Nodup) :
    One (fun op => op.agent == i) (parts.map threadOps) ∧
    (parts.map threadOps).flatMap (·.filter fun op => op.agent == i) = if i ∈ parts.flatten then jobOps i else [] := by
  induction parts with
  | nil => exact ⟨List.Pairwise.nil, rfl⟩
  | cons is parts ih =>
    rw [List.flatten_cons, List.nodup_append] at h
    obtain ⟨h1, h2, h3⟩ := h
    obtain ⟨ih1, ih2⟩ := ih h2
    rw [List.map_cons]
    constructor
    · unfold One at *
      rw [List.pairwise_cons]
      refine ⟨?_, ih1⟩
      intro t ht
      obtain ⟨js, hjs, rfl⟩ := List.mem_map.1 ht
      rw [threadOps_filter i is h1]
      by_cases hi : i ∈ is
      · right
        rw [List.filter_eq_nil_iff]
        intro op hop
        obtain ⟨j, hj, hop⟩ := List.mem_flatMap.1 hop
        have hij : i ≠ j := h3 i hi j (List.mem_flatten.2 ⟨js, hjs, hj⟩)
        have : op.agent = j := by simp [jobOps] at hop; rcases hop with rfl | rfl | rfl <;> rfl
        simp [this]
        exact fun e => hij e.symm
      · left; simp [hi]
    · rw [List.flatMap_cons, ih2, threadOps_filter i is h1, List.flatten_cons]
      by_cases hi : i ∈ is
      · have : i ∉ parts.flatten := fun hp => h3 i hi i hp rfl
        simp [hi, this]
      · by_cases hp : i ∈ parts.flatten <;> simp [hi, hp]

/-! ## The state when each agent has done the first `φ i` operations of its job -/

/-- The agent after the first `k` operations of its job. -/
def agentAt (P : Program σ) (step : Step) (n : Nat) (k : Nat) (x : Agent σ) : Agent σ :=
  if k = 0 then x
  else if k ≤ 2 then { (job P step n x).1 with inbox := x.inbox }
  else (job P step n x).1

theorem agentAt_id (P : Program σ) (step : Step) (n k : Nat) (x : Agent σ) : (agentAt P step n k x).id = x.id := by
  unfold agentAt
  have := (job_fields P step n x).1
  split
  · rfl
  · split <;> simp [this]

/-- The wake-up times when the agents of `ags` have done the first `φ i` operations. -/
def wakeAt (P : Program σ) (step : Step) (n : Nat) (ags : List (Agent σ)) (φ : Nat → Nat) (wake : Wake) : Wake :=
  wake.map fun e =>
    match ags.find? fun x => x.id == e.1 with
    | none => e
    | some x => if 2 ≤ φ e.1 then (e.1, (job P step n x).2.requested) else e

def canon (P : Program σ) (step : Step) (n : Nat) (ags : List (Agent σ)) (wake : Wake) (φ : Nat → Nat) (s : State σ) : Prop :=
  s.agents = ags.map (fun x => agentAt P step n (φ x.id) x) ∧
  s.wake = wakeAt P step n ags φ wake ∧
  ∀ x ∈ ags, s.loc x.id = if φ x.id = 0 then none else some (job P step n x).2

theorem find_of_mem (ags : List (Agent σ)) (hn : (ags.map (·.id)).Nodup) (x : Agent σ) (hx : x ∈ ags) :
    (ags.find? fun y => y.id == x.id) = some x := by
  induction ags with
  | nil => simp at hx
  | cons y l ih =>
    rw [List.map_cons, List.nodup_cons] at hn
    rcases List.mem_cons.1 hx with rfl | hx
    · simp
    · have : ¬ y.id = x.id := fun e => hn.1 (e ▸ List.mem_map_of_mem hx)
      simp [this, ih hn.2 hx]

theorem find_map_id (ags : List (Agent σ)) (f : Agent σ → Agent σ) (hf : ∀ x, (f x).id = x.id) (i : Nat) :
    ((ags.map f).find? fun y => y.id == i) = (ags.find? fun y => y.id == i).map f := by
  induction ags with
  | nil => rfl
  | cons y l ih =>
    simp only [List.map_cons, List.find?_cons, hf]
    split <;> simp_all

/-- Setting an existing wake-up time changes exactly that entry. -/
theorem setWake_eq_map (wake : Wake) (i t : Nat) (hk : (wake.map (·.1)).Nodup) (hi : i ∈ wake.map (·.1)) :
    setWake wake i t = wake.map fun e => if e.1 = i then (e.1, t) else e := by
  induction wake with
  | nil => simp at hi
  | cons e l ih =>
    obtain ⟨b, s⟩ := e
    rw [List.map_cons, List.nodup_cons] at hk
    unfold setWake
    by_cases h : b = i
    · subst h
      simp only [if_true, List.map_cons]
      congr 1
      conv => lhs; rw [← List.map_id l]
      apply List.map_congr_left
      intro e he
      have : ¬ e.1 = b := fun h => hk.1 (List.mem_map.2 ⟨e, he, h⟩)
      simp [this]
    · simp only [h, if_false, List.map_cons]
      rw [ih hk.2]
      rw [List.map_cons] at hi
      rcases List.mem_cons.1 hi with hi | hi
      · exact absurd hi.symm h
      · exact hi

theorem wakeAt_keys (P : Program σ) (step : Step) (n : Nat) (ags : List (Agent σ)) (φ : Nat → Nat) (wake : Wake) :
    (wakeAt P step n ags φ wake).map (·.1) = wake.map (·.1) := by
  unfold wakeAt
  rw [List.map_map]
  apply List.map_congr_left
  intro e _
  simp only [Function.comp]
  split
  · rfl
  · split <;> rfl

/-- Update of the progress of one agent. -/
def bump (φ : Nat → Nat) (i : Nat) : Nat → Nat := fun j => if j = i then φ i + 1 else φ j

theorem exec_canon (P : Program σ) (end_ : Nat) (step : Step) (n : Nat) (ags : List (Agent σ)) (wake : Wake)
    (hn : (ags.map (·.id)).Nodup) (hk : (wake.map (·.1)).Nodup) (φ : Nat → Nat) (s : State σ)
    (hc : canon P step n ags wake φ s) (x : Agent σ) (hx : x ∈ ags) (hxw : x.id ∈ wake.map (·.1)) (op : Op)
    (hop : (jobOps x.id)[φ x.id]? = some op)
    (hq : op = .commit x.id → step.lower ≤ (job P step n x).2.requested) :
    ∃ s', exec P end_ step n op s = .ok s' ∧ canon P step n ags wake (bump φ x.id) s' ∧
      (s'.first = determineNext end_ s'.wake ∨ ((∀ i, op ≠ .commit i) ∧ s'.wake = s.wake ∧ s'.first = s.first)) := by
  obtain ⟨ha, hw, hl⟩ := hc
  have hfind : (s.agents.find? fun y => y.id == x.id) = some (agentAt P step n (φ x.id) x) := by
    rw [ha, find_map_id _ _ (fun y => agentAt_id P step n _ y), find_of_mem ags hn x hx]
    rfl
  have hput : ∀ (k : Nat) (y : Agent σ), y.id = x.id → y = agentAt P step n k x → k = φ x.id + 1 →
      putAgent s.agents y = ags.map (fun z => agentAt P step n (bump φ x.id z.id) z) := by
    intro k y hyi hy hkk
    unfold putAgent
    rw [ha, List.map_map]
    apply List.map_congr_left
    intro z hz
    simp only [Function.comp, agentAt_id]
    by_cases hzx : z.id = x.id
    · have := eq_of_id hn hz hx hzx
      subst this
      simp only [hyi, if_true, bump]
      rw [hy, hkk]
    · simp [hyi, hzx, bump]
  have hcases : (φ x.id = 0 ∧ op = .compute x.id) ∨ (φ x.id = 1 ∧ op = .commit x.id) ∨ (φ x.id = 2 ∧ op = .prune x.id) := by
    rcases hk3 : φ x.id with _ | _ | _ | k <;> rw [hk3] at hop <;> simp [jobOps] at hop
    · exact .inl ⟨rfl, hop.symm⟩
    · exact .inr (.inl ⟨rfl, hop.symm⟩)
    · exact .inr (.inr ⟨rfl, hop.symm⟩)
  have hwake_same : (φ x.id = 0 ∨ φ x.id = 2) → wakeAt P step n ags (bump φ x.id) wake = wakeAt P step n ags φ wake := by
    intro hφ
    unfold wakeAt
    apply List.map_congr_left
    intro e _
    split
    · rfl
    · by_cases hex : e.1 = x.id
      · have : bump φ x.id e.1 = φ x.id + 1 := by simp [bump, hex]
        rw [this, hex]
        rcases hφ with h | h <;> simp [h]
      · simp [bump, hex]
  have hloc_same : φ x.id ≠ 0 → ∀ y ∈ ags, s.loc y.id = if bump φ x.id y.id = 0 then none else some (job P step n y).2 := by
    intro hφ y hy
    rw [hl y hy]
    by_cases hyx : y.id = x.id
    · simp [bump, hyx, hφ]
    · simp [bump, hyx]
  obtain ⟨jid, _, _, _, jin, _⟩ := job_fields P step n x
  rcases hcases with ⟨hφ, rfl⟩ | ⟨hφ, rfl⟩ | ⟨hφ, rfl⟩
  · have hex : exec P end_ step n (.compute x.id) s = .ok { s with
        agents := putAgent s.agents { (job P step n (agentAt P step n (φ x.id) x)).1 with
          inbox := (agentAt P step n (φ x.id) x).inbox },
        loc := fun j => if j = x.id then some (job P step n (agentAt P step n (φ x.id) x)).2 else s.loc j } := by
      simp only [exec, hfind]
    refine ⟨_, hex, ⟨?_, ?_, ?_⟩, .inr ⟨by simp, rfl, rfl⟩⟩
    · simp only
      have e0 : agentAt P step n (φ x.id) x = x := by simp [agentAt, hφ]
      rw [e0]
      exact hput 1 _ (by simp [jid]) (by simp [agentAt]) (by omega)
    · simp only
      rw [hwake_same (.inl hφ)]; exact hw
    · intro y hy
      simp only
      by_cases hyx : y.id = x.id
      · have := eq_of_id hn hy hx hyx
        subst this
        simp [bump, agentAt, hφ]
      · have := hl y hy
        simp [hyx, bump, this]
  · have hloc : s.loc x.id = some (job P step n x).2 := by rw [hl x hx]; simp [hφ]
    refine ⟨_, by simp only [exec, hloc]; rw [if_neg (by have := hq rfl; omega)], ⟨?_, ?_, ?_⟩, .inl rfl⟩
    · simp only
      rw [ha]
      apply List.map_congr_left
      intro z hz
      by_cases hzx : z.id = x.id
      · simp [bump, hzx, hφ, agentAt]
      · simp [bump, hzx]
    · simp only
      rw [setWake_eq_map _ _ _ (by rw [hw, wakeAt_keys]; exact hk) (by rw [hw, wakeAt_keys]; exact hxw), hw]
      unfold wakeAt
      rw [List.map_map]
      apply List.map_congr_left
      intro e _
      simp only [Function.comp]
      by_cases hex : e.1 = x.id
      · rw [hex, find_of_mem ags hn x hx]
        simp [bump, hφ, hex]
      · have hb : bump φ x.id e.1 = φ e.1 := by simp [bump, hex]
        rw [hb]
        split
        · simp [hex]
        · split <;> simp [hex]
    · simp only
      exact hloc_same (by omega)
  · have hex : exec P end_ step n (.prune x.id) s = .ok { s with
        agents := putAgent s.agents { agentAt P step n (φ x.id) x with
          inbox := (agentAt P step n (φ x.id) x).inbox.filter fun e => decide (e.1 > step.lower) } } := by
      simp only [exec, hfind]
    refine ⟨_, hex, ⟨?_, ?_, ?_⟩, .inr ⟨by simp, rfl, rfl⟩⟩
    · simp only
      refine hput 3 _ (by simp [agentAt_id]) ?_ (by omega)
      simp [agentAt, hφ, ← jin]
    · simp only
      rw [hwake_same (.inr hφ)]; exact hw
    · simp only
      exact hloc_same (by omega)

theorem execAll_canon (P : Program σ) (end_ : Nat) (step : Step) (n : Nat) (ags : List (Agent σ)) (wake : Wake)
    (hn : (ags.map (·.id)).Nodup) (hk : (wake.map (·.1)).Nodup) (acting : List Nat)
    (hact : ∀ i ∈ acting, ∃ x ∈ ags, x.id = i ∧ i ∈ wake.map (·.1) ∧ step.lower ≤ (job P step n x).2.requested)
    (tr : List Op) (φ : Nat → Nat) (s : State σ) (hc : canon P step n ags wake φ s)
    (htr : ∀ i, tr.filter (fun op => op.agent == i) = if i ∈ acting then (jobOps i).drop (φ i) else [])
    (hf : s.first = determineNext end_ s.wake ∨ (∀ i ∈ acting, φ i < 2)) :
    ∃ s' φ', execAll P end_ step n tr s = .ok s' ∧ canon P step n ags wake φ' s' ∧
      (∀ i ∈ acting, 3 ≤ φ' i) ∧ (∀ i, i ∉ acting → φ' i = φ i) ∧
      (s'.first = determineNext end_ s'.wake ∨ (acting = [] ∧ s' = s)) := by
  induction tr generalizing φ s with
  | nil =>
    refine ⟨s, φ, rfl, hc, ?_, fun i _ => rfl, ?_⟩
    · intro i hi
      have := htr i
      simp only [List.filter_nil, hi, if_true] at this
      have := List.drop_eq_nil_iff.1 this.symm
      simpa [jobOps] using this
    · rcases hf with hf | hf
      · exact .inl hf
      · right
        cases acting with
        | nil => exact ⟨rfl, rfl⟩
        | cons i _ =>
          have h1 := htr i
          simp only [List.filter_nil, List.mem_cons_self, if_true] at h1
          have h2 := List.drop_eq_nil_iff.1 h1.symm
          have h3 := hf i (List.mem_cons_self ..)
          simp [jobOps] at h2
          omega
  | cons op tr ih =>
    have h1 := htr op.agent
    rw [List.filter_cons_of_pos (by simp)] at h1
    by_cases hi : op.agent ∈ acting
    · rw [if_pos hi] at h1
      have hop : (jobOps op.agent)[φ op.agent]? = some op := by
        have := congrArg List.head? h1
        rw [List.head?_drop] at this
        simpa using this.symm
      obtain ⟨x, hx, hxi, hxw, hq⟩ := hact _ hi
      rw [← hxi] at hop hxw
      obtain ⟨s1, g1, g2, g3⟩ := exec_canon P end_ step n ags wake hn hk φ s hc x hx hxw op hop (fun _ => hq)
      rw [hxi] at g2
      have htl : tr.filter (fun o => o.agent == op.agent) = (jobOps op.agent).drop (φ op.agent + 1) := by
        have := congrArg List.tail h1
        simpa using this
      obtain ⟨s', φ', k1, k2, k3, k4, k5⟩ := ih (bump φ op.agent) s1 g2 (by
        intro i
        by_cases hia : i = op.agent
        · subst hia
          simp [hi, htl, bump]
        · have := htr i
          rw [List.filter_cons_of_neg (by simp; exact fun e => hia e.symm)] at this
          simpa [bump, hia] using this) (by
        rcases g3 with g3 | ⟨hnc, hwk, hfi⟩
        · exact .inl g3
        · rcases hf with hf | hf
          · left; rw [hfi, hwk]; exact hf
          · by_cases hall : ∀ i ∈ acting, bump φ op.agent i < 2
            · exact .inr hall
            · exfalso
              rw [Classical.not_forall] at hall
              obtain ⟨i, hall⟩ := hall
              rw [Classical.not_imp] at hall
              obtain ⟨hia, hlt⟩ := hall
              have := hf i hia
              by_cases hie : i = op.agent
              · have e1 : φ x.id = 1 := by
                  simp [bump, hie] at hlt
                  rw [hie] at this
                  rw [hxi]; omega
                rw [e1] at hop
                simp [jobOps] at hop
                exact hnc _ hop.symm
              · simp [bump, hie] at hlt
                omega)
      refine ⟨s', φ', ?_, k2, k3, ?_, ?_⟩
      · simp only [execAll, g1, Outcome.bind_ok]; exact k1
      · intro i hia
        rw [k4 i hia]
        have : i ≠ op.agent := by rintro rfl; exact hia hi
        simp [bump, this]
      · rcases k5 with k5 | ⟨k5, _⟩
        · exact .inl k5
        · rw [k5] at hi; simp at hi
    · rw [if_neg hi] at h1
      simp at h1

/-- A job whose agent asks for a time before now throws in `commit`; the other operations do not depend on it. -/
theorem exec_canon_bad (P : Program σ) (end_ : Nat) (step : Step) (n : Nat) (ags : List (Agent σ)) (wake : Wake)
    (φ : Nat → Nat) (s : State σ) (hc : canon P step n ags wake φ s) (x : Agent σ) (hx : x ∈ ags)
    (hop : (jobOps x.id)[φ x.id]? = some (.commit x.id)) (hq : (job P step n x).2.requested < step.lower) :
    exec P end_ step n (.commit x.id) s = .throws := by
  have hφ : φ x.id = 1 := by
    rcases hk3 : φ x.id with _ | _ | _ | k <;> rw [hk3] at hop <;> simp [jobOps] at hop
  have hloc : s.loc x.id = some (job P step n x).2 := by rw [hc.2.2 x hx]; simp [hφ]
  simp only [exec, hloc]
  rw [if_pos hq]

theorem execAll_throws (P : Program σ) (end_ : Nat) (step : Step) (n : Nat) (ags : List (Agent σ)) (wake : Wake)
    (hn : (ags.map (·.id)).Nodup) (hk : (wake.map (·.1)).Nodup) (acting : List Nat)
    (hact : ∀ i ∈ acting, ∃ x ∈ ags, x.id = i ∧ i ∈ wake.map (·.1))
    (b : Agent σ) (hb : b ∈ ags) (hba : b.id ∈ acting) (hbad : (job P step n b).2.requested < step.lower)
    (tr : List Op) (φ : Nat → Nat) (s : State σ) (hc : canon P step n ags wake φ s)
    (htr : ∀ i, tr.filter (fun op => op.agent == i) = if i ∈ acting then (jobOps i).drop (φ i) else [])
    (hφ : φ b.id < 2) : execAll P end_ step n tr s = .throws := by
  induction tr generalizing φ s with
  | nil =>
    exfalso
    have h1 := htr b.id
    simp only [List.filter_nil, hba, if_true] at h1
    have h2 := List.drop_eq_nil_iff.1 h1.symm
    simp [jobOps] at h2
    omega
  | cons op tr ih =>
    have h1 := htr op.agent
    rw [List.filter_cons_of_pos (by simp)] at h1
    by_cases hi : op.agent ∈ acting
    · rw [if_pos hi] at h1
      have hop : (jobOps op.agent)[φ op.agent]? = some op := by
        have := congrArg List.head? h1
        rw [List.head?_drop] at this
        simpa using this.symm
      obtain ⟨x, hx, hxi, hxw⟩ := hact _ hi
      rw [← hxi] at hop hxw
      unfold execAll
      by_cases hcm : op = .commit x.id ∧ (job P step n x).2.requested < step.lower
      · rw [hcm.1]
        rw [exec_canon_bad P end_ step n ags wake φ s hc x hx (hcm.1 ▸ hop) hcm.2]
        rfl
      · obtain ⟨s1, g1, g2, _⟩ := exec_canon P end_ step n ags wake hn hk φ s hc x hx hxw op hop
          (fun ho => by
            by_cases hlt : (job P step n x).2.requested < step.lower
            · exact absurd ⟨ho, hlt⟩ hcm
            · omega)
        rw [hxi] at g2
        rw [g1, Outcome.bind_ok]
        refine ih (bump φ op.agent) s1 g2 ?_ ?_
        · intro i
          by_cases hia : i = op.agent
          · subst hia
            have htl := congrArg List.tail h1
            simpa [hi, bump] using htl
          · have := htr i
            rw [List.filter_cons_of_neg (by simp; exact fun e => hia e.symm)] at this
            simpa [bump, hia] using this
        · by_cases hbo : b.id = op.agent
          · have hbx : b = x := eq_of_id hn hb hx (hbo.trans hxi.symm)
            subst hbx
            have : φ b.id ≠ 1 := by
              intro h
              rw [h] at hop
              simp [jobOps] at hop
              exact hcm ⟨hop.symm, hbad⟩
            simp [bump, hbo]
            rw [hbo] at this hφ
            omega
          · simpa [bump, hbo] using hφ
    · rw [if_neg hi] at h1
      simp at h1

/-! ## One thread -/

theorem putAgent_putAgent (ags : List (Agent σ)) (a b : Agent σ) (h : a.id = b.id) :
    putAgent (putAgent ags a) b = putAgent ags b := by
  unfold putAgent
  rw [List.map_map]
  apply List.map_congr_left
  intro z _
  simp only [Function.comp]
  by_cases hz : z.id = a.id
  · simp [hz, h]
  · have : ¬ z.id = b.id := fun e => hz (e.trans h.symm)
    simp [hz, this]

theorem find_putAgent (ags : List (Agent σ)) (a y : Agent σ) (h : (ags.find? fun z => z.id == a.id) = some y) :
    ((putAgent ags a).find? fun z => z.id == a.id) = some a := by
  induction ags with
  | nil => simp at h
  | cons z l ih =>
    unfold putAgent at *
    by_cases hz : z.id = a.id
    · simp [hz]
    · simp [hz] at h ⊢
      simpa using ih (by simpa using h)

theorem execAll_append (P : Program σ) (end_ : Nat) (step : Step) (n : Nat) (a b : List Op) (s : State σ) :
    execAll P end_ step n (a ++ b) s = execAll P end_ step n a s >>= execAll P end_ step n b := by
  induction a generalizing s with
  | nil => rfl
  | cons op a ih =>
    simp only [List.cons_append, execAll]
    cases exec P end_ step n op s with
    | ok s' => simp only [Outcome.bind_ok]; exact ih s'
    | throws => rfl
    | ub => rfl

/-- The shared data of a world. -/
def ofWorld (w : World σ) (loc : Nat → Option Event) : State σ := ⟨w.agents, w.wake, w.first, loc⟩

theorem execAll_job (P : Program σ) (end_ : Nat) (step : Step) (n : Nat) (a : Agent σ) (w : World σ)
    (loc : Nat → Option Event) (hf : (w.agents.find? fun z => z.id == a.id) = some a) :
    (runJob P end_ step n a w = .throws ∧ execAll P end_ step n (jobOps a.id) (ofWorld w loc) = .throws) ∨
    ∃ w' loc', runJob P end_ step n a w = .ok w' ∧
      execAll P end_ step n (jobOps a.id) (ofWorld w loc) = .ok (ofWorld w' loc') := by
  obtain ⟨jid, _, _, _, jin, _⟩ := job_fields P step n a
  by_cases hq : (job P step n a).2.requested < step.lower
  · left
    constructor
    · simp [runJob, hq]
    · simp [jobOps, execAll, exec, ofWorld, hf, hq]
  · right
    refine ⟨_, fun j => if j = a.id then some (job P step n a).2 else loc j,
      by simp only [runJob]; rw [if_neg hq], ?_⟩
    have h2 := find_putAgent w.agents { (job P step n a).1 with inbox := a.inbox } a (by simpa [jid] using hf)
    simp only [jid] at h2
    simp only [jobOps, execAll, exec, ofWorld, hf, Outcome.bind_ok, if_true, if_neg hq, h2, jid]
    rw [putAgent_putAgent _ _ _ (by simp)]
    simp only [Outcome.ok.injEq, State.mk.injEq, and_true]
    congr 1

theorem execAll_runJobs (P : Program σ) (end_ : Nat) (step : Step) (n : Nat) (as : List (Agent σ)) (w : World σ)
    (loc : Nat → Option Event) (hm : Mid step.lower as w) :
    (runJobs P end_ step n as w = .throws ∧ execAll P end_ step n (threadOps (as.map (·.id))) (ofWorld w loc) = .throws) ∨
    ∃ w' loc', runJobs P end_ step n as w = .ok w' ∧
      execAll P end_ step n (threadOps (as.map (·.id))) (ofWorld w loc) = .ok (ofWorld w' loc') := by
  induction as generalizing w loc with
  | nil => exact .inr ⟨w, loc, rfl, rfl⟩
  | cons a as ih =>
    have e : threadOps ((a :: as).map (·.id)) = jobOps a.id ++ threadOps (as.map (·.id)) := rfl
    rw [e, execAll_append]
    unfold runJobs
    rcases execAll_job P end_ step n a w loc (find_of_mem _ hm.ids a (hm.sub a (List.mem_cons_self ..))) with ⟨h1, h2⟩ | ⟨w1, l1, h1, h2⟩
    · left; rw [h1, h2]; exact ⟨rfl, rfl⟩
    · rw [h1, h2]
      simp only [Outcome.bind_ok]
      exact ih w1 l1 (hm.step h1)

theorem interleaves_single (l : List Op) : Interleaves [l] l := by
  induction l with
  | nil => exact .done _ (by simp)
  | cons op l ih => exact .step [] [] l op l ih

theorem interleaves_nil (ts : List (List Op)) (tr : List Op) (h : Interleaves ts tr) : Interleaves ([] :: ts) tr := by
  induction h with
  | done ts h => exact .done _ (by simpa using h)
  | step ts1 ts2 t op tr _ ih => exact .step ([] :: ts1) ts2 t op tr ih

/-- Threads can always run one after the other. -/
theorem interleaves_exists (ts : List (List Op)) : Interleaves ts ts.flatten := by
  induction ts with
  | nil => exact .done _ (by simp)
  | cons t ts ih =>
    induction t with
    | nil => exact interleaves_nil _ _ ih
    | cons op t ih2 => exact .step [] ts t op _ ih2

end Esl.Threads
