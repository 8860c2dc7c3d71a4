import Verif.Lemmas.Distributed
import Verif.Props.Scheduler

/-! # C99-C106: the distributed environment, the agent collection, and single steps of the environment -/

namespace Esl.Mpi
open Esl.Comm

/-! ## Specifications -/

/-- What a model does between synchronizations: an agent is created on a process, or the processes synchronize. -/
inductive Spec.Op where
  | create (rank agent : Nat)
  | synchronize

/-- Agents created so far, with the process. -/
def Spec.created : List Spec.Op → List (Nat × Nat)
  | [] => []
  | .create r a :: ops => (a, r) :: Spec.created ops
  | .synchronize :: ops => Spec.created ops

/-- An orderly set of migrations of agents between `n` processes: between two different existing processes, each agent moves at most once, from the process it is on, and
each agent is on one process. -/
structure Spec.Orderly {α : Type} (n : Nat) (ms : List Migration) (agents : Nat → List (Nat × α)) : Prop where
  source : ∀ m ∈ ms, m.source < n
  target : ∀ m ∈ ms, m.target < n
  apart : ∀ m ∈ ms, m.source ≠ m.target
  once : (ms.map (·.migrant)).Nodup
  here : ∀ m ∈ ms, ∃ x, (m.migrant, x) ∈ agents m.source
  single : ∀ r q a x y, (a, x) ∈ agents r → (a, y) ∈ agents q → r = q ∧ x = y

/-- Where an agent that was on process `r` is after the migrations. -/
def Spec.destination : List Migration → Nat → Nat → Nat
  | [], _, r => r
  | m :: ms, a, r => if m.migrant = a then m.target else Spec.destination ms a r

/-! ## C99: activation -/

/-- A history of a cluster. -/
def runOps : List Spec.Op → List Process → Outcome (List Process)
  | [], c => .ok c
  | .create r a :: ops, c => runOps ops (c.mapIdx fun i p => if i = r then activateAgent r p a else p)
  | .synchronize :: ops, c => activate c >>= fun c' => runOps ops c'

/-- **C99.** When the processes have synchronized, each process knows on which process each newly created agent lives; of other agents nothing changes; and nothing remains to be announced. -/
theorem C99_activate (c : List Process) :
    ∃ c', activate c = .ok c' ∧ c'.length = c.length ∧ ∀ (i : Nat) (p p' : Process), c[i]? = some p → c'[i]? = some p' →
      p'.activated = [] ∧
      (∀ r q a, c[r]? = some q → a ∈ q.activated → (∀ r' q', c[r']? = some q' → a ∈ q'.activated → r' = r) → p'.locations.lookup a = some r) ∧
      ∀ a, (∀ q ∈ c, a ∉ q.activated) → p'.locations.lookup a = p.locations.lookup a := by
  refine ⟨_, activate_eq c, by simp, ?_⟩
  intro i p p' hp hp'
  rw [List.getElem?_map, hp] at hp'
  simp only [Option.map_some, Option.some.injEq] at hp'
  subst hp'
  refine ⟨rfl, ?_, ?_⟩
  · intro r q a hq ha hu
    exact record_some c p a r hu (.inl ⟨q, hq, ha⟩)
  · intro a ha
    exact record_none c p a ha

/-- The address books during a history: what is created is known everywhere, or known where it is and to be announced. -/
structure Known (made : List (Nat × Nat)) (c : List Process) : Prop where
  pending : ∀ r p a, c[r]? = some p → a ∈ p.activated → (a, r) ∈ made
  known : ∀ a r, (a, r) ∈ made → (∃ p, c[r]? = some p ∧ a ∈ p.activated) ∨ ∀ q ∈ c, q.locations.lookup a = some r

theorem known_sync (made : List (Nat × Nat)) (hn : (made.map (·.1)).Nodup) (c c' : List Process) (h : Known made c) (hs : activate c = .ok c') :
    Known made c' ∧ (∀ q ∈ c', q.activated = []) ∧ c'.length = c.length ∧ ∀ a r, (a, r) ∈ made → ∀ q ∈ c', q.locations.lookup a = some r := by
  rw [activate_eq] at hs
  simp only [Outcome.ok.injEq] at hs
  subst hs
  have huniq : ∀ a r r', (a, r) ∈ made → (a, r') ∈ made → r = r' := by
    intro a r r' h1 h2
    have := List.pairwise_map.1 hn
    rcases List.mem_iff_getElem.1 h1 with ⟨i, hi, e1⟩
    rcases List.mem_iff_getElem.1 h2 with ⟨j, hj, e2⟩
    rw [List.pairwise_iff_getElem] at this
    rcases Nat.lt_trichotomy i j with hij | hij | hij
    · exact absurd (by rw [e1, e2]) (this i j hi hj hij)
    · subst hij
      rw [e1] at e2
      exact (Prod.mk.inj e2).2
    · exact absurd (by rw [e1, e2]) (this j i hj hi hij)
  have key : ∀ a r, (a, r) ∈ made → ∀ p ∈ c, (recordActivations p (c.mapIdx fun r p => p.activated.map fun a => (r, a))).locations.lookup a = some r := by
    intro a r ha p hp
    apply record_some
    · intro q p' h1 h2
      exact (huniq a r q ha (h.pending q p' a h1 h2)).symm
    · rcases h.known a r ha with hk | hk
      · exact .inl hk
      · exact .inr (hk p hp)
  refine ⟨⟨?_, ?_⟩, ?_, by simp, ?_⟩
  · intro r p a hp ha
    obtain ⟨p0, _, rfl⟩ := List.mem_map.1 (List.mem_of_getElem? hp)
    simp [recordActivations] at ha
  · intro a r ha
    right
    intro q hq
    obtain ⟨p0, hp0, rfl⟩ := List.mem_map.1 hq
    exact key a r ha p0 hp0
  · intro q hq
    obtain ⟨p0, _, rfl⟩ := List.mem_map.1 hq
    rfl
  · intro a r ha q hq
    obtain ⟨p0, hp0, rfl⟩ := List.mem_map.1 hq
    exact key a r ha p0 hp0

theorem known_create (made : List (Nat × Nat)) (c : List Process) (h : Known made c) (r a : Nat) (hr : r < c.length) (hnew : ∀ q, (a, q) ∉ made) :
    Known ((a, r) :: made) (c.mapIdx fun i p => if i = r then activateAgent r p a else p) := by
  have hget : ∀ i p', (c.mapIdx fun i p => if i = r then activateAgent r p a else p)[i]? = some p' → ∃ p, c[i]? = some p ∧ p' = if i = r then activateAgent r p a else p := by
    intro i p' hp
    rw [List.getElem?_mapIdx] at hp
    cases hc : c[i]? with
    | none => rw [hc] at hp; simp at hp
    | some p =>
      rw [hc] at hp
      simp only [Option.map_some, Option.some.injEq] at hp
      exact ⟨p, rfl, hp.symm⟩
  refine ⟨?_, ?_⟩
  · intro i p' b hp hb
    obtain ⟨p, hc, rfl⟩ := hget i p' hp
    by_cases hi : i = r
    · subst hi
      rw [if_pos rfl] at hb
      simp only [activateAgent, List.mem_append, List.mem_singleton] at hb
      rcases hb with hb | rfl
      · exact List.mem_cons_of_mem _ (h.pending _ p b hc hb)
      · exact List.mem_cons_self
    · rw [if_neg hi] at hb
      exact List.mem_cons_of_mem _ (h.pending _ p b hc hb)
  · intro b q hb
    rcases List.mem_cons.1 hb with hb' | hb'
    · obtain ⟨rfl, rfl⟩ := Prod.mk.inj hb'
      left
      refine ⟨activateAgent q c[q] b, ?_, by simp [activateAgent]⟩
      rw [List.getElem?_mapIdx]
      simp [hr]
    · rcases h.known b q hb' with ⟨p, hp, hm⟩ | hk
      · left
        refine ⟨if q = r then activateAgent r p a else p, ?_, ?_⟩
        · rw [List.getElem?_mapIdx, hp]
          rfl
        · by_cases hq : q = r
          · rw [if_pos hq]
            simp [activateAgent, hm]
          · rw [if_neg hq]
            exact hm
      · right
        intro p' hp'
        obtain ⟨i, hi, rfl⟩ := List.mem_mapIdx.1 hp'
        by_cases hir : i = r
        · rw [if_pos hir]
          show (setKey _ _ _).lookup b = _
          rw [lookup_setKey, if_neg]
          · exact hk _ (List.getElem_mem _)
          · rintro rfl
            exact hnew q hb'
        · rw [if_neg hir]
          exact hk _ (List.getElem_mem _)

theorem runOps_append (ops ops' : List Spec.Op) (c : List Process) : runOps (ops ++ ops') c = runOps ops c >>= fun c' => runOps ops' c' := by
  induction ops generalizing c with
  | nil => rfl
  | cons o ops ih =>
    cases o with
    | create r a => rw [List.cons_append, runOps, runOps, ih]
    | synchronize =>
      rw [List.cons_append, runOps, runOps, activate_eq, Outcome.bind_ok, Outcome.bind_ok, ih]

theorem created_append (ops ops' : List Spec.Op) : Spec.created (ops ++ ops') = Spec.created ops ++ Spec.created ops' := by
  induction ops with
  | nil => rfl
  | cons o ops ih => cases o <;> simp [Spec.created, ih]

theorem runOps_known (ops : List Spec.Op) (made : List (Nat × Nat)) (c : List Process) (h : Known made c) (hn : ((made ++ Spec.created ops).map (·.1)).Nodup)
    (hr : ∀ e ∈ Spec.created ops, e.2 < c.length) : ∃ c' made', runOps ops c = .ok c' ∧ Known made' c' ∧ c'.length = c.length ∧ made'.Perm (made ++ Spec.created ops) := by
  induction ops generalizing made c with
  | nil => exact ⟨c, made, rfl, h, rfl, by simp [Spec.created]⟩
  | cons o ops ih =>
    cases o with
    | create r a =>
      have hp : (((a, r) :: made) ++ Spec.created ops).Perm (made ++ Spec.created (.create r a :: ops)) := by
        show ((a, r) :: (made ++ Spec.created ops)).Perm (made ++ (a, r) :: Spec.created ops)
        exact List.perm_middle.symm
      have hn' : ((((a, r) :: made) ++ Spec.created ops).map (·.1)).Nodup := (hp.map _).nodup_iff.2 hn
      have hnew : ∀ q, (a, q) ∉ made := by
        intro q hq
        have := (List.nodup_cons.1 hn').1
        exact this (by simp only [List.append_eq, List.map_append, List.mem_append, List.mem_map]; exact .inl ⟨_, hq, rfl⟩)
      obtain ⟨c', made', h1, h2, h3, h4⟩ := ih ((a, r) :: made) _ (known_create made c h r a (hr (a, r) (by simp [Spec.created])) hnew) hn'
        (by intro e he; rw [List.length_mapIdx]; exact hr e (by simp [Spec.created, he]))
      exact ⟨c', made', h1, h2, h3.trans (by simp), h4.trans hp⟩
    | synchronize =>
      have hn0 : (made.map (·.1)).Nodup := by
        rw [List.map_append] at hn
        exact (List.nodup_append.1 hn).1
      obtain ⟨hk, _, hl, _⟩ := known_sync made hn0 c _ h (activate_eq c)
      obtain ⟨c', made', h1, h2, h3, h4⟩ := ih made _ hk hn (by intro e he; rw [hl]; exact hr e he)
      exact ⟨c', made', by rw [runOps, activate_eq, Outcome.bind_ok]; exact h1, h2, h3.trans hl, h4⟩

/-- **C99.** After any history of creations and synchronizations that ends with a synchronization, each process knows the process of each agent ever created. (Agents have unique identities, C02.) -/
theorem C99_history (n : Nat) (ops : List Spec.Op) (hn : ((Spec.created ops).map (·.1)).Nodup) (hr : ∀ e ∈ Spec.created ops, e.2 < n) :
    ∃ c, runOps (ops ++ [.synchronize]) (List.replicate n ⟨[], [], []⟩) = .ok c ∧ c.length = n ∧
      ∀ p ∈ c, p.activated = [] ∧ ∀ a r, (a, r) ∈ Spec.created ops → p.locations.lookup a = some r := by
  have h0 : Known [] (List.replicate n ⟨[], [], []⟩) := by
    refine ⟨?_, by simp⟩
    intro r p a hp ha
    have := List.eq_of_mem_replicate (List.mem_of_getElem? hp)
    subst this
    simp at ha
  obtain ⟨c, made, h1, h2, h3, h4⟩ := runOps_known ops [] _ h0 (by simpa using hn) (by simpa using hr)
  simp only [List.nil_append] at h4
  have hn' : (made.map (·.1)).Nodup := (h4.map _).nodup_iff.2 hn
  obtain ⟨_, g2, g3, g4⟩ := known_sync made hn' c _ h2 (activate_eq c)
  refine ⟨_, by rw [runOps_append, h1, Outcome.bind_ok, runOps, activate_eq, Outcome.bind_ok]; rfl, by rw [g3, h3]; simp, ?_⟩
  intro p hp
  exact ⟨g2 p hp, fun a r ha => g4 a r (h4.mem_iff.2 ha) p hp⟩

example : runOps [.create 0 5, .create 1 6, .synchronize, .create 1 7, .synchronize] (List.replicate 2 ⟨[], [], []⟩) =
    .ok [⟨[(7, 1), (6, 1), (5, 0)], [], []⟩, ⟨[(7, 1), (6, 1), (5, 0)], [], []⟩] := by decide

/-! ## C100: deactivation -/

/-- **C100 (counterexample).** Unless every process has deactivated exactly as many agents as there are processes, the operation that announces deactivations is undefined. -/
theorem C100_counterexample_count (c : List Process) (p : Process) (hp : p ∈ c) (h : p.deactivated.length ≠ c.length) : deactivate c = .ub := by
  unfold deactivate
  rw [allToAll_ub _ p.deactivated (List.mem_map.2 ⟨p, hp, rfl⟩) (by simpa using h), Outcome.bind_ub]

/-- In particular when nothing was deactivated. -/
theorem C100_counterexample_idle (c : List Process) (hc : c ≠ []) (h : ∀ p ∈ c, p.deactivated = []) : deactivate c = .ub := by
  cases c with
  | nil => exact absurd rfl hc
  | cons p c =>
    apply C100_counterexample_count _ p List.mem_cons_self
    rw [h p List.mem_cons_self]
    simp

theorem deactivate_ok (c c' : List Process) (h : deactivate c = .ok c') :
    (∀ p ∈ c, p.deactivated.length = c.length) ∧ c'.length = c.length ∧
    ∀ (i : Nat) (p' : Process), c'[i]? = some p' → ∃ p, c[i]? = some p ∧ p' = (c.filterMap fun q => q.deactivated[i]?).foldl deactivateAgent p := by
  have h0 : ∀ p ∈ c, p.deactivated.length = c.length := by
    intro p hp
    by_cases hl : p.deactivated.length = c.length
    · exact hl
    · rw [C100_counterexample_count c p hp hl] at h
      simp at h
  unfold deactivate at h
  rw [allToAll_ok _ (by intro r hr; obtain ⟨p, hp, rfl⟩ := List.mem_map.1 hr; rw [List.length_map]; exact h0 p hp), Outcome.bind_ok] at h
  simp only [Outcome.ok.injEq] at h
  subst h
  refine ⟨h0, by simp, ?_⟩
  intro i p' hp'
  rw [List.getElem?_zipWith] at hp'
  cases hc : c[i]? with
  | none => rw [hc] at hp'; simp at hp'
  | some p =>
    have hi : i < c.length := (List.getElem?_eq_some_iff.1 hc).1
    rw [hc] at hp'
    simp [hi] at hp'
    refine ⟨p, rfl, ?_⟩
    rw [← hp']
    rfl

/-- **C100 (partial).** When every process has deactivated as many agents as there are processes, process `i` forgets the `i`-th agent that each process has deactivated. Missing: the other agents, which it does
not forget (`C100_counterexample_remembered`), other numbers of agents (`C100_counterexample_count`), and doing it again (`C100_counterexample_again`). -/
theorem C100_forgotten_partial (c c' : List Process) (h : deactivate c = .ok c') (i : Nat) (p' q : Process) (hp' : c'[i]? = some p') (hq : q ∈ c) (a : Nat)
    (ha : q.deactivated[i]? = some a) : p'.locations.lookup a = none := by
  obtain ⟨_, _, h3⟩ := deactivate_ok c c' h
  obtain ⟨p0, _, rfl⟩ := h3 i p' hp'
  rw [fold_deactivate_lookup, if_pos]
  exact List.mem_filterMap.2 ⟨q, hq, ha⟩

/-- **C100 (counterexample).** An agent that is not the `i`-th to be deactivated anywhere is not forgotten by process `i`. -/
theorem C100_counterexample_remembered (c c' : List Process) (h : deactivate c = .ok c') (i : Nat) (p p' : Process) (hp : c[i]? = some p) (hp' : c'[i]? = some p') (a : Nat)
    (ha : ∀ q ∈ c, q.deactivated[i]? ≠ some a) : p'.locations.lookup a = p.locations.lookup a := by
  obtain ⟨_, _, h3⟩ := deactivate_ok c c' h
  obtain ⟨p0, hp0, rfl⟩ := h3 i p' hp'
  rw [hp] at hp0
  obtain rfl := Option.some.inj hp0
  rw [fold_deactivate_lookup, if_neg]
  intro hm
  obtain ⟨q, hq, hh⟩ := List.mem_filterMap.1 hm
  exact ha q hq hh

/-- **C100 (counterexample).** When it succeeds, deactivations are announced again at the next synchronization, which is then undefined. -/
theorem C100_counterexample_again (c c' : List Process) (hc : c ≠ []) (h : deactivate c = .ok c') : deactivate c' = .ub := by
  obtain ⟨h1, h2, h3⟩ := deactivate_ok c c' h
  have hl : 0 < c.length := by cases c with
    | nil => exact absurd rfl hc
    | cons _ _ => simp
  have hl' : 0 < c'.length := by omega
  obtain ⟨p, hp, he⟩ := h3 0 c'[0] (by simp [hl'])
  apply C100_counterexample_count c' c'[0] (List.getElem_mem _)
  rw [he, fold_deactivate, List.length_append, h1 p (List.mem_of_getElem? hp)]
  have : (c.filterMap fun q => q.deactivated[0]?) ≠ [] := by
    have hm : ∀ q ∈ c, ∃ a, q.deactivated[0]? = some a := by
      intro q hq
      have : 0 < q.deactivated.length := by rw [h1 q hq]; exact hl
      exact ⟨q.deactivated[0], by simp [this]⟩
    obtain ⟨a, ha⟩ := hm p (List.mem_of_getElem? hp)
    intro hh
    have : a ∈ (c.filterMap fun q => q.deactivated[0]?) := List.mem_filterMap.2 ⟨p, List.mem_of_getElem? hp, ha⟩
    rw [hh] at this
    simp at this
  have := List.length_pos_iff.2 this
  omega

example : deactivate [⟨[(1, 0), (2, 0), (3, 1), (4, 1)], [], [1, 2]⟩, ⟨[(1, 0), (2, 0), (3, 1), (4, 1)], [], [3, 4]⟩] =
    .ok [⟨[(2, 0), (4, 1)], [], [1, 2, 1, 3]⟩, ⟨[(1, 0), (3, 1)], [], [3, 4, 2, 4]⟩] := by decide
example : deactivate [⟨[(1, 0)], [], [1]⟩, ⟨[(1, 0)], [], []⟩] = .ub := by decide

/-! ## C101: agreement on migrations -/

/-- **C101.** All processes agree on the same list of migrations, which are those that were proposed, each once. -/
theorem C101_agree (ideas : List (List Migration)) (h : ∀ i ∈ ideas, ∀ m ∈ i, m.target < ideas.length) :
    ∃ l, agree ideas = .ok (List.replicate ideas.length l) ∧ l.Perm ideas.flatten :=
  ⟨_, agree_eq ideas h, agreed_perm _ ideas h⟩

/-- **C101.** A migration to a process that does not exist is undefined. -/
theorem C101_no_such_process (ideas : List (List Migration)) (h : ∃ i ∈ ideas, ∃ m ∈ i, ideas.length ≤ m.target) : agree ideas = .ub := by
  unfold agree
  rw [proposalRows_ub _ _ h, Outcome.bind_ub]

example : agree [[⟨0, 1, 5⟩, ⟨0, 2, 6⟩], [⟨1, 0, 7⟩], [⟨2, 1, 8⟩]] = .ok (List.replicate 3 [⟨1, 0, 7⟩, ⟨0, 1, 5⟩, ⟨2, 1, 8⟩, ⟨0, 2, 6⟩]) := by decide

/-! ## C102: executing migrations -/

section Migration
variable {α : Type} {n : Nat} {L : List Migration} {ag : Nat → List (Nat × α)}

/-- The migrations from `q` to `r`. -/
def between (q r : Nat) (l : List Migration) : List Migration := l.filter fun m => decide (m.source = q) && decide (m.target = r)

theorem between_append (q r : Nat) (a b : List Migration) : between q r (a ++ b) = between q r a ++ between q r b := List.filter_append ..

theorem between_single_ne (q r : Nat) (m : Migration) (h : m.source ≠ q ∨ m.target ≠ r) : between q r [m] = [] := by
  unfold between
  rw [List.filter_cons_of_neg]
  · rfl
  · simp
    intro h1 h2
    rcases h with h | h
    · exact h h1
    · exact h h2

theorem between_single (m : Migration) : between m.source m.target [m] = [m] := by
  unfold between
  rw [List.filter_cons_of_pos (by simp)]
  rfl

/-- The state of a process: `done` are the migrations it has handled. -/
structure Local (ag : Nat → List (Nat × α)) (r : Nat) (done : List Migration) (l : List (Nat × α)) : Prop where
  mem : ∀ a x, (a, x) ∈ l ↔ ((a, x) ∈ ag r ∧ ∀ m ∈ done, m.source = r → m.migrant ≠ a) ∨ ∃ m ∈ done, m.target = r ∧ m.migrant = a ∧ (a, x) ∈ ag m.source

/-- The state of a channel: what was sent and not received. -/
def Flight (ag : Nat → List (Nat × α)) (q r : Nat) (dq dr : List Migration) (ch : List (Nat × α)) : Prop :=
  ∃ pend : List Migration, between q r dq = between q r dr ++ pend ∧ ch.map (·.1) = pend.map (·.migrant) ∧ ∀ e ∈ ch, e ∈ ag q

structure Inv (n : Nat) (L : List Migration) (ag : Nat → List (Nat × α)) (done : Nat → List Migration) (s : Moving α) : Prop where
  split : ∀ r < n, L = done r ++ s.todo r
  mine : ∀ r < n, Local ag r (done r) (s.agents r)
  flight : ∀ q < n, ∀ r < n, q ≠ r → Flight ag q r (done q) (done r) (s.channel q r)

theorem inv_start (n : Nat) (L : List Migration) (ag : Nat → List (Nat × α)) : Inv n L ag (fun _ => []) (.start L ag) := by
  refine ⟨fun _ _ => rfl, ?_, ?_⟩
  · intro r _
    exact ⟨by simp [Moving.start]⟩
  · intro q _ r _ _
    exact ⟨[], rfl, rfl, by simp [Moving.start]⟩

/-- Two migrations of the same agent are the same. -/
theorem once_split {d t : List Migration} {m : Migration} (h : ((d ++ m :: t).map (·.migrant)).Nodup) : ∀ m' ∈ d, m'.migrant ≠ m.migrant := by
  intro m' hm' he
  rw [List.map_append, List.nodup_append] at h
  exact h.2.2 _ (List.mem_map_of_mem hm') _ (by rw [List.map_cons]; exact List.mem_cons_self) he

theorem inv_step (hO : Spec.Orderly n L ag) {done : Nat → List Migration} {s t : Moving α} (h : Inv n L ag done s) {r : Nat} (hr : r < n) (hs : Step r s t) :
    ∃ m, Inv n L ag (update done r (done r ++ [m])) t := by
  have hup : ∀ {β : Type} (f : Nat → β) (v : β), update f r v r = v := by intro β f v; simp [update]
  have hne : ∀ {β : Type} (f : Nat → β) (v : β) (q : Nat), q ≠ r → update f r v q = f q := by intro β f v q hq; simp [update, hq]
  have split' : ∀ (m : Migration) (ms : List Migration), s.todo r = m :: ms → ∀ q < n, L = update done r (done r ++ [m]) q ++ update s.todo r ms q := by
    intro m ms hm q hq
    by_cases hqr : q = r
    · subst hqr
      rw [hup, hup, List.append_assoc, h.split q hq, hm]
      rfl
    · rw [hne _ _ _ hqr, hne _ _ _ hqr]
      exact h.split q hq
  have hL : ∀ (m : Migration) (ms : List Migration), s.todo r = m :: ms → L = done r ++ m :: ms := by
    intro m ms hm
    rw [← hm]
    exact h.split r hr
  cases hs with
  | skip m ms hm h1 h2 =>
    refine ⟨m, split' m ms hm, ?_, ?_⟩
    · intro q hq
      by_cases hqr : q = r
      · subst hqr
        rw [hup]
        refine ⟨fun a x => ?_⟩
        rw [(h.mine q hq).mem]
        constructor
        · rintro (⟨g1, g2⟩ | ⟨m', g1, g2⟩)
          · left
            refine ⟨g1, ?_⟩
            intro m' hm' hsrc
            rcases List.mem_append.1 hm' with hm' | hm'
            · exact g2 m' hm' hsrc
            · rw [List.mem_singleton] at hm'
              subst hm'
              exact absurd hsrc h1
          · exact .inr ⟨m', List.mem_append_left _ g1, g2⟩
        · rintro (⟨g1, g2⟩ | ⟨m', g1, g2⟩)
          · exact .inl ⟨g1, fun m' hm' => g2 m' (List.mem_append_left _ hm')⟩
          · rcases List.mem_append.1 g1 with g1 | g1
            · exact .inr ⟨m', g1, g2⟩
            · rw [List.mem_singleton] at g1
              subst g1
              exact absurd g2.1 h2
      · rw [hne _ _ _ hqr]
        exact h.mine q hq
    · intro q hq q' hq' hqq
      obtain ⟨pend, g1, g2⟩ := h.flight q hq q' hq' hqq
      have e : ∀ p, between q q' (update done r (done r ++ [m]) p) = between q q' (done p) ∨ (p ≠ q ∧ p ≠ q') := by
        intro p
        by_cases hpr : p = r
        · subst hpr
          rw [hup, between_append]
          by_cases hpq : p = q
          · left
            rw [between_single_ne q q' m (.inl (by rw [← hpq]; exact h1)), List.append_nil]
          · by_cases hpq' : p = q'
            · left
              rw [between_single_ne q q' m (.inr (by rw [← hpq']; exact h2)), List.append_nil]
            · exact .inr ⟨hpq, hpq'⟩
        · left
          rw [hne _ _ _ hpr]
      refine ⟨pend, ?_, g2⟩
      rw [(e q).resolve_right (by simp), (e q').resolve_right (by simp)]
      exact g1
  | missing m ms hm h1 h2 =>
    exfalso
    have hl := hL m ms hm
    obtain ⟨x, hx⟩ := hO.here m (by rw [hl]; simp)
    rw [h1] at hx
    have : (m.migrant, x) ∈ s.agents r := by
      rw [(h.mine r hr).mem]
      left
      refine ⟨hx, fun m' hm' _ => ?_⟩
      exact once_split (by rw [← hl]; exact hO.once) m' hm'
    exact lookup_ne_none _ _ _ this h2
  | send m ms x hm h1 h2 =>
    have hl := hL m ms hm
    have hmL : m ∈ L := by rw [hl]; simp
    have honce := once_split (by rw [← hl]; exact hO.once)
    have htr : m.target ≠ r := by
      intro hh
      exact hO.apart m hmL (by rw [h1, hh])
    have hx : (m.migrant, x) ∈ ag r := by
      have := mem_of_lookup _ _ _ h2
      rw [(h.mine r hr).mem] at this
      rcases this with ⟨g, _⟩ | ⟨m', g1, _, g2, _⟩
      · exact g
      · exact absurd g2 (honce m' g1)
    refine ⟨m, split' m ms hm, ?_, ?_⟩
    · intro q hq
      by_cases hqr : q = r
      · subst hqr
        rw [hup]
        show Local ag q _ (update s.agents q _ q)
        rw [hup]
        refine ⟨fun a y => ?_⟩
        unfold remove
        rw [List.mem_filter, (h.mine q hq).mem]
        simp only [Bool.not_eq_true', beq_eq_false_iff_ne, ne_eq]
        constructor
        · rintro ⟨⟨g1, g2⟩ | ⟨m', g1, g2⟩, g3⟩
          · left
            refine ⟨g1, ?_⟩
            intro m' hm' hsrc
            rcases List.mem_append.1 hm' with hm' | hm'
            · exact g2 m' hm' hsrc
            · rw [List.mem_singleton] at hm'
              subst hm'
              exact fun hh => g3 hh.symm
          · exact .inr ⟨m', List.mem_append_left _ g1, g2⟩
        · rintro (⟨g1, g2⟩ | ⟨m', g1, g2, g3, g4⟩)
          · exact ⟨.inl ⟨g1, fun m' hm' => g2 m' (List.mem_append_left _ hm')⟩, fun hh => g2 m (by simp) h1 hh.symm⟩
          · rcases List.mem_append.1 g1 with g1 | g1
            · exact ⟨.inr ⟨m', g1, g2, g3, g4⟩, fun hh => honce m' g1 (by rw [g3, hh])⟩
            · rw [List.mem_singleton] at g1
              subst g1
              exact absurd g2 htr
      · rw [hne _ _ _ hqr]
        show Local ag q _ (update s.agents r _ q)
        rw [hne _ _ _ hqr]
        exact h.mine q hq
    · intro q hq q' hq' hqq
      obtain ⟨pend, g1, g2⟩ := h.flight q hq q' hq' hqq
      by_cases hqr : q = r
      · subst hqr
        have hq'r : q' ≠ q := fun hh => hqq hh.symm
        rw [hup, hne _ _ _ hq'r]
        by_cases ht : q' = m.target
        · subst ht
          refine ⟨pend ++ [m], ?_, ?_⟩
          · have e : between q m.target [m] = [m] := by
              rw [← h1]
              exact between_single m
            rw [between_append, g1, e, List.append_assoc]
          · simp only [update2, and_self, if_true]
            refine ⟨by rw [List.map_append, List.map_append, g2.1]; rfl, ?_⟩
            intro e he
            rcases List.mem_append.1 he with he | he
            · exact g2.2 e he
            · rw [List.mem_singleton] at he
              rw [he]
              exact hx
        · refine ⟨pend, ?_, ?_⟩
          · rw [between_append, between_single_ne q q' m (.inr fun hh => ht hh.symm), List.append_nil]
            exact g1
          · simp only [update2, ht, and_false, if_false]
            exact g2
      · rw [hne _ _ _ hqr]
        refine ⟨pend, ?_, ?_⟩
        · by_cases hq'r : q' = r
          · subst hq'r
            rw [hup, between_append, between_single_ne q q' m (.inr htr), List.append_nil]
            exact g1
          · rw [hne _ _ _ hq'r]
            exact g1
        · simp only [update2, hqr, false_and, if_false]
          exact g2
  | receive m ms e es hm h1 h2 h3 =>
    have hl := hL m ms hm
    have hmL : m ∈ L := by rw [hl]; simp
    have honce := once_split (by rw [← hl]; exact hO.once)
    have hsrc := hO.source m hmL
    obtain ⟨pend0, g1, g2, g3⟩ := h.flight m.source hsrc r hr h1
    rw [h3] at g2 g3
    obtain ⟨m', pend, rfl⟩ : ∃ m' pend, pend0 = m' :: pend := by
      cases pend0 with
      | nil => simp at g2
      | cons a b => exact ⟨a, b, rfl⟩
    rw [List.map_cons, List.map_cons] at g2
    obtain ⟨g2a, g2b⟩ := List.cons.inj g2
    have hbm : between m.source r [m] = [m] := by
      rw [← h2]
      exact between_single m
    obtain rfl : m' = m := by
      have e1 : between m.source r L = between m.source r (done r) ++ m :: between m.source r ms := by
        rw [hl, between_append]
        have : m :: ms = [m] ++ ms := rfl
        rw [this, between_append, hbm]
        rfl
      have e2 : between m.source r L = between m.source r (done r) ++ (m' :: pend ++ between m.source r (s.todo m.source)) := by
        rw [h.split m.source hsrc, between_append, g1, List.append_assoc]
      rw [e1] at e2
      have := List.append_cancel_left e2
      exact (List.cons.inj this).1.symm
    have hea : e ∈ ag m'.source := g3 e List.mem_cons_self
    obtain ⟨ea, ex⟩ := e
    simp only at g2a
    subst g2a
    have hfresh : ∀ y, (m'.migrant, y) ∉ s.agents r := by
      intro y hy
      rw [(h.mine r hr).mem] at hy
      rcases hy with ⟨k1, _⟩ | ⟨m2, k1, _, k3, _⟩
      · exact h1 (hO.single _ _ _ _ _ hea k1).1
      · exact honce m2 k1 k3
    have hins : insertAgent (s.agents r) (m'.migrant, ex) = s.agents r ++ [(m'.migrant, ex)] := by
      unfold insertAgent
      rw [if_neg]
      intro hh
      obtain ⟨⟨b, y⟩, hb, hb'⟩ := List.any_eq_true.1 hh
      simp only [beq_iff_eq] at hb'
      subst hb'
      exact hfresh y hb
    refine ⟨m', split' m' ms hm, ?_, ?_⟩
    · intro q hq
      by_cases hqr : q = r
      · subst hqr
        rw [hup]
        show Local ag q _ (update s.agents q _ q)
        rw [hup, hins]
        refine ⟨fun a y => ?_⟩
        rw [List.mem_append, (h.mine q hq).mem, List.mem_singleton]
        constructor
        · rintro ((⟨k1, k2⟩ | ⟨m2, k1, k2⟩) | k)
          · left
            refine ⟨k1, ?_⟩
            intro m2 hm2 hs2
            rcases List.mem_append.1 hm2 with hm2 | hm2
            · exact k2 m2 hm2 hs2
            · rw [List.mem_singleton] at hm2
              subst hm2
              exact absurd hs2 h1
          · exact .inr ⟨m2, List.mem_append_left _ k1, k2⟩
          · obtain ⟨rfl, rfl⟩ := Prod.mk.inj k
            exact .inr ⟨m', by simp, h2, rfl, hea⟩
        · rintro (⟨k1, k2⟩ | ⟨m2, k1, k2, k3, k4⟩)
          · exact .inl (.inl ⟨k1, fun m2 hm2 => k2 m2 (List.mem_append_left _ hm2)⟩)
          · rcases List.mem_append.1 k1 with k1 | k1
            · exact .inl (.inr ⟨m2, k1, k2, k3, k4⟩)
            · rw [List.mem_singleton] at k1
              subst k1
              right
              subst k3
              rw [(hO.single _ _ _ _ _ hea k4).2]
      · rw [hne _ _ _ hqr]
        show Local ag q _ (update s.agents r _ q)
        rw [hne _ _ _ hqr]
        exact h.mine q hq
    · intro q hq q' hq' hqq
      obtain ⟨pd, k1, k2⟩ := h.flight q hq q' hq' hqq
      by_cases hq'r : q' = r
      · subst hq'r
        rw [hup, hne _ _ _ hqq]
        by_cases hqs : q = m'.source
        · subst hqs
          refine ⟨pend, ?_, ?_⟩
          · rw [between_append, hbm, g1, List.append_assoc]
            rfl
          · simp only [update2, and_self, if_true]
            exact ⟨g2b, fun e he => g3 e (List.mem_cons_of_mem _ he)⟩
        · refine ⟨pd, ?_, ?_⟩
          · rw [between_append, between_single_ne q q' m' (.inl fun hh => hqs hh.symm), List.append_nil]
            exact k1
          · simp only [update2, hqs, false_and, if_false]
            exact k2
      · rw [hne _ _ _ hq'r]
        refine ⟨pd, ?_, ?_⟩
        · by_cases hqr : q = r
          · subst hqr
            rw [hup, between_append, between_single_ne q q' m' (.inl h1), List.append_nil]
            exact k1
          · rw [hne _ _ _ hqr]
            exact k1
        · simp only [update2, hq'r, and_false, if_false]
          exact k2

/-- A send and a receive that complete together are a send followed by a receive. -/
theorem rendezvous_steps {r q : Nat} {s t : Moving α} (h : Rendezvous r q s t) : ∃ u, Step r s u ∧ Step q u t := by
  cases h with
  | both m m' ms ms' x hrq h1 h2 h3 h4 h5 h6 h7 h8 =>
    refine ⟨_, .send s m ms x h1 h2 h4, ?_⟩
    have hqr : q ≠ r := fun hh => hrq hh.symm
    have key := Step.receive (r := q) (⟨update s.todo r ms, update s.agents r (remove (s.agents r) m.migrant), update2 s.channel r m.target (s.channel r m.target ++ [(m.migrant, x)])⟩ : Moving α)
      m' ms' (m.migrant, x) [] (by simp [update, hqr, h5]) (by rw [h6]; exact hrq) h7 (by simp [update2, h6, h3, h8])
    have e1 : update2 (update2 s.channel r m.target (s.channel r m.target ++ [(m.migrant, x)])) m'.source q [] = s.channel := by
      funext i j
      simp only [update2, h6, h3]
      by_cases hij : i = r ∧ j = q
      · rw [if_pos hij, hij.1, hij.2, h8]
      · rw [if_neg hij, if_neg hij]
    have e2 : (update s.agents r (remove (s.agents r) m.migrant)) q = s.agents q := by simp [update, hqr]
    simp only [e1, e2] at key
    exact key

theorem inv_action (hO : Spec.Orderly n L ag) {done : Nat → List Migration} {s t : Moving α} (h : Inv n L ag done s) (hs : Action n s t) :
    ∃ done', Inv n L ag done' t := by
  cases hs with
  | one r _ _ hr h1 =>
    obtain ⟨m, hm⟩ := inv_step hO h hr h1
    exact ⟨_, hm⟩
  | two r q _ _ hr hq h1 =>
    obtain ⟨u, h2, h3⟩ := rendezvous_steps h1
    obtain ⟨m, hm⟩ := inv_step hO h hr h2
    obtain ⟨m', hm'⟩ := inv_step hO hm hq h3
    exact ⟨_, hm'⟩

theorem inv_executes (hO : Spec.Orderly n L ag) {k : Nat} {s : Moving α} (hs : Executes n k (.start L ag) s) : ∃ done, Inv n L ag done s := by
  generalize h0 : Moving.start L ag = s0 at hs
  induction hs with
  | refl s => subst h0; exact ⟨_, inv_start n L ag⟩
  | step k s t u _ h2 ih =>
    obtain ⟨d, hd⟩ := ih h0
    exact inv_action hO hd h2

theorem unbuffered_action {s t : Moving α} (h : Unbuffered n s t) : Action n s t := by
  cases h with
  | skip r _ m ms hr h1 h2 h3 => exact .one r _ _ hr (.skip s m ms h1 h2 h3)
  | missing r _ m ms hr h1 h2 h3 => exact .one r _ _ hr (.missing s m ms h1 h2 h3)
  | two r q _ _ hr hq h => exact .two r q _ _ hr hq h

theorem unbuffered_channel {s t : Moving α} (h : Unbuffered n s t) : t.channel = s.channel := by
  cases h with
  | skip r _ m ms hr h1 h2 h3 => rfl
  | missing r _ m ms hr h1 h2 h3 => rfl
  | two r q _ _ hr hq h => cases h; rfl

theorem inv_unbuffered (hO : Spec.Orderly n L ag) {s : Moving α} (hs : ExecutesUnbuffered n (.start L ag) s) : (∃ done, Inv n L ag done s) ∧ ∀ q r, s.channel q r = [] := by
  generalize h0 : Moving.start L ag = s0 at hs
  induction hs with
  | refl => subst h0; exact ⟨⟨_, inv_start n L ag⟩, fun _ _ => rfl⟩
  | step t u _ h2 ih =>
    obtain ⟨⟨d, hd⟩, hc⟩ := ih
    refine ⟨inv_action hO hd (unbuffered_action h2), ?_⟩
    rw [unbuffered_channel h2]
    exact hc

/-- A process that is furthest behind. -/
theorem exists_behind (f : Nat → Nat) (n : Nat) (h : ∃ r < n, f r ≠ 0) : ∃ r < n, f r ≠ 0 ∧ ∀ q < n, f q ≤ f r := by
  induction n with
  | zero => obtain ⟨r, hr, _⟩ := h; omega
  | succ n ih =>
    by_cases h0 : ∃ r < n, f r ≠ 0
    · obtain ⟨r, hr, h1, h2⟩ := ih h0
      by_cases hn : f n ≤ f r
      · refine ⟨r, by omega, h1, ?_⟩
        intro q hq
        by_cases hqn : q = n
        · rw [hqn]; exact hn
        · exact h2 q (by omega)
      · refine ⟨n, by omega, by omega, ?_⟩
        intro q hq
        by_cases hqn : q = n
        · rw [hqn]; exact Nat.le_refl _
        · have := h2 q (by omega)
          omega
    · obtain ⟨r, hr, h1⟩ := h
      have hrn : r = n := by
        by_cases hh : r = n
        · exact hh
        · exact absurd ⟨r, by omega, h1⟩ h0
      subst hrn
      refine ⟨r, by omega, h1, ?_⟩
      intro q hq
      by_cases hqn : q = r
      · rw [hqn]; exact Nat.le_refl _
      · have : f q = 0 := by
          by_cases hh : f q = 0
          · exact hh
          · exact absurd ⟨q, by omega, hh⟩ h0
        omega

/-- Of two processes, one with less left to do has done all that the other has, and more; or both are equally far. -/
theorem ahead {d d' t t' : List Migration} {m : Migration} {ms : List Migration} (h : L = d ++ t) (h' : L = d' ++ t') (ht : t = m :: ms) (hle : t'.length ≤ t.length) :
    (t' = m :: ms ∧ d' = d) ∨ ∃ l, d' = d ++ m :: l := by
  have hl : d.length + t.length = d'.length + t'.length := by
    rw [← List.length_append, ← List.length_append, ← h, ← h']
  have hpre : d <+: d' := by
    apply List.prefix_of_prefix_length_le (l₃ := L)
    · exact ⟨t, h.symm⟩
    · exact ⟨t', h'.symm⟩
    · omega
  obtain ⟨l, rfl⟩ := hpre
  rw [h, List.append_assoc] at h'
  have h'' := List.append_cancel_left h'
  cases l with
  | nil =>
    left
    rw [List.nil_append] at h''
    exact ⟨by rw [← h'', ht], by simp⟩
  | cons x l =>
    right
    rw [ht, List.cons_append] at h''
    exact ⟨l, by rw [(List.cons.inj h'').1]⟩

/-- The process furthest behind that has something to do, its migration, and what the other processes have done. -/
theorem next_migration {done : Nat → List Migration} {s : Moving α} (h : Inv n L ag done s) (hw : ∃ r < n, s.todo r ≠ []) :
    ∃ r < n, ∃ m ms, s.todo r = m :: ms ∧ m ∈ L ∧ ∀ q < n, s.todo q = m :: ms ∧ done q = done r ∨ ∃ l, done q = done r ++ m :: l := by
  obtain ⟨r, hr, h1, h2⟩ := exists_behind (fun r => (s.todo r).length) n (by
    obtain ⟨r, hr, h1⟩ := hw
    exact ⟨r, hr, fun hh => h1 (List.length_eq_zero_iff.1 hh)⟩)
  cases ht : s.todo r with
  | nil => rw [ht] at h1; exact absurd rfl h1
  | cons m ms =>
    refine ⟨r, hr, m, ms, ht, ?_, ?_⟩
    · rw [h.split r hr, ht]
      simp
    · intro q hq
      exact ahead (h.split r hr) (h.split q hq) ht (h2 q hq)

theorem between_more (q r : Nat) (d : List Migration) (m : Migration) (l : List Migration) (hq : m.source = q) (hr : m.target = r) :
    between q r (d ++ m :: l) ≠ between q r d := by
  have : m :: l = [m] ++ l := rfl
  subst hq hr
  rw [between_append, this, between_append, between_single]
  intro hh
  have := congrArg List.length hh
  simp at this

theorem present {done : Nat → List Migration} {s : Moving α} (hO : Spec.Orderly n L ag) (h : Inv n L ag done s) {r : Nat} (hr : r < n) {m : Migration} {ms : List Migration}
    (hm : s.todo r = m :: ms) (hs : m.source = r) : ∃ x, (s.agents r).lookup m.migrant = some x := by
  have hl : L = done r ++ m :: ms := by rw [← hm]; exact h.split r hr
  obtain ⟨x, hx⟩ := hO.here m (by rw [hl]; simp)
  rw [hs] at hx
  have : (m.migrant, x) ∈ s.agents r := by
    rw [(h.mine r hr).mem]
    left
    refine ⟨hx, fun m' hm' _ => ?_⟩
    exact once_split (by rw [← hl]; exact hO.once) m' hm'
  cases hk : (s.agents r).lookup m.migrant with
  | none => exact absurd hk (lookup_ne_none _ _ _ this)
  | some y => exact ⟨y, rfl⟩

theorem progress (hO : Spec.Orderly n L ag) {done : Nat → List Migration} {s : Moving α} (h : Inv n L ag done s) (hw : ∃ r < n, s.todo r ≠ []) : ∃ t, Action n s t := by
  obtain ⟨r, hr, m, ms, hm, hmL, hq⟩ := next_migration h hw
  by_cases h1 : m.source = r
  · obtain ⟨x, hx⟩ := present hO h hr hm h1
    exact ⟨_, .one r _ _ hr (.send s m ms x hm h1 hx)⟩
  · by_cases h2 : m.target = r
    · have hsrc := hO.source m hmL
      cases hc : s.channel m.source r with
      | cons e es => exact ⟨_, .one r _ _ hr (.receive s m ms e es hm h1 h2 hc)⟩
      | nil =>
        rcases hq m.source hsrc with ⟨h3, _⟩ | ⟨l, h3⟩
        · obtain ⟨x, hx⟩ := present hO h hsrc h3 rfl
          exact ⟨_, .one m.source _ _ hsrc (.send s m ms x h3 rfl hx)⟩
        · exfalso
          obtain ⟨pend, g1, g2, _⟩ := h.flight m.source hsrc r hr h1
          rw [hc] at g2
          have : pend = [] := by simpa using g2.symm
          rw [this, List.append_nil, h3] at g1
          exact between_more _ _ _ _ _ rfl h2 g1
    · exact ⟨_, .one r _ _ hr (.skip s m ms hm h1 h2)⟩

theorem progress_unbuffered (hO : Spec.Orderly n L ag) {done : Nat → List Migration} {s : Moving α} (h : Inv n L ag done s) (hch : ∀ q r, s.channel q r = [])
    (hw : ∃ r < n, s.todo r ≠ []) : ∃ t, Unbuffered n s t := by
  have hpend : ∀ q < n, ∀ r < n, q ≠ r → between q r (done q) = between q r (done r) := by
    intro q hq r hr hqr
    obtain ⟨pend, g1, g2, _⟩ := h.flight q hq r hr hqr
    rw [hch] at g2
    have : pend = [] := by simpa using g2.symm
    rw [this, List.append_nil] at g1
    exact g1
  obtain ⟨r, hr, m, ms, hm, hmL, hq⟩ := next_migration h hw
  have hsrc := hO.source m hmL
  have htgt := hO.target m hmL
  have hap := hO.apart m hmL
  have both : s.todo m.source = m :: ms → s.todo m.target = m :: ms → ∃ t, Unbuffered n s t := by
    intro h1 h2
    obtain ⟨x, hx⟩ := present hO h hsrc h1 rfl
    exact ⟨_, .two m.source m.target _ _ hsrc htgt (.both s m m ms ms x hap h1 rfl rfl hx h2 rfl rfl (hch _ _))⟩
  by_cases h1 : m.source = r
  · rcases hq m.target htgt with ⟨h3, _⟩ | ⟨l, h3⟩
    · exact both (by rw [h1]; exact hm) h3
    · exfalso
      have := hpend m.source hsrc m.target htgt hap
      rw [h3, h1] at this
      exact between_more _ _ _ _ _ h1 rfl this.symm
  · by_cases h2 : m.target = r
    · rcases hq m.source hsrc with ⟨h3, _⟩ | ⟨l, h3⟩
      · exact both h3 (by rw [h2]; exact hm)
      · exfalso
        have := hpend m.source hsrc m.target htgt hap
        rw [h3, h2] at this
        exact between_more _ _ _ _ _ rfl h2 this
    · exact ⟨_, .skip r s m ms hr hm h1 h2⟩

theorem destination_mem (ms : List Migration) (hn : (ms.map (·.migrant)).Nodup) (m : Migration) (hm : m ∈ ms) (r : Nat) : Spec.destination ms m.migrant r = m.target := by
  induction ms with
  | nil => simp at hm
  | cons x ms ih =>
    rw [List.map_cons, List.nodup_cons] at hn
    unfold Spec.destination
    rcases List.mem_cons.1 hm with rfl | hm
    · rw [if_pos rfl]
    · rw [if_neg, ih hn.2 hm]
      intro hh
      exact hn.1 (by rw [hh]; exact List.mem_map_of_mem hm)

theorem destination_none (ms : List Migration) (a r : Nat) (h : ∀ m ∈ ms, m.migrant ≠ a) : Spec.destination ms a r = r := by
  induction ms with
  | nil => rfl
  | cons x ms ih =>
    unfold Spec.destination
    rw [if_neg (h x List.mem_cons_self), ih fun m hm => h m (List.mem_cons_of_mem _ hm)]

theorem finished (hO : Spec.Orderly n L ag) {done : Nat → List Migration} {s : Moving α} (h : Inv n L ag done s) (hd : ∀ r < n, s.todo r = []) :
    (∀ q < n, ∀ r < n, q ≠ r → s.channel q r = []) ∧ ∀ r < n, ∀ a x, (a, x) ∈ s.agents r ↔ ∃ q < n, (a, x) ∈ ag q ∧ Spec.destination L a q = r := by
  have hdone : ∀ r < n, done r = L := by
    intro r hr
    have := h.split r hr
    rw [hd r hr, List.append_nil] at this
    exact this.symm
  constructor
  · intro q hq r hr hqr
    obtain ⟨pend, g1, g2, _⟩ := h.flight q hq r hr hqr
    rw [hdone q hq, hdone r hr] at g1
    have : pend = [] := by
      have := congrArg List.length g1
      simp at this
      exact this
    rw [this] at g2
    simpa using g2
  · intro r hr a x
    rw [(h.mine r hr).mem, hdone r hr]
    constructor
    · rintro (⟨g1, g2⟩ | ⟨m, g1, g2, g3, g4⟩)
      · refine ⟨r, hr, g1, ?_⟩
        apply destination_none
        intro m hm hh
        subst hh
        obtain ⟨y, hy⟩ := hO.here m hm
        exact g2 m hm (hO.single _ _ _ _ _ hy g1).1 rfl
      · refine ⟨m.source, hO.source m g1, g4, ?_⟩
        rw [← g3, destination_mem L hO.once m g1, g2]
    · rintro ⟨q, hq, g1, g2⟩
      by_cases hm : ∃ m ∈ L, m.migrant = a
      · obtain ⟨m, hm, rfl⟩ := hm
        rw [destination_mem L hO.once m hm] at g2
        obtain ⟨y, hy⟩ := hO.here m hm
        right
        refine ⟨m, hm, g2, rfl, ?_⟩
        rw [(hO.single _ _ _ _ _ hy g1).1]
        exact g1
      · have hm' : ∀ m ∈ L, m.migrant ≠ a := fun m h1 h2 => hm ⟨m, h1, h2⟩
        rw [destination_none L a q hm'] at g2
        subst g2
        exact .inl ⟨g1, fun m h1 _ => hm' m h1⟩

/-- What remains to be done, in total. -/
def total (n : Nat) (f : Nat → List Migration) : Nat := ((List.range n).map fun r => (f r).length).sum

theorem total_update (n : Nat) (f : Nat → List Migration) (r : Nat) (hr : r < n) (m : Migration) (ms : List Migration) (h : f r = m :: ms) : total n (update f r ms) + 1 = total n f := by
  unfold total
  induction n with
  | zero => omega
  | succ n ih =>
    rw [List.range_succ, List.map_append, List.map_append, List.sum_append, List.sum_append]
    simp only [List.map_cons, List.map_nil, List.sum_cons, List.sum_nil, Nat.add_zero]
    by_cases hrn : r = n
    · subst hrn
      have e1 : update f r ms r = ms := by simp [update]
      have e2 : ((List.range r).map fun q => (update f r ms q).length) = (List.range r).map fun q => (f q).length := by
        apply List.map_congr_left
        intro q hq
        have : q ≠ r := by have := List.mem_range.1 hq; omega
        simp [update, this]
      rw [e1, e2, h, List.length_cons]
      omega
    · have hnr : n ≠ r := fun hh => hrn hh.symm
      have e1 : update f r ms n = f n := by simp [update, hnr]
      have := ih (by omega)
      rw [e1]
      omega

theorem total_step {r : Nat} (hr : r < n) {s t : Moving α} (h : Step r s t) : total n t.todo + 1 = total n s.todo := by
  cases h with
  | skip m ms h1 h2 h3 => exact total_update n s.todo r hr m ms h1
  | missing m ms h1 h2 h3 => exact total_update n s.todo r hr m ms h1
  | send m ms x h1 h2 h3 => exact total_update n s.todo r hr m ms h1
  | receive m ms e es h1 h2 h3 h4 => exact total_update n s.todo r hr m ms h1

theorem total_action {s t : Moving α} (h : Action n s t) : total n t.todo < total n s.todo := by
  cases h with
  | one r _ _ hr h1 => have := total_step hr h1; omega
  | two r q _ _ hr hq h1 =>
    obtain ⟨u, h2, h3⟩ := rendezvous_steps h1
    have := total_step hr h2
    have := total_step hq h3
    omega

theorem total_const (n : Nat) (L : List Migration) : total n (fun _ => L) = n * L.length := by
  unfold total
  induction n with
  | zero => simp
  | succ n ih =>
    rw [List.range_succ, List.map_append, List.sum_append, ih, Nat.add_mul]
    simp

theorem total_executes {k : Nat} {s : Moving α} (h : Executes n k (.start L ag) s) : k + total n s.todo ≤ n * L.length := by
  generalize h0 : Moving.start L ag = s0 at h
  induction h with
  | refl s =>
    subst h0
    have := total_const n L
    show 0 + total n (fun _ => L) ≤ _
    omega
  | step k s t u _ h2 ih =>
    have := ih h0
    have := total_action h2
    omega

/-- **C102 (partial).** For an orderly set of migrations, whatever the order in which processes run and whether messages are buffered or not: the exchange ends after a bounded number of actions, it never gets stuck before all processes
are done, and when it can go no further all processes are done, nothing is on its way, and each agent is on exactly the process it was to be on, with its contents. Missing: migrations that are not orderly (see the
counterexamples). -/
theorem C102_migrate_partial (hO : Spec.Orderly n L ag) {k : Nat} {s : Moving α} (hs : Executes n k (.start L ag) s) :
    k ≤ n * L.length ∧
    ((∃ r < n, s.todo r ≠ []) → ∃ t, Action n s t) ∧
    ((¬ ∃ t, Action n s t) → (∀ r < n, s.todo r = []) ∧ (∀ q < n, ∀ r < n, q ≠ r → s.channel q r = []) ∧
      ∀ r < n, ∀ a x, (a, x) ∈ s.agents r ↔ ∃ q < n, (a, x) ∈ ag q ∧ Spec.destination L a q = r) := by
  obtain ⟨d, hd⟩ := inv_executes hO hs
  refine ⟨by have := total_executes hs; omega, progress hO hd, ?_⟩
  intro hstuck
  have hdone : ∀ r < n, s.todo r = [] := by
    intro r hr
    by_cases hh : s.todo r = []
    · exact hh
    · exact absurd (progress hO hd ⟨r, hr, hh⟩) hstuck
  exact ⟨hdone, finished hO hd hdone⟩

/-- **C102 (partial).** It does not get stuck either when nothing is ever buffered, so that each send waits for the receive. -/
theorem C102_unbuffered_partial (hO : Spec.Orderly n L ag) {s : Moving α} (hs : ExecutesUnbuffered n (.start L ag) s) (hw : ∃ r < n, s.todo r ≠ []) : ∃ t, Unbuffered n s t := by
  obtain ⟨⟨d, hd⟩, hc⟩ := inv_unbuffered hO hs
  exact progress_unbuffered hO hd hc hw

theorem process_lookup (l : List (Nat × Nat)) (ms : List Migration) (hn : (ms.map (·.migrant)).Nodup) (a r : Nat) (h : l.lookup a = some r) :
    (processMigrations l ms).lookup a = some (Spec.destination ms a r) := by
  induction ms generalizing l r with
  | nil => exact h
  | cons m ms ih =>
    rw [List.map_cons, List.nodup_cons] at hn
    have e : processMigrations l (m :: ms) = processMigrations (setKey l m.migrant m.target) ms := rfl
    rw [e]
    by_cases ha : m.migrant = a
    · rw [ih _ hn.2 m.target (by rw [lookup_setKey, if_pos ha.symm])]
      have e2 : Spec.destination (m :: ms) a r = m.target := if_pos ha
      rw [e2, destination_none]
      intro m' hm' hh
      exact hn.1 (by rw [ha, ← hh]; exact List.mem_map_of_mem hm')
    · rw [ih _ hn.2 r (by rw [lookup_setKey, if_neg fun hh => ha hh.symm]; exact h)]
      have e2 : Spec.destination (m :: ms) a r = Spec.destination ms a r := if_neg ha
      rw [e2]

/-- **C102 (partial).** The address books are right afterwards on each process if they were before: an agent is where the address book says. -/
theorem C102_addresses_partial (hO : Spec.Orderly n L ag) {k : Nat} {s : Moving α} (hs : Executes n k (.start L ag) s) (hstuck : ¬ ∃ t, Action n s t)
    (book : List (Nat × Nat)) (hb : ∀ q a x, (a, x) ∈ ag q → book.lookup a = some q) (r : Nat) (hr : r < n) (a : Nat) (x : α) (ha : (a, x) ∈ s.agents r) :
    (processMigrations book L).lookup a = some r := by
  obtain ⟨q, hq, h1, h2⟩ := (((C102_migrate_partial hO hs).2.2 hstuck).2.2 r hr a x).1 ha
  rw [process_lookup book L hO.once a q (hb q a x h1), h2]

/-- **C102 (counterexample).** An agent that is to migrate to the process it is on is lost: it is sent to the process, which never receives it. -/
theorem C102_counterexample_self (r a : Nat) (x : α) (hh : ag r = [(a, x)]) (s : Moving α) (hs : ∃ k, Executes n k (.start [⟨r, r, a⟩] ag) s) (hdone : s.todo r = []) :
    ∀ y, (a, y) ∉ s.agents r := by
  have key : ∀ k (s : Moving α), Executes n k (.start [⟨r, r, a⟩] ag) s →
      (∀ q, s.todo q = [⟨r, r, a⟩] ∨ s.todo q = []) ∧ (s.todo r = [⟨r, r, a⟩] ∧ s.agents r = [(a, x)] ∨ s.todo r = [] ∧ s.agents r = []) := by
    intro k s h
    generalize h0 : Moving.start [⟨r, r, a⟩] ag = s0 at h
    induction h with
    | refl s =>
      subst h0
      exact ⟨fun _ => .inl rfl, .inl ⟨rfl, hh⟩⟩
    | step k s t u _ h2 ih =>
      obtain ⟨i1, i2⟩ := ih h0
      have one : ∀ q (t' : Moving α), Step q t t' → (∀ q, t'.todo q = [⟨r, r, a⟩] ∨ t'.todo q = []) ∧
          (t'.todo r = [⟨r, r, a⟩] ∧ t'.agents r = [(a, x)] ∨ t'.todo r = [] ∧ t'.agents r = []) := by
        intro q t' hq
        have up : ∀ (m : Migration) (ms : List Migration), t.todo q = m :: ms → m = ⟨r, r, a⟩ ∧ ms = [] := by
          intro m ms hm
          rcases i1 q with h | h
          · rw [h] at hm
            obtain ⟨e1, e2⟩ := List.cons.inj hm
            exact ⟨e1.symm, e2.symm⟩
          · rw [h] at hm
            simp at hm
        have upd : ∀ (ms : List Migration), ms = [] → ∀ p, update t.todo q ms p = [⟨r, r, a⟩] ∨ update t.todo q ms p = [] := by
          intro ms hms p
          subst hms
          by_cases hpq : p = q
          · exact .inr (by simp [update, hpq])
          · simp only [update, hpq, if_false]
            exact i1 p
        cases hq with
        | skip m ms h1 h3 h4 =>
          obtain ⟨rfl, rfl⟩ := up m ms h1
          refine ⟨upd _ rfl, ?_⟩
          have : r ≠ q := h3
          simp only [update, this, if_false]
          exact i2
        | missing m ms h1 h3 h4 =>
          obtain ⟨rfl, rfl⟩ := up m ms h1
          simp only at h3
          subst h3
          rcases i2 with ⟨_, i2⟩ | ⟨i2, _⟩
          · rw [i2] at h4
            simp at h4
          · rw [i2] at h1
            simp at h1
        | send m ms y h1 h3 h4 =>
          obtain ⟨rfl, rfl⟩ := up m ms h1
          simp only at h3
          subst h3
          refine ⟨upd _ rfl, .inr ⟨by simp [update], ?_⟩⟩
          rcases i2 with ⟨_, i2⟩ | ⟨i2, _⟩
          · simp [update, i2, remove]
          · rw [i2] at h1
            simp at h1
        | receive m ms e es h1 h3 h4 h5 =>
          obtain ⟨rfl, rfl⟩ := up m ms h1
          exact absurd h4 h3
      cases h2 with
      | one q _ _ hq h3 => exact one q _ h3
      | two q q' _ _ hq hq' h3 =>
        cases h3 with
        | both m m' ms ms' y g1 g2 g3 g4 g5 g6 g7 g8 g9 =>
          exfalso
          rcases i1 q with h | h
          · rw [h] at g2
            obtain ⟨e1, _⟩ := List.cons.inj g2
            subst e1
            exact g1 (by rw [← g3, ← g4])
          · rw [h] at g2
            simp at g2
  obtain ⟨k, hs⟩ := hs
  intro y hy
  rcases (key k s hs).2 with ⟨h, _⟩ | ⟨_, h⟩
  · rw [hdone] at h
    simp at h
  · rw [h] at hy
    simp at hy

/-- **C102 (counterexample).** If the agent is not on the process it is to leave, the target waits forever. -/
theorem C102_counterexample_absent (q r a : Nat) (hqr : q ≠ r) (hq : q < n) (hh : (ag q).lookup a = none) :
    ∃ s : Moving α, (∃ k, Executes n k (.start [⟨q, r, a⟩] ag) s) ∧ s.todo q = [] ∧ s.todo r = [⟨q, r, a⟩] ∧ s.channel q r = [] ∧
      (∀ t, ¬ Step r s t) ∧ ∀ t, ¬ Step q s t := by
  have hrq : r ≠ q := fun h => hqr h.symm
  refine ⟨_, ⟨1, .step 0 _ _ _ (.refl _) (.one q _ _ hq (.missing _ ⟨q, r, a⟩ [] rfl rfl hh))⟩, by simp [update], by simp [update, hrq, Moving.start], rfl, ?_, ?_⟩
  · intro t ht
    have e : update (fun _ : Nat => [(⟨q, r, a⟩ : Migration)]) q [] r = [⟨q, r, a⟩] := by simp [update, hrq]
    cases ht with
    | skip m ms h1 h3 h4 =>
      change update (fun _ : Nat => [(⟨q, r, a⟩ : Migration)]) q [] r = _ at h1
      rw [e] at h1
      obtain ⟨rfl, _⟩ := List.cons.inj h1
      exact h4 rfl
    | missing m ms h1 h3 h4 =>
      change update (fun _ : Nat => [(⟨q, r, a⟩ : Migration)]) q [] r = _ at h1
      rw [e] at h1
      obtain ⟨rfl, _⟩ := List.cons.inj h1
      exact hqr h3
    | send m ms y h1 h3 h4 =>
      change update (fun _ : Nat => [(⟨q, r, a⟩ : Migration)]) q [] r = _ at h1
      rw [e] at h1
      obtain ⟨rfl, _⟩ := List.cons.inj h1
      exact hqr h3
    | receive m ms e' es h1 h3 h4 h5 =>
      change [] = _ at h5
      simp at h5
  · intro t ht
    have e : update (fun _ : Nat => [(⟨q, r, a⟩ : Migration)]) q [] q = [] := by simp [update]
    cases ht with
    | skip m ms h1 h3 h4 => change update (fun _ : Nat => [(⟨q, r, a⟩ : Migration)]) q [] q = _ at h1; rw [e] at h1; simp at h1
    | missing m ms h1 h3 h4 => change update (fun _ : Nat => [(⟨q, r, a⟩ : Migration)]) q [] q = _ at h1; rw [e] at h1; simp at h1
    | send m ms y h1 h3 h4 => change update (fun _ : Nat => [(⟨q, r, a⟩ : Migration)]) q [] q = _ at h1; rw [e] at h1; simp at h1
    | receive m ms e' es h1 h3 h4 h5 => change update (fun _ : Nat => [(⟨q, r, a⟩ : Migration)]) q [] q = _ at h1; rw [e] at h1; simp at h1

end Migration

/-- Two processes that swap agents, as an orderly set of migrations. -/
def demoAgents : Nat → List (Nat × Nat)
  | 0 => [(5, 50), (6, 60)]
  | 1 => [(7, 70)]
  | _ => []

example : Spec.Orderly 2 [⟨0, 1, 5⟩, ⟨1, 0, 7⟩] demoAgents := by
  refine ⟨by decide, by decide, by decide, by decide, ?_, ?_⟩
  · intro m hm
    simp at hm
    rcases hm with rfl | rfl
    · exact ⟨50, by decide⟩
    · exact ⟨70, by decide⟩
  · intro r q a x y h1 h2
    rcases r with _ | _ | r <;> rcases q with _ | _ | q <;> simp [demoAgents] at h1 h2 <;> omega

example : ∃ s : Moving Nat, Executes 1 1 (.start [⟨0, 0, 5⟩] (fun _ => [(5, 50)])) s ∧ s.todo 0 = [] ∧ s.agents 0 = [] :=
  ⟨_, .step 0 _ _ _ (.refl _) (.one 0 _ _ (by decide) (.send _ ⟨0, 0, 5⟩ [] 50 rfl rfl rfl)), rfl, rfl⟩

/-! ## C103: messages between processes -/

/-- The inbox after the messages `ms` are routed on the process. -/
def inboxAfter (rank : Nat) (h : Host) (ms : List Msg) (x : Mailbox) : Inbox :=
  ms.foldl (fun b m => if h.locate m.recipient = rank ∧ x.id = m.recipient then mmInsert (fun a b => decide (a ≤ b)) m.received m b else b) x.inbox

theorem routeAll_ok (rank n : Nat) (h : Host) (ms : List Msg) (agents : List Mailbox) (r : List Mailbox × List (Nat × Msg)) (hr : routeAll rank n h ms agents = .ok r) :
    r.1 = agents.map (fun x => { x with inbox := inboxAfter rank h ms x }) ∧ r.2 = (ms.filter fun m => decide (h.locate m.recipient ≠ rank)).map (fun m => (h.locate m.recipient, m)) := by
  induction ms generalizing agents r with
  | nil =>
    simp only [routeAll, Outcome.ok.injEq] at hr
    subst hr
    refine ⟨?_, rfl⟩
    conv => lhs; rw [← List.map_id agents]
    rfl
  | cons m ms ih =>
    rw [routeAll] at hr
    obtain ⟨r1, h1, h2⟩ := Outcome.bind_eq_ok.1 hr
    obtain ⟨r2, h3, h4⟩ := Outcome.bind_eq_ok.1 h2
    simp only [Outcome.ok.injEq] at h4
    subst h4
    obtain ⟨i1, i2⟩ := ih _ _ h3
    unfold routeOne at h1
    by_cases hl : h.locate m.recipient = rank
    · rw [if_pos hl] at h1
      split at h1
      · simp only [Outcome.ok.injEq] at h1
        subst h1
        constructor
        · rw [i1, List.map_map]
          apply List.map_congr_left
          intro x _
          simp only [Function.comp, inboxAfter, List.foldl_cons]
          by_cases hx : x.id = m.recipient
          · simp [hx, hl]
          · simp [hx]
        · rw [List.filter_cons_of_neg (by simp [hl]), i2]
          rfl
      · simp at h1
    · rw [if_neg hl] at h1
      split at h1
      · simp only [Outcome.ok.injEq] at h1
        subst h1
        constructor
        · rw [i1]
          apply List.map_congr_left
          intro x _
          simp only [inboxAfter, List.foldl_cons]
          rw [if_neg fun hh => hl hh.1]
        · rw [List.filter_cons_of_pos (by simp [hl]), i2]
          rfl
      · simp at h1

theorem inboxAfter_perm (rank : Nat) (h : Host) (ms : List Msg) (x : Mailbox) :
    (inboxAfter rank h ms x).Perm (x.inbox ++ (ms.filter fun m => decide (h.locate m.recipient = rank) && decide (m.recipient = x.id)).map fun m => (m.received, m)) := by
  unfold inboxAfter
  generalize x.inbox = b
  induction ms generalizing b with
  | nil => simp
  | cons m ms ih =>
    rw [List.foldl_cons]
    by_cases hc : h.locate m.recipient = rank ∧ x.id = m.recipient
    · rw [if_pos hc, List.filter_cons_of_pos (by simp [hc.1, hc.2]), List.map_cons]
      refine (ih _).trans ?_
      refine ((mmInsert_perm _ _ _ _).append_right _).trans ?_
      simpa using List.perm_middle.symm
    · rw [if_neg hc, List.filter_cons_of_neg]
      · exact ih b
      · intro hh
        simp at hh
        exact hc ⟨hh.1, hh.2.symm⟩

theorem routeCluster_get (n : Nat) (c : List Host) (rank : Nat) (rs : List (Host × List (Nat × Msg))) (h : routeCluster n rank c = .ok rs) :
    rs.length = c.length ∧ ∀ (i : Nat) (e : Host × List (Nat × Msg)), rs[i]? = some e → ∃ h0 r, c[i]? = some h0 ∧ routeHost (rank + i) n h0 = .ok r ∧ e = ({ h0 with agents := r.1 }, r.2) := by
  induction c generalizing rank rs with
  | nil =>
    simp only [routeCluster, Outcome.ok.injEq] at h
    subst h
    exact ⟨rfl, by simp⟩
  | cons h0 c ih =>
    rw [routeCluster] at h
    obtain ⟨r, h1, h2⟩ := Outcome.bind_eq_ok.1 h
    obtain ⟨rs', h3, h4⟩ := Outcome.bind_eq_ok.1 h2
    simp only [Outcome.ok.injEq] at h4
    subst h4
    obtain ⟨i1, i2⟩ := ih _ _ h3
    refine ⟨by simp [i1], ?_⟩
    intro i e he
    cases i with
    | zero =>
      simp only [List.getElem?_cons_zero, Option.some.injEq] at he
      exact ⟨h0, r, rfl, h1, he.symm⟩
    | succ i =>
      rw [List.getElem?_cons_succ] at he
      obtain ⟨h0', r', g1, g2, g3⟩ := i2 i e he
      refine ⟨h0', r', by rw [List.getElem?_cons_succ]; exact g1, ?_, g3⟩
      rw [show rank + (i + 1) = rank + 1 + i from by omega]
      exact g2

/-- A process never gets messages from itself. -/
theorem own_row (n rank : Nat) (h0 : Host) (r : List Mailbox × List (Nat × Msg)) (h : routeHost rank n h0 = .ok r) (l : List Msg) (hl : (sentRow n r.2)[rank]? = some l) : l = [] := by
  unfold routeHost at h
  obtain ⟨r0, h1, h2⟩ := Outcome.bind_eq_ok.1 h
  simp only [Outcome.ok.injEq] at h2
  subst h2
  obtain ⟨_, e⟩ := routeAll_ok _ _ _ _ _ _ h1
  unfold sentRow at hl
  rw [List.getElem?_map] at hl
  cases hk : (List.range n)[rank]? with
  | none => rw [hk] at hl; simp at hl
  | some k =>
    rw [hk] at hl
    simp only [Option.map_some, Option.some.injEq] at hl
    have hkr : k = rank := by
      obtain ⟨g1, g2⟩ := List.getElem?_eq_some_iff.1 hk
      rw [List.getElem_range] at g2
      exact g2.symm
    subst hkr
    rw [← hl, e]
    simp only [List.map_eq_nil_iff, List.filter_eq_nil_iff, List.mem_map, List.mem_filter, decide_eq_true_eq]
    rintro e ⟨m, ⟨_, hm⟩, rfl⟩
    exact hm

theorem sendMessages_get (c : List Host) (hs : List (Option Host)) (k : Nat) (h : sendMessages c = .ok (hs, k)) :
    k = 0 ∧ hs.length = c.length ∧ ∀ (i : Nat) (o : Option Host), hs[i]? = some o →
      ∃ h0, c[i]? = some h0 ∧ o = some { h0 with agents := h0.agents.map fun x => { x with inbox := inboxAfter i h0 (h0.agents.flatMap (·.outbox)) x, outbox := [] } } := by
  unfold sendMessages at h
  obtain ⟨rs, h1, h2⟩ := Outcome.bind_eq_ok.1 h
  obtain ⟨received, h3, h4⟩ := Outcome.bind_eq_ok.1 h2
  simp only [Outcome.ok.injEq, Prod.mk.injEq] at h4
  obtain ⟨rfl, rfl⟩ := h4
  obtain ⟨hl, hget⟩ := routeCluster_get _ _ _ _ h1
  have hrows : ∀ r ∈ (rs.map fun r => sentRow c.length r.2), r.length = (rs.map fun r => sentRow c.length r.2).length := by
    intro r hr
    obtain ⟨e, _, rfl⟩ := List.mem_map.1 hr
    simp [sentRow, hl]
  rw [allToAll_ok _ hrows] at h3
  simp only [Outcome.ok.injEq] at h3
  subst h3
  refine ⟨rfl, by simp [hl], ?_⟩
  intro i o ho
  rw [List.getElem?_mapIdx] at ho
  cases hz : (rs.zip ((List.range (rs.map fun r => sentRow c.length r.2).length).map fun i => (rs.map fun r => sentRow c.length r.2).filterMap fun r => r[i]?))[i]? with
  | none => rw [hz] at ho; simp at ho
  | some e =>
    rw [hz] at ho
    simp only [Option.map_some, Option.some.injEq] at ho
    obtain ⟨e1, e2⟩ := e
    rw [List.getElem?_zip_eq_some] at hz
    obtain ⟨z1, z2⟩ := hz
    obtain ⟨h0, r, g1, g2, g3⟩ := hget i e1 z1
    rw [Nat.zero_add] at g2
    refine ⟨h0, g1, ?_⟩
    have hi : i < rs.length := (List.getElem?_eq_some_iff.1 z1).1
    have e2e : e2 = rs.filterMap fun r => (sentRow c.length r.2)[i]? := by
      simp [hi] at z2
      rw [← z2]
      rfl
    have habs : absorb i e2 e1.1 = some e1.1 := by
      unfold absorb
      rw [if_neg]
      intro hh
      cases hq : e2[i]? with
      | none => rw [hq] at hh; simp at hh
      | some l =>
        rw [hq] at hh
        have full : ∀ q ∈ rs, ∃ l, (sentRow c.length q.2)[i]? = some l := by
          intro q _
          have : i < (sentRow c.length q.2).length := by simp [sentRow]; omega
          exact ⟨_, List.getElem?_eq_getElem this⟩
        have hnth : ∀ (ls : List (Host × List (Nat × Msg))) (j : Nat), (∀ q ∈ ls, ∃ l, (sentRow c.length q.2)[i]? = some l) →
            (ls.filterMap fun r => (sentRow c.length r.2)[i]?)[j]? = ls[j]?.bind fun q => (sentRow c.length q.2)[i]? := by
          intro ls
          induction ls with
          | nil => intro j _; simp
          | cons q ls ih =>
            intro j hf
            obtain ⟨l0, hl0⟩ := hf q List.mem_cons_self
            rw [List.filterMap_cons, hl0]
            cases j with
            | zero => simp [hl0]
            | succ j =>
              simp only [List.getElem?_cons_succ]
              exact ih j fun q hq => hf q (List.mem_cons_of_mem _ hq)
        rw [e2e, hnth rs i full, z1] at hq
        simp only [Option.bind_some] at hq
        rw [g3] at hq
        have := own_row _ _ _ _ g2 l hq
        subst this
        simp at hh
    rw [← ho, habs, g3]
    unfold routeHost at g2
    obtain ⟨r0, k1, k2⟩ := Outcome.bind_eq_ok.1 g2
    simp only [Outcome.ok.injEq] at k2
    subst k2
    obtain ⟨k3, _⟩ := routeAll_ok _ _ _ _ _ _ k1
    rw [k3, List.map_map]
    rfl

/-- **C103 (partial).** Messages to agents on the same process are delivered to them, each once, and outboxes are emptied. Missing: messages to other processes, which are lost (`C103_counterexample_lost`); and waking up the recipients:
the number of messages that is reported is zero (`C103_counterexample_count`). -/
theorem C103_local_partial (c : List Host) (hs : List (Option Host)) (k : Nat) (h : sendMessages c = .ok (hs, k)) (i : Nat) (h0 : Host) (hi : c[i]? = some h0) :
    ∃ h', hs[i]? = some (some h') ∧ h'.locations = h0.locations ∧ h'.agents.length = h0.agents.length ∧ ∀ (j : Nat) (x : Mailbox), h0.agents[j]? = some x →
      ∃ x', h'.agents[j]? = some x' ∧ x'.id = x.id ∧ x'.outbox = [] ∧
        x'.inbox.Perm (x.inbox ++ ((h0.agents.flatMap (·.outbox)).filter fun m => decide (h0.locate m.recipient = i) && decide (m.recipient = x.id)).map fun m => (m.received, m)) := by
  obtain ⟨_, hl, hget⟩ := sendMessages_get c hs k h
  have hlt : i < hs.length := by rw [hl]; exact (List.getElem?_eq_some_iff.1 hi).1
  obtain ⟨h0', g1, g2⟩ := hget i hs[i] (List.getElem?_eq_getElem hlt)
  rw [hi] at g1
  obtain rfl := Option.some.inj g1
  refine ⟨{ h0 with agents := h0.agents.map fun x => { x with inbox := inboxAfter i h0 (h0.agents.flatMap (·.outbox)) x, outbox := [] } },
    by rw [List.getElem?_eq_getElem hlt, g2], rfl, by simp, ?_⟩
  intro j x hx
  refine ⟨{ x with inbox := inboxAfter i h0 (h0.agents.flatMap (·.outbox)) x, outbox := [] }, ?_, rfl, rfl, inboxAfter_perm _ _ _ _⟩
  show (h0.agents.map _)[j]? = _
  rw [List.getElem?_map, hx]
  rfl

/-- **C103 (counterexample).** A message to an agent on another process is lost: afterwards it is in no inbox of any process and in no outbox, unless it was in an inbox before or there was another copy. -/
theorem C103_counterexample_lost (c : List Host) (hs : List (Option Host)) (k : Nat) (h : sendMessages c = .ok (hs, k)) (m : Msg)
    (hremote : ∀ (i : Nat) (h0 : Host), c[i]? = some h0 → m ∈ h0.agents.flatMap (·.outbox) → h0.locate m.recipient ≠ i)
    (hnew : ∀ h0 ∈ c, ∀ x ∈ h0.agents, ∀ e ∈ x.inbox, e.2 ≠ m) :
    ∀ o ∈ hs, ∃ h', o = some h' ∧ ∀ x ∈ h'.agents, x.outbox = [] ∧ ∀ e ∈ x.inbox, e.2 ≠ m := by
  obtain ⟨_, hl, hget⟩ := sendMessages_get c hs k h
  intro o ho
  obtain ⟨i, hi, rfl⟩ := List.mem_iff_getElem.1 ho
  obtain ⟨h0, g1, g2⟩ := hget i hs[i] (List.getElem?_eq_getElem hi)
  refine ⟨_, g2, ?_⟩
  intro x hx
  obtain ⟨y, hy, rfl⟩ := List.mem_map.1 hx
  refine ⟨rfl, ?_⟩
  intro e he hh
  have := (inboxAfter_perm i h0 (h0.agents.flatMap (·.outbox)) y).mem_iff.1 he
  rcases List.mem_append.1 this with h1 | h1
  · exact hnew h0 (List.mem_of_getElem? g1) y hy e h1 hh
  · obtain ⟨m', hm', rfl⟩ := List.mem_map.1 h1
    simp only at hh
    subst hh
    rw [List.mem_filter] at hm'
    simp at hm'
    exact hremote i h0 g1 (by simpa using hm'.1) hm'.2.1

/-- **C103 (counterexample).** The function reports that no messages were sent, whatever was sent, so that `model::step` does not look for earlier events. -/
theorem C103_counterexample_count (c : List Host) (hs : List (Option Host)) (k : Nat) (h : sendMessages c = .ok (hs, k)) : k = 0 := (sendMessages_get c hs k h).1

/-- **C103 (counterexample).** A message to an agent whose process is not known is undefined behaviour on process zero, if the agent is not there. -/
theorem C103_counterexample_unknown (n : Nat) (h0 : Host) (ms : List Msg) (m : Msg) (hl : h0.locations.lookup m.recipient = none) (agents : List Mailbox) (ha : ∀ x ∈ agents, x.id ≠ m.recipient) :
    routeAll 0 n h0 (m :: ms) agents = .ub := by
  have e : routeOne 0 n h0 agents m = .ub := by
    unfold routeOne Host.locate
    rw [hl, if_pos (show (none : Option Nat).getD 0 = 0 from rfl), if_neg]
    intro hh
    obtain ⟨x, hx, he⟩ := List.any_eq_true.1 hh
    exact ha x hx (by simpa using he)
  rw [routeAll, e, Outcome.bind_ub]

/-- Agent 5 on process 0 writes to agent 6 beside it and to agent 7 on process 1. -/
def demoHosts : List Host :=
  [⟨[⟨5, [], [⟨1, 5, 6, 0, 3, 0⟩, ⟨2, 5, 7, 0, 3, 0⟩]⟩, ⟨6, [], []⟩], [(5, 0), (6, 0), (7, 1)]⟩, ⟨[⟨7, [], []⟩], [(5, 0), (6, 0), (7, 1)]⟩]

example : sendMessages demoHosts =
    .ok ([some ⟨[⟨5, [], []⟩, ⟨6, [(3, ⟨1, 5, 6, 0, 3, 0⟩)], []⟩], [(5, 0), (6, 0), (7, 1)]⟩, some ⟨[⟨7, [], []⟩], [(5, 0), (6, 0), (7, 1)]⟩], 0) := rfl

/-! ## C104: the distributed run -/

theorem continues_iff (end_ : Nat) (lowers : List Nat) : continues end_ lowers = true ↔ ∃ l ∈ lowers, l < end_ := by
  unfold continues
  rw [decide_eq_true_eq]
  have key : ∀ (ls : List Nat) (e : Nat), ls.foldl min e < end_ ↔ e < end_ ∨ ∃ l ∈ ls, l < end_ := by
    intro ls
    induction ls with
    | nil => intro e; simp
    | cons l ls ih =>
      intro e
      rw [List.foldl_cons, ih]
      constructor
      · rintro (h | ⟨x, hx, h⟩)
        · by_cases he : e < end_
          · exact .inl he
          · exact .inr ⟨l, List.mem_cons_self, by omega⟩
        · exact .inr ⟨x, List.mem_cons_of_mem _ hx, h⟩
      · rintro (h | ⟨x, hx, h⟩)
        · exact .inl (by omega)
        · rcases List.mem_cons.1 hx with rfl | hx
          · exact .inl (by omega)
          · exact .inr ⟨x, hx, h⟩
  rw [key]
  constructor
  · rintro (h | h)
    · omega
    · exact h
  · exact .inr

/-- **C104 (counterexample).** A distributed run that has any event after the first step, and in which not all processes deactivated as many agents as there are processes, is undefined. -/
theorem C104_counterexample_undefined (end_ : Nat) (lowers : List Nat) (c : List Process) (l : Nat) (hl : l ∈ lowers) (hlt : l < end_) (p : Process) (hp : p ∈ c) (hd : p.deactivated.length ≠ c.length) :
    pass end_ lowers c = .ub := by
  unfold pass
  rw [if_pos ((continues_iff end_ lowers).2 ⟨l, hl, hlt⟩), activate_eq, Outcome.bind_ok]
  apply C100_counterexample_count _ _ (List.mem_map_of_mem hp)
  rw [List.length_map]
  exact hd

/-- **C104 (partial).** The run ends when no process has an event before the end, and goes on, from the earliest, when any process has. Missing: what happens after it goes on (see the counterexample). -/
theorem C104_ends_partial (end_ : Nat) (lowers : List Nat) (c : List Process) (h : ∀ l ∈ lowers, end_ ≤ l) : pass end_ lowers c = .ok c := by
  unfold pass
  rw [if_neg]
  intro hh
  obtain ⟨l, h1, h2⟩ := (continues_iff end_ lowers).1 hh
  have := h l h1
  omega

example : pass 10 [4, 10] [⟨[], [1], []⟩, ⟨[], [2], []⟩] = .ub := by decide
example : pass 10 [10, 10] [⟨[], [1], []⟩, ⟨[], [2], []⟩] = .ok [⟨[], [1], []⟩, ⟨[], [2], []⟩] := by decide

/-! ## C105: the agent collection -/

/-- What a model does with the collection. -/
inductive Spec.Use (α : Type) where
  | activate (a : Nat) (x : α)
  | deactivate (a : Nat)
  | get (a : Nat)

def Collection.apply {α : Type} (c : Collection α) : Spec.Use α → Collection α
  | .activate a x => c.activate a x
  | .deactivate a => c.deactivate a
  | .get a => (c.get a).1

/-- The agents that are active after a history: the first with an identity counts. -/
def Spec.active {α : Type} : List (Spec.Use α) → Nat → Option α
  | [], _ => none
  | .activate a x :: us, b => if a = b ∧ Spec.active us b = none then some x else Spec.active us b
  | .deactivate a :: us, b => if a = b then none else Spec.active us b
  | .get _ :: us, b => Spec.active us b

theorem lookup_append_new {α : Type} (l : List (Nat × α)) (a b : Nat) (x : α) (h : l.lookup a = none) : (l ++ [(a, x)]).lookup b = if b = a then some x else l.lookup b := by
  induction l with
  | nil =>
    by_cases hb : b = a
    · subst hb; simp
    · have : (b == a) = false := by simpa using hb
      simp [List.lookup_cons, this, hb]
  | cons e l ih =>
    obtain ⟨k, v⟩ := e
    rw [List.lookup_cons] at h
    cases hk : a == k with
    | true => rw [hk] at h; simp at h
    | false =>
      rw [hk] at h
      rw [List.cons_append, List.lookup_cons, List.lookup_cons, ih h]
      cases hb : b == k with
      | true =>
        obtain rfl : b = k := by simpa using hb
        have : b ≠ a := by
          rintro rfl
          simp at hk
        simp only [if_neg this]
      | false => rfl

theorem any_lookup {α : Type} (l : List (Nat × α)) (a : Nat) : (l.any fun e => e.1 == a) = (l.lookup a).isSome := by
  induction l with
  | nil => rfl
  | cons e l ih =>
    obtain ⟨k, v⟩ := e
    rw [List.any_cons, List.lookup_cons, ih]
    by_cases hk : a = k
    · subst hk; simp
    · have h1 : (a == k) = false := by simpa using hk
      have h2 : (k == a) = false := by simpa using fun hh : k = a => hk hh.symm
      simp [h1, h2]

/-- The collection after a history that never looks up an agent that is not active. -/
theorem collection_history {α : Type} (us : List (Spec.Use α)) (hg : ∀ a vs, (.get a :: vs) <:+ us → Spec.active vs a ≠ none) :
    (∀ b, (us.foldr (fun u c => c.apply u) (⟨[], []⟩ : Collection α)).here.lookup b = (Spec.active us b).map some) ∧
    (∀ b, b ∈ (us.foldr (fun u c => c.apply u) (⟨[], []⟩ : Collection α)).global ↔ Spec.active us b ≠ none) ∧
    ∀ e ∈ (us.foldr (fun u c => c.apply u) (⟨[], []⟩ : Collection α)).here, e.2 ≠ none := by
  induction us with
  | nil => simp [Spec.active]
  | cons u us ih =>
    obtain ⟨i1, i2, i3⟩ := ih fun a vs h => hg a vs (h.trans (List.suffix_cons _ _))
    rw [List.foldr_cons]
    generalize us.foldr (fun u c => c.apply u) (⟨[], []⟩ : Collection α) = c at i1 i2 i3 ⊢
    cases u with
    | activate a x =>
      have hany : (c.here.any fun e => e.1 == a) = (Spec.active us a).isSome := by
        rw [any_lookup, i1]
        simp
      have hcon : c.global.contains a = (Spec.active us a).isSome := by
        have h1 : c.global.contains a = true ↔ a ∈ c.global := by simp
        rw [Bool.eq_iff_iff, h1, i2, Option.isSome_iff_ne_none]
      simp only [Collection.apply, Collection.activate]
      cases ha : Spec.active us a with
      | none =>
        rw [hany, hcon, ha]
        simp only [Option.isSome_none, Bool.false_eq_true, if_false]
        refine ⟨?_, ?_, ?_⟩
        · intro b
          rw [lookup_append_new _ _ _ _ (by rw [i1, ha]; rfl)]
          by_cases hb : b = a
          · subst hb
            simp [Spec.active, ha]
          · rw [if_neg hb, i1]
            have : ¬ (a = b ∧ Spec.active us b = none) := fun hh => hb hh.1.symm
            simp only [Spec.active, if_neg this]
        · intro b
          rw [List.mem_append, i2, List.mem_singleton]
          by_cases hb : b = a
          · subst hb
            simp [Spec.active, ha]
          · have : ¬ (a = b ∧ Spec.active us b = none) := fun hh => hb hh.1.symm
            simp only [Spec.active, if_neg this, hb, or_false]
        · intro e he
          rcases List.mem_append.1 he with he | he
          · exact i3 e he
          · rw [List.mem_singleton] at he
            subst he
            simp
      | some y =>
        rw [hany, hcon, ha]
        simp only [Option.isSome_some, if_true]
        have hs : ∀ b, Spec.active (.activate a x :: us) b = Spec.active us b := by
          intro b
          have : ¬ (a = b ∧ Spec.active us b = none) := by
            rintro ⟨rfl, h2⟩
            rw [ha] at h2
            simp at h2
          simp only [Spec.active, if_neg this]
        refine ⟨fun b => by rw [i1, hs], fun b => by rw [i2, hs], i3⟩
    | deactivate a =>
      simp only [Collection.apply, Collection.deactivate]
      refine ⟨?_, ?_, ?_⟩
      · intro b
        rw [lookup_filter_ne, i1]
        by_cases hb : b = a
        · subst hb; simp [Spec.active]
        · have hb' : ¬ a = b := fun hh => hb hh.symm
          simp only [Spec.active, if_neg hb, if_neg hb']
      · intro b
        rw [List.mem_filter, i2]
        by_cases hb : b = a
        · subst hb; simp [Spec.active]
        · have hb' : ¬ a = b := fun hh => hb hh.symm
          simp [Spec.active, hb, hb']
      · intro e he
        exact i3 e (List.mem_filter.1 he).1
    | get a =>
      have h1 := hg a us (List.suffix_refl _)
      have e : (c.get a).1 = c := by
        unfold Collection.get
        rw [i1]
        cases ha : Spec.active us a with
        | none => exact absurd ha h1
        | some y => rfl
      simp only [Collection.apply, e]
      exact ⟨i1, i2, i3⟩

/-- **C105 (partial).** After any history of activations, deactivations and look-ups of active agents (latest first), looking up gives the active agent and nothing changes; and all agents can be visited. Missing: looking up other agents (see the
counterexample). -/
theorem C105_lookup_partial {α : Type} (us : List (Spec.Use α)) (hg : ∀ a vs, (.get a :: vs) <:+ us → Spec.active vs a ≠ none) :
    (∀ a x, Spec.active us a = some x →
      (us.foldr (fun u c => c.apply u) (⟨[], []⟩ : Collection α)).get a = (us.foldr (fun u c => c.apply u) (⟨[], []⟩ : Collection α), some x)) ∧
    (∀ a, a ∈ (us.foldr (fun u c => c.apply u) (⟨[], []⟩ : Collection α)).global ↔ Spec.active us a ≠ none) ∧
    ∃ l, (us.foldr (fun u c => c.apply u) (⟨[], []⟩ : Collection α)).visit = .ok l := by
  obtain ⟨i1, i2, i3⟩ := collection_history us hg
  refine ⟨?_, i2, ?_⟩
  · intro a x ha
    unfold Collection.get
    rw [i1, ha]
    rfl
  · generalize us.foldr (fun u c => c.apply u) (⟨[], []⟩ : Collection α) = c at i3
    unfold Collection.visit
    generalize c.here = l at i3
    induction l with
    | nil => exact ⟨[], rfl⟩
    | cons e l ih =>
      obtain ⟨r, hr⟩ := ih fun x hx => i3 x (List.mem_cons_of_mem _ hx)
      rw [List.foldr_cons, hr]
      cases he : e.2 with
      | none => exact absurd he (i3 e List.mem_cons_self)
      | some x => exact ⟨x :: r, rfl⟩

/-- **C105 (counterexample).** Looking up an agent that is not there adds a null pointer, which is dereferenced the next time all agents are visited. -/
theorem C105_counterexample_unknown {α : Type} (c : Collection α) (a : Nat) (h : c.here.lookup a = none) : (c.get a).2 = none ∧ (c.get a).1.visit = .ub := by
  have e : c.get a = ({ c with here := c.here ++ [(a, none)] }, none) := by
    unfold Collection.get
    rw [h]
  rw [e]
  refine ⟨rfl, ?_⟩
  unfold Collection.visit
  rw [List.foldr_append]
  rw [List.foldr_cons]
  generalize c.here = l
  induction l with
  | nil => rfl
  | cons x l ih =>
    rw [List.foldr_cons, ih]
    cases x.2 with
    | none => rfl
    | some y => rfl

example : ([.get 5, .activate 6 60, .deactivate 7, .activate 7 70, .activate 5 50] : List (Spec.Use Nat)).foldr (fun u c => c.apply u) (⟨[], []⟩ : Collection Nat) =
    ⟨[5, 6], [(5, some 50), (6, some 60)]⟩ := rfl
example : ((⟨[5], [(5, some 50)]⟩ : Collection Nat).get 6).1.visit = .ub := rfl

/-! ## C106: `environment::step` -/

/-- All agents sleep beyond `t` and have sent everything. -/
structure Asleep {σ : Type} (t : Nat) (w : Sched.World σ) : Prop where
  ids : (w.agents.map (·.id)).Nodup
  wake : ∀ x ∈ w.agents, ∃ s, Sched.findWake w.wake x.id = some s ∧ t < s
  out : ∀ x ∈ w.agents, x.outbox = []

theorem asleep_round {σ : Type} (P : Sched.Program σ) (end_ : Nat) (step : Comm.Step) (n : Nat) (w : Sched.World σ) (h : Asleep step.lower w) (hf : w.first = Sched.determineNext end_ w.wake) :
    Sched.round P end_ step n w = .ok w := by
  have e1 : Sched.emplaceMissing step.lower (w.agents.map (·.id)) w.wake = w.wake := by
    apply Sched.emplace_id
    intro i hi
    obtain ⟨x, hx, rfl⟩ := List.mem_map.1 hi
    obtain ⟨s, hs, _⟩ := h.wake x hx
    rw [hs]
    simp
  have e2 : (w.agents.filter fun a => Sched.findWake w.wake a.id == some step.lower) = [] := by
    rw [List.filter_eq_nil_iff]
    intro x hx hh
    obtain ⟨s, hs, hlt⟩ := h.wake x hx
    rw [hs] at hh
    simp at hh
    omega
  have e3 : w.agents.flatMap (·.outbox) = [] := by
    rw [List.flatMap_eq_nil_iff]
    exact h.out
  have e4 : (w.agents.map fun x => { Sched.receive [] x with outbox := [] }) = w.agents := by
    conv => rhs; rw [← List.map_id w.agents]
    apply List.map_congr_left
    intro x hx
    obtain ⟨i, s, inb, out⟩ := x
    have := h.out _ hx
    simp only at this
    subst this
    rfl
  unfold Sched.round
  simp only [e1, e2, Sched.runJobs, Outcome.bind_ok]
  rw [Sched.sendMessages_ok _ _ h.ids (by intro x hx m hm; rw [h.out x hx] at hm; simp at hm), Outcome.bind_ok, e3, e4]
  simp only [List.foldl_nil, List.length_nil, Nat.lt_irrefl, if_false]
  rw [← hf]

theorem wake_round {σ : Type} {P : Sched.Program σ} {end_ : Nat} {step : Comm.Step} {n : Nat} {w w' : Sched.World σ} (hn : (w.agents.map (·.id)).Nodup) (h : Sched.round P end_ step n w = .ok w') :
    ∀ x ∈ w'.agents, Sched.findWake w'.wake x.id ≠ none := by
  have hid := Sched.round_ids hn h
  obtain ⟨w1, s, sent, h1, h2, rfl⟩ := Sched.round_ok h
  have e1 := Sched.runJobs_ids _ _ _ _ _ _ _ h1
  obtain ⟨_, _, e3, _⟩ := Sched.sendMessages_inv (by rw [e1]; exact hn) h2
  have hI : ∀ i ∈ w.agents.map (·.id), Sched.findWake w1.wake i ≠ none := by
    refine Sched.runJobs_induct (I := fun v => ∀ i ∈ w.agents.map (·.id), Sched.findWake v.wake i ≠ none) ?_ _ _ _ (Sched.mid_start step.lower w hn _) h1 ?_
    · intro a rem v v' _ hj hv i hi
      obtain ⟨_, rfl⟩ := Sched.runJob_ok hj
      simp only
      rw [Sched.findWake_setWake]
      split
      · simp
      · exact hv i hi
    · intro i hi
      simp only
      rw [Sched.findWake_emplace]
      cases Sched.findWake w.wake i with
      | none => simp only; rw [if_pos hi]; simp
      | some t => simp
  intro x hx
  simp only at hx hid
  have hxi : x.id ∈ w.agents.map (·.id) := by
    rw [← hid]
    exact List.mem_map_of_mem hx
  simp only
  rw [e3]
  cases hw : Sched.findWake w1.wake x.id with
  | none => exact absurd hw (hI _ hxi)
  | some t =>
    obtain ⟨t', g, _⟩ := (Sched.foldl_lowerWake (w1.agents.flatMap (·.outbox)) w1.wake x.id).1 t hw
    rw [g]
    simp

theorem asleep_after {σ : Type} (P : Sched.Program σ) (end_ fuel : Nat) (step : Comm.Step) (w w' : Sched.World σ) (hu : Sched.Spec.UniqueIds w) (h : Sched.modelStep P end_ fuel step w = some (.ok w')) :
    Asleep step.lower w' ∧ w'.first = Sched.determineNext end_ w'.wake := by
  unfold Sched.modelStep at h
  split at h
  · simp at h
  · obtain ⟨h1, h2, h3⟩ := Sched.stepLoop_last fuel 0 w w' hu h
    have hout : ∀ fuel n (v v' : Sched.World σ), (v.agents.map (·.id)).Nodup → Sched.stepLoop P end_ step fuel n v = some (.ok v') →
        (∀ x ∈ v'.agents, x.outbox = []) ∧ ∀ x ∈ v'.agents, Sched.findWake v'.wake x.id ≠ none := by
      intro fuel
      induction fuel with
      | zero => intro n v v' _ h; simp [Sched.stepLoop] at h
      | succ fuel ih =>
        intro n v v' hn h
        unfold Sched.stepLoop at h
        cases hr : Sched.round P end_ step n v with
        | ok w1 =>
          rw [hr] at h
          simp only at h
          split at h
          · exact ih _ _ _ (by rw [Sched.round_ids hn hr]; exact hn) h
          · simp at h
            subst h
            exact ⟨Sched.noOutbox_round hn hr, wake_round hn hr⟩
        | throws => rw [hr] at h; simp at h
        | ub => rw [hr] at h; simp at h
    refine ⟨⟨by rw [h3]; exact hu, ?_, (hout _ _ _ _ hu h).1⟩, h2⟩
    intro x hx
    cases hw : Sched.findWake w'.wake x.id with
    | none => exact absurd hw ((hout _ _ _ _ hu h).2 x hx)
    | some s =>
      refine ⟨s, rfl, ?_⟩
      have := Sched.determineNext_le_find end_ w'.wake x.id s hw
      omega

theorem asleep_step {σ : Type} (P : Sched.Program σ) (time end_ fuel : Nat) (w : Sched.World σ) (h : Asleep time w) (hf : w.first = Sched.determineNext end_ w.wake) (hlt : time < w.first) (hend : time < end_) :
    envStep P time end_ (fuel + 1) w = some (.ok w) := by
  unfold envStep Sched.modelStep
  rw [if_pos hend, if_neg (by simp only; omega), Sched.stepLoop, asleep_round P end_ ⟨time, end_⟩ 0 w h hf]
  simp only
  rw [if_neg (by omega)]

/-- **C106 (counterexample).** However often `environment::step` is called, the model does not get beyond its start: the first call does what happens at the start of the simulation, and every further call changes nothing. -/
theorem C106_counterexample_stuck {σ : Type} (P : Sched.Program σ) (time end_ fuel : Nat) (hend : time < end_) (w w1 : Sched.World σ) (hu : Sched.Spec.UniqueIds w)
    (h : envStep P time end_ fuel w = some (.ok w1)) (k : Nat) : envSteps P time end_ fuel (k + 1) w = some (.ok w1) := by
  have h' := h
  unfold envStep at h'
  rw [if_pos hend] at h'
  obtain ⟨ha, hf⟩ := asleep_after P end_ fuel _ w w1 hu h'
  have hlt := (Sched.C18_step_forward P end_ fuel _ w w1 hu h').1
  have hfuel : ∃ f, fuel = f + 1 := by
    cases fuel with
    | zero =>
      unfold Sched.modelStep at h'
      split at h'
      · simp at h'
      · simp [Sched.stepLoop] at h'
    | succ f => exact ⟨f, rfl⟩
  obtain ⟨f, rfl⟩ := hfuel
  have rest : ∀ k, envSteps P time end_ (f + 1) k w1 = some (.ok w1) := by
    intro k
    induction k with
    | zero => rfl
    | succ k ih => rw [envSteps, asleep_step P time end_ f w1 ha hf hlt hend]; exact ih
  rw [envSteps, h]
  exact rest k

/-- **C106 (partial).** One call of `environment::step` does what happens at the start of the simulation, and only that. Missing: progress with further calls (see the counterexample). -/
theorem C106_first_partial {σ : Type} (P : Sched.Program σ) (time end_ fuel : Nat) (hend : time < end_) (w w1 : Sched.World σ) (hu : Sched.Spec.UniqueIds w)
    (h : envStep P time end_ fuel w = some (.ok w1)) :
    (∀ x ∈ w1.agents, ∃ s, Sched.findWake w1.wake x.id = some s ∧ time < s) ∧ ∃ acts, w1.log = w.log ++ acts ∧ ∀ e ∈ acts, e.time = time := by
  unfold envStep at h
  rw [if_pos hend] at h
  obtain ⟨ha, hf⟩ := asleep_after P end_ fuel _ w w1 hu h
  obtain ⟨_, _, acts, h1, h2⟩ := Sched.C18_step_forward P end_ fuel _ w w1 hu h
  exact ⟨ha.wake, acts, h1, fun e he => (h2 e he).1⟩

/-- An agent that wants to act at every time. -/
def eager : Sched.Program Nat := ⟨fun _ _ _ => [], fun _ _ s step => (s + 1, [], step.lower + 1), fun _ _ _ l => l⟩

example : (match envSteps eager 0 10 5 3 ⟨[⟨1, 0, [], []⟩], [], 0, []⟩ with
    | some (.ok w) => some (w.agents.map (·.state), w.log.map (·.time))
    | _ => none) = some ([1], [0]) := rfl

end Esl.Mpi
