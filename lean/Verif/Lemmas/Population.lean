import Verif.Spec.Population
import Verif.Lemmas.Scheduler
import Verif.Props.Scheduler
/-! # Lemmas for C149 -/
namespace Esl.Population
open Esl.Comm Esl.Sched
variable {σ : Type}


theorem place_perm (a : Agent σ) (l : List (Agent σ)) : (place a l).Perm (a :: l) := by
  induction l with
  | nil => exact List.Perm.refl _
  | cons x l ih =>
    unfold place
    split
    · exact List.Perm.refl _
    · exact (ih.cons x).trans (List.Perm.swap ..)

theorem change_mem (ags : List (Agent σ)) (c : Change σ) : ∀ a ∈ change ags c, a ∈ ags ∨ a.outbox = [] := by
  intro a ha
  cases c with
  | create i s =>
    unfold change insertAgent at ha
    simp only at ha
    split at ha
    · exact .inl ha
    · rcases List.mem_cons.mp ((place_perm _ _).mem_iff.mp ha) with rfl | ha
      · exact .inr rfl
      · exact .inl ha
  | delete i => exact .inl (List.mem_filter.mp ha).1

theorem change_nodup (ags : List (Agent σ)) (c : Change σ) (h : (ags.map (·.id)).Nodup) : ((change ags c).map (·.id)).Nodup := by
  cases c with
  | create i s =>
    unfold change insertAgent
    simp only
    split
    · exact h
    · rename_i hi
      rw [((place_perm _ _).map _).nodup_iff, List.map_cons, List.nodup_cons]
      exact ⟨hi, h⟩
  | delete i => exact h.sublist (List.Sublist.map _ List.filter_sublist)

theorem change_ids (ags : List (Agent σ)) (c : Change σ) (j : Nat) :
    j ∈ (change ags c).map (·.id) ↔ (j ∈ Spec.creations [c]) ∨ (j ∈ ags.map (·.id) ∧ j ∉ Spec.deletions [c]) := by
  cases c with
  | create i s =>
    have e1 : Spec.creations [Change.create i s] = [i] := rfl
    have e2 : Spec.deletions [Change.create i s] = [] := rfl
    rw [e1, e2]
    unfold change insertAgent
    simp only
    split
    · rename_i hi
      simp only [List.mem_singleton, List.not_mem_nil, not_false_eq_true, and_true]
      constructor
      · exact .inr
      · rintro (rfl | h)
        · exact hi
        · exact h
    · rw [((place_perm _ _).map _).mem_iff]
      simp
  | delete i =>
    have e1 : Spec.creations [(Change.delete i : Change σ)] = [] := rfl
    have e2 : Spec.deletions [(Change.delete i : Change σ)] = [i] := rfl
    rw [e1, e2]
    unfold change
    simp only [List.mem_map, List.mem_filter, bne_iff_ne, ne_eq, List.not_mem_nil, List.mem_singleton, false_or]
    constructor
    · rintro ⟨a, ⟨h1, h2⟩, rfl⟩
      exact ⟨⟨a, h1, rfl⟩, h2⟩
    · rintro ⟨⟨a, h1, rfl⟩, h2⟩
      exact ⟨a, ⟨h1, h2⟩, rfl⟩

theorem creations_cons (c : Change σ) (cs : List (Change σ)) (i : Nat) : i ∈ Spec.creations (c :: cs) ↔ i ∈ Spec.creations [c] ∨ i ∈ Spec.creations cs := by
  have h : Spec.creations (c :: cs) = Spec.creations [c] ++ Spec.creations cs := List.filterMap_append (l := [c]) (l' := cs)
  rw [h, List.mem_append]

theorem deletions_cons (c : Change σ) (cs : List (Change σ)) (i : Nat) : i ∈ Spec.deletions (c :: cs) ↔ i ∈ Spec.deletions [c] ∨ i ∈ Spec.deletions cs := by
  have h : Spec.deletions (c :: cs) = Spec.deletions [c] ++ Spec.deletions cs := List.filterMap_append (l := [c]) (l' := cs)
  rw [h, List.mem_append]

/-- What changes to a population amount to. -/
structure Changed (before after created deleted : List Nat) : Prop where
  origin : ∀ i ∈ after, i ∈ before ∨ i ∈ created
  kept : ∀ i ∈ before, i ∉ deleted → i ∈ after
  born : ∀ i ∈ created, i ∉ deleted → i ∈ after
  gone : ∀ i ∈ deleted, i ∉ created → i ∉ after

theorem Changed.refl (l : List Nat) : Changed l l [] [] := ⟨fun _ => .inl, fun _ h _ => h, fun _ h => absurd h (List.not_mem_nil), fun _ h => absurd h (List.not_mem_nil)⟩

theorem Changed.trans {a b c x y x' y' : List Nat} (h : Changed a b x y) (g : Changed b c x' y') : Changed a c (x ++ x') (y ++ y') := by
  constructor
  · intro i hi
    rcases g.origin i hi with h1 | h1
    · exact (h.origin i h1).imp id (List.mem_append_left _)
    · exact .inr (List.mem_append_right _ h1)
  · intro i hi hn
    rw [List.mem_append, not_or] at hn
    exact g.kept i (h.kept i hi hn.1) hn.2
  · intro i hi hn
    rw [List.mem_append, not_or] at hn
    rcases List.mem_append.mp hi with hi | hi
    · exact g.kept i (h.born i hi hn.1) hn.2
    · exact g.born i hi hn.2
  · intro i hi hn hc
    rw [List.mem_append, not_or] at hn
    rcases g.origin i hc with h1 | h1
    · rcases List.mem_append.mp hi with hi | hi
      · exact h.gone i hi hn.1 h1
      · exact g.gone i hi hn.2 hc
    · exact hn.2 h1

theorem changes_spec (cs : List (Change σ)) (ags : List (Agent σ)) (h : (ags.map (·.id)).Nodup) :
    ((cs.foldl change ags).map (·.id)).Nodup ∧ Changed (ags.map (·.id)) ((cs.foldl change ags).map (·.id)) (Spec.creations cs) (Spec.deletions cs) ∧
    ∀ a ∈ cs.foldl change ags, a ∈ ags ∨ a.outbox = [] := by
  induction cs generalizing ags with
  | nil => exact ⟨h, Changed.refl _, fun a ha => .inl ha⟩
  | cons c cs ih =>
    obtain ⟨i1, i2, i3⟩ := ih (change ags c) (change_nodup ags c h)
    rw [List.foldl_cons]
    refine ⟨i1, ?_, fun a ha => (i3 a ha).elim (change_mem ags c a) .inr⟩
    have e1 : Spec.creations (c :: cs) = Spec.creations [c] ++ Spec.creations cs := List.filterMap_append (l := [c]) (l' := cs)
    have e2 : Spec.deletions (c :: cs) = Spec.deletions [c] ++ Spec.deletions cs := List.filterMap_append (l := [c]) (l' := cs)
    rw [e1, e2]
    refine Changed.trans ⟨fun i hi => ?_, fun i hi hn => ?_, fun i hi _ => ?_, fun i hi hn hc => ?_⟩ i2
    · exact ((change_ids ags c i).mp hi).elim .inr fun h => .inl h.1
    · exact (change_ids ags c i).mpr (.inr ⟨hi, hn⟩)
    · exact (change_ids ags c i).mpr (.inl hi)
    · exact ((change_ids ags c i).mp hc).elim hn fun h => h.2 hi

/-- What the jobs of a round do. -/
structure Worked (step : Step) (n : Nat) (ids : List Nat) (b b' : Busy σ) (js : List (Event × List (Change σ))) : Prop where
  jobs : b'.jobs = b.jobs ++ js
  agents : js.map (·.1.agent) = ids
  events : ∀ j ∈ js, j.1.time = step.lower ∧ j.1.round = n ∧ step.lower ≤ j.1.requested
  nodup : (b'.agents.map (·.id)).Nodup
  changed : Changed (b.agents.map (·.id)) (b'.agents.map (·.id)) (js.flatMap fun j => Spec.creations j.2) (js.flatMap fun j => Spec.deletions j.2)
  wake : ∀ i ∉ ids, findWake b'.wake i = findWake b.wake i
  outboxes : ∀ a ∈ b'.agents, ∀ m ∈ a.outbox, (∃ x ∈ b.agents, m ∈ x.outbox) ∨ m ∈ js.flatMap (·.1.sent)

theorem runJobs_spec (P : Program σ) (end_ : Nat) (step : Step) (n : Nat) (as : List (Agent σ)) (b b' : Busy σ) (hn : (b.agents.map (·.id)).Nodup) (has : ∀ a ∈ as, a.outbox = [])
    (h : runJobs P end_ step n as b = .ok b') : ∃ js, Worked step n (as.map (·.id)) b b' js := by
  induction as generalizing b with
  | nil =>
    simp only [runJobs, Outcome.ok.injEq] at h
    subst h
    exact ⟨[], by simp, rfl, by simp, hn, Changed.refl _, fun _ _ => rfl, fun a ha m hm => .inl ⟨a, ha, hm⟩⟩
  | cons a as ih =>
    unfold runJobs at h
    cases hr : runJob P end_ step n a b with
    | throws => rw [hr] at h; cases h
    | ub => rw [hr] at h; cases h
    | ok b1 =>
      rw [hr] at h
      simp only at h
      obtain ⟨f1, f2, f3, f4, -, -, -, f8⟩ := job_fields P.toProgram step n a
      unfold runJob at hr
      simp only at hr
      split at hr
      · cases hr
      · rename_i hreq
        simp only [Outcome.ok.injEq] at hr
        have hpn : ((putAgent b.agents (job P.toProgram step n a).1).map (·.id)).Nodup := by rw [putAgent_ids]; exact hn
        obtain ⟨c1, c2, c3⟩ := changes_spec (P.changes n step a) _ hpn
        rw [putAgent_ids] at c2
        have hb1 : b1.agents = (P.changes n step a).foldl change (putAgent b.agents (job P.toProgram step n a).1) := by rw [← hr]
        rw [← hb1] at c1 c2 c3
        obtain ⟨js, g⟩ := ih b1 c1 (fun x hx => has x (List.mem_cons_of_mem _ hx)) h
        have hw1 : b1.wake = setWake b.wake a.id (job P.toProgram step n a).2.requested := by rw [← hr]
        refine ⟨((job P.toProgram step n a).2, P.changes n step a) :: js, ?_, ?_, ?_, g.nodup, ?_, ?_, ?_⟩
        · rw [g.jobs, ← hr]
          simp
        · rw [List.map_cons, List.map_cons, g.agents, f2]
        · intro j hj
          rcases List.mem_cons.mp hj with rfl | hj
          · exact ⟨f3, f4, by simp only; omega⟩
          · exact g.events j hj
        · rw [List.flatMap_cons, List.flatMap_cons]
          exact c2.trans g.changed
        · intro i hi
          rw [List.map_cons, List.mem_cons, not_or] at hi
          rw [g.wake i hi.2, hw1, findWake_setWake, if_neg hi.1]
        · intro x hx m hm
          rw [List.flatMap_cons]
          rcases g.outboxes x hx m hm with ⟨y, hy, hmy⟩ | hmj
          · rcases c3 y hy with hy | hy
            · rcases mem_putAgent _ _ _ hy with rfl | hy
              · rw [f8, has a (List.mem_cons_self ..), List.nil_append] at hmy
                exact .inr (List.mem_append_left _ hmy)
              · exact .inl ⟨y, hy.1, hmy⟩
            · rw [hy] at hmy; cases hmy
          · exact .inr (List.mem_append_right _ hmj)

/-- What a round does. -/
structure Rounded (step : Step) (n : Nat) (w w' : World σ) (r : Record σ) : Prop where
  history : w'.history = w.history ++ [r]
  time : r.time = step.lower ∧ r.round = n
  events : ∀ j ∈ r.jobs, j.1.time = step.lower ∧ j.1.round = n ∧ step.lower ≤ j.1.requested
  acts : ∀ i, i ∈ Spec.acts r ↔ i ∈ w.agents.map (·.id) ∧ (findWake w.wake i = none ∨ findWake w.wake i = some step.lower)
  once : (Spec.acts r).Nodup
  nodup : (w'.agents.map (·.id)).Nodup
  changed : Changed (w.agents.map (·.id)) (w'.agents.map (·.id)) (Spec.created r) (Spec.deleted r)
  outboxes : ∀ a ∈ w'.agents, a.outbox = []
  quiet : ∀ i, i ∉ w.agents.map (·.id) → (∀ m ∈ Spec.sent r, m.recipient ≠ i) → findWake w'.wake i = findWake w.wake i
  woken : ∀ i, findWake w'.wake i ≠ none → findWake w.wake i ≠ none ∨ i ∈ w.agents.map (·.id) ∨ i ∈ w'.agents.map (·.id)

theorem round_spec (P : Program σ) (end_ : Nat) (step : Step) (n : Nat) (w w' : World σ) (hn : (w.agents.map (·.id)).Nodup) (ho : ∀ a ∈ w.agents, a.outbox = []) (h : round P end_ step n w = .ok w') :
    ∃ r, Rounded step n w w' r := by
  unfold round at h
  simp only at h
  split at h
  · cases h
  · cases h
  · rename_i b hb
    split at h
    · cases h
    · cases h
    · rename_i s sent hs
      simp only [Outcome.ok.injEq] at h
      obtain ⟨js, g⟩ := runJobs_spec P end_ step n _ _ b (by exact hn) (fun a ha => ho a (List.mem_filter.mp ha).1) hb
      have hjobs : b.jobs = js := by rw [g.jobs]; rfl
      obtain ⟨s1, s2, s3, -⟩ := sendMessages_inv g.nodup hs
      have hids : w'.agents.map (·.id) = b.agents.map (·.id) := by
        rw [← h]
        simp only [s2, List.map_map]
        rfl
      have hsub : ((w.agents.filter fun a => findWake (emplaceMissing step.lower (w.agents.map (·.id)) w.wake) a.id == some step.lower).map (·.id)).Sublist (w.agents.map (·.id)) :=
        List.Sublist.map _ List.filter_sublist
      refine ⟨⟨step.lower, n, b.jobs⟩, by rw [← h], ⟨rfl, rfl⟩, by rw [hjobs]; exact g.events, ?_, ?_, by rw [hids]; exact g.nodup, ?_, ?_, ?_, ?_⟩
      · intro i
        show i ∈ b.jobs.map (·.1.agent) ↔ _
        rw [hjobs, g.agents]
        simp only [List.mem_map, List.mem_filter, beq_iff_eq]
        constructor
        · rintro ⟨a, ⟨ha, hw⟩, rfl⟩
          refine ⟨⟨a, ha, rfl⟩, ?_⟩
          rw [findWake_emplace] at hw
          cases hf : findWake w.wake a.id with
          | none => exact .inl rfl
          | some t => rw [hf] at hw; exact .inr hw
        · rintro ⟨⟨a, ha, rfl⟩, hw⟩
          refine ⟨a, ⟨ha, ?_⟩, rfl⟩
          rw [findWake_emplace]
          rcases hw with hw | hw
          · rw [hw]; simp only; rw [if_pos (List.mem_map_of_mem ha)]
          · rw [hw]
      · show (b.jobs.map (·.1.agent)).Nodup
        rw [hjobs, g.agents]
        exact hn.sublist hsub
      · show Changed _ _ (b.jobs.flatMap fun j => Spec.creations j.2) (b.jobs.flatMap fun j => Spec.deletions j.2)
        rw [hids, hjobs]
        exact g.changed
      · intro a ha
        rw [← h] at ha
        simp only [s2, List.mem_map] at ha
        obtain ⟨x, -, rfl⟩ := ha
        rfl
      · intro i hi hm
        have h1 : findWake w'.wake i = findWake b.wake i := by
          rw [← h]
          simp only [s3]
          have hall : ∀ m ∈ b.agents.flatMap (·.outbox), m.recipient ≠ i := by
            intro m hmem
            obtain ⟨a, ha, hma⟩ := List.mem_flatMap.mp hmem
            rcases g.outboxes a ha m hma with ⟨x, hx, hmx⟩ | hmj
            · rw [ho x hx] at hmx; cases hmx
            · exact hm m (by show m ∈ b.jobs.flatMap (·.1.sent); rw [hjobs]; exact hmj)
          generalize b.agents.flatMap (·.outbox) = ms at hall
          generalize b.wake = wk
          induction ms generalizing wk with
          | nil => rfl
          | cons m ms ihm =>
            rw [List.foldl_cons, ihm fun m' hm' => hall m' (List.mem_cons_of_mem _ hm'), findWake_lowerWake, if_neg (fun e => hall m (List.mem_cons_self ..) e.symm)]
        rw [h1, g.wake i (fun hc => hi (hsub.subset hc))]
        simp only
        rw [findWake_emplace]
        cases findWake w.wake i with
        | none => simp only; rw [if_neg hi]
        | some t => rfl
      · intro i hi
        have hw' : w'.wake = (b.agents.flatMap (·.outbox)).foldl (fun wk m => lowerWake wk m.recipient m.received) b.wake := by rw [← h]; exact s3
        rw [hids]
        cases hf : findWake w'.wake i with
        | none => exact absurd hf hi
        | some t =>
          rw [hw'] at hf
          rcases (foldl_lowerWake _ b.wake i).2.2 t hf with hf | ⟨m, hm, rfl, -⟩
          · by_cases hiw : i ∈ w.agents.map (·.id)
            · exact .inr (.inl hiw)
            · left
              rw [g.wake i (fun hc => hiw (hsub.subset hc))] at hf
              simp only at hf
              rw [findWake_emplace, if_neg hiw] at hf
              intro hc
              rw [hc] at hf
              cases hf
          · obtain ⟨a, ha, hma⟩ := List.mem_flatMap.mp hm
            obtain ⟨y, hy, hyr⟩ := s1 a ha m hma
            exact .inr (.inr (List.mem_map.mpr ⟨y, hy, hyr⟩))

/-- `first` is the next event: in the middle of a round. -/
theorem runJobs_first (P : Program σ) (end_ : Nat) (step : Step) (n : Nat) (as : List (Agent σ)) (b b' : Busy σ) (h0 : as = [] → b.first = determineNext end_ b.wake) (h : runJobs P end_ step n as b = .ok b') : b'.first = determineNext end_ b'.wake := by
  induction as generalizing b with
  | nil => simp only [runJobs, Outcome.ok.injEq] at h; rw [← h]; exact h0 rfl
  | cons a as ih =>
    unfold runJobs at h
    split at h
    · rename_i b1 hr
      refine ih b1 (fun _ => ?_) h
      unfold runJob at hr
      simp only at hr
      split at hr
      · cases hr
      · simp only [Outcome.ok.injEq] at hr
        rw [← hr]
    · cases h
    · cases h

theorem round_first (P : Program σ) (end_ : Nat) (step : Step) (n : Nat) (w w' : World σ) (hn : (w.agents.map (·.id)).Nodup) (ho : ∀ a ∈ w.agents, a.outbox = []) (h : round P end_ step n w = .ok w') : w'.first = determineNext end_ w'.wake := by
  unfold round at h
  simp only at h
  split at h
  · cases h
  · cases h
  · rename_i b hb
    split at h
    · cases h
    · cases h
    · rename_i s sent hs
      simp only [Outcome.ok.injEq] at h
      obtain ⟨js, g⟩ := runJobs_spec P end_ step n _ _ b (by exact hn) (fun a ha => ho a (List.mem_filter.mp ha).1) hb
      obtain ⟨-, -, s3, s4⟩ := sendMessages_inv g.nodup hs
      rw [← h]
      simp only
      split
      · rfl
      · rename_i hs0
        have h0 : b.agents.flatMap (·.outbox) = [] := List.eq_nil_of_length_eq_zero (by omega)
        rw [s3, h0, List.foldl_nil]
        refine runJobs_first P end_ step n _ _ b (fun hnil => ?_) hb
        simp only
        congr 1
        rw [emplace_id]
        intro i hi hc
        obtain ⟨a, ha, rfl⟩ := List.mem_map.mp hi
        have : a ∈ w.agents.filter fun a => findWake (emplaceMissing step.lower (w.agents.map (·.id)) w.wake) a.id == some step.lower := by
          rw [List.mem_filter, beq_iff_eq, findWake_emplace, hc]
          exact ⟨ha, if_pos hi⟩
        rw [hnil] at this
        cases this

/-- Worlds that are reached by rounds, with the times of the rounds. -/
inductive Reach (P : Program σ) (end_ : Nat) (w : World σ) : World σ → Prop where
  | start : Reach P end_ w w
  | round (step : Step) (n : Nat) (v v' : World σ) : Reach P end_ w v → round P end_ step n v = .ok v' → Reach P end_ w v'

theorem Reach.trans {P : Program σ} {end_ : Nat} {a b c : World σ} (h : Reach P end_ a b) (g : Reach P end_ b c) : Reach P end_ a c := by
  induction g with
  | start => exact h
  | round step n v v' _ hr ih => exact .round step n v v' ih hr

theorem Reach.well {P : Program σ} {end_ : Nat} {w v : World σ} (h : Reach P end_ w v) (hn : (w.agents.map (·.id)).Nodup) (ho : ∀ a ∈ w.agents, a.outbox = []) :
    (v.agents.map (·.id)).Nodup ∧ ∀ a ∈ v.agents, a.outbox = [] := by
  induction h with
  | start => exact ⟨hn, ho⟩
  | round step n v v' _ hr ih =>
    obtain ⟨r, g⟩ := round_spec P end_ step n v v' ih.1 ih.2 hr
    exact ⟨g.nodup, g.outboxes⟩

theorem stepLoop_reach (P : Program σ) (end_ : Nat) (step : Step) (fuel n : Nat) (w w' : World σ) (hn : (w.agents.map (·.id)).Nodup) (ho : ∀ a ∈ w.agents, a.outbox = [])
    (h : stepLoop P end_ step fuel n w = some (.ok w')) : Reach P end_ w w' ∧ step.lower < w'.first ∧ w'.first = determineNext end_ w'.wake ∧ ∃ rs, w'.history = w.history ++ rs ∧ ∀ r ∈ rs, r.time = step.lower := by
  induction fuel generalizing n w with
  | zero => cases h
  | succ fuel ih =>
    unfold stepLoop at h
    split at h
    · rename_i w1 hr
      obtain ⟨r, g⟩ := round_spec P end_ step n w w1 hn ho hr
      split at h
      · obtain ⟨i1, i2, i3, rs, i4, i5⟩ := ih (n + 1) w1 g.nodup g.outboxes h
        refine ⟨Reach.trans (.round step n w w1 .start hr) i1, i2, i3, r :: rs, by rw [i4, g.history, List.append_assoc]; rfl, ?_⟩
        intro r' hr'
        rcases List.mem_cons.mp hr' with rfl | hr'
        · exact g.time.1
        · exact i5 r' hr'
      · simp only [Option.some.injEq, Outcome.ok.injEq] at h
        subst h
        refine ⟨.round step n w w1 .start hr, by omega, round_first P end_ step n w w1 hn ho hr, [r], g.history, ?_⟩
        intro r' hr'
        rw [List.mem_singleton.mp hr']
        exact g.time.1
    · cases h
    · cases h

theorem run_reach (P : Program σ) (env : Environment σ) (end_ fuel k : Nat) (since : List (Record σ)) (lower : Nat) (w w' : World σ) (ts : List Nat) (hn : (w.agents.map (·.id)).Nodup) (ho : ∀ a ∈ w.agents, a.outbox = [])
    (h : runLoop P env end_ fuel k since lower w = some (.ok (w', ts))) :
    Reach P end_ w w' ∧ w'.first = end_ ∧ w'.first = determineNext end_ w'.wake ∧ ts.head? = some lower ∧ ts.Pairwise (· < ·) ∧ (∀ t ∈ ts, lower ≤ t ∧ t < end_) ∧
    ∃ rs, w'.history = w.history ++ rs ∧ (∀ r ∈ rs, r.time ∈ ts) ∧ (rs.map (·.time)).Pairwise (· ≤ ·) := by
  induction k generalizing since lower w w' ts with
  | zero => cases h
  | succ k ih =>
    unfold runLoop at h
    split at h
    · cases h
    · cases h
    · split at h
      · cases h
      · cases h
      · cases h
      · rename_i w1 hs
        unfold modelStep at hs
        split at hs
        · cases hs
        · rename_i hlt
          simp only at hlt
          obtain ⟨h1, h2, h3, rs, h4, h5⟩ := stepLoop_reach P end_ ⟨lower, end_⟩ fuel 0 w w1 hn ho hs
          simp only at h2 h5
          have hrs : (rs.map (·.time)).Pairwise (· ≤ ·) := by
            rw [List.pairwise_map, List.pairwise_iff_forall_sublist]
            intro a b hab
            rw [h5 a (hab.subset (by simp)), h5 b (hab.subset (by simp))]
            exact Nat.le_refl _
          split at h
          · rename_i hf
            split at h
            · rename_i w2 ts2 hr
              simp only [Option.some.injEq, Outcome.ok.injEq, Prod.mk.injEq] at h
              obtain ⟨rfl, rfl⟩ := h
              have hw := h1.well hn ho
              obtain ⟨i1, i2, i3, i4, i5, i6, rs2, i7, i8, i9⟩ := ih _ _ _ _ _ hw.1 hw.2 hr
              refine ⟨h1.trans i1, i2, i3, rfl, ?_, ?_, rs ++ rs2, by rw [i7, h4, List.append_assoc], ?_, ?_⟩
              · rw [List.pairwise_cons]
                exact ⟨fun t ht => by have := i6 t ht; omega, i5⟩
              · intro t ht
                rcases List.mem_cons.mp ht with rfl | ht
                · omega
                · have := i6 t ht; omega
              · intro r hr'
                rcases List.mem_append.mp hr' with hr' | hr'
                · rw [h5 r hr']; exact List.mem_cons_self ..
                · exact List.mem_cons_of_mem _ (i8 r hr')
              · rw [List.map_append, List.pairwise_append]
                refine ⟨hrs, i9, ?_⟩
                intro a ha b hb
                obtain ⟨x, hx, rfl⟩ := List.mem_map.mp ha
                obtain ⟨y, hy, rfl⟩ := List.mem_map.mp hb
                rw [h5 x hx]
                have := i6 _ (i8 y hy)
                omega
            · rename_i hr
              exact absurd h (hr _ _)
          · simp only [Option.some.injEq, Outcome.ok.injEq, Prod.mk.injEq] at h
            obtain ⟨rfl, rfl⟩ := h
            have hle := determineNext_le_end end_ w1.wake
            refine ⟨h1, by omega, h3, rfl, List.pairwise_singleton .., ?_, rs, h4, ?_, hrs⟩
            · intro t ht
              rw [List.mem_singleton.mp ht]
              omega
            · intro r hr'
              rw [h5 r hr']
              exact List.mem_singleton_self _

/-- The world in which a round of the history starts, and the one in which it ends. -/
theorem Reach.split {P : Program σ} {end_ : Nat} {w v : World σ} (h : Reach P end_ w v) (hn : (w.agents.map (·.id)).Nodup) (ho : ∀ a ∈ w.agents, a.outbox = [])
    (pre post : List (Record σ)) (r : Record σ) (hs : v.history = w.history ++ (pre ++ r :: post)) :
    ∃ v1 v2 step n, Reach P end_ w v1 ∧ v1.history = w.history ++ pre ∧ Rounded step n v1 v2 r ∧ Reach P end_ v2 v ∧ v.history = v2.history ++ post := by
  induction h generalizing post with
  | start =>
    have := congrArg List.length hs
    simp at this
  | round step n v v' hv hr ih =>
    have hw := hv.well hn ho
    obtain ⟨r', g⟩ := round_spec P end_ step n v v' hw.1 hw.2 hr
    rw [g.history, ← List.append_assoc] at hs
    rcases split_append_singleton hs with ⟨rfl, h2, rfl⟩ | ⟨post', rfl, h2⟩
    · exact ⟨v, v', step, n, hv, h2, g, .start, by simp⟩
    · obtain ⟨v1, v2, step', n', i1, i2, i3, i4, i5⟩ := ih post' (by rw [h2, List.append_assoc])
      exact ⟨v1, v2, step', n', i1, i2, i3, .round step n v v' i4 hr, by rw [g.history, i5, List.append_assoc]⟩

theorem Reach.history {P : Program σ} {end_ : Nat} {w v : World σ} (h : Reach P end_ w v) (hn : (w.agents.map (·.id)).Nodup) (ho : ∀ a ∈ w.agents, a.outbox = []) : ∃ rs, v.history = w.history ++ rs := by
  induction h with
  | start => exact ⟨[], by simp⟩
  | round step n v v' hv hr ih =>
    have hw := hv.well hn ho
    obtain ⟨r', g⟩ := round_spec P end_ step n v v' hw.1 hw.2 hr
    obtain ⟨rs, ih⟩ := ih
    exact ⟨rs ++ [r'], by rw [g.history, ih, List.append_assoc]⟩

theorem Reach.new {P : Program σ} {end_ : Nat} {w v : World σ} (h : Reach P end_ w v) (hn : (w.agents.map (·.id)).Nodup) (ho : ∀ a ∈ w.agents, a.outbox = []) (rs : List (Record σ)) (hs : v.history = w.history ++ rs) (i : Nat)
    (hi : Spec.New w rs i) : i ∉ v.agents.map (·.id) ∧ findWake v.wake i = none := by
  induction h generalizing rs with
  | start => exact ⟨hi.1, hi.2.1⟩
  | round step n v v' hv hr ih =>
    have hw := hv.well hn ho
    obtain ⟨r, g⟩ := round_spec P end_ step n v v' hw.1 hw.2 hr
    obtain ⟨rs', hh⟩ := hv.history hn ho
    have he : rs = rs' ++ [r] := by
      rw [g.history, hh, List.append_assoc] at hs
      exact (List.append_cancel_left hs).symm
    subst he
    obtain ⟨i1, i2⟩ := ih rs' hh ⟨hi.1, hi.2.1, fun x hx => hi.2.2 x (List.mem_append_left _ hx)⟩
    have hnc : i ∉ Spec.created r := hi.2.2 r (List.mem_append_right _ (List.mem_singleton_self _))
    have hni : i ∉ v'.agents.map (·.id) := fun hc => (g.changed.origin i hc).elim i1 hnc
    refine ⟨hni, ?_⟩
    cases hf : findWake v'.wake i with
    | none => rfl
    | some t =>
      rcases g.woken i (by rw [hf]; exact fun hc => by cases hc) with h1 | h1 | h1
      · exact absurd i2 h1
      · exact absurd h1 i1
      · exact absurd h1 hni

theorem Reach.absent {P : Program σ} {end_ : Nat} {w v : World σ} (h : Reach P end_ w v) (hn : (w.agents.map (·.id)).Nodup) (ho : ∀ a ∈ w.agents, a.outbox = []) (rs : List (Record σ)) (hs : v.history = w.history ++ rs) (i : Nat)
    (hi : i ∉ w.agents.map (·.id)) (hc : ∀ r ∈ rs, i ∉ Spec.created r) : i ∉ v.agents.map (·.id) ∧ ∀ r ∈ rs, i ∉ Spec.acts r := by
  induction h generalizing rs with
  | start =>
    have : rs = [] := by
      have := congrArg List.length hs
      simp at this
      exact this
    subst this
    exact ⟨hi, fun r hr => by cases hr⟩
  | round step n v v' hv hr ih =>
    have hw := hv.well hn ho
    obtain ⟨r, g⟩ := round_spec P end_ step n v v' hw.1 hw.2 hr
    obtain ⟨rs', hh⟩ := hv.history hn ho
    have he : rs = rs' ++ [r] := by
      rw [g.history, hh, List.append_assoc] at hs
      exact (List.append_cancel_left hs).symm
    subst he
    obtain ⟨i1, i2⟩ := ih rs' hh fun x hx => hc x (List.mem_append_left _ hx)
    refine ⟨fun hm => (g.changed.origin i hm).elim i1 (hc r (List.mem_append_right _ (List.mem_singleton_self _))), ?_⟩
    intro x hx
    rcases List.mem_append.mp hx with hx | hx
    · exact i2 x hx
    · rw [List.mem_singleton.mp hx]
      exact fun ha => i1 ((g.acts i).mp ha).1

theorem Reach.present {P : Program σ} {end_ : Nat} {w v : World σ} (h : Reach P end_ w v) (hn : (w.agents.map (·.id)).Nodup) (ho : ∀ a ∈ w.agents, a.outbox = []) (rs : List (Record σ)) (hs : v.history = w.history ++ rs) (i : Nat)
    (hi : i ∈ w.agents.map (·.id)) (hc : ∀ r ∈ rs, i ∉ Spec.deleted r) : i ∈ v.agents.map (·.id) := by
  induction h generalizing rs with
  | start => exact hi
  | round step n v v' hv hr ih =>
    have hw := hv.well hn ho
    obtain ⟨r, g⟩ := round_spec P end_ step n v v' hw.1 hw.2 hr
    obtain ⟨rs', hh⟩ := hv.history hn ho
    have he : rs = rs' ++ [r] := by
      rw [g.history, hh, List.append_assoc] at hs
      exact (List.append_cancel_left hs).symm
    subst he
    exact g.changed.kept i (ih rs' hh fun x hx => hc x (List.mem_append_left _ hx)) (hc r (List.mem_append_right _ (List.mem_singleton_self _)))


/-! ### Wake-ups -/

theorem runJob_ok (P : Program σ) (end_ : Nat) (step : Step) (n : Nat) (a : Agent σ) (b b' : Busy σ) (h : runJob P end_ step n a b = .ok b') :
    step.lower ≤ (job P.toProgram step n a).2.requested ∧ b'.agents = (P.changes n step a).foldl change (putAgent b.agents (job P.toProgram step n a).1) ∧
    b'.wake = setWake b.wake a.id (job P.toProgram step n a).2.requested ∧ b'.jobs = b.jobs ++ [((job P.toProgram step n a).2, P.changes n step a)] := by
  unfold runJob at h
  simp only at h
  split at h
  · cases h
  · simp only [Outcome.ok.injEq] at h
    rw [← h]
    exact ⟨by omega, rfl, rfl, rfl⟩

theorem runJobs_jobs (P : Program σ) (end_ : Nat) (step : Step) (n : Nat) (as : List (Agent σ)) (b b' : Busy σ) (h : runJobs P end_ step n as b = .ok b') : ∃ js, b'.jobs = b.jobs ++ js := by
  induction as generalizing b with
  | nil => simp only [runJobs, Outcome.ok.injEq] at h; exact ⟨[], by rw [h]; simp⟩
  | cons a as ih =>
    unfold runJobs at h
    split at h
    · rename_i b1 hr
      obtain ⟨js, ih⟩ := ih b1 h
      exact ⟨_, by rw [ih, (runJob_ok P end_ step n a b b1 hr).2.2.2, List.append_assoc]⟩
    · cases h
    · cases h

/-- Every request is honoured, or the agent has a wake-up time that honours it. -/
def Honoured (log : List Event) (wake : Wake) : Prop :=
  ∀ before e after, log = before ++ e :: after →
    (∃ e' ∈ after, e'.agent = e.agent ∧ e'.time ≤ e.requested) ∨ ∃ t, findWake wake e.agent = some t ∧ t ≤ e.requested

theorem runJobs_honoured (P : Program σ) (end_ : Nat) (step : Step) (n : Nat) (L : List Event) (as : List (Agent σ)) (b b' : Busy σ) (hid : (as.map (·.id)).Nodup) (hd : ∀ a ∈ as, findWake b.wake a.id = some step.lower)
    (h : runJobs P end_ step n as b = .ok b') (h0 : Honoured (L ++ b.jobs.map (·.1)) b.wake) : Honoured (L ++ b'.jobs.map (·.1)) b'.wake := by
  induction as generalizing b with
  | nil => simp only [runJobs, Outcome.ok.injEq] at h; rw [← h]; exact h0
  | cons a as ih =>
    unfold runJobs at h
    split at h
    · rename_i b1 hr
      obtain ⟨-, -, q2, q3⟩ := runJob_ok P end_ step n a b b1 hr
      obtain ⟨-, ja, jt, -⟩ := job_fields P.toProgram step n a
      rw [List.map_cons, List.nodup_cons] at hid
      have hda := hd a (List.mem_cons_self ..)
      refine ih b1 hid.2 (fun x hx => ?_) h ?_
      · rw [q2, findWake_setWake, if_neg fun (e : x.id = a.id) => hid.1 (e ▸ List.mem_map_of_mem hx)]
        exact hd x (List.mem_cons_of_mem _ hx)
      · intro bef e aft hl
        rw [q3, List.map_append, ← List.append_assoc] at hl
        rw [q2]
        rcases split_append_singleton hl with ⟨rfl, -, rfl⟩ | ⟨c', rfl, hl'⟩
        · exact .inr ⟨_, by simp only [ja]; rw [findWake_setWake, if_pos rfl], Nat.le_refl _⟩
        · rcases h0 bef e c' hl' with ⟨e', he', h1⟩ | ⟨t, h1, h2⟩
          · exact .inl ⟨e', List.mem_append_left _ he', h1⟩
          · by_cases hea : e.agent = a.id
            · left
              refine ⟨_, List.mem_append_right _ (List.mem_singleton_self _), by simp only [ja]; exact hea.symm, ?_⟩
              rw [hea, hda, Option.some.injEq] at h1
              simp only [jt]
              omega
            · exact .inr ⟨t, by rw [findWake_setWake, if_neg hea]; exact h1, h2⟩
    · cases h
    · cases h

theorem log_append (rs : List (Record σ)) (r : Record σ) : Spec.log (rs ++ [r]) = Spec.log rs ++ r.jobs.map (·.1) := by
  unfold Spec.log
  rw [List.flatMap_append]
  simp

theorem round_honoured (P : Program σ) (end_ : Nat) (step : Step) (n : Nat) (w w' : World σ) (hn : (w.agents.map (·.id)).Nodup) (ho : ∀ a ∈ w.agents, a.outbox = []) (h : round P end_ step n w = .ok w')
    (h0 : Honoured (Spec.log w.history) w.wake) : Honoured (Spec.log w'.history) w'.wake := by
  unfold round at h
  simp only at h
  split at h
  · cases h
  · cases h
  · rename_i b hb
    split at h
    · cases h
    · cases h
    · rename_i s sent hs
      simp only [Outcome.ok.injEq] at h
      obtain ⟨js, g⟩ := runJobs_spec P end_ step n _ _ b (by exact hn) (fun a ha => ho a (List.mem_filter.mp ha).1) hb
      obtain ⟨-, -, s3, -⟩ := sendMessages_inv g.nodup hs
      have h1 := runJobs_honoured P end_ step n (Spec.log w.history) _ _ b (hn.sublist (List.Sublist.map _ List.filter_sublist))
        (fun a ha => by simpa using (List.mem_filter.mp ha).2) hb (by
          intro bef e aft hl
          rw [List.map_nil, List.append_nil] at hl
          rcases h0 bef e aft hl with h | ⟨t, h3, h4⟩
          · exact .inl h
          · exact .inr ⟨t, by simp only; rw [findWake_emplace, h3], h4⟩)
      rw [← h]
      simp only
      rw [log_append, s3]
      intro bef e aft hl
      rcases h1 bef e aft hl with h | ⟨t, h3, h4⟩
      · exact .inl h
      · obtain ⟨t', h5, h6, -⟩ := (foldl_lowerWake (b.agents.flatMap (·.outbox)) b.wake e.agent).1 t h3
        exact .inr ⟨t', h5, by omega⟩

theorem Reach.honoured {P : Program σ} {end_ : Nat} {w v : World σ} (h : Reach P end_ w v) (hn : (w.agents.map (·.id)).Nodup) (ho : ∀ a ∈ w.agents, a.outbox = []) (h0 : Honoured (Spec.log w.history) w.wake) :
    Honoured (Spec.log v.history) v.wake := by
  induction h with
  | start => exact h0
  | round step n v v' hv hr ih => exact round_honoured P end_ step n v v' (hv.well hn ho).1 (hv.well hn ho).2 hr ih

/-! ### Messages -/

/-- Where the messages between agents of `S` are: in an outbox, in the inbox of the recipient, who wakes up in time, or processed on time. -/
def Transit (S : Nat → Prop) (log : List Event) (agents : List (Agent σ)) (wake : Wake) : Prop :=
  ∀ before e after, log = before ++ e :: after → ∀ m ∈ e.sent, S e.agent → S m.recipient →
    (∃ x ∈ agents, S x.id ∧ m ∈ x.outbox) ∨
    (∃ x ∈ agents, x.id = m.recipient ∧ (m.received, m) ∈ x.inbox ∧ ∃ t, findWake wake m.recipient = some t ∧ t ≤ m.received) ∨
    ∃ e' ∈ after, e'.agent = m.recipient ∧ e'.time = m.received ∧ m ∈ e'.due

theorem changes_keep (cs : List (Change σ)) (ags : List (Agent σ)) (x : Agent σ) (hx : x ∈ ags) (hd : x.id ∉ Spec.deletions cs) : x ∈ cs.foldl change ags := by
  induction cs generalizing ags with
  | nil => exact hx
  | cons c cs ih =>
    rw [deletions_cons, not_or] at hd
    rw [List.foldl_cons]
    refine ih _ ?_ hd.2
    cases c with
    | create i s =>
      unfold change insertAgent
      simp only
      split
      · exact hx
      · exact (place_perm _ _).mem_iff.mpr (List.mem_cons_of_mem _ hx)
    | delete i =>
      unfold change
      rw [List.mem_filter, bne_iff_ne]
      refine ⟨hx, fun e => hd.1 ?_⟩
      rw [e]
      exact List.mem_singleton_self _

theorem runJobs_transit (P : Program σ) (end_ : Nat) (step : Step) (n : Nat) (S : Nat → Prop) (L : List Event) (as : List (Agent σ)) (b b' : Busy σ) (hid : (as.map (·.id)).Nodup) (hd : ∀ a ∈ as, findWake b.wake a.id = some step.lower)
    (hn : (b.agents.map (·.id)).Nodup) (hsub : ∀ a ∈ as, S a.id → a ∈ b.agents) (h : runJobs P end_ step n as b = .ok b')
    (hat : ∀ j ∈ b'.jobs, ∀ t ∈ j.1.pending, j.1.requested ≤ t) (hdel : ∀ j ∈ b'.jobs, ∀ i ∈ Spec.deletions j.2, ¬ S i)
    (h0 : Transit S (L ++ b.jobs.map (·.1)) b.agents b.wake) : Transit S (L ++ b'.jobs.map (·.1)) b'.agents b'.wake := by
  induction as generalizing b with
  | nil => simp only [runJobs, Outcome.ok.injEq] at h; rw [← h]; exact h0
  | cons a as ih =>
    unfold runJobs at h
    split at h
    · rename_i b1 hr
      obtain ⟨q0, q1, q2, q3⟩ := runJob_ok P end_ step n a b b1 hr
      obtain ⟨jid, ja, jt, -, jin, jdue, jpend, jout⟩ := job_fields P.toProgram step n a
      obtain ⟨js, hjs⟩ := runJobs_jobs P end_ step n as b1 b' h
      have hthis : ((job P.toProgram step n a).2, P.changes n step a) ∈ b'.jobs := by
        rw [hjs, q3]
        exact List.mem_append_left _ (List.mem_append_right _ (List.mem_singleton_self _))
      rw [List.map_cons, List.nodup_cons] at hid
      have hda := hd a (List.mem_cons_self ..)
      have hkeep : ∀ x ∈ putAgent b.agents (job P.toProgram step n a).1, S x.id → x ∈ b1.agents := by
        intro x hx hS
        rw [q1]
        exact changes_keep _ _ x hx fun hc => hdel _ hthis x.id hc hS
      refine ih b1 hid.2 (fun x hx => ?_) ?_ (fun x hx hS => ?_) h ?_
      · rw [q2, findWake_setWake, if_neg fun (e : x.id = a.id) => hid.1 (e ▸ List.mem_map_of_mem hx)]
        exact hd x (List.mem_cons_of_mem _ hx)
      · rw [q1]
        exact (changes_spec _ _ (by rw [putAgent_ids]; exact hn)).1
      · refine hkeep x (mem_putAgent_of_ne _ _ _ (hsub x (List.mem_cons_of_mem _ hx) hS) ?_) hS
        rw [jid]
        exact fun e => hid.1 (e ▸ List.mem_map_of_mem hx)
      · intro bef e aft hl m hme hSe hSm
        rw [q3, List.map_append, ← List.append_assoc] at hl
        rw [q2]
        rcases split_append_singleton hl with ⟨rfl, -, rfl⟩ | ⟨c', rfl, hl'⟩
        · left
          simp only at hSe hme
          rw [ja] at hSe
          refine ⟨_, hkeep _ (mem_putAgent_self _ a _ (hsub a (List.mem_cons_self ..) hSe) jid) (by rw [jid]; exact hSe), by rw [jid]; exact hSe, ?_⟩
          rw [jout]
          exact List.mem_append_right _ hme
        · rcases h0 bef e c' hl' m hme hSe hSm with ⟨x, hx, hSx, h1⟩ | ⟨x, hx, h1, h2, t, h3, h4⟩ | ⟨e', he', h1⟩
          · left
            by_cases hxa : x.id = a.id
            · have hSa : S a.id := hxa ▸ hSx
              have ham := hsub a (List.mem_cons_self ..) hSa
              have := eq_of_id hn hx ham hxa
              subst this
              exact ⟨_, hkeep _ (mem_putAgent_self _ x _ ham jid) (by rw [jid]; exact hSx), by rw [jid]; exact hSx, by rw [jout]; exact List.mem_append_left _ h1⟩
            · exact ⟨x, hkeep x (mem_putAgent_of_ne _ _ _ hx (by rw [jid]; exact hxa)) hSx, hSx, h1⟩
          · by_cases hxa : x.id = a.id
            · have hSx : S x.id := h1 ▸ hSm
              have hSa : S a.id := hxa ▸ hSx
              have ham := hsub a (List.mem_cons_self ..) hSa
              have := eq_of_id hn hx ham hxa
              subst this
              rw [← h1, hda, Option.some.injEq] at h3
              by_cases hle : m.received ≤ step.lower
              · right; right
                refine ⟨_, List.mem_append_right _ (List.mem_singleton_self _), by simp only [ja]; exact h1, by simp only [jt]; omega, ?_⟩
                simp only [jdue]
                exact List.mem_map.2 ⟨_, List.mem_filter.2 ⟨h2, by simpa using hle⟩, rfl⟩
              · right; left
                have hin : (m.received, m) ∈ x.inbox.filter (fun e => decide (e.1 > step.lower)) := List.mem_filter.2 ⟨h2, by simp; omega⟩
                refine ⟨_, hkeep _ (mem_putAgent_self _ x _ ham jid) (by rw [jid]; exact hSx), by rw [jid, h1], by rw [jin]; exact hin, ?_⟩
                refine ⟨_, by rw [← h1, findWake_setWake, if_pos rfl], ?_⟩
                apply hat _ hthis
                simp only [jpend]
                exact List.mem_map.2 ⟨_, hin, rfl⟩
            · right; left
              refine ⟨x, hkeep x (mem_putAgent_of_ne _ _ _ hx (by rw [jid]; exact hxa)) (h1 ▸ hSm), h1, h2, t, ?_, h4⟩
              rw [findWake_setWake, if_neg (by rw [← h1]; exact hxa)]
              exact h3
          · exact .inr (.inr ⟨e', List.mem_append_left _ he', h1⟩)
    · cases h
    · cases h

theorem round_transit (P : Program σ) (end_ : Nat) (step : Step) (n : Nat) (S : Nat → Prop) (w w' : World σ) (hn : (w.agents.map (·.id)).Nodup) (ho : ∀ a ∈ w.agents, a.outbox = []) (h : round P end_ step n w = .ok w')
    (hat : Sched.Spec.Attentive (Spec.log w'.history)) (hdel : ∀ r ∈ w'.history, ∀ i ∈ Spec.deleted r, ¬ S i)
    (h0 : Transit S (Spec.log w.history) w.agents w.wake) : Transit S (Spec.log w'.history) w'.agents w'.wake := by
  unfold round at h
  simp only at h
  split at h
  · cases h
  · cases h
  · rename_i b hb
    split at h
    · cases h
    · cases h
    · rename_i s sent hs
      simp only [Outcome.ok.injEq] at h
      obtain ⟨js, g⟩ := runJobs_spec P end_ step n _ _ b (by exact hn) (fun a ha => ho a (List.mem_filter.mp ha).1) hb
      obtain ⟨s1, s2, s3, -⟩ := sendMessages_inv g.nodup hs
      have hh : w'.history = w.history ++ [⟨step.lower, n, b.jobs⟩] := by rw [← h]
      have h1 := runJobs_transit P end_ step n S (Spec.log w.history) _ _ b (hn.sublist (List.Sublist.map _ List.filter_sublist))
        (fun a ha => by simpa using (List.mem_filter.mp ha).2) hn (fun a ha _ => (List.mem_filter.mp ha).1) hb
        (fun j hj => hat j.1 (by rw [hh, log_append]; exact List.mem_append_right _ (List.mem_map_of_mem hj)))
        (fun j hj i hi => hdel ⟨step.lower, n, b.jobs⟩ (by rw [hh]; exact List.mem_append_right _ (List.mem_singleton_self _)) i (List.mem_flatMap.mpr ⟨j, hj, hi⟩)) (by
          intro bef e aft hl m hm hSe hSm
          rw [List.map_nil, List.append_nil] at hl
          rcases h0 bef e aft hl m hm hSe hSm with h | ⟨x, hx, g1, g2, t, g3, g4⟩ | h
          · exact .inl h
          · exact .inr (.inl ⟨x, hx, g1, g2, t, by simp only; rw [findWake_emplace, g3], g4⟩)
          · exact .inr (.inr h))
      have hinb : ∀ x ∈ b.agents, { receive (b.agents.flatMap (·.outbox)) x with outbox := [] } ∈ s.1 := by
        intro x hx
        rw [s2]
        exact List.mem_map_of_mem (f := fun x : Agent σ => { receive (b.agents.flatMap (·.outbox)) x with outbox := [] }) hx
      rw [← h]
      simp only
      rw [log_append]
      intro bef e aft hl m hm hSe hSm
      rcases h1 bef e aft hl m hm hSe hSm with ⟨x, hx, -, g1⟩ | ⟨x, hx, g1, g2, t, g3, g4⟩ | h
      · right; left
        obtain ⟨y, hy, hyr⟩ := s1 x hx m g1
        have hall : m ∈ b.agents.flatMap (·.outbox) := List.mem_flatMap.2 ⟨x, hx, g1⟩
        refine ⟨_, hinb y hy, hyr, ?_, ?_⟩
        · apply (receive_inbox_perm _ y).mem_iff.2
          apply List.mem_append_right
          exact List.mem_map.2 ⟨m, List.mem_filter.2 ⟨hall, by simpa using hyr⟩, rfl⟩
        · rw [s3]
          exact (foldl_lowerWake _ b.wake m.recipient).2.1 m hall rfl
      · right; left
        refine ⟨_, hinb x hx, g1, ?_, ?_⟩
        · exact (receive_inbox_perm _ x).mem_iff.2 (List.mem_append_left _ g2)
        · rw [s3]
          obtain ⟨t', g5, g6, _⟩ := (foldl_lowerWake (b.agents.flatMap (·.outbox)) b.wake m.recipient).1 t g3
          exact ⟨t', g5, by omega⟩
      · exact .inr (.inr h)

theorem Reach.transit {P : Program σ} {end_ : Nat} {w v : World σ} (h : Reach P end_ w v) (S : Nat → Prop) (hn : (w.agents.map (·.id)).Nodup) (ho : ∀ a ∈ w.agents, a.outbox = [])
    (h0 : Transit S (Spec.log w.history) w.agents w.wake) (hat : Sched.Spec.Attentive (Spec.log v.history)) (hdel : ∀ r ∈ v.history, ∀ i ∈ Spec.deleted r, ¬ S i) :
    Transit S (Spec.log v.history) v.agents v.wake := by
  induction h with
  | start => exact h0
  | round step n v v' hv hr ih =>
    have hw := hv.well hn ho
    obtain ⟨r, g⟩ := round_spec P end_ step n v v' hw.1 hw.2 hr
    refine round_transit P end_ step n S v v' hw.1 hw.2 hr hat hdel (ih (fun e he => hat e ?_) fun r hr' => hdel r ?_)
    · rw [g.history, log_append]; exact List.mem_append_left _ he
    · rw [g.history]; exact List.mem_append_left _ hr'

end Esl.Population
