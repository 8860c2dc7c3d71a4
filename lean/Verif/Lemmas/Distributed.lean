import Verif.Model.Distributed
import Verif.Lemmas.Scheduler

/-! # Lemmas about the distributed environment -/

namespace Esl.Mpi
open Esl.Comm

/-! ## Maps -/

theorem lookup_filter_ne {α : Type} (l : List (Nat × α)) (k a : Nat) : (l.filter fun e => !(e.1 == k)).lookup a = if a = k then none else l.lookup a := by
  induction l with
  | nil => simp
  | cons e l ih =>
    obtain ⟨x, v⟩ := e
    by_cases hx : x = k
    · subst hx
      have e1 : (((x, v) :: l).filter fun e => !(e.1 == x)) = l.filter fun e => !(e.1 == x) := by simp
      rw [e1, ih]
      by_cases ha : a = x
      · simp [ha]
      · have h0 : (a == x) = false := by simpa using ha
        rw [if_neg ha, if_neg ha, List.lookup_cons, h0]
    · have e1 : (((x, v) :: l).filter fun e => !(e.1 == k)) = (x, v) :: l.filter fun e => !(e.1 == k) := by simp [hx]
      rw [e1, List.lookup_cons, List.lookup_cons, ih]
      by_cases ha : a = x
      · subst ha; simp [hx]
      · have h0 : (a == x) = false := by simpa using ha
        rw [h0]

theorem lookup_setKey {α : Type} (m : List (Nat × α)) (k a : Nat) (v : α) : (setKey m k v).lookup a = if a = k then some v else m.lookup a := by
  unfold setKey
  rw [List.lookup_cons, lookup_filter_ne]
  by_cases h : a = k
  · subst h; simp
  · have h0 : (a == k) = false := by simpa using h
    rw [h0, if_neg h, if_neg h]

/-- Assigning a list of entries: a key that is not in the list keeps its value. -/
theorem lookup_fold_none {α : Type} (l : List (Nat × α)) (m : List (Nat × α)) (a : Nat) (h : ∀ e ∈ l, e.1 ≠ a) :
    (l.foldl (fun m e => setKey m e.1 e.2) m).lookup a = m.lookup a := by
  induction l generalizing m with
  | nil => rfl
  | cons e l ih =>
    rw [List.foldl_cons, ih _ fun x hx => h x (List.mem_cons_of_mem _ hx), lookup_setKey, if_neg fun hh => h e List.mem_cons_self hh.symm]

/-- Assigning a list of entries: a key all whose entries have the same value gets it. -/
theorem lookup_fold_some {α : Type} (l : List (Nat × α)) (m : List (Nat × α)) (a : Nat) (v : α) (h : ∀ e ∈ l, e.1 = a → e.2 = v) (hm : (a, v) ∈ l ∨ m.lookup a = some v) :
    (l.foldl (fun m e => setKey m e.1 e.2) m).lookup a = some v := by
  induction l generalizing m with
  | nil => exact hm.resolve_left (by simp)
  | cons e l ih =>
    rw [List.foldl_cons]
    apply ih _ fun x hx => h x (List.mem_cons_of_mem _ hx)
    by_cases he : e.1 = a
    · right
      rw [lookup_setKey, if_pos he.symm, h e List.mem_cons_self he]
    · rcases hm with hm | hm
      · left
        rcases List.mem_cons.1 hm with rfl | hm
        · exact absurd rfl he
        · exact hm
      · right
        rw [lookup_setKey, if_neg (fun hh => he hh.symm), hm]

theorem mem_of_lookup {α : Type} (k : Nat) (l : List (Nat × α)) (v : α) (h : l.lookup k = some v) : (k, v) ∈ l := by
  induction l with
  | nil => simp at h
  | cons e l ih =>
    obtain ⟨x, y⟩ := e
    rw [List.lookup_cons] at h
    cases hx : k == x with
    | true =>
      rw [hx] at h
      obtain rfl : k = x := by simpa using hx
      obtain rfl : y = v := by simpa using h
      exact List.mem_cons_self
    | false =>
      rw [hx] at h
      exact List.mem_cons_of_mem _ (ih h)

theorem lookup_ne_none {α : Type} (k : Nat) (l : List (Nat × α)) (v : α) (h : (k, v) ∈ l) : l.lookup k ≠ none := by
  induction l with
  | nil => simp at h
  | cons e l ih =>
    obtain ⟨x, y⟩ := e
    rw [List.lookup_cons]
    cases hx : k == x with
    | true => simp
    | false =>
      rcases List.mem_cons.1 h with hh | hh
      · obtain ⟨rfl, rfl⟩ := Prod.mk.inj hh
        simp at hx
      · exact ih hh

/-! ## Collective operations -/

theorem filterMap_const {β : Type} (n i : Nat) (hi : i < n) (xs : List β) : ((xs.map (List.replicate n)).filterMap fun r => r[i]?) = xs := by
  induction xs with
  | nil => rfl
  | cons x xs ih =>
    rw [List.map_cons, List.filterMap_cons]
    have : (List.replicate n x)[i]? = some x := by simp [hi]
    rw [this, ih]

/-- When each process sends the same to all, all get what all sent. -/
theorem allToAll_const {β : Type} (xs : List β) : allToAll (xs.map (List.replicate xs.length)) = .ok (List.replicate xs.length xs) := by
  unfold allToAll
  rw [if_pos (by simp)]
  congr 1
  apply List.ext_getElem
  · simp
  · intro i h1 h2
    simp only [List.length_map, List.length_range] at h1
    simp only [List.getElem_map, List.getElem_range, List.getElem_replicate]
    exact filterMap_const _ _ h1 _

/-- A process that sends less or more than one element to each process breaks the operation. -/
theorem allToAll_ub {β : Type} (rows : List (List β)) (r : List β) (hr : r ∈ rows) (h : r.length ≠ rows.length) : allToAll rows = .ub := by
  unfold allToAll
  rw [if_neg]
  intro hh
  have := List.all_eq_true.1 hh r hr
  simp at this
  exact h this

theorem allToAll_ok {β : Type} (rows : List (List β)) (h : ∀ r ∈ rows, r.length = rows.length) :
    allToAll rows = .ok ((List.range rows.length).map fun i => rows.filterMap fun r => r[i]?) := by
  unfold allToAll
  rw [if_pos]
  rw [List.all_eq_true]
  intro r hr
  simp [h r hr]

/-! ## Activation -/

theorem activate_eq (c : List Process) :
    activate c = .ok (c.map fun p => recordActivations p (c.mapIdx fun r p => p.activated.map fun a => (r, a))) := by
  unfold activate
  have e : (c.mapIdx fun r p => activationRow c.length r p) =
      (c.mapIdx fun r p => p.activated.map fun a => (r, a)).map (List.replicate (c.mapIdx fun r p => p.activated.map fun a => (r, a)).length) := by
    apply List.ext_getElem
    · simp
    · intro i h1 h2
      simp [activationRow]
  rw [e, allToAll_const, Outcome.bind_ok, List.length_mapIdx]
  congr 1
  clear e
  generalize (c.mapIdx fun r p => p.activated.map fun a => (r, a)) = X
  induction c with
  | nil => rfl
  | cons p c ih =>
    rw [List.length_cons, List.replicate_succ, List.zipWith_cons_cons, ih, List.map_cons]

theorem mem_stacked (c : List Process) (r a : Nat) :
    (r, a) ∈ (c.mapIdx fun r p => p.activated.map fun a => (r, a)).flatten ↔ ∃ p, c[r]? = some p ∧ a ∈ p.activated := by
  rw [List.mem_flatten]
  constructor
  · rintro ⟨l, hl, hm⟩
    obtain ⟨i, hi, rfl⟩ := List.mem_mapIdx.1 hl
    obtain ⟨b, hb, hh⟩ := List.mem_map.1 hm
    obtain ⟨rfl, rfl⟩ := Prod.mk.inj hh
    exact ⟨c[i], by simp [hi], hb⟩
  · rintro ⟨p, hp, ha⟩
    obtain ⟨hi, rfl⟩ := List.getElem?_eq_some_iff.1 hp
    exact ⟨_, List.mem_mapIdx.2 ⟨r, hi, rfl⟩, List.mem_map.2 ⟨a, ha, rfl⟩⟩

theorem record_fold (l : List (Nat × Nat)) (m : List (Nat × Nat)) :
    l.foldl (fun m e => setKey m e.2 e.1) m = (l.map fun e => (e.2, e.1)).foldl (fun m e => setKey m e.1 e.2) m := by
  rw [List.foldl_map]

theorem record_some (c : List Process) (p : Process) (a r : Nat) (h : ∀ q p', c[q]? = some p' → a ∈ p'.activated → q = r)
    (hm : (∃ p', c[r]? = some p' ∧ a ∈ p'.activated) ∨ p.locations.lookup a = some r) :
    (recordActivations p (c.mapIdx fun r p => p.activated.map fun a => (r, a))).locations.lookup a = some r := by
  show (((c.mapIdx fun r p => p.activated.map fun a => (r, a)).flatten).foldl (fun m e => setKey m e.2 e.1) p.locations).lookup a = some r
  rw [record_fold]
  apply lookup_fold_some
  · intro e he hh
    obtain ⟨⟨q, b⟩, hx, rfl⟩ := List.mem_map.1 he
    obtain ⟨p', h1, h2⟩ := (mem_stacked c q b).1 hx
    exact h q p' h1 (by simp only at hh; rwa [← hh])
  · rcases hm with hm | hm
    · exact .inl (List.mem_map.2 ⟨(r, a), (mem_stacked c r a).2 hm, rfl⟩)
    · exact .inr hm

theorem record_none (c : List Process) (p : Process) (a : Nat) (h : ∀ p' ∈ c, a ∉ p'.activated) :
    (recordActivations p (c.mapIdx fun r p => p.activated.map fun a => (r, a))).locations.lookup a = p.locations.lookup a := by
  show (((c.mapIdx fun r p => p.activated.map fun a => (r, a)).flatten).foldl (fun m e => setKey m e.2 e.1) p.locations).lookup a = p.locations.lookup a
  rw [record_fold]
  apply lookup_fold_none
  intro e he hh
  obtain ⟨⟨q, b⟩, hx, rfl⟩ := List.mem_map.1 he
  obtain ⟨p', h1, h2⟩ := (mem_stacked c q b).1 hx
  simp only at hh
  subst hh
  exact h p' (List.mem_of_getElem? h1) h2

/-! ## Deactivation -/

theorem fold_deactivate (l : List Nat) (p : Process) : (l.foldl deactivateAgent p).deactivated = p.deactivated ++ l := by
  induction l generalizing p with
  | nil => simp
  | cons a l ih => rw [List.foldl_cons, ih]; simp [deactivateAgent]

theorem fold_deactivate_lookup (l : List Nat) (p : Process) (a : Nat) : (l.foldl deactivateAgent p).locations.lookup a = if a ∈ l then none else p.locations.lookup a := by
  induction l generalizing p with
  | nil => simp
  | cons b l ih =>
    rw [List.foldl_cons, ih]
    have e : (deactivateAgent p b).locations.lookup a = if a = b then none else p.locations.lookup a := lookup_filter_ne _ _ _
    rw [e]
    by_cases h1 : a ∈ l
    · simp [h1]
    · by_cases h2 : a = b <;> simp [h1, h2]

/-! ## Agreement on migrations -/

theorem proposalRows_ok (n : Nat) (ideas : List (List Migration)) (h : ∀ i ∈ ideas, ∀ m ∈ i, m.target < n) :
    proposalRows n ideas = .ok (ideas.map fun i => (List.range n).map fun t => i.filter fun m => decide (m.target = t)) := by
  induction ideas with
  | nil => rfl
  | cons i is ih =>
    have e : proposalRow n i = .ok ((List.range n).map fun t => i.filter fun m => decide (m.target = t)) := by
      unfold proposalRow
      rw [if_pos]
      rw [List.all_eq_true]
      intro m hm
      simpa using h i List.mem_cons_self m hm
    rw [proposalRows, e, Outcome.bind_ok, ih fun j hj => h j (List.mem_cons_of_mem _ hj), Outcome.bind_ok, List.map_cons]

theorem proposalRows_ub (n : Nat) (ideas : List (List Migration)) (h : ∃ i ∈ ideas, ∃ m ∈ i, n ≤ m.target) : proposalRows n ideas = .ub := by
  induction ideas with
  | nil => simp at h
  | cons i is ih =>
    rw [proposalRows]
    by_cases hi : ∀ m ∈ i, m.target < n
    · have e : proposalRow n i = .ok ((List.range n).map fun t => i.filter fun m => decide (m.target = t)) := by
        unfold proposalRow
        rw [if_pos]
        rw [List.all_eq_true]
        intro m hm
        simpa using hi m hm
      rw [e, Outcome.bind_ok, ih, Outcome.bind_ub]
      obtain ⟨j, hj, m, hm, hge⟩ := h
      rcases List.mem_cons.1 hj with rfl | hj
      · exact absurd (hi m hm) (by omega)
      · exact ⟨j, hj, m, hm, hge⟩
    · have e : proposalRow n i = .ub := by
        unfold proposalRow
        rw [if_neg]
        intro hh
        apply hi
        intro m hm
        simpa using List.all_eq_true.1 hh m hm
      rw [e, Outcome.bind_ub]

/-- The agreed list: by target, then by source. -/
def agreed (n : Nat) (ideas : List (List Migration)) : List Migration := (List.range n).flatMap fun t => ideas.flatten.filter fun m => decide (m.target = t)

theorem flatten_filter {α : Type} (p : α → Bool) (ls : List (List α)) : (ls.map fun l => l.filter p).flatten = ls.flatten.filter p := by
  induction ls with
  | nil => rfl
  | cons l ls ih => rw [List.map_cons, List.flatten_cons, ih, List.flatten_cons, List.filter_append]

theorem agree_eq (ideas : List (List Migration)) (h : ∀ i ∈ ideas, ∀ m ∈ i, m.target < ideas.length) :
    agree ideas = .ok (List.replicate ideas.length (agreed ideas.length ideas)) := by
  unfold agree
  rw [proposalRows_ok _ _ h, Outcome.bind_ok]
  rw [allToAll_ok _ (by intro r hr; obtain ⟨i, hi, rfl⟩ := List.mem_map.1 hr; simp), Outcome.bind_ok]
  have e1 : ((List.range (ideas.map fun i => (List.range ideas.length).map fun t => i.filter fun m => decide (m.target = t)).length).map fun k =>
      (ideas.map fun i => (List.range ideas.length).map fun t => i.filter fun m => decide (m.target = t)).filterMap fun r => r[k]?) =
      (List.range ideas.length).map fun k => ideas.map fun i => i.filter fun m => decide (m.target = k) := by
    rw [List.length_map]
    apply List.map_congr_left
    intro k hk
    rw [List.filterMap_map]
    have : ∀ i ∈ ideas, ((fun r : List (List Migration) => r[k]?) ∘ fun i : List Migration => (List.range ideas.length).map fun t => i.filter fun m => decide (m.target = t)) i =
        some (i.filter fun m => decide (m.target = k)) := by
      intro i _
      have hk' : k < ideas.length := List.mem_range.1 hk
      simp [hk']
    clear hk
    generalize hg : ((fun r : List (List Migration) => r[k]?) ∘ fun i : List Migration => (List.range ideas.length).map fun t => i.filter fun m => decide (m.target = t)) = g at this ⊢
    clear hg h
    generalize ideas = is at this ⊢
    induction is with
    | nil => rfl
    | cons i is ih => rw [List.filterMap_cons, this i List.mem_cons_self, ih fun j hj => this j (List.mem_cons_of_mem _ hj), List.map_cons]
  rw [e1]
  have e2 : (((List.range ideas.length).map fun k => ideas.map fun i => i.filter fun m => decide (m.target = k)).mapIdx fun r p =>
      List.replicate ideas.length (accept r p)) =
      ((List.range ideas.length).map fun t => ideas.flatten.filter fun m => decide (m.target = t)).map
        (List.replicate ((List.range ideas.length).map fun t => ideas.flatten.filter fun m => decide (m.target = t)).length) := by
    apply List.ext_getElem
    · simp
    · intro k h1 h2
      simp only [List.length_mapIdx, List.length_map, List.length_range] at h1
      simp only [List.getElem_mapIdx, List.getElem_map, List.getElem_range, List.length_map, List.length_range]
      congr 1
      unfold accept
      rw [flatten_filter, List.filter_filter]
      simp
  rw [e2, allToAll_const, Outcome.bind_ok]
  congr 1
  rw [List.map_replicate, List.length_map, List.length_range]
  rfl

theorem filter_split_perm {α : Type} (p q r : α → Bool) (l : List α) (h : ∀ x, r x = (p x || q x)) (hd : ∀ x, ¬ (p x = true ∧ q x = true)) :
    (l.filter p ++ l.filter q).Perm (l.filter r) := by
  induction l with
  | nil => simp
  | cons x l ih =>
    have hx := h x
    have hdx := hd x
    cases hp : p x <;> cases hq : q x
    · rw [List.filter_cons_of_neg (by simp [hp]), List.filter_cons_of_neg (by simp [hq]), List.filter_cons_of_neg (by simp [hx, hp, hq])]
      exact ih
    · rw [List.filter_cons_of_neg (by simp [hp]), List.filter_cons_of_pos hq, List.filter_cons_of_pos (by simp [hx, hq])]
      exact List.perm_middle.trans (ih.cons x)
    · rw [List.filter_cons_of_pos hp, List.filter_cons_of_neg (by simp [hq]), List.filter_cons_of_pos (by simp [hx, hp])]
      exact ih.cons x
    · exact absurd ⟨hp, hq⟩ hdx

theorem agreed_perm (n : Nat) (ideas : List (List Migration)) (h : ∀ i ∈ ideas, ∀ m ∈ i, m.target < n) : (agreed n ideas).Perm ideas.flatten := by
  have key : ∀ (l : List Migration) (k : Nat), ((List.range k).flatMap fun t => l.filter fun m => decide (m.target = t)).Perm (l.filter fun m => decide (m.target < k)) := by
    intro l k
    induction k with
    | zero => simp
    | succ k ih =>
      rw [List.range_succ, List.flatMap_append, List.flatMap_cons, List.flatMap_nil, List.append_nil]
      refine (ih.append_right _).trans ?_
      apply filter_split_perm
      · intro m
        by_cases h1 : m.target < k
        · have : m.target < k + 1 := by omega
          simp [h1, this]
        · by_cases h2 : m.target = k
          · simp [h2]
          · have : ¬ m.target < k + 1 := by omega
            simp [h1, h2, this]
      · intro m hh
        simp at hh
        omega
  refine (key ideas.flatten n).trans ?_
  rw [List.filter_eq_self.2]
  intro m hm
  obtain ⟨i, hi, hmi⟩ := List.mem_flatten.1 hm
  simpa using h i hi m hmi

end Esl.Mpi
