import Verif.Model.Scheduler
import Verif.Lemmas.Communicator
/-! Helper lemmas for the scheduler. -/
namespace Esl.Sched
open Esl.Comm
variable {σ : Type}

theorem foldl_min (wake : Wake) (i : Nat) :
    wake.foldl (fun r e => if r > e.2 then min r e.2 else r) i ≤ i ∧
    (∀ e ∈ wake, wake.foldl (fun r e => if r > e.2 then min r e.2 else r) i ≤ e.2) ∧
    (wake.foldl (fun r e => if r > e.2 then min r e.2 else r) i = i ∨
      ∃ e ∈ wake, wake.foldl (fun r e => if r > e.2 then min r e.2 else r) i = e.2) := by
  induction wake generalizing i with
  | nil => simp
  | cons x l ih =>
    have hx : (if i > x.2 then min i x.2 else i) = min i x.2 := by split <;> omega
    simp only [List.foldl_cons, hx]
    obtain ⟨h1, h2, h3⟩ := ih (min i x.2)
    refine ⟨by omega, ?_, ?_⟩
    · intro e he
      rcases List.mem_cons.1 he with rfl | he
      · omega
      · exact h2 e he
    · rcases h3 with h3 | ⟨e, he, h⟩
      · by_cases hx : i ≤ x.2
        · left; rw [h3]; omega
        · right; exact ⟨x, List.mem_cons_self .., by rw [h3]; omega⟩
      · right; exact ⟨e, List.mem_cons_of_mem _ he, h⟩

theorem determineNext_le_end (end_ : Nat) (wake : Wake) : determineNext end_ wake ≤ end_ := (foldl_min wake end_).1

theorem determineNext_le (end_ : Nat) (wake : Wake) (e : Nat × Nat) (h : e ∈ wake) :
    determineNext end_ wake ≤ e.2 := (foldl_min wake end_).2.1 e h

theorem determineNext_mem (end_ : Nat) (wake : Wake) :
    determineNext end_ wake = end_ ∨ ∃ e ∈ wake, determineNext end_ wake = e.2 := (foldl_min wake end_).2.2

theorem findWake_mem (wake : Wake) (a t : Nat) (h : findWake wake a = some t) : (a, t) ∈ wake := by
  unfold findWake at h
  rw [Option.map_eq_some_iff] at h
  obtain ⟨e, h1, rfl⟩ := h
  have h2 := List.find?_some h1
  have h3 := List.mem_of_find?_eq_some h1
  simp at h2
  subst h2
  exact h3

theorem determineNext_le_find (end_ : Nat) (wake : Wake) (a t : Nat) (h : findWake wake a = some t) :
    determineNext end_ wake ≤ t := determineNext_le end_ wake _ (findWake_mem wake a t h)

theorem findWake_setWake (wake : Wake) (a t b : Nat) :
    findWake (setWake wake a t) b = if b = a then some t else findWake wake b := by
  induction wake with
  | nil =>
    by_cases h : b = a
    · subst h; simp [setWake, findWake]
    · have h' : ¬ a = b := fun e => h e.symm
      simp [setWake, findWake, h, h']
  | cons e l ih =>
    obtain ⟨c, s⟩ := e
    unfold findWake at *
    unfold setWake
    by_cases hc : c = a
    · subst hc
      by_cases hb : b = c
      · subst hb; simp
      · have : ¬ c = b := fun e => hb e.symm
        simp [this, hb]
    · by_cases hb : c = b
      · subst hb; simp [hc]
      · simpa [hc, hb] using ih

theorem findWake_lowerWake (wake : Wake) (a t b : Nat) :
    findWake (lowerWake wake a t) b =
      if b = a then some (match findWake wake a with | none => t | some s => min s t) else findWake wake b := by
  unfold lowerWake
  split <;> rename_i h <;> rw [findWake_setWake] <;> simp [h]

/-- Lowering never raises a wake-up time. -/
theorem lowerWake_le (wake : Wake) (a t b s : Nat) (h : findWake wake b = some s) :
    ∃ s', findWake (lowerWake wake a t) b = some s' ∧ s' ≤ s := by
  rw [findWake_lowerWake]
  by_cases hb : b = a
  · subst hb
    refine ⟨min s t, by simp [h], by omega⟩
  · exact ⟨s, by simp [hb, h], Nat.le_refl _⟩

theorem findWake_emplace (now : Nat) (ids : List Nat) (wake : Wake) (b : Nat) :
    findWake (emplaceMissing now ids wake) b =
      match findWake wake b with
      | some t => some t
      | none => if b ∈ ids then some now else none := by
  induction ids generalizing wake with
  | nil => unfold emplaceMissing; simp; split <;> simp_all
  | cons i ids ih =>
    have : emplaceMissing now (i :: ids) wake =
        emplaceMissing now ids (if findWake wake i = none then setWake wake i now else wake) := rfl
    rw [this, ih]
    by_cases hi : findWake wake i = none
    · simp only [hi, if_true]
      rw [findWake_setWake]
      by_cases hb : b = i
      · subst hb; simp [hi]
      · simp [hb]
    · simp only [hi, if_false]
      split
      · rfl
      · rename_i h
        have : b ≠ i := by rintro rfl; exact hi h
        simp [this]

/-! ### Delivery -/

/-- Delivering a list of messages: success means that all recipients exist. -/
theorem deliver_eq (m : Msg) (s : List (Agent σ) × Wake) :
    (∃ x ∈ s.1, x.id = m.recipient) ∧ deliver m s =
      .ok (s.1.map fun x => if x.id = m.recipient then { x with inbox := mmInsert leNat m.received m x.inbox } else x,
           lowerWake s.2 m.recipient m.received) ∨
    (¬ ∃ x ∈ s.1, x.id = m.recipient) ∧ deliver m s = .throws := by
  unfold deliver
  by_cases h : ∃ x ∈ s.1, x.id = m.recipient
  · left
    refine ⟨h, ?_⟩
    rw [if_pos (by simpa using h)]
  · right
    refine ⟨h, ?_⟩
    rw [if_neg (by simpa using h)]

/-- The agents after delivering `ms`: each agent gets the messages addressed to it, in order. -/
def receive (ms : List Msg) (x : Agent σ) : Agent σ :=
  { x with inbox := ms.foldl (fun b m => if x.id = m.recipient then mmInsert leNat m.received m b else b) x.inbox }

theorem deliverAll_ok (ms : List Msg) (s : List (Agent σ) × Wake)
    (h : ∀ m ∈ ms, ∃ x ∈ s.1, x.id = m.recipient) :
    deliverAll ms s = .ok (s.1.map (receive ms), ms.foldl (fun wk m => lowerWake wk m.recipient m.received) s.2) := by
  induction ms generalizing s with
  | nil =>
    have : s.1.map (receive []) = s.1 := by
      conv => rhs; rw [← List.map_id s.1]
      rfl
    simp only [deliverAll, List.foldl_nil, this]
  | cons m ms ih =>
    rcases deliver_eq m s with ⟨_, he⟩ | ⟨hn, _⟩
    · rw [deliverAll, he, Outcome.bind_ok, ih]
      · simp only [List.map_map, List.foldl_cons]
        congr 2
        apply List.map_congr_left
        intro x _
        simp only [Function.comp, receive]
        by_cases hx : x.id = m.recipient <;> simp [hx]
      · intro m' hm'
        obtain ⟨x, hx, hxi⟩ := h m' (List.mem_cons_of_mem _ hm')
        refine ⟨_, List.mem_map_of_mem hx, ?_⟩
        split <;> exact hxi
    · exact absurd (h m (List.mem_cons_self ..)) hn

theorem deliverAll_throws (ms : List Msg) (s : List (Agent σ) × Wake)
    (h : ∃ m ∈ ms, ¬ ∃ x ∈ s.1, x.id = m.recipient) : deliverAll ms s = .throws := by
  induction ms generalizing s with
  | nil => simp at h
  | cons m ms ih =>
    rcases deliver_eq m s with ⟨hy, he⟩ | ⟨_, he⟩
    · rw [deliverAll, he, Outcome.bind_ok]
      apply ih
      obtain ⟨m', hm', hn⟩ := h
      rcases List.mem_cons.1 hm' with rfl | hm'
      · exact absurd hy hn
      · refine ⟨m', hm', ?_⟩
        rintro ⟨x, hx, hxi⟩
        obtain ⟨y, hy, rfl⟩ := List.mem_map.1 hx
        apply hn
        refine ⟨y, hy, ?_⟩
        revert hxi
        split <;> exact id
    · rw [deliverAll, he, Outcome.bind_throws]

theorem receive_id (ms : List Msg) (x : Agent σ) : (receive ms x).id = x.id := rfl
theorem receive_outbox (ms : List Msg) (x : Agent σ) : (receive ms x).outbox = x.outbox := rfl

theorem receive_append (ms ms' : List Msg) (x : Agent σ) : receive ms' (receive ms x) = receive (ms ++ ms') x := by
  simp only [receive, List.foldl_append]
  rfl

theorem receive_clear (ms ms' : List Msg) (x : Agent σ) :
    receive ms' { receive ms x with outbox := [] } = { receive (ms ++ ms') x with outbox := [] } := by
  simp only [receive, List.foldl_append]
  rfl

/-- `outboxOf` for the agents of a list with distinct identities. -/
theorem outboxOf_mem (ags : List (Agent σ)) (hn : (ags.map (·.id)).Nodup) (x : Agent σ) (hx : x ∈ ags) :
    outboxOf ags x.id = x.outbox := by
  induction ags with
  | nil => simp at hx
  | cons y l ih =>
    simp only [List.map_cons, List.nodup_cons] at hn
    unfold outboxOf at *
    rcases List.mem_cons.1 hx with rfl | hx
    · simp
    · have : ¬ y.id = x.id := by
        intro e
        exact hn.1 (e ▸ List.mem_map_of_mem hx)
      simpa [this] using ih hn.2 hx

/-- The whole exchange. The agents already visited (`done`) have empty outboxes. -/
theorem sendFrom_spec (rest done : List (Agent σ)) (wake : Wake) (n : Nat)
    (hn : ((done ++ rest).map (·.id)).Nodup) :
    ((∀ x ∈ rest, ∀ m ∈ x.outbox, ∃ y ∈ done ++ rest, y.id = m.recipient) →
      sendFrom (rest.map (·.id)) (done ++ rest, wake) n =
        .ok (((done.map (receive (rest.flatMap (·.outbox)))) ++
              rest.map fun x => { receive (rest.flatMap (·.outbox)) x with outbox := [] },
              (rest.flatMap (·.outbox)).foldl (fun wk m => lowerWake wk m.recipient m.received) wake),
             n + (rest.flatMap (·.outbox)).length)) ∧
    ((∃ x ∈ rest, ∃ m ∈ x.outbox, ¬ ∃ y ∈ done ++ rest, y.id = m.recipient) →
      sendFrom (rest.map (·.id)) (done ++ rest, wake) n = .throws) := by
  generalize hk : rest.length = k
  induction k generalizing rest done wake n with
  | zero =>
    rw [List.length_eq_zero_iff] at hk
    subst hk
    constructor
    · intro _
      have : done.map (receive []) = done := by
        conv => rhs; rw [← List.map_id done]
        rfl
      simp [sendFrom, this]
    · intro h; simp at h
  | succ k ih =>
    obtain ⟨x, rest, rfl⟩ := List.exists_cons_of_length_eq_add_one hk
    have hout : outboxOf (done ++ x :: rest) x.id = x.outbox := outboxOf_mem _ hn x (by simp)
    have hxd : ∀ y ∈ done, y.id ≠ x.id := by
      intro y hy e
      rw [List.map_append, List.nodup_append] at hn
      exact hn.2.2 _ (List.mem_map_of_mem hy) _ (List.mem_map_of_mem (List.mem_cons_self ..)) e
    have hxr : ∀ y ∈ rest, y.id ≠ x.id := by
      intro y hy e
      rw [List.map_append, List.nodup_append] at hn
      have h2 := hn.2.1
      rw [List.map_cons, List.nodup_cons] at h2
      exact h2.1 (e ▸ List.mem_map_of_mem hy)
    have key : (∀ m ∈ x.outbox, ∃ y ∈ done ++ x :: rest, y.id = m.recipient) →
        sendFrom ((x :: rest).map (·.id)) (done ++ x :: rest, wake) n =
        sendFrom ((rest.map (receive x.outbox)).map (·.id))
          ((done.map (receive x.outbox) ++ [{ receive x.outbox x with outbox := [] }]) ++ rest.map (receive x.outbox),
           x.outbox.foldl (fun wk m => lowerWake wk m.recipient m.received) wake)
          (n + x.outbox.length) := by
      intro hr
      rw [List.map_cons, sendFrom]
      simp only [hout]
      rw [deliverAll_ok _ _ hr, Outcome.bind_ok]
      have hc : clearOutbox ((done ++ x :: rest).map (receive x.outbox)) x.id =
          (done.map (receive x.outbox) ++ [{ receive x.outbox x with outbox := [] }]) ++ rest.map (receive x.outbox) := by
        unfold clearOutbox
        simp only [List.map_append, List.map_cons, List.map_map]
        rw [List.append_assoc]
        congr 1
        · apply List.map_congr_left
          intro y hy
          simp [receive_id, hxd y hy]
        · simp only [receive_id, if_true, List.singleton_append]
          congr 1
          apply List.map_congr_left
          intro y hy
          simp [receive_id, hxr y hy]
      simp only [hc]
      congr 1
      simp [Function.comp_def, receive_id]
    have hn' : ((((done.map (receive x.outbox) ++ [{ receive x.outbox x with outbox := [] }]) ++
        rest.map (receive x.outbox))).map (fun a : Agent σ => a.id)).Nodup := by
      simp only [List.map_append, List.map_map, List.map_cons, List.map_nil, Function.comp_def, receive_id]
      simpa using hn
    have hmem : ∀ r, (∃ y ∈ (done.map (receive x.outbox) ++ [{ receive x.outbox x with outbox := [] }]) ++
        rest.map (receive x.outbox), y.id = r) ↔ ∃ y ∈ done ++ x :: rest, y.id = r := by
      intro r
      constructor
      · rintro ⟨y, hy, rfl⟩
        simp only [List.mem_append, List.mem_map, List.mem_singleton] at hy
        rcases hy with (⟨z, hz, rfl⟩ | rfl) | ⟨z, hz, rfl⟩
        · exact ⟨z, by simp [hz], rfl⟩
        · exact ⟨x, by simp, rfl⟩
        · exact ⟨z, by simp [hz], rfl⟩
      · rintro ⟨y, hy, rfl⟩
        simp only [List.mem_append, List.mem_cons] at hy
        rcases hy with hy | rfl | hy
        · exact ⟨receive x.outbox y, by simp only [List.mem_append, List.mem_map]; exact .inl (.inl ⟨y, hy, rfl⟩), rfl⟩
        · exact ⟨{ receive y.outbox y with outbox := [] }, by simp, rfl⟩
        · exact ⟨receive x.outbox y, by simp only [List.mem_append, List.mem_map]; exact .inr ⟨y, hy, rfl⟩, rfl⟩
    have hfl : (rest.map (receive x.outbox)).flatMap (·.outbox) = rest.flatMap (·.outbox) := by
      simp [List.flatMap_map, receive_outbox]
    have hkr : (rest.map (receive x.outbox)).length = k := by simpa using hk
    obtain ⟨ih1, ih2⟩ := ih (rest.map (receive x.outbox))
      (done.map (receive x.outbox) ++ [{ receive x.outbox x with outbox := [] }])
      (x.outbox.foldl (fun wk m => lowerWake wk m.recipient m.received) wake)
      (n + x.outbox.length) hn' hkr
    constructor
    · intro h
      rw [key (h x (List.mem_cons_self ..)), ih1]
      · rw [hfl]
        simp only [List.map_append, List.map_map, List.map_cons, List.map_nil, List.flatMap_cons,
          List.foldl_append, List.length_append, Function.comp_def, receive_append, List.append_assoc,
          List.cons_append, List.nil_append, Nat.add_assoc]
        rw [← receive_clear]
      · intro y hy m hm
        obtain ⟨z, hz, rfl⟩ := List.mem_map.1 hy
        rw [hmem]
        exact h z (List.mem_cons_of_mem _ hz) m hm
    · rintro ⟨y, hy, m, hm, hno⟩
      by_cases hx : ∀ m ∈ x.outbox, ∃ y ∈ done ++ x :: rest, y.id = m.recipient
      · rw [key hx]
        apply ih2
        rcases List.mem_cons.1 hy with rfl | hy
        · exact absurd (hx m hm) hno
        · refine ⟨_, List.mem_map_of_mem hy, m, hm, ?_⟩
          rw [hmem]
          exact hno
      · rw [List.map_cons, sendFrom]
        simp only [hout]
        rw [deliverAll_throws]
        · rfl
        · rw [Classical.not_forall] at hx
          obtain ⟨m, hx⟩ := hx
          rw [Classical.not_imp] at hx
          exact ⟨m, hx.1, hx.2⟩

theorem sendMessages_ok (ags : List (Agent σ)) (wake : Wake) (hn : (ags.map (·.id)).Nodup)
    (h : ∀ x ∈ ags, ∀ m ∈ x.outbox, ∃ y ∈ ags, y.id = m.recipient) :
    sendMessages (ags, wake) =
      .ok ((ags.map fun x => { receive (ags.flatMap (·.outbox)) x with outbox := [] },
            (ags.flatMap (·.outbox)).foldl (fun wk m => lowerWake wk m.recipient m.received) wake),
           (ags.flatMap (·.outbox)).length) := by
  have := (sendFrom_spec ags [] wake 0 (by simpa using hn)).1 (by simpa using h)
  simpa [sendMessages] using this

theorem sendMessages_throws (ags : List (Agent σ)) (wake : Wake) (hn : (ags.map (·.id)).Nodup)
    (h : ∃ x ∈ ags, ∃ m ∈ x.outbox, ¬ ∃ y ∈ ags, y.id = m.recipient) :
    sendMessages (ags, wake) = .throws := by
  have := (sendFrom_spec ags [] wake 0 (by simpa using hn)).2 (by simpa using h)
  simpa [sendMessages] using this

end Esl.Sched

namespace Esl.Sched
open Esl.Comm
variable {σ : Type}

theorem receive_inbox_perm (ms : List Msg) (x : Agent σ) :
    (receive ms x).inbox.Perm
      (x.inbox ++ (ms.filter fun m => decide (x.id = m.recipient)).map fun m => (m.received, m)) := by
  unfold receive
  simp only
  generalize x.inbox = b
  induction ms generalizing b with
  | nil => simp
  | cons m ms ih =>
    simp only [List.foldl_cons]
    by_cases h : x.id = m.recipient
    · simp only [h, if_true] at ih ⊢
      refine (ih _).trans ?_
      refine ((mmInsert_perm _ _ _ _).append_right _).trans ?_
      simp only [List.filter_cons, decide_true, if_true, List.map_cons]
      simpa using List.perm_middle.symm
    · simp only [h, if_false, List.filter_cons, decide_false]
      exact ih b

theorem receive_inbox_sorted (ms : List Msg) (x : Agent σ) (h : x.inbox.Pairwise fun a b => a.1 ≤ b.1) :
    (receive ms x).inbox.Pairwise fun a b => a.1 ≤ b.1 := by
  unfold receive
  simp only
  revert h
  generalize x.inbox = b
  intro h
  induction ms generalizing b with
  | nil => simpa
  | cons m ms ih =>
    simp only [List.foldl_cons]
    apply ih
    split
    · exact mmInsert_sorted_nat _ _ _ h
    · exact h

/-- Wake-up times after an exchange. -/
theorem foldl_lowerWake (ms : List Msg) (wake : Wake) (a : Nat) :
    (∀ t, findWake wake a = some t → ∃ t', findWake (ms.foldl (fun wk m => lowerWake wk m.recipient m.received) wake) a = some t' ∧
        t' ≤ t ∧ (t' = t ∨ ∃ m ∈ ms, m.recipient = a ∧ t' = m.received)) ∧
    (∀ m ∈ ms, m.recipient = a → ∃ t', findWake (ms.foldl (fun wk m => lowerWake wk m.recipient m.received) wake) a = some t' ∧
        t' ≤ m.received) ∧
    (∀ t', findWake (ms.foldl (fun wk m => lowerWake wk m.recipient m.received) wake) a = some t' →
        findWake wake a = some t' ∨ ∃ m ∈ ms, m.recipient = a ∧ t' = m.received) := by
  induction ms generalizing wake with
  | nil =>
    refine ⟨fun t h => ⟨t, h, Nat.le_refl _, .inl rfl⟩, by simp, fun t h => .inl h⟩
  | cons m ms ih =>
    simp only [List.foldl_cons]
    obtain ⟨ih1, ih2, ih3⟩ := ih (lowerWake wake m.recipient m.received)
    refine ⟨?_, ?_, ?_⟩
    · intro t ht
      by_cases ha : a = m.recipient
      · have h1 : findWake (lowerWake wake m.recipient m.received) a = some (min t m.received) := by
          rw [findWake_lowerWake]; subst ha; simp [ht]
        obtain ⟨t', h2, h3, h4⟩ := ih1 _ h1
        refine ⟨t', h2, by omega, ?_⟩
        rcases h4 with h4 | ⟨m', hm', h5⟩
        · by_cases hle : t ≤ m.received
          · left; omega
          · right; exact ⟨m, List.mem_cons_self .., ha.symm, by omega⟩
        · right; exact ⟨m', List.mem_cons_of_mem _ hm', h5⟩
      · have h1 : findWake (lowerWake wake m.recipient m.received) a = some t := by
          rw [findWake_lowerWake]; simp [ha, ht]
        obtain ⟨t', h2, h3, h4⟩ := ih1 _ h1
        refine ⟨t', h2, h3, ?_⟩
        rcases h4 with h4 | ⟨m', hm', h5⟩
        · exact .inl h4
        · exact .inr ⟨m', List.mem_cons_of_mem _ hm', h5⟩
    · intro m' hm' hr
      rcases List.mem_cons.1 hm' with rfl | hm'
      · have h1 : ∃ t, findWake (lowerWake wake m'.recipient m'.received) a = some t ∧ t ≤ m'.received := by
          rw [findWake_lowerWake]
          simp only [hr, if_true]
          split
          · exact ⟨_, rfl, Nat.le_refl _⟩
          · exact ⟨_, rfl, Nat.min_le_right _ _⟩
        obtain ⟨t, h1, h2⟩ := h1
        obtain ⟨t', h3, h4, _⟩ := ih1 t h1
        exact ⟨t', h3, by omega⟩
      · exact ih2 m' hm' hr
    · intro t' ht'
      rcases ih3 t' ht' with h | ⟨m', hm', h5⟩
      · rw [findWake_lowerWake] at h
        by_cases ha : a = m.recipient
        · simp only [ha, if_true] at h
          split at h
          · right; exact ⟨m, List.mem_cons_self .., ha.symm, by simpa using h.symm⟩
          · rename_i s hs
            have h : min s m.received = t' := by simpa using h
            by_cases hle : s ≤ m.received
            · left; rw [ha, hs]; congr 1; omega
            · right; exact ⟨m, List.mem_cons_self .., ha.symm, by omega⟩
        · simp only [ha, if_false] at h
          exact .inl h
      · exact .inr ⟨m', List.mem_cons_of_mem _ hm', h5⟩

/-! ### Rounds -/

theorem job_fields (P : Program σ) (step : Step) (n : Nat) (a : Agent σ) :
    (job P step n a).1.id = a.id ∧ (job P step n a).2.agent = a.id ∧ (job P step n a).2.time = step.lower ∧
    (job P step n a).2.round = n ∧
    (job P step n a).1.inbox = a.inbox.filter (fun e => decide (e.1 > step.lower)) ∧
    (job P step n a).2.due = (a.inbox.filter fun e => decide (e.1 ≤ step.lower)).map (·.2) ∧
    (job P step n a).2.pending = (a.inbox.filter fun e => decide (e.1 > step.lower)).map (·.1) ∧
    (job P step n a).1.outbox = a.outbox ++ (job P step n a).2.sent := by
  unfold job
  simp

theorem mem_putAgent_of_ne (ags : List (Agent σ)) (a x : Agent σ) (hx : x ∈ ags) (h : x.id ≠ a.id) :
    x ∈ putAgent ags a := by
  unfold putAgent
  rw [List.mem_map]
  exact ⟨x, hx, by simp [h]⟩

theorem mem_putAgent (ags : List (Agent σ)) (a x : Agent σ) (hx : x ∈ putAgent ags a) :
    x = a ∨ (x ∈ ags ∧ x.id ≠ a.id) := by
  unfold putAgent at hx
  rw [List.mem_map] at hx
  obtain ⟨y, hy, rfl⟩ := hx
  by_cases h : y.id = a.id
  · simp [h]
  · simp [h]; exact .inr hy

theorem putAgent_ids (ags : List (Agent σ)) (a : Agent σ) : (putAgent ags a).map (·.id) = ags.map (·.id) := by
  unfold putAgent
  rw [List.map_map]
  apply List.map_congr_left
  intro x _
  simp only [Function.comp]
  split
  · rename_i h; exact h.symm
  · rfl

/-- Everything known in the middle of a round, when the agents of `rem` have yet to act. -/
structure Mid (now : Nat) (rem : List (Agent σ)) (w : World σ) : Prop where
  ids : (w.agents.map (·.id)).Nodup
  sub : ∀ a ∈ rem, a ∈ w.agents
  remIds : (rem.map (·.id)).Nodup
  due : ∀ a ∈ rem, findWake w.wake a.id = some now

theorem runJob_ok {P : Program σ} {end_ : Nat} {step : Step} {n : Nat} {a : Agent σ} {w w' : World σ}
    (h : runJob P end_ step n a w = .ok w') :
    step.lower ≤ (job P step n a).2.requested ∧
    w' = ⟨putAgent w.agents (job P step n a).1, setWake w.wake a.id (job P step n a).2.requested,
          determineNext end_ (setWake w.wake a.id (job P step n a).2.requested), w.log ++ [(job P step n a).2]⟩ := by
  unfold runJob at h
  simp only at h
  split at h
  · simp at h
  · rename_i hn
    simp at h
    exact ⟨by omega, h.symm⟩

theorem Mid.step {now : Nat} {a : Agent σ} {rem : List (Agent σ)} {w w' : World σ} (hm : Mid now (a :: rem) w)
    {P : Program σ} {end_ : Nat} {step : Step} {n : Nat} (h : runJob P end_ step n a w = .ok w') :
    Mid now rem w' := by
  obtain ⟨_, rfl⟩ := runJob_ok h
  have hid := (job_fields P step n a).1
  have hr := hm.remIds
  rw [List.map_cons, List.nodup_cons] at hr
  have hne : ∀ x ∈ rem, x.id ≠ a.id := fun x hx e => hr.1 (e ▸ List.mem_map_of_mem hx)
  refine ⟨?_, ?_, hr.2, ?_⟩
  · simp only [putAgent_ids]; exact hm.ids
  · intro x hx
    exact mem_putAgent_of_ne _ _ _ (hm.sub x (List.mem_cons_of_mem _ hx)) (by rw [hid]; exact hne x hx)
  · intro x hx
    simp only
    rw [findWake_setWake, if_neg (hne x hx)]
    exact hm.due x (List.mem_cons_of_mem _ hx)

/-- Induction over the jobs of a round. -/
theorem runJobs_induct {P : Program σ} {end_ : Nat} {step : Step} {n : Nat}
    (I : World σ → Prop)
    (hstep : ∀ (a : Agent σ) (rem : List (Agent σ)) (w w' : World σ), Mid step.lower (a :: rem) w →
      runJob P end_ step n a w = .ok w' → I w → I w')
    (as : List (Agent σ)) (w w' : World σ) (hm : Mid step.lower as w) (h : runJobs P end_ step n as w = .ok w')
    (hI : I w) : I w' := by
  induction as generalizing w with
  | nil => simp [runJobs] at h; subst h; exact hI
  | cons a rem ih =>
    unfold runJobs at h
    cases hj : runJob P end_ step n a w with
    | ok w1 =>
      rw [hj, Outcome.bind_ok] at h
      exact ih w1 (hm.step hj) h (hstep a rem w w1 hm hj hI)
    | throws => rw [hj] at h; simp at h
    | ub => rw [hj] at h; simp at h

/-- A successful round, taken apart. -/
theorem round_ok {P : Program σ} {end_ : Nat} {step : Step} {n : Nat} {w w' : World σ}
    (h : round P end_ step n w = .ok w') :
    ∃ w1 s sent,
      runJobs P end_ step n
        (w.agents.filter fun a => findWake (emplaceMissing step.lower (w.agents.map (·.id)) w.wake) a.id == some step.lower)
        { w with wake := emplaceMissing step.lower (w.agents.map (·.id)) w.wake, first := determineNext end_ w.wake } = .ok w1 ∧
      sendMessages (w1.agents, w1.wake) = .ok (s, sent) ∧
      w' = { w1 with agents := s.1, wake := s.2, first := if 0 < sent then determineNext end_ s.2 else w1.first } := by
  unfold round at h
  simp only at h
  obtain ⟨w1, h1, h2⟩ := Outcome.bind_eq_ok.1 h
  obtain ⟨s, h3, h4⟩ := Outcome.bind_eq_ok.1 h2
  simp only [Outcome.ok.injEq] at h4
  exact ⟨w1, s.1, s.2, h1, h3, h4.symm⟩

end Esl.Sched

namespace Esl.Sched
open Esl.Comm
variable {σ : Type}

theorem emplace_id (now : Nat) (ids : List Nat) (wake : Wake) (h : ∀ i ∈ ids, findWake wake i ≠ none) :
    emplaceMissing now ids wake = wake := by
  induction ids with
  | nil => rfl
  | cons i ids ih =>
    have : emplaceMissing now (i :: ids) wake =
        emplaceMissing now ids (if findWake wake i = none then setWake wake i now else wake) := rfl
    rw [this, if_neg (h i (List.mem_cons_self ..))]
    exact ih fun j hj => h j (List.mem_cons_of_mem _ hj)

/-- The start of a round satisfies `Mid`. -/
theorem mid_start (now : Nat) (w : World σ) (hn : (w.agents.map (·.id)).Nodup) (f : Nat) :
    Mid now (w.agents.filter fun a => findWake (emplaceMissing now (w.agents.map (·.id)) w.wake) a.id == some now)
      { w with wake := emplaceMissing now (w.agents.map (·.id)) w.wake, first := f } := by
  refine ⟨hn, ?_, ?_, ?_⟩
  · intro a ha; exact (List.mem_filter.1 ha).1
  · exact List.Nodup.sublist (List.Sublist.map _ List.filter_sublist) hn
  · intro a ha
    have := (List.mem_filter.1 ha).2
    simpa using this

/-- The exchange succeeded, so all recipients exist. -/
theorem sendMessages_inv {ags : List (Agent σ)} {wake : Wake} (hn : (ags.map (·.id)).Nodup)
    {s : List (Agent σ) × Wake} {k : Nat} (h : sendMessages (ags, wake) = .ok (s, k)) :
    (∀ x ∈ ags, ∀ m ∈ x.outbox, ∃ y ∈ ags, y.id = m.recipient) ∧
    s.1 = (ags.map fun x => { receive (ags.flatMap (·.outbox)) x with outbox := [] }) ∧
    s.2 = (ags.flatMap (·.outbox)).foldl (fun wk m => lowerWake wk m.recipient m.received) wake ∧
    k = (ags.flatMap (·.outbox)).length := by
  by_cases hr : ∀ x ∈ ags, ∀ m ∈ x.outbox, ∃ y ∈ ags, y.id = m.recipient
  · rw [sendMessages_ok ags wake hn hr] at h
    simp only [Outcome.ok.injEq, Prod.mk.injEq] at h
    obtain ⟨rfl, rfl⟩ := h
    exact ⟨hr, rfl, rfl, rfl⟩
  · rw [Classical.not_forall] at hr
    obtain ⟨x, hr⟩ := hr
    rw [Classical.not_imp] at hr
    obtain ⟨hx, hr⟩ := hr
    rw [Classical.not_forall] at hr
    obtain ⟨m, hr⟩ := hr
    rw [Classical.not_imp] at hr
    rw [sendMessages_throws ags wake hn ⟨x, hx, m, hr.1, hr.2⟩] at h
    simp at h

theorem runJobs_first (P : Program σ) (end_ : Nat) (step : Step) (n : Nat) (as : List (Agent σ)) (w w' : World σ)
    (h : runJobs P end_ step n as w = .ok w') :
    (as = [] ∧ w' = w) ∨ w'.first = determineNext end_ w'.wake := by
  induction as generalizing w with
  | nil => simp [runJobs] at h; exact .inl ⟨rfl, h.symm⟩
  | cons a rem ih =>
    unfold runJobs at h
    obtain ⟨w1, h1, h2⟩ := Outcome.bind_eq_ok.1 h
    right
    rcases ih w1 h2 with ⟨_, rfl⟩ | h3
    · obtain ⟨_, rfl⟩ := runJob_ok h1
      rfl
    · exact h3

theorem runJobs_ids (P : Program σ) (end_ : Nat) (step : Step) (n : Nat) (as : List (Agent σ)) (w w' : World σ)
    (h : runJobs P end_ step n as w = .ok w') : w'.agents.map (·.id) = w.agents.map (·.id) := by
  induction as generalizing w with
  | nil => simp [runJobs] at h; rw [h]
  | cons a rem ih =>
    unfold runJobs at h
    obtain ⟨w1, h1, h2⟩ := Outcome.bind_eq_ok.1 h
    obtain ⟨_, rfl⟩ := runJob_ok h1
    rw [ih _ h2]
    exact putAgent_ids _ _

theorem round_ids {P : Program σ} {end_ : Nat} {step : Step} {n : Nat} {w w' : World σ}
    (hn : (w.agents.map (·.id)).Nodup)
    (h : round P end_ step n w = .ok w') : w'.agents.map (·.id) = w.agents.map (·.id) := by
  obtain ⟨w1, s, sent, h1, h2, rfl⟩ := round_ok h
  have e1 := runJobs_ids _ _ _ _ _ _ _ h1
  obtain ⟨_, e2, _, _⟩ := sendMessages_inv (by rw [e1]; exact hn) h2
  simp only [e2, List.map_map, Function.comp_def, receive_id]
  exact e1

theorem round_first {P : Program σ} {end_ : Nat} {step : Step} {n : Nat} {w w' : World σ}
    (hn : (w.agents.map (·.id)).Nodup)
    (h : round P end_ step n w = .ok w') : w'.first = determineNext end_ w'.wake := by
  obtain ⟨w1, s, sent, h1, h2, rfl⟩ := round_ok h
  have e1 := runJobs_ids _ _ _ _ _ _ _ h1
  obtain ⟨_, _, e2, e3⟩ := sendMessages_inv (by rw [e1]; exact hn) h2
  simp only
  by_cases hs : 0 < sent
  · rw [if_pos hs]
  · rw [if_neg hs]
    have hl : w1.agents.flatMap (·.outbox) = [] := List.length_eq_zero_iff.1 (by omega)
    rw [hl, List.foldl_nil] at e2
    rw [e2]
    rcases runJobs_first _ _ _ _ _ _ _ h1 with ⟨he, rfl⟩ | h3
    · simp only
      rw [emplace_id]
      intro i hi hni
      obtain ⟨a, ha, rfl⟩ := List.mem_map.1 hi
      have h4 : findWake (emplaceMissing step.lower (w.agents.map (·.id)) w.wake) a.id = some step.lower := by
        rw [findWake_emplace, hni]; simp only; rw [if_pos hi]
      have : a ∈ (w.agents.filter fun a => findWake (emplaceMissing step.lower (w.agents.map (·.id)) w.wake) a.id == some step.lower) :=
        List.mem_filter.2 ⟨ha, by simp [h4]⟩
      rw [he] at this
      simp at this
    · exact h3

/-- The events of a round extend the log; they happen now and ask for no time before now. -/
theorem runJobs_log (P : Program σ) (end_ : Nat) (step : Step) (n : Nat) (as : List (Agent σ)) (w w' : World σ)
    (h : runJobs P end_ step n as w = .ok w') :
    ∃ l, w'.log = w.log ++ l ∧ l.map (·.agent) = as.map (·.id) ∧
      ∀ e ∈ l, e.time = step.lower ∧ step.lower ≤ e.requested ∧ e.round = n := by
  induction as generalizing w with
  | nil => simp [runJobs] at h; exact ⟨[], by simp [h], rfl, by simp⟩
  | cons a rem ih =>
    unfold runJobs at h
    obtain ⟨w1, h1, h2⟩ := Outcome.bind_eq_ok.1 h
    obtain ⟨hq, rfl⟩ := runJob_ok h1
    obtain ⟨l, h3, h5, h4⟩ := ih _ h2
    have hf := job_fields P step n a
    refine ⟨(job P step n a).2 :: l, by rw [h3]; simp, by simp [h5, hf.2.1], ?_⟩
    intro e he
    rcases List.mem_cons.1 he with rfl | he
    · exact ⟨hf.2.2.1, hq, hf.2.2.2.1⟩
    · exact h4 e he

theorem round_log {P : Program σ} {end_ : Nat} {step : Step} {n : Nat} {w w' : World σ}
    (h : round P end_ step n w = .ok w') :
    ∃ l, w'.log = w.log ++ l ∧
      l.map (·.agent) = (w.agents.filter fun a => findWake (emplaceMissing step.lower (w.agents.map (·.id)) w.wake) a.id == some step.lower).map (·.id) ∧
      ∀ e ∈ l, e.time = step.lower ∧ step.lower ≤ e.requested ∧ e.round = n := by
  obtain ⟨w1, s, sent, h1, h2, rfl⟩ := round_ok h
  have := runJobs_log _ _ _ _ _ _ _ h1
  exact this

/-- Induction over the rounds of a step. -/
theorem stepLoop_induct {P : Program σ} {end_ : Nat} {step : Step} (I : World σ → Prop)
    (hround : ∀ n w w', I w → round P end_ step n w = .ok w' → I w')
    (fuel n : Nat) (w w' : World σ) (h : stepLoop P end_ step fuel n w = some (.ok w')) (hI : I w) :
    I w' := by
  induction fuel generalizing n w with
  | zero => simp [stepLoop] at h
  | succ fuel ih =>
    unfold stepLoop at h
    cases hr : round P end_ step n w with
    | ok w1 =>
      rw [hr] at h
      simp only at h
      split at h
      · exact ih _ _ h (hround _ _ _ hI hr)
      · simp at h; subst h; exact hround _ _ _ hI hr
    | throws => rw [hr] at h; simp at h
    | ub => rw [hr] at h; simp at h

/-- The last round of a completed step. -/
theorem stepLoop_last {P : Program σ} {end_ : Nat} {step : Step}
    (fuel n : Nat) (w w' : World σ) (hn : (w.agents.map (·.id)).Nodup)
    (h : stepLoop P end_ step fuel n w = some (.ok w')) :
    step.lower < w'.first ∧ w'.first = determineNext end_ w'.wake ∧ w'.agents.map (·.id) = w.agents.map (·.id) := by
  induction fuel generalizing n w with
  | zero => simp [stepLoop] at h
  | succ fuel ih =>
    unfold stepLoop at h
    cases hr : round P end_ step n w with
    | ok w1 =>
      rw [hr] at h
      simp only at h
      have hid := round_ids hn hr
      split at h
      · have := ih _ _ (by rw [hid]; exact hn) h
        exact ⟨this.1, this.2.1, this.2.2.trans hid⟩
      · rename_i hlt
        simp at h; subst h
        exact ⟨by omega, round_first hn hr, hid⟩
    | throws => rw [hr] at h; simp at h
    | ub => rw [hr] at h; simp at h

theorem stepLoop_log {P : Program σ} {end_ : Nat} {step : Step}
    (fuel n : Nat) (w w' : World σ) (h : stepLoop P end_ step fuel n w = some (.ok w')) :
    ∃ l, w'.log = w.log ++ l ∧ ∀ e ∈ l, e.time = step.lower ∧ step.lower ≤ e.requested := by
  refine stepLoop_induct (I := fun v => ∃ l, v.log = w.log ++ l ∧ ∀ e ∈ l, e.time = step.lower ∧ step.lower ≤ e.requested)
    ?_ fuel n w w' h ⟨[], by simp, by simp⟩
  rintro n v v' ⟨l, h1, h2⟩ hr
  obtain ⟨l', h3, _, h4⟩ := round_log hr
  refine ⟨l ++ l', by rw [h3, h1, List.append_assoc], ?_⟩
  intro e he
  rcases List.mem_append.1 he with he | he
  · exact h2 e he
  · exact ⟨(h4 e he).1, (h4 e he).2.1⟩

end Esl.Sched
