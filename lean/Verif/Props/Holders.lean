import Verif.Model.Holders
import Verif.Lemmas.Ledger
import Verif.Lemmas.Inventory
/-! # C139: property is conserved over a whole simulation -/
namespace Esl.Holders
open Esl.Comm Esl.Sched Esl.Inventory Esl.Ledger Esl.Inventory.Spec
variable {τ : Type}

/-! ## Specification -/

/-- A callback or an action that leaves the inventory alone, and does not undo an exception. -/
def Spec.Neutral (f : Holder τ → Msg → Step → Holder τ × List Msg × Nat) : Prop := ∀ s m step, (f s m step).1.inventory = s.inventory ∧ (s.failed = true → (f s m step).1.failed = true)

/-- A simulation in which all agents are owners: they have the callback for transfers, and besides it any callbacks for any messages, and do anything when they act, except for changing the inventory directly. They may
look at it, send any messages and throw exceptions. -/
structure Spec.Owners (decode : Nat → Transfer) (P : Program (Holder τ)) : Prop where
  shuffles : ∀ i t r, Comm.Spec.IsShuffle (P.shuffle i t r)
  transfers : ∀ i r, ∃ before p after, P.handlers i r transferCode = before ++ (p, transferEntry decode i) :: after ∧ ∀ e ∈ before ++ after, Spec.Neutral e.2.function
  others : ∀ i r c, c ≠ transferCode → ∀ e ∈ P.handlers i r c, Spec.Neutral e.2.function
  acts : ∀ i r, Spec.Neutral fun s _ step => P.act i r s step

/-- The copies of transfers among messages: who gets the copy, and the transfer. -/
def Spec.copies (decode : Nat → Transfer) (ms : List Msg) : List (Nat × Transfer) := (ms.filter fun m => m.type == transferCode).map fun m => (m.recipient, decode m.payload)

/-- The transfers on their way. -/
def Spec.underway (decode : Nat → Transfer) (w : World (Holder τ)) : List (Nat × Transfer) := Spec.copies decode (w.agents.flatMap fun a => a.inbox.map (·.2) ++ a.outbox)

/-- The amount of property `k` that the copy tells its recipient to add. -/
def Spec.incoming (k : Nat) (c : Nat × Transfer) : Nat := if c.2.transferor ≠ c.2.transferee ∧ c.1 = c.2.transferee then inBundle c.2.items k else 0

/-- The amount of property `k` that the copy tells its recipient to remove. -/
def Spec.outgoing (k : Nat) (c : Nat × Transfer) : Nat := if c.2.transferor ≠ c.2.transferee ∧ c.1 = c.2.transferor then inBundle c.2.items k else 0

/-- The amount of property `k` that all agents hold. -/
def Spec.totalHeld (w : World (Holder τ)) (k : Nat) : Nat := (w.agents.map fun a => held a.state.inventory k).sum

/-- Every inbox is ordered by time and holds messages for its agent only. -/
def Spec.Inboxes (w : World (Holder τ)) : Prop := ∀ a ∈ w.agents, Comm.Spec.InboxSorted a.inbox ∧ ∀ e ∈ a.inbox, e.2.recipient = a.id

/-! ## Lemmas -/

theorem congruent_relates : Relates (fun a b : Int => a % 2 ^ 64 = b % 2 ^ 64) where
  refl := fun _ => rfl
  trans := fun _ _ _ h1 h2 => h1.trans h2
  add := fun a b c h => by
    show (a + c) % 2 ^ 64 = (b + c) % 2 ^ 64
    rw [Int.add_emod, h, ← Int.add_emod]

theorem le_relates : Relates (fun a b : Int => a ≤ b) where
  refl := fun _ => Int.le_refl _
  trans := fun _ _ _ h1 h2 => Int.le_trans h1 h2
  add := fun _ _ c h => Int.add_le_add_right h c

theorem neutral_run (step : Step) (m : Msg) (l : Handlers (Holder τ)) (h : ∀ e ∈ l, Spec.Neutral e.2.function) (r : Run (Holder τ)) (first : Nat) :
    (runCallbacks step m l (r, first)).1.agent.inventory = r.agent.inventory ∧ (r.agent.failed = true → (runCallbacks step m l (r, first)).1.agent.failed = true) := by
  induction l generalizing r first with
  | nil => exact ⟨rfl, id⟩
  | cons e l ih =>
    obtain ⟨p, f⟩ := e
    rw [runCallbacks]
    simp only
    obtain ⟨h1, h2⟩ := ih (fun e he => h e (List.mem_cons_of_mem _ he)) ⟨(f.function r.agent m step).1, r.outbox ++ (f.function r.agent m step).2.1, r.calls ++ [(m, p, f.line)]⟩ (min first (f.function r.agent m step).2.2)
    obtain ⟨h3, h4⟩ := h (p, f) (List.mem_cons_self ..) r.agent m step
    exact ⟨h1.trans h3, fun hf => h2 (h4 hf)⟩

theorem runCallbacks_append (step : Step) (m : Msg) (l l' : Handlers (Holder τ)) (s : Run (Holder τ) × Nat) : runCallbacks step m (l ++ l') s = runCallbacks step m l' (runCallbacks step m l s) := by
  induction l generalizing s with
  | nil => rfl
  | cons e l ih =>
    obtain ⟨p, f⟩ := e
    obtain ⟨r, first⟩ := s
    rw [List.cons_append, runCallbacks, runCallbacks]
    exact ih _

/-- What a message does to the inventory of its recipient. -/
theorem message_owner {decode : Nat → Transfer} {hs : Nat → Handlers (Holder τ)} (i : Nat)
    (ht : ∃ before p after, hs transferCode = before ++ (p, transferEntry decode i) :: after ∧ ∀ e ∈ before ++ after, Spec.Neutral e.2.function)
    (ho : ∀ c, c ≠ transferCode → ∀ e ∈ hs c, Spec.Neutral e.2.function) (step : Step) (m : Msg) (run : Run (Holder τ)) (hal : (processMessage hs step m run).1.agent.failed = false) :
    run.agent.failed = false ∧ (m.type ≠ transferCode → (processMessage hs step m run).1.agent.inventory = run.agent.inventory) ∧
      (m.type = transferCode → baseCallback i run.agent.inventory (decode m.payload) = ((processMessage hs step m run).1.agent.inventory, false)) := by
  unfold processMessage at hal ⊢
  by_cases hc : m.type = transferCode
  · obtain ⟨before, p, after, e, hn⟩ := ht
    rw [hc, e] at hal ⊢
    rw [List.reverse_append, List.reverse_cons, List.append_assoc, runCallbacks_append, List.singleton_append] at hal ⊢
    have ha : ∀ e ∈ after.reverse, Spec.Neutral e.2.function := fun e he => hn e (List.mem_append_right _ (List.mem_reverse.1 he))
    have hb : ∀ e ∈ before.reverse, Spec.Neutral e.2.function := fun e he => hn e (List.mem_append_left _ (List.mem_reverse.1 he))
    obtain ⟨a1, a2⟩ := neutral_run step m after.reverse ha run step.upper
    generalize runCallbacks step m after.reverse (run, step.upper) = s at *
    obtain ⟨s, first⟩ := s
    rw [runCallbacks] at hal ⊢
    have hf : (transferEntry decode i).function s.agent m step =
        ({ s.agent with inventory := (baseCallback i s.agent.inventory (decode m.payload)).1, failed := s.agent.failed || (baseCallback i s.agent.inventory (decode m.payload)).2 }, [], step.upper) := rfl
    rw [hf] at hal ⊢
    simp only at hal ⊢ a1 a2
    obtain ⟨b1, b2⟩ := neutral_run step m before.reverse hb
      ⟨{ s.agent with inventory := (baseCallback i s.agent.inventory (decode m.payload)).1, failed := s.agent.failed || (baseCallback i s.agent.inventory (decode m.payload)).2 }, s.outbox ++ [],
        s.calls ++ [(m, p, (transferEntry (τ := τ) decode i).line)]⟩ (min first step.upper)
    simp only at b1 b2
    have hs : (s.agent.failed || (baseCallback i s.agent.inventory (decode m.payload)).2) = false := by
      cases hx : (s.agent.failed || (baseCallback i s.agent.inventory (decode m.payload)).2) with
      | false => rfl
      | true => rw [b2 hx] at hal; exact absurd hal (by simp)
    rw [Bool.or_eq_false_iff] at hs
    refine ⟨?_, fun hx => absurd rfl hx, fun _ => ?_⟩
    · cases hx : run.agent.failed with
      | false => rfl
      | true => rw [a2 hx] at hs; exact absurd hs.1 (by simp)
    · rw [b1, ← a1]
      exact Prod.ext rfl hs.2
  · obtain ⟨n1, n2⟩ := neutral_run step m (hs m.type).reverse (fun e he => ho _ hc e (List.mem_reverse.1 he)) run step.upper
    refine ⟨?_, fun _ => n1, fun hx => absurd hx hc⟩
    cases hx : run.agent.failed with
    | false => rfl
    | true => rw [n2 hx] at hal; exact absurd hal (by simp)

/-- The laws of ledgers for owners. -/
theorem Spec.Owners.law {decode : Nat → Transfer} {P : Program (Holder τ)} (h : Spec.Owners decode P) {rel : Int → Int → Prop} (R : Relates rel) (value : Inv → Int) (weight : Nat × Transfer → Int)
    (hb : ∀ i m t m', baseCallback i m t = (m', false) → rel (value m') (value m + weight (i, t))) :
    Law rel (fun s : Holder τ => s.failed = false) (fun _ s => value s.inventory) (fun m => if m.type == transferCode then weight (m.recipient, decode m.payload) else 0) P where
  shuffles := h.shuffles
  message := fun i r step m run hi hal => by
    obtain ⟨h1, h2, h3⟩ := message_owner i (h.transfers i r) (h.others i r) step m run hal
    refine ⟨h1, ?_⟩
    by_cases hc : m.type = transferCode
    · rw [if_pos (by simp [hc]), hi]
      exact hb _ _ _ _ (h3 hc)
    · rw [if_neg (by simp [hc]), h2 hc, Int.add_zero]
      exact R.refl _
  act := fun i r s step hal => by
    obtain ⟨h1, h2⟩ := h.acts i r s ⟨0, 0, 0, 0, 0, 0⟩ step
    simp only at h1 h2 ⊢
    rw [h1]
    refine ⟨?_, R.refl _⟩
    cases hx : s.failed with
    | false => rfl
    | true => rw [h2 hx] at hal; exact absurd hal (by simp)

theorem held_insertInto_mod (b : Bundle) (m : Inv) (k : Nat) : held (insertInto b m) k % 2 ^ 64 = (held m k + inBundle b k) % 2 ^ 64 ∧ held (insertInto b m) k ≤ held m k + inBundle b k := by
  induction b generalizing m with
  | nil => simp [insertInto, inBundle_nil]
  | cons x b ih =>
    obtain ⟨j, v⟩ := x
    rw [inBundle_cons]
    unfold insertInto
    cases hm : m j with
    | none =>
      simp only
      have e : held (m.set j (some v)) k = held m k + (if j = k then v else 0) := by
        rw [held_set]
        by_cases hk : k = j
        · subst hk; simp [held, hm]
        · rw [if_neg hk, if_neg (fun e => hk e.symm)]; rfl
      have := ih (m.set j (some v))
      rw [e] at this
      rw [← Nat.add_assoc]
      exact this
    | some a =>
      simp only
      have e : held (m.set j (some (u64 (a + v)))) k % 2 ^ 64 = (held m k + (if j = k then v else 0)) % 2 ^ 64 ∧ held (m.set j (some (u64 (a + v)))) k ≤ held m k + (if j = k then v else 0) := by
        rw [held_set]
        by_cases hk : k = j
        · subst hk
          have ha : held m k = a := by simp [held, hm]
          simp only [if_true, Option.getD_some, ha]
          unfold u64
          exact ⟨Nat.mod_mod _ _, Nat.mod_le _ _⟩
        · rw [if_neg hk, if_neg (fun e => hk e.symm)]
          exact ⟨rfl, Nat.le_refl _⟩
      have := ih (m.set j (some (u64 (a + v))))
      rw [← Nat.add_assoc]
      refine ⟨?_, by omega⟩
      rw [this.1, Nat.add_mod, e.1, ← Nat.add_mod]

/-- What the callback does to the amount held. -/
theorem base_effect (i k : Nat) (m m' : Inv) (t : Transfer) (h : baseCallback i m t = (m', false)) :
    (held m' k + Spec.outgoing k (i, t)) % 2 ^ 64 = (held m k + Spec.incoming k (i, t)) % 2 ^ 64 ∧ held m' k ≤ held m k + Spec.incoming k (i, t) := by
  unfold baseCallback at h
  unfold Spec.outgoing Spec.incoming
  simp only
  by_cases he : t.transferor = t.transferee
  · rw [if_pos he] at h
    simp at h
    subst h
    rw [if_neg (fun x => x.1 he), if_neg (fun x => x.1 he)]
    exact ⟨rfl, Nat.le_refl _⟩
  · rw [if_neg he] at h
    by_cases h1 : i = t.transferor
    · rw [if_pos h1] at h
      have := held_eraseFrom _ _ _ h k
      rw [if_pos ⟨he, h1⟩, if_neg (fun x => he (h1 ▸ x.2))]
      exact ⟨by rw [this]; rfl, by omega⟩
    · rw [if_neg h1] at h
      by_cases h2 : i = t.transferee
      · rw [if_pos h2] at h
        simp at h
        subst h
        rw [if_neg (fun x => h1 x.2), if_pos ⟨he, h2⟩]
        exact held_insertInto_mod _ _ _
      · rw [if_neg h2] at h
        simp at h
        subst h
        rw [if_neg (fun x => h1 x.2), if_neg (fun x => h2 x.2)]
        exact ⟨rfl, Nat.le_refl _⟩

theorem weigh_copies (decode : Nat → Transfer) (weight : Nat × Transfer → Nat) (ms : List Msg) :
    weigh (fun m => if m.type == transferCode then ((weight (m.recipient, decode m.payload) : Nat) : Int) else 0) ms = (((Spec.copies decode ms).map weight).sum : Nat) := by
  induction ms with
  | nil => rfl
  | cons m ms ih =>
    rw [weigh_cons, ih]
    unfold Spec.copies
    cases h : m.type == transferCode <;> simp [h]

theorem weigh_difference (decode : Nat → Transfer) (f g : Nat × Transfer → Nat) (ms : List Msg) :
    weigh (fun m => if m.type == transferCode then ((f (m.recipient, decode m.payload) : Nat) : Int) - (g (m.recipient, decode m.payload) : Nat) else 0) ms =
      (((Spec.copies decode ms).map f).sum : Nat) - (((Spec.copies decode ms).map g).sum : Nat) := by
  induction ms with
  | nil => rfl
  | cons m ms ih =>
    rw [weigh_cons, ih]
    unfold Spec.copies
    cases h : m.type == transferCode <;> simp [h] <;> omega

theorem copies_append (decode : Nat → Transfer) (l m : List Msg) : Spec.copies decode (l ++ m) = Spec.copies decode l ++ Spec.copies decode m := by
  simp [Spec.copies]

/-- The ledger, in the terms of the specification. -/
theorem ledger_underway (decode : Nat → Transfer) (value : Inv → Nat) (weight : Msg → Int) (w : World (Holder τ)) :
    ledger (fun _ s => ((value s.inventory : Nat) : Int)) weight w.agents = ((w.agents.map fun a => value a.state.inventory).sum : Nat) + weigh weight (w.agents.flatMap fun a => a.inbox.map (·.2) ++ a.outbox) := by
  unfold ledger
  induction w.agents with
  | nil => rfl
  | cons a l ih =>
    rw [List.map_cons, List.sum_cons, ih, List.flatMap_cons, weigh_append, weigh_append, List.map_cons, List.sum_cons]
    unfold flow
    simp only
    omega

/-- The three ledgers of owners: what is held and what is on its way, modulo `2 ^ 64`; an upper bound; and the transfers that transferors have yet to make. -/
theorem ledgers {decode : Nat → Transfer} {P : Program (Holder τ)} (hP : Spec.Owners decode P) (start end_ fuel n k : Nat) (w w' : World (Holder τ)) (ts : List Nat) (hu : Sched.Spec.UniqueIds w) (hl : w.log = [])
    (hin : Spec.Inboxes w) (h : runLoop P end_ fuel n start w = some (.ok (w', ts))) (hal : ∀ a ∈ w'.agents, a.state.failed = false) :
    (Spec.totalHeld w' k + ((Spec.underway decode w').map (Spec.incoming k)).sum + ((Spec.underway decode w ++ Spec.copies decode (w'.log.flatMap (·.sent))).map (Spec.outgoing k)).sum) % 2 ^ 64 =
      (Spec.totalHeld w k + ((Spec.underway decode w ++ Spec.copies decode (w'.log.flatMap (·.sent))).map (Spec.incoming k)).sum + ((Spec.underway decode w').map (Spec.outgoing k)).sum) % 2 ^ 64 ∧
    Spec.totalHeld w' k + ((Spec.underway decode w').map (Spec.incoming k)).sum ≤ Spec.totalHeld w k + ((Spec.underway decode w ++ Spec.copies decode (w'.log.flatMap (·.sent))).map (Spec.incoming k)).sum ∧
    ((Spec.underway decode w').map (Spec.outgoing k)).sum ≤ ((Spec.underway decode w ++ Spec.copies decode (w'.log.flatMap (·.sent))).map (Spec.outgoing k)).sum := by
  have A := ledger_run congruent_relates (hP.law congruent_relates (fun m => ((held m k : Nat) : Int)) (fun c => ((Spec.incoming k c : Nat) : Int) - (Spec.outgoing k c : Nat)) (fun i m t m' hb => by
    have := (base_effect i k m m' t hb).1
    omega)) start end_ fuel n w w' ts hu hl hin h hal
  have B := ledger_run le_relates (hP.law le_relates (fun m => ((held m k : Nat) : Int)) (fun c => ((Spec.incoming k c : Nat) : Int)) (fun i m t m' hb => by
    have := (base_effect i k m m' t hb).2
    omega)) start end_ fuel n w w' ts hu hl hin h hal
  have C := ledger_run le_relates (hP.law le_relates (fun _ => ((0 : Nat) : Int)) (fun c => ((Spec.outgoing k c : Nat) : Int)) (fun i m t m' hb => by
    omega)) start end_ fuel n w w' ts hu hl hin h hal
  rw [ledger_underway decode (fun m => held m k), ledger_underway decode (fun m => held m k), weigh_difference, weigh_difference, weigh_difference] at A
  rw [ledger_underway decode (fun m => held m k), ledger_underway decode (fun m => held m k), weigh_copies decode (Spec.incoming k), weigh_copies decode (Spec.incoming k), weigh_copies decode (Spec.incoming k)] at B
  rw [ledger_underway decode (fun _ => 0), ledger_underway decode (fun _ => 0), weigh_copies decode (Spec.outgoing k), weigh_copies decode (Spec.outgoing k), weigh_copies decode (Spec.outgoing k)] at C
  have zero : ∀ l : List (Agent (Holder τ)), (l.map fun _ => 0).sum = 0 := fun l => by
    induction l with
    | nil => rfl
    | cons x l ih => rw [List.map_cons, List.sum_cons, ih]
  rw [zero, zero] at C
  simp only [List.map_append, List.sum_append]
  unfold Spec.totalHeld Spec.underway
  refine ⟨?_, ?_, ?_⟩ <;> omega

/-- The two copies of a transfer balance. -/
theorem balanced (k : Nat) (transfers : List Transfer) (cs : List (Nat × Transfer)) (h : cs.Perm (transfers.flatMap fun t => [(t.transferor, t), (t.transferee, t)])) :
    (cs.map (Spec.incoming k)).sum = (cs.map (Spec.outgoing k)).sum ∧ (cs.map (Spec.incoming k)).sum ≤ (transfers.map fun t => inBundle t.items k).sum := by
  rw [perm_sum_nat (h.map (Spec.incoming k)), perm_sum_nat (h.map (Spec.outgoing k))]
  clear h
  induction transfers with
  | nil => exact ⟨rfl, Nat.le_refl _⟩
  | cons t l ih =>
    simp only [List.flatMap_cons, List.map_append, List.sum_append, List.map_cons, List.sum_cons, List.map_nil, List.sum_nil]
    have e : Spec.incoming k (t.transferor, t) = 0 ∧ Spec.outgoing k (t.transferee, t) = 0 ∧ Spec.incoming k (t.transferee, t) = Spec.outgoing k (t.transferor, t) ∧ Spec.incoming k (t.transferee, t) ≤ inBundle t.items k := by
      unfold Spec.incoming Spec.outgoing
      by_cases he : t.transferor = t.transferee <;> simp [he, Ne.symm]
    omega

/-! ## C139 -/

/-- **C139, with transfers on their way (partial).** In any simulation of owners that completes without an exception: let every transfer, whether on its way at the start or sent during the simulation, be sent once to its transferor and
once to its transferee, by whomever, with any delays. Then what all agents hold at the end, together with what transferees have yet to receive, is what they held at the start, together with what transferors have yet to give. This holds for every
property, whatever else agents do, and whatever the order in which messages are handled. Amounts are assumed to fit into 64 bits; see `C139_modular` for amounts that do not. -/
theorem C139_in_transit_partial {decode : Nat → Transfer} {P : Program (Holder τ)} (hP : Spec.Owners decode P) (start end_ fuel n k : Nat) (w w' : World (Holder τ)) (ts : List Nat) (hu : Sched.Spec.UniqueIds w) (hl : w.log = [])
    (hin : Spec.Inboxes w) (h : runLoop P end_ fuel n start w = some (.ok (w', ts))) (hal : ∀ a ∈ w'.agents, a.state.failed = false) (transfers : List Transfer)
    (hpairs : (Spec.underway decode w ++ Spec.copies decode (w'.log.flatMap (·.sent))).Perm (transfers.flatMap fun t => [(t.transferor, t), (t.transferee, t)]))
    (hsmall : Spec.totalHeld w k + (transfers.map fun t => inBundle t.items k).sum < 2 ^ 64) :
    Spec.totalHeld w' k + ((Spec.underway decode w').map (Spec.incoming k)).sum = Spec.totalHeld w k + ((Spec.underway decode w').map (Spec.outgoing k)).sum := by
  obtain ⟨h1, h2, h3⟩ := ledgers hP start end_ fuel n k w w' ts hu hl hin h hal
  obtain ⟨b1, b2⟩ := balanced k transfers _ hpairs
  omega

/-- **C139 (partial).** Once no transfer is on its way, all agents together hold exactly what they held at the start. -/
theorem C139_conserved_partial {decode : Nat → Transfer} {P : Program (Holder τ)} (hP : Spec.Owners decode P) (start end_ fuel n k : Nat) (w w' : World (Holder τ)) (ts : List Nat) (hu : Sched.Spec.UniqueIds w) (hl : w.log = [])
    (hin : Spec.Inboxes w) (h : runLoop P end_ fuel n start w = some (.ok (w', ts))) (hal : ∀ a ∈ w'.agents, a.state.failed = false) (transfers : List Transfer)
    (hpairs : (Spec.underway decode w ++ Spec.copies decode (w'.log.flatMap (·.sent))).Perm (transfers.flatMap fun t => [(t.transferor, t), (t.transferee, t)]))
    (hsmall : Spec.totalHeld w k + (transfers.map fun t => inBundle t.items k).sum < 2 ^ 64) (hdone : Spec.underway decode w' = []) : Spec.totalHeld w' k = Spec.totalHeld w k := by
  have := C139_in_transit_partial hP start end_ fuel n k w w' ts hu hl hin h hal transfers hpairs hsmall
  rw [hdone] at this
  simpa using this

/-- **C139, modulo the range of amounts.** Without any assumption on amounts, the same holds modulo `2 ^ 64`. -/
theorem C139_modular {decode : Nat → Transfer} {P : Program (Holder τ)} (hP : Spec.Owners decode P) (start end_ fuel n k : Nat) (w w' : World (Holder τ)) (ts : List Nat) (hu : Sched.Spec.UniqueIds w) (hl : w.log = [])
    (hin : Spec.Inboxes w) (h : runLoop P end_ fuel n start w = some (.ok (w', ts))) (hal : ∀ a ∈ w'.agents, a.state.failed = false) (transfers : List Transfer)
    (hpairs : (Spec.underway decode w ++ Spec.copies decode (w'.log.flatMap (·.sent))).Perm (transfers.flatMap fun t => [(t.transferor, t), (t.transferee, t)])) :
    (Spec.totalHeld w' k + ((Spec.underway decode w').map (Spec.incoming k)).sum) % 2 ^ 64 = (Spec.totalHeld w k + ((Spec.underway decode w').map (Spec.outgoing k)).sum) % 2 ^ 64 := by
  obtain ⟨h1, -, -⟩ := ledgers hP start end_ fuel n k w w' ts hu hl hin h hal
  obtain ⟨b1, -⟩ := balanced k transfers _ hpairs
  omega

/-! ## A simulation with two owners and a broker -/

/-- The broker (agent 2) orders at time 0 that agent 0 gives agent 1 five units of property 7, which takes two units of time to reach agent 1. -/
def brokered (owners : Nat → Bool) : Program (Holder Unit) where
  handlers := fun i _ c => if c = transferCode ∧ owners i = true then [(50, transferEntry (fun p => ⟨0, 1, [(7, p)]⟩) i)] else []
  act := fun i _ s step => (s, if i = 2 ∧ step.lower = 0 then [⟨transferCode, 2, 0, 0, 1, 5⟩, ⟨transferCode, 2, 1, 0, 3, 5⟩] else [], step.upper)
  shuffle := fun _ _ _ l => l

/-- Agent 0 holds `a` units of property 7 and agent 1 holds `b`. -/
def holders (a b : Nat) : World (Holder Unit) :=
  ⟨[⟨0, ⟨Inv.empty.set 7 (some a), false, ()⟩, [], []⟩, ⟨1, ⟨Inv.empty.set 7 (some b), false, ()⟩, [], []⟩, ⟨2, ⟨Inv.empty, false, ()⟩, [], []⟩], [], 0, []⟩

theorem brokered_owners : Spec.Owners (fun p => ⟨0, 1, [(7, p)]⟩) (brokered fun _ => true) where
  shuffles := fun _ _ _ _ => List.Perm.refl _
  transfers := fun i r => ⟨[], 50, [], by simp [brokered], by simp⟩
  others := fun i r c hc e he => by simp [brokered, hc] at he
  acts := fun i r s m step => ⟨rfl, id⟩

/-- The simulation to time 10 meets all hypotheses of C139 and ends with 5 and 8 units. -/
example : ∃ w' ts, runLoop (brokered fun _ => true) 10 5 5 0 (holders 10 3) = some (.ok (w', ts)) ∧ Sched.Spec.UniqueIds (holders 10 3) ∧ Spec.Inboxes (holders 10 3) ∧ (∀ a ∈ w'.agents, a.state.failed = false) ∧
    (Spec.underway (fun p => ⟨0, 1, [(7, p)]⟩) (holders 10 3) ++ Spec.copies (fun p => ⟨0, 1, [(7, p)]⟩) (w'.log.flatMap (·.sent))).Perm ([(⟨0, 1, [(7, 5)]⟩ : Transfer)].flatMap fun t => [(t.transferor, t), (t.transferee, t)]) ∧
    Spec.totalHeld (holders 10 3) 7 + ([(⟨0, 1, [(7, 5)]⟩ : Transfer)].map fun t => inBundle t.items 7).sum < 2 ^ 64 ∧ Spec.underway (fun p => ⟨0, 1, [(7, p)]⟩) w' = [] ∧ w'.agents.map (fun a => held a.state.inventory 7) = [5, 8, 0] := by
  refine ⟨_, _, rfl, by unfold Sched.Spec.UniqueIds holders; simp, by unfold Spec.Inboxes holders Comm.Spec.InboxSorted; simp, ?_, ?_, by decide, rfl, rfl⟩
  · intro a ha
    have : a.state.failed ∈ [false, false, false] := List.mem_map_of_mem (f := fun a : Agent (Holder Unit) => a.state.failed) ha
    simpa using this
  · exact List.Perm.refl _

/-- If the simulation ends at time 2, agent 1 has yet to receive the 5 units that agent 0 gave. -/
example : ∃ w' ts, runLoop (brokered fun _ => true) 2 5 5 0 (holders 10 3) = some (.ok (w', ts)) ∧ w'.agents.map (fun a => held a.state.inventory 7) = [5, 3, 0] ∧
    Spec.underway (fun p => ⟨0, 1, [(7, p)]⟩) w' = [(1, ⟨0, 1, [(7, 5)]⟩)] := ⟨_, _, rfl, rfl, rfl⟩

/-- **C139 (negation).** A transfer to an agent that is not an owner destroys what is transferred, without an exception: the message has no callback and is dropped. -/
theorem C139_counterexample_no_owner : ∃ w' ts, runLoop (brokered fun i => i == 0) 10 5 5 0 (holders 10 3) = some (.ok (w', ts)) ∧ (∀ a ∈ w'.agents, a.state.failed = false) ∧
    (Spec.copies (fun p => ⟨0, 1, [(7, p)]⟩) (w'.log.flatMap (·.sent))).Perm ([(⟨0, 1, [(7, 5)]⟩ : Transfer)].flatMap fun t => [(t.transferor, t), (t.transferee, t)]) ∧
    Spec.underway (fun p => ⟨0, 1, [(7, p)]⟩) w' = [] ∧ Spec.totalHeld (holders 10 3) 7 = 13 ∧ Spec.totalHeld w' 7 = 8 := by
  refine ⟨_, _, rfl, ?_, List.Perm.refl _, rfl, rfl, rfl⟩
  intro a ha
  have : a.state.failed ∈ [false, false, false] := List.mem_map_of_mem (f := fun a : Agent (Holder Unit) => a.state.failed) ha
  simpa using this

/-- **C139 (negation, large amounts).** If the recipient holds almost `2 ^ 64` units, the amount wraps around and `2 ^ 64` units are lost, without an exception. -/
theorem C139_counterexample_wrap : ∃ w' ts, runLoop (brokered fun _ => true) 10 5 5 0 (holders 10 (2 ^ 64 - 1)) = some (.ok (w', ts)) ∧ (∀ a ∈ w'.agents, a.state.failed = false) ∧
    (Spec.copies (fun p => ⟨0, 1, [(7, p)]⟩) (w'.log.flatMap (·.sent))).Perm ([(⟨0, 1, [(7, 5)]⟩ : Transfer)].flatMap fun t => [(t.transferor, t), (t.transferee, t)]) ∧
    Spec.underway (fun p => ⟨0, 1, [(7, p)]⟩) w' = [] ∧ Spec.totalHeld (holders 10 (2 ^ 64 - 1)) 7 = 2 ^ 64 + 9 ∧ Spec.totalHeld w' 7 = 9 := by
  refine ⟨_, _, rfl, ?_, List.Perm.refl _, rfl, by decide, by decide⟩
  intro a ha
  have : a.state.failed ∈ [false, false, false] := List.mem_map_of_mem (f := fun a : Agent (Holder Unit) => a.state.failed) ha
  simpa using this

end Esl.Holders
