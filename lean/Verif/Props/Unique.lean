import Verif.Lemmas.Unique
/-! # C135, C136: owners of unique property, inventories as a whole -/
namespace Esl.Unique
open Inventory Inventory.Spec

/-! ## C135: unique property -/

/-- The amount of item `k` that was given away and not received yet. A transfer to oneself moves nothing. -/
def Spec.inTransit (ts : List Transfer) (k : Nat) : Nat := (ts.map fun t => if t.transferor = t.transferee then 0 else inBundle t.items k).sum

/-- The set of unique items of an owner contains exactly the items of the type that its inventory holds. -/
def Spec.Agrees (isT : Nat → Bool) (o : Owner) : Prop := ∀ k, o.items k = true ↔ isT k = true ∧ 1 ≤ held o.inventory k

theorem inTransit_erase (ts : List Transfer) (t : Transfer) (k : Nat) (h : t ∈ ts) :
    Spec.inTransit (ts.erase t) k + (if t.transferor = t.transferee then 0 else inBundle t.items k) = Spec.inTransit ts k := by
  have := perm_sum_nat ((List.perm_cons_erase h).map fun t : Transfer => if t.transferor = t.transferee then 0 else inBundle t.items k)
  unfold Spec.inTransit
  rw [this, List.map_cons, List.sum_cons]
  omega

/-- The owner that processes a message in an event. -/
def Spec.actor : Event → Nat
  | .give t => t.transferor
  | .get t => t.transferee

/-- One event keeps the amount of an item that is owned or in transit. -/
theorem step_conserves (isT : Key → Bool) (n k : Nat) (w w' : World) (e : Event)
    (hn : Spec.actor e < n)
    (hs : total n w.inv k + Spec.inTransit w.pending k < 2 ^ 64) (h : step isT w e = .ok w') :
    total n w'.inv k + Spec.inTransit w'.pending k = total n w.inv k + Spec.inTransit w.pending k := by
  cases e with
  | give t =>
    simp only [Spec.actor] at hn
    unfold step at h
    simp only at h
    cases hp : (w.owners t.transferor).process isT t.transferor t with
    | throws => rw [hp] at h; simp at h
    | ub => rw [hp] at h; simp at h
    | ok x =>
      rw [hp] at h
      simp only [Outcome.ok.injEq] at h
      subst h
      have eff := process_held isT t.transferor _ x t k hp (fun e1 e2 => absurd e1 e2)
      have hset := total_setOwner n w.inv t.transferor hn x.inventory k
      rw [← set_inv w t.transferor x] at hset
      show total n (w.set t.transferor x).inv k + Spec.inTransit (t :: w.pending) k = _
      have e2 : Spec.inTransit (t :: w.pending) k = (if t.transferor = t.transferee then 0 else inBundle t.items k) + Spec.inTransit w.pending k := rfl
      have e3 : held (w.inv t.transferor) k = held (w.owners t.transferor).inventory k := rfl
      rw [e2]
      by_cases hh : t.transferor = t.transferee
      · have := eff.1 hh
        rw [if_pos hh]
        omega
      · have := eff.2.1 hh rfl
        rw [if_neg hh]
        omega
  | get t =>
    simp only [Spec.actor] at hn
    unfold step at h
    simp only at h
    by_cases hm : t ∈ w.pending
    · rw [if_pos hm] at h
      have het := inTransit_erase w.pending t k hm
      have hle := held_le_total n w.inv t.transferee hn k
      have e3 : held (w.inv t.transferee) k = held (w.owners t.transferee).inventory k := rfl
      cases hp : (w.owners t.transferee).process isT t.transferee t with
      | throws => rw [hp] at h; simp at h
      | ub => rw [hp] at h; simp at h
      | ok x =>
        rw [hp] at h
        simp only [Outcome.ok.injEq] at h
        subst h
        have eff := process_held isT t.transferee _ x t k hp (fun _ e2 => by rw [if_neg e2] at het; omega)
        have hset := total_setOwner n w.inv t.transferee hn x.inventory k
        rw [← set_inv w t.transferee x] at hset
        show total n (w.set t.transferee x).inv k + Spec.inTransit (w.pending.erase t) k = _
        by_cases hh : t.transferor = t.transferee
        · have := eff.1 hh
          rw [if_pos hh] at het
          omega
        · have := eff.2.2.1 hh rfl
          rw [if_neg hh] at het
          omega
    · rw [if_neg hm] at h
      simp at h

/-- The transfers of the events of a history are between the owners `0 .. n-1`. -/
def Spec.Among (n : Nat) (es : List Event) : Prop := ∀ t, (Event.give t ∈ es ∨ Event.get t ∈ es) → t.transferor < n ∧ t.transferee < n

theorem among_head {n : Nat} {e : Event} {es : List Event} (h : Spec.Among n (e :: es)) : Spec.actor e < n ∧ Spec.Among n es := by
  refine ⟨?_, fun t ht => h t (by rcases ht with ht | ht <;> simp [ht])⟩
  cases e with
  | give t => exact (h t (by simp)).1
  | get t => exact (h t (by simp)).2

/-- **C135, at every moment.** After every history of giving and receiving, in any order, the amount of each item that the owners hold together with the amount that is in transit is what it was. -/
theorem C135_conserved (isT : Nat → Bool) (n k : Nat) (w w' : World) (es : List Event) (hn : Spec.Among n es)
    (hs : total n (fun o => (w.owners o).inventory) k + Spec.inTransit w.pending k < 2 ^ 64) (h : run isT w es = .ok w') :
    total n (fun o => (w'.owners o).inventory) k + Spec.inTransit w'.pending k = total n (fun o => (w.owners o).inventory) k + Spec.inTransit w.pending k := by
  induction es generalizing w with
  | nil => simp [run] at h; subst h; rfl
  | cons e es ih =>
    obtain ⟨h1, h2⟩ := among_head hn
    rw [run] at h
    cases hp : step isT w e with
    | throws => rw [hp] at h; simp at h
    | ub => rw [hp] at h; simp at h
    | ok w1 =>
      rw [hp] at h
      have e1 := step_conserves isT n k w w1 e h1 hs hp
      unfold World.inv at e1
      have := ih w1 h2 (by omega) h
      omega

/-- Two different owners together hold no more than all. -/
theorem held_two (n : Nat) (w : Nat → Inv) (a b : Nat) (ha : a < n) (hb : b < n) (hne : a ≠ b) (k : Nat) : held (w a) k + held (w b) k ≤ total n w k := by
  have h1 := total_setOwner n w a ha Inv.empty k
  have h2 := held_le_total n (setOwner w a Inv.empty) b hb k
  have h3 : setOwner w a Inv.empty b = w b := by simp [setOwner, Ne.symm hne]
  have h4 : held Inv.empty k = 0 := rfl
  rw [h3] at h2
  omega

/-- **C135, one owner.** If there is one piece of an item, held by one owner or in transit, then after every history at most one owner holds it, holds it once, and nobody holds it while it is in transit. -/
theorem C135_one_owner (isT : Nat → Bool) (n k : Nat) (w w' : World) (es : List Event) (hn : Spec.Among n es)
    (hs : total n (fun o => (w.owners o).inventory) k + Spec.inTransit w.pending k = 1) (h : run isT w es = .ok w') :
    (∀ a b, a < n → b < n → 0 < held (w'.owners a).inventory k → 0 < held (w'.owners b).inventory k → a = b) ∧
    (∀ a, a < n → held (w'.owners a).inventory k ≤ 1) ∧
    (0 < Spec.inTransit w'.pending k → ∀ a, a < n → held (w'.owners a).inventory k = 0) := by
  have hc := C135_conserved isT n k w w' es hn (by omega) h
  refine ⟨fun a b ha hb pa pb => ?_, fun a ha => ?_, fun ht a ha => ?_⟩
  · refine Decidable.byContradiction fun hne => ?_
    have := held_two n (fun o => (w'.owners o).inventory) a b ha hb hne k
    omega
  · have := held_le_total n (fun o => (w'.owners o).inventory) a ha k
    omega
  · have := held_le_total n (fun o => (w'.owners o).inventory) a ha k
    omega

/-- **C135, the set of unique items (partial).** If the sets of all owners agree with their inventories, there is at most one piece of each unique item, and the transfers of the history are between
different owners and move one piece of each unique item they list, then the sets agree with the inventories after the history. Missing: transfers to oneself and transfers of another amount, for which it
is false. -/
theorem C135_sets_partial (isT : Nat → Bool) (n : Nat) (w w' : World) (es : List Event) (hn : Spec.Among n es)
    (hone : ∀ k, isT k = true → total n (fun o => (w.owners o).inventory) k + Spec.inTransit w.pending k ≤ 1)
    (ht : ∀ t, (Event.give t ∈ es ∨ Event.get t ∈ es) → t.transferor ≠ t.transferee ∧ IsMap t.items ∧ ∀ k q, (k, q) ∈ t.items → isT k = true → q = 1)
    (ha : ∀ o, o < n → Spec.Agrees isT (w.owners o)) (h : run isT w es = .ok w') : ∀ o, o < n → Spec.Agrees isT (w'.owners o) := by
  induction es generalizing w with
  | nil => simp [run] at h; subst h; exact ha
  | cons e es ih =>
    obtain ⟨h1, h2⟩ := among_head hn
    rw [run] at h
    cases hp : step isT w e with
    | throws => rw [hp] at h; simp at h
    | ub => rw [hp] at h; simp at h
    | ok w1 =>
      rw [hp] at h
      have hone1 : ∀ k, isT k = true → total n w1.inv k + Spec.inTransit w1.pending k ≤ 1 := by
        intro k hk
        have := hone k hk
        rw [step_conserves isT n k w w1 e h1 (by show total n (fun o => (w.owners o).inventory) k + _ < _; omega) hp]
        exact this
      refine ih w1 h2 hone1 (fun t htt => ht t (by rcases htt with htt | htt <;> simp [htt])) ?_ h
      intro o ho k
      by_cases hk : ¬ isT k = true
      · -- not an item of the type
        have : ¬ (w.owners o).items k = true := fun h => hk ((ha o ho k).mp h).1
        have keep : ∀ (self : Nat) (s : Items) (t : Transfer), typedCallback isT self s t k = s k := by
          intro self s t
          unfold typedCallback
          split
          · rw [typedErase_apply, if_neg (fun h => hk h.1)]
          · split
            · rw [typedInsert_apply, if_neg (fun h => hk h.1)]
            · rfl
        have same : (w1.owners o).items k = (w.owners o).items k := by
          cases e with
          | give t =>
            unfold step at hp
            simp only at hp
            cases hpr : (w.owners t.transferor).process isT t.transferor t with
            | throws => rw [hpr] at hp; simp at hp
            | ub => rw [hpr] at hp; simp at hp
            | ok x =>
              rw [hpr] at hp
              simp only [Outcome.ok.injEq] at hp
              subst hp
              unfold World.set
              simp only
              by_cases hoo : o = t.transferor
              · rw [if_pos hoo, process_items isT _ _ _ _ hpr, keep, hoo]
              · rw [if_neg hoo]
          | get t =>
            unfold step at hp
            simp only at hp
            by_cases hpe : t ∈ w.pending
            · rw [if_pos hpe] at hp
              cases hpr : (w.owners t.transferee).process isT t.transferee t with
              | throws => rw [hpr] at hp; simp at hp
              | ub => rw [hpr] at hp; simp at hp
              | ok x =>
                rw [hpr] at hp
                simp only [Outcome.ok.injEq] at hp
                subst hp
                unfold World.set
                simp only
                by_cases hoo : o = t.transferee
                · rw [if_pos hoo, process_items isT _ _ _ _ hpr, keep, hoo]
                · rw [if_neg hoo]
            · rw [if_neg hpe] at hp
              simp at hp
        rw [same]
        exact ⟨fun h => absurd h this, fun h => absurd h.1 hk⟩
      replace hk := Decidable.not_not.mp hk
      have mem_amount : ∀ (t : Transfer), IsMap t.items → (∀ k q, (k, q) ∈ t.items → isT k = true → q = 1) → k ∈ t.items.map (·.1) → inBundle t.items k = 1 := by
        intro t hm hq hmem
        obtain ⟨⟨j, q⟩, hj, rfl⟩ := List.mem_map.mp hmem
        rw [inBundle_of_mem _ hm _ _ hj, hq _ _ hj hk]
      cases e with
      | give t =>
        obtain ⟨hne, hm, hq⟩ := ht t (by simp)
        unfold step at hp
        simp only at hp
        cases hpr : (w.owners t.transferor).process isT t.transferor t with
        | throws => rw [hpr] at hp; simp at hp
        | ub => rw [hpr] at hp; simp at hp
        | ok x =>
          rw [hpr] at hp
          simp only [Outcome.ok.injEq] at hp
          subst hp
          unfold World.set
          simp only
          by_cases hoo : o = t.transferor
          · subst hoo
            rw [if_pos rfl]
            have eff := process_held isT t.transferor _ x t k hpr (fun e1 e2 => absurd e1 e2)
            have e1 := eff.2.1 hne rfl
            have hle := held_le_total n w.inv t.transferor ho k
            have e3 : held (w.inv t.transferor) k = held (w.owners t.transferor).inventory k := rfl
            have hk1 := hone k hk
            have e4 : total n (fun o => (w.owners o).inventory) k = total n w.inv k := rfl
            rw [eff.2.2.2]
            unfold typedCallback
            rw [if_pos rfl, typedErase_apply]
            by_cases hmem : k ∈ t.items.map (·.1)
            · have := mem_amount t hm hq hmem
              rw [if_pos ⟨hk, hmem⟩]
              simp only [Bool.false_eq_true, false_iff]
              rintro ⟨-, h⟩
              omega
            · have := inBundle_of_not_mem _ _ hmem
              rw [if_neg (fun e => hmem e.2), ha _ ho k]
              constructor <;> (rintro ⟨h1, h2⟩; exact ⟨h1, by omega⟩)
          · rw [if_neg hoo]
            exact ha o ho k
      | get t =>
        obtain ⟨hne, hm, hq⟩ := ht t (by simp)
        unfold step at hp
        simp only at hp
        by_cases hpe : t ∈ w.pending
        · rw [if_pos hpe] at hp
          have het := inTransit_erase w.pending t k hpe
          rw [if_neg hne] at het
          cases hpr : (w.owners t.transferee).process isT t.transferee t with
          | throws => rw [hpr] at hp; simp at hp
          | ub => rw [hpr] at hp; simp at hp
          | ok x =>
            rw [hpr] at hp
            simp only [Outcome.ok.injEq] at hp
            subst hp
            unfold World.set
            simp only
            by_cases hoo : o = t.transferee
            · subst hoo
              rw [if_pos rfl]
              have hle := held_le_total n w.inv t.transferee ho k
              have e3 : held (w.inv t.transferee) k = held (w.owners t.transferee).inventory k := rfl
              have hk1 := hone k hk
              have e4 : total n (fun o => (w.owners o).inventory) k = total n w.inv k := rfl
              have eff := process_held isT t.transferee _ x t k hpr (fun _ _ => by omega)
              have e1 := eff.2.2.1 hne rfl
              rw [eff.2.2.2]
              unfold typedCallback
              rw [if_neg (Ne.symm hne), if_pos rfl, typedInsert_apply]
              by_cases hmem : k ∈ t.items.map (·.1)
              · have := mem_amount t hm hq hmem
                rw [if_pos ⟨hk, hmem⟩]
                simp only [true_iff]
                exact ⟨hk, by omega⟩
              · have := inBundle_of_not_mem _ _ hmem
                rw [if_neg (fun e => hmem e.2), ha _ ho k]
                constructor <;> (rintro ⟨h1, h2⟩; exact ⟨h1, by omega⟩)
            · rw [if_neg hoo]
              exact ha o ho k
        · rw [if_neg hpe] at hp
          simp at hp

/-- A house, item 7, that starts with owner 0; item 8 is money. -/
def exampleWorld : World :=
  ⟨fun o => ⟨fun k => if o = 0 ∧ k = 7 then some 1 else if k = 8 then some 100 else none, fun k => decide (o = 0 ∧ k = 7)⟩, []⟩

/-- Non-vacuity: the house goes from owner 0 to owner 1 and on to owner 2, against money. -/
example :
    let t1 : Transfer := ⟨0, 1, [(7, 1)]⟩
    let t2 : Transfer := ⟨1, 0, [(8, 60)]⟩
    let t3 : Transfer := ⟨1, 2, [(7, 1), (8, 5)]⟩
    let es : List Event := [.give t1, .give t2, .get t1, .give t3, .get t2, .get t3]
    Spec.Among 3 es ∧ total 3 (fun o => (exampleWorld.owners o).inventory) 7 + Spec.inTransit exampleWorld.pending 7 = 1 ∧
    (∀ o, o < 3 → Spec.Agrees (fun k => k == 7) (exampleWorld.owners o)) ∧
    (∀ t, (Event.give t ∈ es ∨ Event.get t ∈ es) → t.transferor ≠ t.transferee ∧ IsMap t.items ∧ ∀ k q, (k, q) ∈ t.items → (k == 7) = true → q = 1) ∧
    ∃ w', run (fun k => k == 7) exampleWorld es = .ok w' ∧ held (w'.owners 2).inventory 7 = 1 ∧ (w'.owners 2).items 7 = true ∧ (w'.owners 0).items 7 = false ∧ w'.pending = [] := by
  refine ⟨?_, by decide, ?_, ?_, ⟨_, rfl, by decide, by decide, by decide, by decide⟩⟩
  · intro t ht
    simp only [List.mem_cons, Event.give.injEq, Event.get.injEq, reduceCtorEq, List.not_mem_nil, or_false, false_or] at ht
    rcases ht with (rfl | rfl | rfl) | (rfl | rfl | rfl) <;> decide
  · intro o ho k
    by_cases hk : ¬ k = 7
    · simp [exampleWorld, hk]
    replace hk := Decidable.not_not.mp hk
    subst hk
    have : o = 0 ∨ o = 1 ∨ o = 2 := by omega
    rcases this with rfl | rfl | rfl <;> decide
  · intro t ht
    simp only [List.mem_cons, Event.give.injEq, Event.get.injEq, reduceCtorEq, List.not_mem_nil, or_false, false_or] at ht
    rcases ht with (rfl | rfl | rfl) | (rfl | rfl | rfl) <;> refine ⟨by decide, by unfold IsMap; decide, fun k q hkq hk => ?_⟩ <;>
      simp only [List.mem_cons, Prod.mk.injEq, List.not_mem_nil, or_false, beq_iff_eq] at hkq hk <;> (subst hk; simp at hkq; try exact hkq)

/-- **C135, negation for the amount nothing.** Transferring the amount zero of a unique item takes it out of the set of the transferor and puts it into the set of the transferee, although neither inventory changes
for it. -/
theorem C135_counterexample_nothing (isT : Nat → Bool) (w : World) (a b k : Nat) (hab : a ≠ b) (hk : isT k = true) (hb : (w.owners b).inventory k = none) :
    ∃ w', run isT w [.give ⟨a, b, [(k, 0)]⟩, .get ⟨a, b, [(k, 0)]⟩] = .ok w' ∧ (w'.owners a).items k = false ∧ (w'.owners b).items k = true ∧
      held (w'.owners a).inventory k = held (w.owners a).inventory k ∧ held (w'.owners b).inventory k = 0 := by
  have e1 : baseCallback a (w.owners a).inventory ⟨a, b, [(k, 0)]⟩ = ((w.owners a).inventory, false) := by
    simp [baseCallback, hab, eraseFrom]
  have e2 : baseCallback b (w.owners b).inventory ⟨a, b, [(k, 0)]⟩ = ((w.owners b).inventory.set k (some 0), false) := by
    simp [baseCallback, hab, Ne.symm hab, insertInto, hb]
  refine ⟨⟨fun p => if p = b then ⟨(w.owners b).inventory.set k (some 0), insert (w.owners b).items k⟩ else if p = a then ⟨(w.owners a).inventory, erase (w.owners a).items k⟩ else w.owners p, w.pending⟩, ?_, ?_, ?_, ?_, ?_⟩
  · simp [run, step, Owner.process, e1, e2, World.set, Ne.symm hab, typedCallback, typedErase, typedInsert, hk]
  · simp [hab, erase]
  · simp [insert]
  · simp [hab]
  · simp [held, Inv.set]

/-- **C135, negation for transfers to oneself.** Transferring a unique item to oneself takes it out of the set of unique items, while the inventory keeps it. -/
theorem C135_counterexample_self (isT : Nat → Bool) (w : World) (a k : Nat) (hk : isT k = true) :
    ∃ w', run isT w [.give ⟨a, a, [(k, 1)]⟩, .get ⟨a, a, [(k, 1)]⟩] = .ok w' ∧ (w'.owners a).items k = false ∧ (w'.owners a).inventory = (w.owners a).inventory := by
  have e1 : ∀ i, baseCallback a i ⟨a, a, [(k, 1)]⟩ = (i, false) := fun i => by simp [baseCallback]
  refine ⟨⟨fun p => if p = a then ⟨(w.owners a).inventory, erase (erase (w.owners a).items k) k⟩ else w.owners p, w.pending⟩, ?_, ?_, ?_⟩
  · simp [run, step, Owner.process, e1, World.set, typedCallback, typedErase, hk]
    funext p
    split <;> rfl
  · simp [erase]
  · simp

example : (exampleWorld.owners 0).items 7 = true ∧ (exampleWorld.owners 1).inventory 7 = none := by decide

/-- **C135, refusals.** Giving more of an item than one has ends the run with an exception, at whatever point it happens, and no run is undefined. -/
theorem C135_refused (isT : Nat → Bool) (w : World) (es : List Event) :
    run isT w es ≠ .ub ∧
    (∀ w' t k q l, run isT w es = .ok w' → t.transferor ≠ t.transferee → IsMap t.items → (k, q) ∈ t.items → held (w'.owners t.transferor).inventory k < q → run isT w (es ++ .give t :: l) = .throws) := by
  have hp : ∀ (o : Owner) (self : Nat) (t : Transfer), o.process isT self t ≠ .ub := by
    intro o self t
    unfold Owner.process
    split <;> simp
  have hs : ∀ (w : World) (e : Event), step isT w e ≠ .ub := by
    intro w e
    cases e with
    | give t =>
      simp only [step]
      have := hp (w.owners t.transferor) t.transferor t
      cases h : (w.owners t.transferor).process isT t.transferor t with
      | ok x => simp
      | throws => simp
      | ub => exact absurd h this
    | get t =>
      simp only [step]
      by_cases hm : t ∈ w.pending
      · rw [if_pos hm]
        have := hp (w.owners t.transferee) t.transferee t
        cases h : (w.owners t.transferee).process isT t.transferee t with
        | ok x => simp
        | throws => simp
        | ub => exact absurd h this
      · rw [if_neg hm]; simp
  induction es generalizing w with
  | nil =>
    refine ⟨by simp [run], fun w' t k q l h hne hm hk hq => ?_⟩
    simp only [run, Outcome.ok.injEq] at h
    subst h
    have he := eraseFrom_throws t.items hm _ k q hk hq
    have hb : baseCallback t.transferor (w.owners t.transferor).inventory t = ((eraseFrom t.items (w.owners t.transferor).inventory).1, true) := by
      unfold baseCallback
      rw [if_neg hne, if_pos rfl, ← he]
    simp [run, step, Owner.process, hb]
  | cons e es ih =>
    rw [run]
    cases h : step isT w e with
    | ok x =>
      refine ⟨(ih x).1, fun w' t k q l hr => ?_⟩
      rw [List.cons_append, run, h]
      exact (ih x).2 w' t k q l hr
    | throws => exact ⟨by simp, fun w' t k q l hr => by simp at hr⟩
    | ub => exact absurd h (hs w e)

example : run (fun k => k == 7) exampleWorld [.give ⟨0, 1, [(8, 101)]⟩, .get ⟨0, 1, [(8, 101)]⟩] = .throws := rfl

/-! ## C136: inventories as a whole -/

/-- **C136, insertion.** Inserting an inventory into another adds the amounts of every item. -/
theorem C136_insert (b : Bundle) (m : Inv) (k : Nat) (h : held m k + inBundle b k < 2 ^ 64) : held (insertAll b m) k = held m k + inBundle b k := held_insertAll b m k h

/-- **C136, removal (partial).** Removing an inventory from another that has an entry for each of its items and enough of each is done, and subtracts the amounts of every item; if it is done, every item had an
entry and enough. Missing: an item of which nothing is removed and which has no entry; and a refused removal need not leave the inventory unchanged. -/
theorem C136_erase_partial (b : Bundle) (hb : IsMap b) (m : Inv) :
    ((eraseAll b m).2 = .done ↔ ∀ k q, (k, q) ∈ b → ∃ a, m k = some a ∧ q ≤ a) ∧
    ((eraseAll b m).2 = .done → ∀ k, held (eraseAll b m).1 k + inBundle b k = held m k) := by
  have key : (eraseAll b m).2 = .done → eraseAll b m = ((eraseAll b m).1, .done) := fun h => by rw [← h]
  refine ⟨⟨fun h k q hkq => ?_, eraseAll_ok b hb m⟩, fun h => (eraseAll_done b m _ (key h)).1⟩
  -- an item without an entry or with too small an amount stops the loop
  clear key
  induction b generalizing m with
  | nil => simp at hkq
  | cons x b ih =>
    obtain ⟨j, v⟩ := x
    unfold IsMap at hb
    rw [List.map_cons, List.nodup_cons] at hb
    rw [eraseAll] at h
    unfold eraseItem at h
    cases hm : m j with
    | none =>
      rw [hm] at h
      by_cases hv : v > 0 <;> simp [hv] at h
    | some a =>
      rw [hm] at h
      by_cases hv : a < v
      · simp [hv] at h
      · simp only [if_neg hv] at h
        rcases List.mem_cons.mp hkq with e | hkb
        · simp only [Prod.mk.injEq] at e
          obtain ⟨rfl, rfl⟩ := e
          exact ⟨a, hm, by omega⟩
        · obtain ⟨a', e1, e2⟩ := ih hb.2 _ h hkb
          have : k ≠ j := by
            rintro rfl
            exact hb.1 (List.mem_map.mpr ⟨_, hkb, rfl⟩)
          exact ⟨a', by simpa [Inv.set, this] using e1, e2⟩

/-- **C136, there and back.** Inserting an inventory and removing it again is done and restores the amount of every item. -/
theorem C136_round_trip (b : Bundle) (hb : IsMap b) (m : Inv) (h : ∀ k, held m k + inBundle b k < 2 ^ 64) :
    (eraseAll b (insertAll b m)).2 = .done ∧ ∀ k, held (eraseAll b (insertAll b m)).1 k = held m k := by
  have hi := fun k => held_insertAll b m k (h k)
  have hd : (eraseAll b (insertAll b m)).2 = .done := by
    refine ((C136_erase_partial b hb _).1).mpr (fun k q hkq => ?_)
    have hs := (insertAll_some b m k).mpr (.inr (List.mem_map.mpr ⟨_, hkq, rfl⟩))
    obtain ⟨a, ea⟩ := Option.isSome_iff_exists.mp hs
    refine ⟨a, ea, ?_⟩
    have := hi k
    rw [inBundle_of_mem b hb k q hkq] at this
    unfold held at this
    rw [ea] at this
    simp only [Option.getD_some] at this
    omega
  refine ⟨hd, fun k => ?_⟩
  have := (C136_erase_partial b hb _).2 hd k
  rw [hi] at this
  omega

example : IsMap [(3, 10), (1, 0), (4, 4)] ∧ (∀ k, held (fun k => if k = 3 then some 2 else none) k + inBundle [(3, 10), (1, 0), (4, 4)] k < 2 ^ 64) := by
  refine ⟨by unfold IsMap; decide, fun k => ?_⟩
  simp only [inBundle_cons, inBundle_nil, held]
  split <;> split <;> split <;> simp <;> (try split) <;> simp

/-- **C136, negation for refused removals.** If the first item can be removed and the second cannot, the removal throws after it has removed the first. -/
theorem C136_counterexample_not_atomic (m : Inv) (j k a q r : Nat) (hjk : j ≠ k) (hj : m j = some a) (hq : 0 < q ∧ q ≤ a) (hr : held m k < r) :
    (eraseAll [(j, q), (k, r)] m).2 = .thrown ∧ held (eraseAll [(j, q), (k, r)] m).1 j < held m j := by
  have e : eraseAll [(j, q), (k, r)] m = (m.set j (some (a - q)), .thrown) := by
    have hk : m.set j (some (a - q)) k = m k := by simp [Inv.set, Ne.symm hjk]
    simp only [eraseAll, eraseItem, hj, if_neg (by omega : ¬ a < q), hk]
    unfold held at hr
    cases hm : m k with
    | none => rw [hm] at hr; simp at hr; simp [hr]
    | some c => rw [hm] at hr; simp at hr; simp [hr]
  rw [e]
  refine ⟨rfl, ?_⟩
  simp only
  rw [held_set, if_pos rfl]
  simp only [held, hj, Option.getD_some]
  omega

example : (0 : Nat) ≠ 1 ∧ held (fun k => if k = 0 then some 5 else none) 1 < 3 := by decide

/-- **C136, negation for removing nothing.** Removing an inventory that lists an item with the amount zero, from one that has no entry for it, is undefined. -/
theorem C136_counterexample_nothing (m : Inv) (k : Nat) (h : m k = none) (b : Bundle) : (eraseAll ((k, 0) :: b) m).2 = .undefined := by
  simp [eraseAll, eraseItem, h]

/-- **C136, sets.** Inserting an item, or a set of items, into an inventory of unique property adds exactly those; inserting again changes nothing; erasing an item removes exactly it, whether or not it was there. -/
theorem C136_sets (s : Items) (k : Nat) (l : List Nat) :
    (∀ j, insert s k j = true ↔ s j = true ∨ j = k) ∧ (∀ j, erase s k j = true ↔ s j = true ∧ j ≠ k) ∧ (∀ j, insertSet s l j = true ↔ s j = true ∨ j ∈ l) ∧
    insert (insert s k) k = insert s k ∧ (s k = false → erase (insert s k) k = s) := by
  refine ⟨fun j => ?_, fun j => ?_, fun j => ?_, ?_, fun h => ?_⟩
  · unfold insert; by_cases hj : j = k <;> simp [hj]
  · unfold erase; by_cases hj : j = k <;> simp [hj]
  · rw [insertSet_apply]; simp
  · funext j; unfold insert; by_cases hj : j = k <;> simp [hj]
  · funext j; unfold insert erase; by_cases hj : j = k <;> simp [hj, h]

/-- **C136, negation for erasing sets.** Erasing a set of items from an inventory of unique property is undefined for every set that is not empty. -/
theorem C136_counterexample_erase_set (s : Items) (k : Nat) (l : List Nat) : eraseSet s (k :: l) = .ub := rfl

/-- **C136, adding unique items to an inventory (partial).** Unique items, none of which is in an inventory, are added with the amount one and nothing else changes; if one of them has an entry, the call throws.
Missing: that it then changes nothing. -/
theorem C136_unique_partial (l : List Nat) (hl : l.Nodup) (m : Inv) :
    ((∀ k ∈ l, m k = none) → (insertSetInto l m).2 = false ∧ ∀ k, (insertSetInto l m).1 k = if k ∈ l then some 1 else m k) ∧
    ((∃ k ∈ l, m k ≠ none) → (insertSetInto l m).2 = true) := by
  refine ⟨fun h => ?_, fun ⟨k, hk, h⟩ => insertSetInto_throws l m k hk (Option.isSome_iff_ne_none.mpr h)⟩
  rw [insertSetInto_ok l hl m h]
  exact ⟨rfl, fun _ => rfl⟩

/-- **C136, negation for adding unique items.** The items before one that is already in the inventory have been added when the call throws; even an entry with the amount zero, which is what remains of a unique item
that was given away by the owner's typed holdings, counts as a duplicate. -/
theorem C136_counterexample_duplicate (m : Inv) (j k a : Nat) (hjk : j ≠ k) (hj : m j = none) (hk : m k = some a) :
    (insertSetInto [j, k] m).2 = true ∧ (insertSetInto [j, k] m).1 j = some 1 := by
  have e : m.set j (some 1) k = some a := by simp [Inv.set, Ne.symm hjk, hk]
  simp only [insertSetInto, hj, e]
  simp [Inv.set]

example : (0 : Nat) ≠ 1 ∧ (fun k => if k = 1 then some 0 else none : Inv) 0 = none ∧ (fun k => if k = 1 then some 0 else none : Inv) 1 = some 0 := by decide

end Esl.Unique
