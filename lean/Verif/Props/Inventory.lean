import Verif.Lemmas.Inventory
import Verif.Lemmas.List
/-! # C12-C14: inventories, transfers, owners -/
namespace Esl.Inventory
open Spec

/-! ## C12 -/

/-- **C12 (partial).** Removing a bundle of items (a map, iterated in any order) either removes exactly
the amounts of the bundle, from every property, or throws; it throws exactly if some property is
insufficient. Missing: a refused removal need not leave the inventory unchanged, see the
counterexample. -/
theorem C12_removal_partial (b : Bundle) (hb : IsMap b) (m : Inv) :
    ((∀ k q, (k, q) ∈ b → q ≤ held m k) →
      (eraseFrom b m).2 = false ∧ ∀ k, held (eraseFrom b m).1 k + inBundle b k = held m k) ∧
    ((∃ k q, (k, q) ∈ b ∧ held m k < q) → (eraseFrom b m).2 = true) := by
  constructor
  · intro h
    have h2 := eraseFrom_ok b hb m h
    exact ⟨h2, fun k => held_eraseFrom b m _ (by rw [← h2]) k⟩
  · rintro ⟨k, q, h1, h2⟩
    exact eraseFrom_throws b hb m k q h1 h2

/-- **C12 (partial).** The result of a successful removal does not depend on the iteration order. -/
theorem C12_order_irrelevant_partial (b c : Bundle) (hbc : b.Perm c) (m : Inv)
    (h1 : (eraseFrom b m).2 = false) (h2 : (eraseFrom c m).2 = false) (k : Nat) :
    held (eraseFrom b m).1 k = held (eraseFrom c m).1 k := by
  have e1 := held_eraseFrom b m _ (show eraseFrom b m = (_, false) by rw [← h1]) k
  have e2 := held_eraseFrom c m _ (show eraseFrom c m = (_, false) by rw [← h2]) k
  have : inBundle b k = inBundle c k := perm_sum_nat ((hbc.filter _).map _)
  omega

/-- **C12 (negation).** A refused removal may have removed some of the items already. -/
theorem C12_counterexample_not_atomic :
    ∃ (m : Inv) (b : Bundle), IsMap b ∧ (eraseFrom b m).2 = true ∧
      held (eraseFrom b m).1 0 < held m 0 := by
  refine ⟨fun k => if k = 0 then some 5 else none, [(0, 3), (1, 1)], ?_, by decide, by decide⟩
  unfold IsMap; decide

/-- **C12.** Adding a bundle adds exactly its amounts (below 2^64). -/
theorem C12_insertion (b : Bundle) (m : Inv) (k : Nat) (h : held m k + inBundle b k < 2 ^ 64) :
    held (insertInto b m) k = held m k + inBundle b k := held_insertInto b m k h

/-- **C12.** Adding a bundle and removing it again is always possible and restores all amounts. -/
theorem C12_round_trip (b : Bundle) (hb : IsMap b) (m : Inv)
    (h : ∀ k, held m k + inBundle b k < 2 ^ 64) :
    (eraseFrom b (insertInto b m)).2 = false ∧
    ∀ k, held (eraseFrom b (insertInto b m)).1 k = held m k := by
  have hi := fun k => held_insertInto b m k (h k)
  have := (C12_removal_partial b hb (insertInto b m)).1 (by
    intro k q hq
    rw [hi, inBundle_of_mem b hb k q hq]
    omega)
  refine ⟨this.1, fun k => ?_⟩
  have h2 := this.2 k
  rw [hi] at h2
  omega

example : IsMap [(3, 10), (1, 4)] ∧
    ∀ k q, (k, q) ∈ [(3, 10), (1, 4)] → q ≤ held (fun k => if k ≤ 3 then some 12 else none) k := by
  refine ⟨by unfold IsMap; decide, ?_⟩
  intro k q h
  simp at h
  rcases h with ⟨rfl, rfl⟩ | ⟨rfl, rfl⟩ <;> simp [held]

/-! ## C13 -/

/-- A history: each event is the delivery of a transfer message to an owner. Processing stops if a
callback throws. -/
def deliver (w : Nat → Inv) : List (Nat × Transfer) → Option (Nat → Inv)
  | [] => some w
  | (o, t) :: es =>
    match baseCallback o (w o) t with
    | (m, false) => deliver (setOwner w o m) es
    | (_, true) => none

/-- Amount of `k` handed out (by the transferor) in an event. -/
def Spec.outflow (k : Nat) (e : Nat × Transfer) : Nat :=
  if e.1 = e.2.transferor ∧ e.2.transferor ≠ e.2.transferee then inBundle e.2.items k else 0

/-- Amount of `k` taken in (by the transferee) in an event. -/
def Spec.inflow (k : Nat) (e : Nat × Transfer) : Nat :=
  if e.1 = e.2.transferee ∧ e.2.transferor ≠ e.2.transferee then inBundle e.2.items k else 0

theorem deliver_balance (n : Nat) (k : Nat) (es : List (Nat × Transfer)) (w w' : Nat → Inv)
    (ho : ∀ e ∈ es, e.1 < n)
    (hsmall : total n w k + (es.map (inflow k)).sum < 2 ^ 64)
    (h : deliver w es = some w') :
    total n w' k + (es.map (outflow k)).sum = total n w k + (es.map (inflow k)).sum := by
  induction es generalizing w with
  | nil => simp [deliver] at h; subst h; simp
  | cons e es ih =>
    obtain ⟨o, t⟩ := e
    have hon : o < n := ho (o, t) (by simp)
    simp only [List.map_cons, List.sum_cons] at hsmall ⊢
    unfold deliver at h
    cases hc : baseCallback o (w o) t with
    | mk m thrown =>
      rw [hc] at h
      cases thrown with
      | true => simp at h
      | false =>
        simp only at h
        have hset := total_setOwner n w o hon m k
        have hle := held_le_total n w o hon k
        -- effect of the callback on the amount held by `o`
        have eff : held m k + outflow k (o, t) = held (w o) k + inflow k (o, t) := by
          unfold baseCallback at hc
          unfold outflow inflow at *
          simp only at hsmall ⊢
          split at hc
          · rename_i heq
            simp at hc
            subst hc
            simp [heq]
          · rename_i hne
            split at hc
            · rename_i h1
              have h2 : o ≠ t.transferee := fun e => hne (h1 ▸ e)
              have := held_eraseFrom t.items (w o) m hc k
              rw [if_pos ⟨h1, hne⟩, if_neg (fun e => h2 e.1)]
              omega
            · rename_i h1
              split at hc
              · rename_i h2
                simp at hc
                subst hc
                rw [if_pos ⟨h2, hne⟩] at hsmall
                rw [if_neg (fun e => h1 e.1), if_pos ⟨h2, hne⟩]
                rw [held_insertInto _ _ _ (by omega)]
                omega
              · rename_i h2
                simp at hc
                subst hc
                rw [if_neg (fun e => h1 e.1), if_neg (fun e => h2 e.1)]
        have := ih (setOwner w o m) (fun e he => ho e (by simp [he])) (by omega) h
        omega

/-- **C13.** Let every transfer of a list be delivered once to its transferor and once to its
transferee, in any order and interleaving whatsoever. If no delivery is refused, the total amount
of every property over all owners is unchanged. (The total plus everything in transit is assumed
to stay below 2^64, the range of the amounts.) -/
theorem C13_conservation (n : Nat) (k : Nat) (ts : List Transfer) (es : List (Nat × Transfer))
    (w w' : Nat → Inv)
    (honce : es.Perm (ts.flatMap fun t => [(t.transferor, t), (t.transferee, t)]))
    (ho : ∀ t ∈ ts, t.transferor < n ∧ t.transferee < n)
    (hsmall : total n w k + (ts.map fun t => inBundle t.items k).sum < 2 ^ 64)
    (h : deliver w es = some w') :
    total n w' k = total n w k := by
  have hin : (es.map (inflow k)).sum = (es.map (outflow k)).sum ∧
      (es.map (inflow k)).sum ≤ (ts.map fun t => inBundle t.items k).sum := by
    have e1 := perm_sum_nat (honce.map (inflow k))
    have e2 := perm_sum_nat (honce.map (outflow k))
    rw [e1, e2]
    clear e1 e2 honce ho hsmall h
    induction ts with
    | nil => simp
    | cons t ts ih =>
      obtain ⟨i1, i2⟩ := ih
      simp only [List.flatMap_cons, List.map_append, List.sum_append, List.map_cons, List.map_nil,
        List.sum_cons, List.sum_nil, Nat.add_zero]
      rw [i1] at i2 ⊢
      have : inflow k (t.transferor, t) = outflow k (t.transferee, t) ∧
          inflow k (t.transferee, t) = outflow k (t.transferor, t) ∧
          inflow k (t.transferor, t) + inflow k (t.transferee, t) ≤ inBundle t.items k := by
        unfold inflow outflow
        by_cases hh : t.transferor = t.transferee
        · simp [hh]
        · simp [hh, Ne.symm hh]
      omega
  have ho' : ∀ e ∈ es, e.1 < n := by
    intro e he
    have := honce.mem_iff.1 he
    rw [List.mem_flatMap] at this
    obtain ⟨t, ht, hm⟩ := this
    have := ho t ht
    simp at hm
    rcases hm with rfl | rfl
    · exact this.1
    · exact this.2
  have := deliver_balance n k es w w' ho' (by omega) h
  omega

/-- **C13.** A transfer to oneself, and a transfer one is not part of, change nothing. -/
theorem C13_uninvolved (self : Nat) (m : Inv) (t : Transfer)
    (h : t.transferor = t.transferee ∨ (self ≠ t.transferor ∧ self ≠ t.transferee)) :
    baseCallback self m t = (m, false) := by
  unfold baseCallback
  rcases h with h | ⟨h1, h2⟩
  · simp [h]
  · simp [h1, h2]

/-- **C13.** A transfer is refused only by its transferor, and only if the transferor does not hold
enough of some item. -/
theorem C13_refused_iff (self : Nat) (m : Inv) (t : Transfer) (hb : IsMap t.items) :
    (baseCallback self m t).2 = true ↔
      (t.transferor ≠ t.transferee ∧ self = t.transferor ∧ ∃ k q, (k, q) ∈ t.items ∧ held m k < q) := by
  unfold baseCallback
  constructor
  · intro h
    split at h
    · simp at h
    · rename_i hne
      split at h
      · rename_i h1
        refine ⟨hne, h1, ?_⟩
        apply Classical.byContradiction
        intro hh
        have := eraseFrom_ok t.items hb m (by
          intro k q hq
          apply Decidable.byContradiction
          intro hlt
          exact hh ⟨k, q, hq, by omega⟩)
        rw [this] at h
        simp at h
      · split at h <;> simp at h
  · rintro ⟨h1, h2, k, q, h3, h4⟩
    rw [if_neg h1, if_pos h2]
    exact eraseFrom_throws t.items hb m k q h3 h4

/-- Non-vacuity of C13: two transfers between three owners, delivered out of order. -/
example :
    let t1 : Transfer := ⟨0, 1, [(7, 3), (8, 1)]⟩
    let t2 : Transfer := ⟨1, 2, [(7, 2)]⟩
    let w : Nat → Inv := fun _ _ => some 4
    (deliver w [(1, t1), (1, t2), (2, t2), (0, t1)]).isSome = true := by decide

/-- The hypotheses of `C13_conservation` for the messages of these two transfers, in the order of the example. -/
example :
    let t1 : Transfer := ⟨0, 1, [(7, 3), (8, 1)]⟩
    let t2 : Transfer := ⟨1, 2, [(7, 2)]⟩
    let w : Nat → Inv := fun _ _ => some 4
    [(1, t1), (1, t2), (2, t2), (0, t1)].Perm ([t1, t2].flatMap fun t => [(t.transferor, t), (t.transferee, t)]) ∧
    (∀ t ∈ [t1, t2], t.transferor < 3 ∧ t.transferee < 3) ∧ total 3 w 7 + ([t1, t2].map fun t => inBundle t.items 7).sum < 2 ^ 64 := by decide

/-- The hypotheses of `C12_insertion` and `C12_round_trip`. -/
example : held (fun k => if k ≤ 3 then some 12 else none) 3 + inBundle [(3, 10), (1, 4)] 3 = 22 := by decide

/-! ## C14 -/

/-- Agreement of the typed holdings with the full inventory. -/
def Spec.Agree (isT : Nat → Bool) (o : Owner) : Prop :=
  ∀ k, isT k = true → held o.properties k = held o.inventory k

theorem held_insertItem (m : Inv) (j q k : Nat) :
    held (insertItem m j q) k = if k = j then (match m j with | none => q | some a => u64 (a + q)) else held m k := by
  unfold insertItem
  cases hm : m j with
  | none => simp only; rw [held_set]; rfl
  | some a => simp only; rw [held_set]; rfl

theorem typedInsert_agrees (isT : Key → Bool) (b : Bundle) (p i : Inv)
    (hs : ∀ k, held p k < 2 ^ 64) (hi : ∀ k q, (k, q) ∈ b → q < 2 ^ 64)
    (h : ∀ k, isT k = true → held p k = held i k) :
    ∀ k, isT k = true → held (typedInsert isT b p) k = held (insertInto b i) k := by
  induction b generalizing p i with
  | nil => simpa [typedInsert, insertInto] using h
  | cons x b ih =>
    obtain ⟨j, q⟩ := x
    intro k hk
    have hq : q < 2 ^ 64 := hi j q (by simp)
    unfold typedInsert
    -- the new inventory after one item
    have stepI : ∃ i', insertInto ((j, q) :: b) i = insertInto b i' ∧
        ∀ k, held i' k = if k = j then u64 (held i j + q) else held i k := by
      rw [insertInto]
      cases hij : i j with
      | none =>
        refine ⟨_, rfl, ?_⟩
        intro k; rw [held_set]; simp [held, hij, u64]; split
        · omega
        · rfl
      | some a =>
        refine ⟨_, rfl, ?_⟩
        intro k; rw [held_set]; simp [held, hij]
    obtain ⟨i', e1, e2⟩ := stepI
    rw [e1]
    have hp : ∀ k, held (insertItem p j q) k = if k = j then u64 (held p j + q) else held p k := by
      intro k
      rw [held_insertItem]
      cases hpj : p j with
      | none => simp [held, hpj, u64]; split
                · omega
                · rfl
      | some a => simp [held, hpj]
    apply ih
    · intro k
      split
      · rw [hp]; split
        · unfold u64; omega
        · exact hs k
      · exact hs k
    · intro k q hq; exact hi k q (by simp [hq])
    · intro k hk
      rw [e2]
      split
      · rw [hp]; split
        · rename_i hT hkj; subst hkj; rw [h k hk]
        · exact h k hk
      · rename_i hT
        have : k ≠ j := by intro e; subst e; exact hT hk
        rw [if_neg this]
        exact h k hk
    · exact hk

theorem typedErase_held (isT : Key → Bool) (b : Bundle) (p p' : Inv) (h : typedErase isT b p = .ok p')
    (k : Nat) (hk : isT k = true) : held p' k + inBundle b k = held p k := by
  induction b generalizing p with
  | nil => simp [typedErase] at h; subst h; simp [inBundle_nil]
  | cons x b ih =>
    obtain ⟨j, q⟩ := x
    rw [inBundle_cons]
    unfold typedErase at h
    split at h
    · split at h
      · rename_i m' he
        have := ih m' h
        unfold eraseItem at he
        split at he
        · split at he <;> simp at he
        · rename_i a hm
          split at he
          · simp at he
          · simp at he
            subst he
            rw [held_set] at this
            by_cases hkj : k = j
            · subst hkj
              have ha : held p k = a := by simp [held, hm]
              simp at this ⊢
              omega
            · rw [if_neg hkj] at this
              rw [if_neg (fun e => hkj e.symm)]
              omega
      · simp at h
      · simp at h
    · rename_i hT
      have : j ≠ k := by intro e; subst e; exact hT hk
      rw [if_neg this]
      have := ih p h
      omega

/-- Operations on an `owner<T>`. -/
inductive OwnerOp where
  | transfer (t : Transfer)
  | take (k : Key) (q : Nat)

/-- A history of operations on the owner with identifier `self`. -/
def Owner.run (isT : Key → Bool) (self : Nat) (o : Owner) : List OwnerOp → Outcome Owner
  | [] => .ok o
  | .transfer t :: ops =>
    match o.process isT self t with
    | .ok o' => o'.run isT self ops
    | .throws => .throws
    | .ub => .ub
  | .take k q :: ops => (o.take k q).run isT self ops

theorem process_agree (isT : Key → Bool) (self : Nat) (o o' : Owner) (t : Transfer)
    (hne : t.transferor ≠ t.transferee) (hs : ∀ k, held o.properties k < 2 ^ 64)
    (hi : ∀ k q, (k, q) ∈ t.items → q < 2 ^ 64)
    (h : Agree isT o) (hp : o.process isT self t = .ok o') : Agree isT o' := by
  unfold Owner.process typedCallback baseCallback at hp
  rw [if_neg hne] at hp
  intro k hk
  by_cases h1 : self = t.transferor
  · simp only [h1, if_true] at hp
    split at hp
    · rename_i p hpe
      split at hp
      · rename_i i hie
        simp at hp
        subst hp
        have e1 := typedErase_held isT t.items o.properties p hpe k hk
        have e2 := held_eraseFrom t.items o.inventory i hie k
        have := h k hk
        simp only
        omega
      · simp at hp
    · simp at hp
    · simp at hp
  · by_cases h2 : self = t.transferee
    · simp only [h1, if_false, if_pos h2] at hp
      simp at hp
      subst hp
      exact typedInsert_agrees isT t.items o.properties o.inventory hs hi h k hk
    · simp only [h1, h2, if_false] at hp
      simp at hp
      subst hp
      exact h k hk

/-- The typed holdings stay below 2^64 (they are `uint64_t`). -/
theorem process_small (isT : Key → Bool) (self : Nat) (o o' : Owner) (t : Transfer)
    (hs : ∀ k, held o.properties k < 2 ^ 64) (hi : ∀ k q, (k, q) ∈ t.items → q < 2 ^ 64)
    (hp : o.process isT self t = .ok o') : ∀ k, held o'.properties k < 2 ^ 64 := by
  have erase : ∀ (b : Bundle) (p p' : Inv), typedErase isT b p = .ok p' →
      (∀ k, held p k < 2 ^ 64) → ∀ k, held p' k < 2 ^ 64 := by
    intro b
    induction b with
    | nil => intro p p' h hs; simp [typedErase] at h; subst h; exact hs
    | cons x b ih =>
      obtain ⟨j, q⟩ := x
      intro p p' h hs
      unfold typedErase at h
      split at h
      · split at h
        · rename_i m' he
          refine ih m' p' h ?_
          intro k
          unfold eraseItem at he
          split at he
          · split at he <;> simp at he
          · rename_i a hm
            split at he
            · simp at he
            · simp at he
              subst he
              rw [held_set]
              split
              · have := hs j; simp [held, hm] at this; simp; omega
              · exact hs k
        · simp at h
        · simp at h
      · exact ih p p' h hs
  have ins : ∀ (b : Bundle) (p : Inv), (∀ k q, (k, q) ∈ b → q < 2 ^ 64) →
      (∀ k, held p k < 2 ^ 64) → ∀ k, held (typedInsert isT b p) k < 2 ^ 64 := by
    intro b
    induction b with
    | nil => intro p _ hs; exact hs
    | cons x b ih =>
      obtain ⟨j, q⟩ := x
      intro p hi hs
      unfold typedInsert
      apply ih _ (fun k q hq => hi k q (by simp [hq]))
      intro k
      split
      · rw [held_insertItem]
        split
        · split
          · exact hi j q (by simp)
          · exact u64_lt _
        · exact hs k
      · exact hs k
  unfold Owner.process typedCallback at hp
  split at hp
  · rename_i p hpe
    split at hp
    · simp at hp
      subst hp
      simp only
      split at hpe
      · exact erase _ _ _ hpe hs
      · split at hpe
        · simp at hpe; subst hpe; exact ins _ _ hi hs
        · simp at hpe; subst hpe; exact hs
    · simp at hp
  · simp at hp
  · simp at hp

theorem take_agree (isT : Key → Bool) (o : Owner) (k q : Nat) (hq : q < 2 ^ 64)
    (h : Agree isT o) (hn : o.inventory k = none) : Agree isT (o.take k q) := by
  intro j hj
  unfold Owner.take
  simp only [hn]
  rw [held_insertItem, held_set]
  split
  · rename_i e
    subst e
    have h0 : held o.properties j = 0 := by rw [h j hj]; simp [held, hn]
    cases hp : o.properties j with
    | none => rfl
    | some a =>
      simp [held, hp] at h0
      subst h0
      simp [u64]
      omega
  · exact h j hj

theorem take_small (o : Owner) (k q : Nat) (hq : q < 2 ^ 64)
    (hs : ∀ k, held o.properties k < 2 ^ 64) : ∀ j, held (o.take k q).properties j < 2 ^ 64 := by
  intro j
  unfold Owner.take
  simp only
  rw [held_insertItem]
  split
  · split
    · exact hq
    · exact u64_lt _
  · exact hs j

/-- **C14 (partial).** From a state in which they agree, the typed holdings and the inventory agree after
every history of transfers (in or out, accepted) and `take` calls in which no transfer is from an
owner to itself and `take` is only called for properties that are not in the inventory at that
time. Missing: self-transfers and `take` of a property already held, which make them differ in the
code (see the counterexamples). -/
theorem C14_agreement_partial (isT : Key → Bool) (self : Nat) (ops : List OwnerOp) (o o' : Owner)
    (hne : ∀ t, OwnerOp.transfer t ∈ ops → t.transferor ≠ t.transferee)
    (htake : ∀ pre k q post, ops = pre ++ OwnerOp.take k q :: post →
      q < 2 ^ 64 ∧ ∀ o1, o.run isT self pre = .ok o1 → o1.inventory k = none)
    (hs : ∀ k, held o.properties k < 2 ^ 64)
    (hi : ∀ t, OwnerOp.transfer t ∈ ops → ∀ k q, (k, q) ∈ t.items → q < 2 ^ 64)
    (h : Agree isT o) (hr : o.run isT self ops = .ok o') : Agree isT o' := by
  induction ops generalizing o with
  | nil => simp [Owner.run] at hr; subst hr; exact h
  | cons op ops ih =>
    cases op with
    | transfer t =>
      simp only [Owner.run] at hr
      split at hr
      · rename_i o1 ho1
        refine ih o1 (fun t ht => hne t (by simp [ht])) ?_ ?_ (fun t ht => hi t (by simp [ht])) ?_ hr
        · intro pre k q post e
          have := htake (.transfer t :: pre) k q post (by simp [e])
          refine ⟨this.1, fun o2 h2 => this.2 o2 ?_⟩
          simp only [Owner.run, ho1]
          exact h2
        · exact process_small isT self o o1 t hs (hi t (by simp)) ho1
        · exact process_agree isT self o o1 t (hne t (by simp)) hs (hi t (by simp)) h ho1
      · simp at hr
      · simp at hr
    | take k q =>
      simp only [Owner.run] at hr
      have h0 := htake [] k q ops rfl
      have hn := h0.2 o rfl
      refine ih (o.take k q) (fun t ht => hne t (by simp [ht])) ?_ (take_small o k q h0.1 hs)
        (fun t ht => hi t (by simp [ht])) (take_agree isT o k q h0.1 h hn) hr
      intro pre k' q' post e
      have := htake (.take k q :: pre) k' q' post (by simp [e])
      exact ⟨this.1, fun o2 h2 => this.2 o2 (by simp only [Owner.run]; exact h2)⟩

/-- **C14 (negation).** Taking the same property twice makes the typed holdings and the inventory
differ. -/
theorem C14_counterexample_take (k q r : Nat) (hr : 0 < r) (hs : q + r < 2 ^ 64) :
    let o : Owner := ⟨Inv.empty, Inv.empty⟩
    held ((o.take k q).take k r).properties k = q + r ∧
    held ((o.take k q).take k r).inventory k = q := by
  simp [Owner.take, Inv.empty, held, insertItem, Inv.set, u64]
  omega

/-- **C14 (negation).** Processing a transfer to oneself removes the items from the typed holdings but
not from the inventory. -/
theorem C14_counterexample_self_transfer (isT : Key → Bool) (self k q : Nat) (hk : isT k = true)
    (o : Owner) (hp : o.properties k = some q) :
    ∃ o', o.process isT self ⟨self, self, [(k, q)]⟩ = .ok o' ∧ held o'.properties k = 0 ∧
      o'.inventory = o.inventory := by
  refine ⟨⟨o.inventory, o.properties.set k (some 0)⟩, ?_, ?_, rfl⟩
  · simp [Owner.process, typedCallback, baseCallback, typedErase, hk, eraseItem, hp]
  · simp [held_set]

/-- Non-vacuity: an owner that receives twice and sends once. -/
example : ∃ o', (Owner.mk Inv.empty Inv.empty).run (fun k => k == 7) 1
    [.take 7 1, .transfer ⟨0, 1, [(7, 5), (8, 2)]⟩, .transfer ⟨0, 1, [(7, 5)]⟩,
      .transfer ⟨1, 2, [(7, 4)]⟩] = .ok o' ∧
    held o'.properties 7 = 7 ∧ held o'.inventory 7 = 7 ∧ held o'.inventory 8 = 2 := by
  exact ⟨_, rfl, by decide, by decide, by decide⟩

end Esl.Inventory
