import Verif.Lemmas.Clearing
/-!
C134: clearing a market, from the result of the solver to the bundles that are sent.
-/
namespace Esl.Clearing
open Esl.Walras

/-- The units of a property demanded with an amount of money: the money divided by the price per unit before clearing, times the multiplier found. Every operation is
rounded by `fl`. -/
def Spec.units (fl : Rat → Rat) (den : Nat) (q : Quoted) (multiplier money : Rat) : Rat :=
  fl (money / fl (fl (fl (fl q.value / den) / q.lot) * multiplier))

/-- What the participants are told before they demand: the quote of every traded property, and its multiplier. -/
def Spec.told (result : Nat → Option Rat) (traded : List Quoted) (s : Solution) : Prop :=
  ∀ q ∈ traded, ∀ x, result q.id = some x → s q.id = some (q, x)

/-- The demands for one property: participants and units. -/
def Spec.demands (fl : Rat → Rat) (den : Nat) (s : Solution) (orders : List Order) (q : Quoted) (multiplier : Rat) : List (Nat × Rat) :=
  orders.flatMap fun o => ((o.excess s).filter fun e => e.1 = q.id).map fun e => (o.participant, Spec.units fl den q multiplier e.2)

/-- The position of a participant in a property: the one in its order. -/
def Spec.Position (orders : List Order) (position : Nat → Nat → Nat × Nat) : Prop :=
  ∀ o ∈ orders, ∀ t, position o.participant t = (o.supply t).getD (0, 0)

/-- A market: different properties, one order per participant, one demand per order and property, payments below 2^63. -/
structure Spec.Market (money : Nat → Int → Nat → Nat) (keys : List Item) (traded : List Quoted) (orders : List Order) : Prop where
  properties : (traded.map (·.id)).Nodup
  participants : (orders.map (·.participant)).Nodup
  demands : ∀ o ∈ orders, ∀ s, ((o.excess s).map (·.1)).Nodup
  payments : ∀ u p l, money u p l < 2 ^ 63
  items : keys.Nodup

theorem repriced_of {fl : Rat → Rat} {v n : Int} {x : Rat} (h : applyOne fl v x = .ok n) : n = Walras.Spec.repriced fl v x := by
  rw [Walras.applyOne_spec] at h
  split at h
  · simp only [Outcome.ok.injEq] at h; exact h.symm
  · cases h

/-- **C134.** If the solver finds nothing, nothing happens: no quote changes, nothing is sent, received or recorded. -/
theorem C134_unsolved (fl : Rat → Rat) (den : Nat) (money : Nat → Int → Nat → Nat) (sort : List (Nat × Int) → List (Nat × Int)) (keys : List Item)
    (traded : List Quoted) (orders : List Order) :
    ∃ c, clearMarket fl den money sort keys traded orders none = .ok c ∧ c.quotes = traded ∧ c.volume = none ∧
      ∀ p, c.sent p = none ∧ c.received p = none :=
  ⟨_, rfl, rfl, rfl, fun _ => ⟨rfl, rfl⟩⟩

theorem told_solutionOf (result : Nat → Option Rat) (traded : List Quoted) (hn : (traded.map (·.id)).Nodup) :
    Spec.told result traded (solutionOf result traded) := by
  intro q hq x hx
  unfold solutionOf
  rw [find_of_mem hn hq, hx]
  rfl

theorem position_supplyOf (orders : List Order) (hn : (orders.map (·.participant)).Nodup) : Spec.Position orders (supplyOf orders) := by
  intro o ho t
  unfold supplyOf
  have : (orders.find? fun o' => o'.participant = o.participant) = some o := by
    induction orders with
    | nil => simp at ho
    | cons x l ih =>
      obtain ⟨hx, hl⟩ := List.nodup_cons.1 hn
      rcases List.mem_cons.1 ho with rfl | ho
      · simp
      · have hne : ¬ x.participant = o.participant := fun he => hx (List.mem_map.2 ⟨o, ho, he.symm⟩)
        rw [List.find?_cons]
        simp only [hne, decide_false]
        exact ih hl ho
  rw [this]
  rfl

theorem demands_nodup (fl : Rat → Rat) (den : Nat) (s : Solution) (q : Quoted) (x : Rat) (orders : List Order)
    (h1 : (orders.map (·.participant)).Nodup) (h2 : ∀ o ∈ orders, ∀ s, ((o.excess s).map (·.1)).Nodup) :
    ((Spec.demands fl den s orders q x).map (·.1)).Nodup := by
  have hmem : ∀ (os : List Order) (p : Nat), p ∈ (Spec.demands fl den s os q x).map (·.1) → p ∈ os.map (·.participant) := by
    intro os p hp
    unfold Spec.demands at hp
    obtain ⟨d, hd, rfl⟩ := List.mem_map.1 hp
    obtain ⟨o, ho, hd⟩ := List.mem_flatMap.1 hd
    obtain ⟨e, -, rfl⟩ := List.mem_map.1 hd
    exact List.mem_map.2 ⟨o, ho, rfl⟩
  induction orders with
  | nil => simp [Spec.demands]
  | cons o os ih =>
    obtain ⟨hx, hl⟩ := List.nodup_cons.1 h1
    have ih' := ih hl fun o ho => h2 o (List.mem_cons_of_mem _ ho)
    unfold Spec.demands
    rw [List.flatMap_cons, List.map_append, List.nodup_append]
    refine ⟨?_, ih', ?_⟩
    · rw [List.map_map]
      have h3 : ((o.excess s).filter fun e => e.1 = q.id).length ≤ 1 := by
        have h4 := h2 o (by simp) s
        generalize o.excess s = l at h4
        induction l with
        | nil => simp
        | cons e l ihl =>
          obtain ⟨h5, h6⟩ := List.nodup_cons.1 h4
          by_cases he : e.1 = q.id
          · have : l.filter (fun e => e.1 = q.id) = [] := by
              rw [List.filter_eq_nil_iff]
              intro y hy
              simp only [decide_eq_true_eq]
              intro hyq
              exact h5 (List.mem_map.2 ⟨y, hy, hyq.trans he.symm⟩)
            simp [he, this]
          · simp only [List.filter_cons, he, decide_false, Bool.false_eq_true, if_false]
            exact ihl h6
      generalize (o.excess s).filter (fun e => e.1 = q.id) = l at h3
      match l, h3 with
      | [], _ => simp
      | [_], _ => simp
      | _ :: _ :: _, h3 => simp at h3
    · intro a ha b hb
      rw [List.map_map] at ha
      obtain ⟨e, -, rfl⟩ := List.mem_map.1 ha
      rintro rfl
      exact hx (hmem os _ hb)

/-- The amounts that are sent and received by a participant that trades one property, if `v` units are assigned to it. -/
structure Spec.Settled (money : Nat → Int → Nat → Nat) (t : Traded) (position : Nat × Nat) (v : Int) (sent received : Option Bag) : Prop where
  bought : Walras.Spec.amount sent (.asset t.id) = Walras.Spec.bought v position.2
  sold : Walras.Spec.amount received (.asset t.id) = Walras.Spec.sold v position.1
  shorted : Walras.Spec.amount sent (.short t.id) = Walras.Spec.shorted v position.1
  covered : Walras.Spec.amount received (.short t.id) = Walras.Spec.covered v position.2
  paid : Walras.Spec.amount sent .cash = Walras.Spec.pay money (Walras.Spec.sold v position.1) t.price t.lot +
    Walras.Spec.pay money (Walras.Spec.shorted v position.1) t.price t.lot
  charged : Walras.Spec.amount received .cash = Walras.Spec.pay money (Walras.Spec.covered v position.2) t.old t.lot +
    Walras.Spec.pay money (Walras.Spec.bought v position.2) t.price t.lot
  nothingElse : ∀ k, k ≠ .cash → k ≠ .asset t.id → k ≠ .short t.id → Walras.Spec.amount sent k = 0 ∧ Walras.Spec.amount received k = 0

/-- **C134 (partial).** A clearing for which the solver found multipliers. There is an assignment of units to participants such that, for every traded property: every quote is multiplied and
truncated; the assigned units sum to zero and deviate from the rounded demands by at most the share of the total, rounded up; participants without a demand are assigned nothing. A participant
that trades no property gets no message. A participant that trades one property exchanges exactly what follows from its assignment and position, at the new price (at the old one to close a
short position), and nothing else. Missing: participants that trade several properties, for which this is false (C57, C58). -/
theorem C134_settled_partial (fl : Rat → Rat) (den : Nat) (money : Nat → Int → Nat → Nat) (sort : List (Nat × Int) → List (Nat × Int)) (keys : List Item)
    (traded : List Quoted) (orders : List Order) (result : Nat → Option Rat) (hsort : Walras.Spec.Sorts sort)
    (hmarket : Spec.Market money keys traded orders) (c : Cleared)
    (h : clearMarket fl den money sort keys traded orders (some result) = .ok c) :
    ∃ (s : Solution) (position : Nat → Nat → Nat × Nat) (assigned : Nat → Nat → Int),
      Spec.told result traded s ∧ Spec.Position orders position ∧
      (∀ q ∈ traded, ∃ x n, result q.id = some x ∧ ⟨q.id, n, q.lot⟩ ∈ c.quotes ∧ n = Walras.Spec.repriced fl q.value x ∧
        (let ds := Spec.demands fl den s orders q x
         (ds.map fun d => assigned d.1 q.id).sum = 0 ∧
         (∀ d ∈ ds, |assigned d.1 q.id - Walras.Spec.towardsZero d.2| ≤ ⌈(|Walras.Spec.excess ds| : Rat) / ds.length⌉) ∧
         (∀ p, p ∉ ds.map (·.1) → assigned p q.id = 0)) ∧
        (∀ p, (∀ q' ∈ traded, q'.id ≠ q.id → assigned p q'.id = 0) →
          Spec.Settled money ⟨q.id, q.value, n, q.lot⟩ (position p q.id) (assigned p q.id) (c.sent p) (c.received p))) ∧
      (∀ p, (∀ q ∈ traded, assigned p q.id = 0) → c.sent p = none ∧ c.received p = none) := by
  unfold clearMarket at h
  simp only [Outcome.bind_eq_ok] at h
  obtain ⟨new, hnew, ds, hds, transfers, htr, vol, hvol, hc⟩ := h
  simp only [Outcome.ok.injEq] at hc
  subst hc
  have htold := told_solutionOf result traded hmarket.properties
  have hf2 := applyResults_forall₂ fl result traded new hnew
  have hids : new.map (·.id) = traded.map (·.id) := forall₂_ids (fun q r h => h.1) hf2
  have htids : (tradedOf traded new).map (·.id) = traded.map (·.id) := tradedOf_ids hf2
  have hnnew : (new.map (·.id)).Nodup := hids ▸ hmarket.properties
  -- units
  have hunits : ∀ q ∈ traded, ∀ x, result q.id = some x → ∀ e u, unitsOf fl den (solutionOf result traded) q.id e = .ok u → u = Spec.units fl den q x e := by
    intro q hq x hx e u hu
    unfold unitsOf at hu
    rw [htold q hq x hx] at hu
    simp only at hu
    split at hu
    · cases hu
    · cases hu; rfl
  have hbook : ∀ q ∈ traded, ∀ x, result q.id = some x → (ds.filter fun d => d.1 = q.id).map (·.2) = Spec.demands fl den (solutionOf result traded) orders q x :=
    fun q hq x hx => demandsOf_filter fl den _ q.id (Spec.units fl den q x) (hunits q hq x hx) orders ds hds
  -- transfers
  have hlook : ∀ q ∈ traded, ∀ x, result q.id = some x →
      (Spec.demands fl den (solutionOf result traded) orders q x = [] ∧ transfers.lookup q.id = none) ∨
      (∃ r, transfers.lookup q.id = some r ∧ transfersOf sort (Spec.demands fl den (solutionOf result traded) orders q x) = .ok r) := by
    intro q hq x hx
    obtain ⟨h1, h2⟩ := transfers_lookup sort (book ds) new hnnew transfers htr q.id
    have h3 := book_eq ds q.id
    rw [hbook q hq x hx] at h3
    by_cases h0 : Spec.demands fl den (solutionOf result traded) orders q x = []
    · rw [if_pos h0] at h3
      exact .inl ⟨h0, h2 (.inr h3)⟩
    · rw [if_neg h0] at h3
      exact .inr (h1 (by rw [hids]; exact List.mem_map.2 ⟨q, hq, rfl⟩) _ h3)
  have hres : ∀ q ∈ traded, ∃ x, result q.id = some x := by
    intro q hq
    obtain ⟨r, -, ⟨-, -, x, hx, -⟩, -⟩ := tradedOf_mem hf2 hq
    exact ⟨x, hx⟩
  -- participants occur once
  have hmemr : ∀ q ∈ traded, ∀ x, result q.id = some x → ∀ r, transfers.lookup q.id = some r →
      transfersOf sort (Spec.demands fl den (solutionOf result traded) orders q x) = .ok r := by
    intro q hq x hx r hr
    rcases hlook q hq x hx with ⟨-, h2⟩ | ⟨r', h2, h3⟩
    · rw [h2] at hr; cases hr
    · rw [h2] at hr; cases hr; exact h3
  have hpart : ∀ q ∈ traded, ∀ x, result q.id = some x → ∀ r, transfers.lookup q.id = some r →
      (r.map (·.1)).Nodup ∧ ∃ l : List (Nat × Rat), l.Perm (Spec.demands fl den (solutionOf result traded) orders q x) ∧ r.map (·.1) = l.map (·.1) := by
    intro q hq x hx r hr
    obtain ⟨-, l, h1, h2, -⟩ := C56_balanced sort hsort _ r (hmemr q hq x hx r hr)
    refine ⟨?_, l, h1, h2⟩
    rw [h2]
    exact (h1.map (·.1)).nodup_iff.2 (demands_nodup fl den _ q x orders hmarket.participants hmarket.demands)
  have hnone : ∀ t, t ∉ traded.map (·.id) → transfers.lookup t = none := by
    intro t ht
    exact (transfers_lookup sort (book ds) new hnnew transfers htr t).2 (.inl (by rw [hids]; exact ht))
  have hnodup : ∀ t l, (fun t => transfers.lookup t) t = some l → (l.map (·.1)).Nodup := by
    intro t l hl
    by_cases ht : t ∈ traded.map (·.id)
    · obtain ⟨q, hq, rfl⟩ := List.mem_map.1 ht
      obtain ⟨x, hx⟩ := hres q hq
      exact (hpart q hq x hx l hl).1
    · simp only [hnone t ht] at hl; cases hl
  have hsettle : ∀ p, _ := fun p => settle_at (money := money) (supplyOf orders) (fun t => transfers.lookup t) (tradedOf traded new) hnodup (fun _ => none, fun _ => none) p
  refine ⟨solutionOf result traded, supplyOf orders, fun p t => Walras.Spec.assigned (fun t => transfers.lookup t) t p, htold, position_supplyOf orders hmarket.participants, ?_, ?_⟩
  · intro q hq
    obtain ⟨r, hr, ⟨hrid, hrlot, x, hx, hxv⟩, hmem⟩ := tradedOf_mem hf2 hq
    refine ⟨x, r.value, hx, ?_, repriced_of hxv, ?_, ?_⟩
    · have : (⟨q.id, r.value, q.lot⟩ : Quoted) = r := by rw [← hrid, ← hrlot]
      rw [this]; exact hr
    · simp only
      rcases hlook q hq x hx with ⟨h1, h2⟩ | ⟨r, h2, h3⟩
      · rw [h1]
        refine ⟨by simp, by simp, ?_⟩
        intro p _
        simp [Walras.Spec.assigned, h2]
      · obtain ⟨b1, l, b2, b3, -, b5⟩ := C56_balanced sort hsort _ r h3
        obtain ⟨n1, -⟩ := hpart q hq x hx r h2
        have hass : ∀ e ∈ r, Walras.Spec.assigned (fun t => transfers.lookup t) q.id e.1 = e.2 := by
          intro e he
          simp [Walras.Spec.assigned, h2, lookup_of_mem n1 he]
        refine ⟨?_, ?_, ?_⟩
        · have e1 : (l.map fun d => Walras.Spec.assigned (fun t => transfers.lookup t) q.id d.1) =
              (r.map fun d => Walras.Spec.assigned (fun t => transfers.lookup t) q.id d.1) := by
            have := congrArg (List.map fun p => Walras.Spec.assigned (fun t => transfers.lookup t) q.id p) b3
            rw [List.map_map, List.map_map] at this
            exact this.symm
          rw [← (b2.map fun d : Nat × Rat => Walras.Spec.assigned (fun t => transfers.lookup t) q.id d.1).sum_eq, e1, ← b1]
          congr 1
          exact List.map_congr_left hass
        · intro d hd
          have hd' := b2.mem_iff.2 hd
          clear b2 h3 hd b1
          have hass' : ∀ e ∈ r, Walras.Spec.assigned (fun t => transfers.lookup t) q.id e.1 = e.2 := hass
          clear hass h2 n1
          induction b5 with
          | nil => simp at hd'
          | cons hx5 _ ih =>
            rename_i e y l r _
            simp only [List.map_cons, List.cons.injEq] at b3
            rcases List.mem_cons.1 hd' with rfl | hd'
            · rw [← b3.1, hass' y (by simp)]; exact hx5
            · exact ih b3.2 hd' fun e he => hass' e (List.mem_cons_of_mem _ he)
        · intro p hp
          have : p ∉ r.map (·.1) := by
            rw [b3]; intro hp'; exact hp ((b2.map (·.1)).mem_iff.1 hp')
          simp [Walras.Spec.assigned, h2, lookup_not_mem this]
    · intro p hsingle
      have hfold := hsettle p
      rw [fold_single money (fun t => supplyOf orders p t) (fun t => Walras.Spec.assigned (fun t => transfers.lookup t) t p) (tradedOf traded new)
        (htids ▸ hmarket.properties) _ hmem (by
          intro s hs hne
          have : s.id ∈ traded.map (·.id) := by rw [← htids]; exact List.mem_map.2 ⟨s, hs, rfl⟩
          obtain ⟨q', hq', hq'id⟩ := List.mem_map.1 this
          have := hsingle q' hq' (by rw [hq'id]; exact hne)
          rw [← hq'id]; exact this)] at hfold
      simp only at hfold ⊢
      set v := Walras.Spec.assigned (fun t => transfers.lookup t) q.id p with hv
      have hvb : v.natAbs < 2 ^ 64 := by
        rcases hlook q hq x hx with ⟨-, h2⟩ | ⟨r, h2, h3⟩
        · rw [hv]; simp [Walras.Spec.assigned, h2]
        · rw [hv]
          simp only [Walras.Spec.assigned, h2, Option.getD_some]
          cases hp : r.lookup p with
          | none => simp
          | some w =>
            obtain ⟨l1, l2, h4, -⟩ := List.lookup_eq_some_iff.1 hp
            exact transfersOf_fits sort _ r h3 (p, w) (by rw [h4]; simp)
      have hm64 : ∀ u p l, money u p l < 2 ^ 64 := fun u p l => lt_trans (hmarket.payments u p l) (by norm_num)
      have ham := settleEntry_amounts hm64 ⟨q.id, q.value, r.value, q.lot⟩ (supplyOf orders p q.id) v hvb (none, none) bounded_none bounded_none
      generalize settleEntry money ⟨q.id, q.value, r.value, q.lot⟩ (supplyOf orders p q.id) v (none, none) = E at hfold ham
      obtain ⟨E1, E2⟩ := E
      obtain ⟨e1, e2⟩ := Prod.mk.inj hfold
      simp only at ham
      have hpay : ∀ u p l, Walras.Spec.pay money u p l < 2 ^ 63 := by
        intro u p l; unfold Walras.Spec.pay; split
        · norm_num
        · exact hmarket.payments _ _ _
      have hsum : ∀ a b, a < 2 ^ 63 → b < 2 ^ 63 → u64 (a + b) = a + b := fun a b ha hb => u64_of_lt (by omega)
      have hzero : ∀ u p l, u = 0 → Walras.Spec.pay money u p l = 0 := by
        intro u p l hu; simp [Walras.Spec.pay, hu]
      have hsign : (Walras.Spec.bought v (supplyOf orders p q.id).2 = 0 ∧ Walras.Spec.covered v (supplyOf orders p q.id).2 = 0) ∨
          (Walras.Spec.sold v (supplyOf orders p q.id).1 = 0 ∧ Walras.Spec.shorted v (supplyOf orders p q.id).1 = 0) := by
        unfold Walras.Spec.bought Walras.Spec.covered Walras.Spec.sold Walras.Spec.shorted
        omega
      -- amounts before netting
      have hb : Walras.Spec.bought v (supplyOf orders p q.id).2 < 2 ^ 64 := by unfold Walras.Spec.bought; omega
      have hc' : Walras.Spec.covered v (supplyOf orders p q.id).2 < 2 ^ 64 := by unfold Walras.Spec.covered; omega
      have hs' : Walras.Spec.sold v (supplyOf orders p q.id).1 < 2 ^ 64 := by unfold Walras.Spec.sold; omega
      have hh' : Walras.Spec.shorted v (supplyOf orders p q.id).1 < 2 ^ 64 := by unfold Walras.Spec.shorted; omega
      have hcash := ham .cash
      have hasset := ham (.asset q.id)
      have hshort := ham (.short q.id)
      simp only [amount_none, zero_add, if_true, reduceCtorEq, if_false, and_true, hsum _ _ (hpay _ _ _) (hpay _ _ _), u64_of_lt hs', u64_of_lt hh', u64_of_lt hc'] at hcash hasset hshort
      have hother : ∀ k, k ≠ .cash → k ≠ .asset q.id → k ≠ .short q.id → Walras.Spec.amount E1 k = 0 ∧ Walras.Spec.amount E2 k = 0 := by
        intro k k1 k2 k3
        rw [(ham k).1, (ham k).2]
        simp [k1, k2, k3, amount_none]
      have hdis : ∀ k, Walras.Spec.amount E1 k = 0 ∨ Walras.Spec.amount E2 k = 0 := by
        intro k
        by_cases k1 : k = .cash
        · rw [k1, hcash.1, hcash.2]
          rcases hsign with ⟨z1, z2⟩ | ⟨z1, z2⟩
          · right; rw [hzero _ _ _ z1, hzero _ _ _ z2]
          · left; rw [hzero _ _ _ z1, hzero _ _ _ z2]
        · by_cases k2 : k = .asset q.id
          · rw [k2, hasset.1, hasset.2]
            exact hsign.imp (·.1) (·.1)
          · by_cases k3 : k = .short q.id
            · rw [k3, hshort.1, hshort.2]
              exact (hsign.imp (·.2) (·.2)).symm
            · exact .inl (hother k k1 k2 k3).1
      have hnet : ∀ k, _ := fun k => net_disjoint keys hmarket.items E1 E2 k (hdis k)
      rw [e1, e2]
      exact ⟨(hnet _).1.trans hasset.1, (hnet _).2.trans hasset.2, (hnet _).1.trans hshort.1, (hnet _).2.trans hshort.2, (hnet _).1.trans hcash.1, (hnet _).2.trans hcash.2,
        fun k k1 k2 k3 => ⟨(hnet k).1.trans (hother k k1 k2 k3).1, (hnet k).2.trans (hother k k1 k2 k3).2⟩⟩
  · intro p hp
    have hfold := hsettle p
    rw [fold_zero money (fun t => supplyOf orders p t) (fun t => Walras.Spec.assigned (fun t => transfers.lookup t) t p) (tradedOf traded new) (by
      intro s hs
      have : s.id ∈ traded.map (·.id) := by rw [← htids]; exact List.mem_map.2 ⟨s, hs, rfl⟩
      obtain ⟨q', hq', hq'id⟩ := List.mem_map.1 this
      rw [← hq'id]; exact hp q' hq')] at hfold
    obtain ⟨e1, e2⟩ := Prod.mk.inj hfold
    simp only [e1, e2]
    exact ⟨rfl, rfl⟩

theorem inj_of_nodup {orders : List Order} (hn : (orders.map (·.participant)).Nodup) {a b : Order} (ha : a ∈ orders) (hb : b ∈ orders)
    (h : a.participant = b.participant) : a = b := by
  induction orders with
  | nil => simp at ha
  | cons x l ih =>
    obtain ⟨hx, hl⟩ := List.nodup_cons.1 hn
    rcases List.mem_cons.1 ha with h1 | h1 <;> rcases List.mem_cons.1 hb with h2 | h2
    · rw [h1, h2]
    · subst h1
      exact (hx (List.mem_map.2 ⟨b, h2, h.symm⟩)).elim
    · subst h2
      exact (hx (List.mem_map.2 ⟨a, h1, h⟩)).elim
    · exact ih hl h1 h2

/-- Payments in the smallest unit, rounded down and below 2^63. -/
def floorMoney (u : Nat) (price : Int) (lot : Nat) : Nat := min (u * price.toNat / lot) (2 ^ 63 - 1)

/-- **C134 (partial).** With exact arithmetic and payments that are rounded down: a participant without a position that demands a single property for an amount of money, is not assigned more units than
that pays for, and whose new price is at least one smallest unit before truncation, is not charged more than that amount. Missing: smaller prices, for which it is false. -/
theorem C134_budget_partial (den : Nat) (hden : 0 < den) (money : Nat → Int → Nat → Nat) (hmoney : ∀ u (p : Int) l, 0 ≤ p → (money u p l : Rat) ≤ u * p / l)
    (sort : List (Nat × Int) → List (Nat × Int)) (keys : List Item)
    (traded : List Quoted) (orders : List Order) (result : Nat → Option Rat) (hsort : Walras.Spec.Sorts sort)
    (hmarket : Spec.Market money keys traded orders) (c : Cleared)
    (h : clearMarket id den money sort keys traded orders (some result) = .ok c)
    (q : Quoted) (hq : q ∈ traded) (hlot : 0 < q.lot) (x : Rat) (hx : result q.id = some x) (hprice : 1 ≤ q.value * x)
    (o : Order) (ho : o ∈ orders) (budget : Rat) (hdemand : ∀ s, o.excess s = [(q.id, budget)]) (hpos : ∀ t, o.supply t = none)
    (hunits : (Walras.Spec.amount (c.sent o.participant) (.asset q.id) : Rat) ≤ budget / (q.value / den / q.lot * x)) :
    (Walras.Spec.amount (c.received o.participant) .cash : Rat) ≤ budget * den := by
  obtain ⟨s, position, assigned, -, hposition, hall, -⟩ := C134_settled_partial id den money sort keys traded orders result hsort hmarket c h
  have hzero : ∀ q' ∈ traded, q'.id ≠ q.id → assigned o.participant q'.id = 0 := by
    intro q' hq' hne
    obtain ⟨x', n', -, -, -, ⟨-, -, hno⟩, -⟩ := hall q' hq'
    apply hno
    unfold Spec.demands
    intro hmem
    obtain ⟨d, hd, hdo⟩ := List.mem_map.1 hmem
    obtain ⟨o', ho', hd⟩ := List.mem_flatMap.1 hd
    obtain ⟨e, he, rfl⟩ := List.mem_map.1 hd
    have hoo : o' = o := inj_of_nodup hmarket.participants ho' ho hdo
    subst hoo
    rw [hdemand] at he
    simp only [List.filter_cons, List.filter_nil, Ne.symm hne, decide_false, Bool.false_eq_true, if_false, List.not_mem_nil] at he
  obtain ⟨x', n, hx', -, hn, -, hset⟩ := hall q hq
  rw [hx] at hx'
  cases hx'
  have hset := hset o.participant hzero
  have hp0 : position o.participant q.id = (0, 0) := by rw [hposition o ho, hpos]; rfl
  rw [hp0] at hset
  have h1 := hset.bought
  have h2 := hset.charged
  simp only [Walras.Spec.covered, Walras.Spec.pay, Nat.min_zero, if_true, zero_add] at h1 h2
  rw [h2]
  rw [h1] at hunits
  have hn1 : n = Double.trunc (q.value * x) ∧ 0 ≤ n := by
    unfold Walras.Spec.repriced at hn
    simp only [id, ← trunc_spec] at hn
    rw [trunc_nonneg _ (by linarith)] at hn ⊢
    have : 1 ≤ ⌊(q.value : Rat) * x⌋ := by rw [Int.le_floor]; exact_mod_cast hprice
    rw [if_neg (by omega)] at hn
    omega
  have hnle : (n : Rat) ≤ q.value * x := by
    rw [hn1.1, trunc_nonneg _ (by linarith)]
    exact Int.floor_le _
  have hdenq : (0 : Rat) < den := by exact_mod_cast hden
  have hlotq : (0 : Rat) < q.lot := by exact_mod_cast hlot
  have hP : (0 : Rat) < q.value / den / q.lot * x := by
    have : (q.value : Rat) / den / q.lot * x = (q.value * x) / (den * q.lot) := by field_simp
    rw [this]
    exact div_pos (by linarith) (mul_pos hdenq hlotq)
  generalize Walras.Spec.bought (assigned o.participant q.id) 0 = k at hunits
  rw [le_div_iff₀ hP] at hunits
  have hk : (0 : Rat) ≤ k := by exact_mod_cast Nat.zero_le k
  have hb : (0 : Rat) ≤ budget := le_trans (mul_nonneg hk hP.le) hunits
  have hfin : (k : Rat) * n / q.lot ≤ budget * den := by
    rw [div_le_iff₀ hlotq]
    have h5 : (k : Rat) * n ≤ k * (q.value * x) := mul_le_mul_of_nonneg_left hnle hk
    have h6 : (k : Rat) * (q.value * x) = k * (q.value / den / q.lot * x) * (den * q.lot) := by field_simp
    have h7 := mul_le_mul_of_nonneg_right hunits (mul_pos hdenq hlotq).le
    rw [← h6] at h7
    calc (k : Rat) * n ≤ _ := h5
      _ ≤ _ := h7
      _ = _ := by ring
  split
  · exact_mod_cast mul_nonneg hb hdenq.le
  · exact le_trans (hmoney k n q.lot hn1.2) hfin

/-- An order that demands one property for an amount of money, with a position. -/
def simpleOrder (p t : Nat) (budget : Rat) (long : Nat) : Order :=
  ⟨p, fun _ => [(t, budget)], fun k => if k = t ∧ 0 < long then some (long, 0) else none⟩

/-- Whether the outcome is a clearing with some property. -/
def clearedWith (r : Outcome Cleared) (f : Cleared → Bool) : Bool := match r with | .ok c => f c | _ => false

theorem clearedWith_spec {r : Outcome Cleared} {f : Cleared → Bool} (h : clearedWith r f = true) : ∃ c, r = .ok c ∧ f c = true := by
  cases r with
  | ok c => exact ⟨c, rfl, h⟩
  | throws => cases h
  | ub => cases h

/-- The participant with 20 units sells for ten dollars, the other buys for ten dollars; the price rises from one to two dollars. -/
def exampleOrders : List Order := [simpleOrder 1 7 10 0, simpleOrder 2 7 (-10) 20]

example : Spec.Market floorMoney [.cash, .asset 7, .short 7] [⟨7, 100, 1⟩] exampleOrders where
  properties := by decide
  participants := by decide
  demands := by
    intro o ho s
    simp only [exampleOrders, simpleOrder, List.mem_cons, List.not_mem_nil, or_false] at ho
    rcases ho with rfl | rfl <;> simp
  payments := fun u p l => lt_of_le_of_lt (Nat.min_le_right _ _) (by norm_num)
  items := by decide

/-- Five units change hands for ten dollars. -/
example : ∃ c, clearMarket id 100 floorMoney exampleSort [.cash, .asset 7, .short 7] [⟨7, 100, 1⟩] exampleOrders (some fun _ => some 2) = .ok c ∧
    c.quotes = [⟨7, 200, 1⟩] ∧ c.volume = some 10 ∧ Walras.Spec.amount (c.sent 1) (.asset 7) = 5 ∧ Walras.Spec.amount (c.received 1) .cash = 1000 ∧
    Walras.Spec.amount (c.received 2) (.asset 7) = 5 ∧ Walras.Spec.amount (c.sent 2) .cash = 1000 ∧ (c.sent 3).isNone = true := by
  obtain ⟨c, h1, h2⟩ := clearedWith_spec (f := fun c => decide (c.quotes = [⟨7, 200, 1⟩] ∧ c.volume = some 10 ∧ Walras.Spec.amount (c.sent 1) (.asset 7) = 5 ∧ Walras.Spec.amount (c.received 1) .cash = 1000 ∧
    Walras.Spec.amount (c.received 2) (.asset 7) = 5 ∧ Walras.Spec.amount (c.sent 2) .cash = 1000 ∧ (c.sent 3).isNone = true)) (r := clearMarket id 100 floorMoney exampleSort [.cash, .asset 7, .short 7] [⟨7, 100, 1⟩] exampleOrders (some fun _ => some 2)) (by decide +kernel)
  exact ⟨c, h1, of_decide_eq_true h2⟩

/-- **C134 (negation).** The price is one cent, and halves. The smallest price is one cent, so that a participant that demands units for ten cents is charged twenty. -/
theorem C134_counterexample_budget :
    ∃ c, clearMarket id 100 floorMoney exampleSort [.cash, .asset 7, .short 7] [⟨7, 1, 1⟩] [simpleOrder 1 7 (1/10) 0, simpleOrder 2 7 (-(1/10)) 20]
      (some fun _ => some (1/2)) = .ok c ∧
    c.quotes = [⟨7, 1, 1⟩] ∧ Walras.Spec.amount (c.sent 1) (.asset 7) = 20 ∧ Walras.Spec.amount (c.received 1) .cash = 20 := by
  obtain ⟨c, h1, h2⟩ := clearedWith_spec (f := fun c => decide (c.quotes = [⟨7, 1, 1⟩] ∧ Walras.Spec.amount (c.sent 1) (.asset 7) = 20 ∧ Walras.Spec.amount (c.received 1) .cash = 20)) (r := clearMarket id 100 floorMoney exampleSort [.cash, .asset 7, .short 7] [⟨7, 1, 1⟩] [simpleOrder 1 7 (1/10) 0, simpleOrder 2 7 (-(1/10)) 20]
      (some fun _ => some (1/2))) (by decide +kernel)
  exact ⟨c, h1, of_decide_eq_true h2⟩

/-- **C134 (negation).** If the solver finds multipliers, and no order expresses any demand, the behaviour is undefined: the volume of the first property is written to the output, whether or not there is one. -/
theorem C134_counterexample_silent (fl : Rat → Rat) (den : Nat) (money : Nat → Int → Nat → Nat) (sort : List (Nat × Int) → List (Nat × Int)) (keys : List Item)
    (traded : List Quoted) (orders : List Order) (result : Nat → Option Rat) (new : List Quoted) (hnew : applyResults fl result traded = .ok new)
    (h : ∀ o ∈ orders, ∀ s, o.excess s = []) : clearMarket fl den money sort keys traded orders (some result) = .ub := by
  have h1 : ∀ s, demandsOf fl den s orders = .ok [] := by
    intro s
    induction orders with
    | nil => rfl
    | cons o os ih =>
      rw [demandsOf, h o (by simp) s, ih fun o ho => h o (List.mem_cons_of_mem _ ho)]
      rfl
  have h2 : ∀ qs, computeTransfers sort (book []) qs = .ok [] := by
    intro qs
    induction qs with
    | nil => rfl
    | cons q qs ih => rw [computeTransfers]; exact ih
  unfold clearMarket
  simp only
  rw [hnew, Outcome.bind_ok, h1, Outcome.bind_ok, h2, Outcome.bind_ok]
  rfl

/-- **C134 (negation).** An order that demands a property that is not traded makes the behaviour of every clearing undefined, and so does an order for a property whose multiplier is zero. -/
theorem C134_counterexample_order (fl : Rat → Rat) (hfl : fl 0 = 0) (den : Nat) (money : Nat → Int → Nat → Nat) (sort : List (Nat × Int) → List (Nat × Int)) (keys : List Item)
    (traded : List Quoted) (orders : List Order) (result : Nat → Option Rat) (o : Order) (ho : o ∈ orders) (t : Nat) (budget : Rat)
    (hdemand : ∀ s, (t, budget) ∈ o.excess s) (h : t ∉ traded.map (·.id) ∨ result t = some 0) (c : Cleared) :
    clearMarket fl den money sort keys traded orders (some result) ≠ .ok c := by
  intro hok
  unfold clearMarket at hok
  simp only [Outcome.bind_eq_ok] at hok
  obtain ⟨new, -, ds, hds, -⟩ := hok
  obtain ⟨u, hu⟩ := demandsOf_sol fl den _ orders ds hds o ho (t, budget) (hdemand _)
  unfold unitsOf solutionOf at hu
  cases hf : traded.find? fun q => q.id = t with
  | none => simp [hf] at hu
  | some q =>
    rcases h with h | h
    · have h1 := List.mem_of_find?_eq_some hf
      have h2 := List.find?_some hf
      exact h (List.mem_map.2 ⟨q, h1, by simpa using h2⟩)
    · simp [hf, h, hfl] at hu

example : applyResults Double.binary64 (fun _ => some 2) [⟨7, 100, 1⟩] = .ok [⟨7, 200, 1⟩] := by decide +kernel

end Esl.Clearing
