import Verif.Model.Impact
import Verif.Props.Walras

/-!
# Properties of the impact function market

* C93: prices respond to the net volume of orders.
* C94: quotes are for the listed properties, one per market date.
* C95: a market without orders does not stall the simulation.
-/

namespace Esl.Impact
open Esl.Comm

/-- The state after a history of activations, and all quotes sent. -/
def Spec.history (code : Nat) (volumes : Msg → Volumes) (f : Rat → Rat) : Market → List (Step × Inbox) → Market × List (Nat × Nat × List Traded)
  | m, [] => (m, [])
  | m, (step, inbox) :: h =>
    let r := act code volumes f m step inbox
    let r' := Spec.history code volumes f r.market h
    (r'.1, r.quotes ++ r'.2)

/-- What buyers want minus what sellers offer. -/
def Spec.netDemand (orders : List Volumes) (p : Nat) : Rat :=
  (orders.flatten.map fun e => if e.1 = p then (match e.2.2 with | .buy => (e.2.1 : Rat) | .sell => -(e.2.1 : Rat)) else 0).sum

theorem touch_keeps (traded : List Traded) (p : Nat) : ∃ l, touch traded p = traded ++ l := by
  unfold touch
  split
  · exact ⟨[], by simp⟩
  · exact ⟨_, rfl⟩

theorem foldl_touch_keeps (ps : List Nat) (traded : List Traded) : ∃ l, ps.foldl touch traded = traded ++ l := by
  induction ps generalizing traded with
  | nil => exact ⟨[], by simp⟩
  | cons p ps ih =>
    obtain ⟨l1, h1⟩ := touch_keeps traded p
    obtain ⟨l2, h2⟩ := ih (touch traded p)
    exact ⟨l1 ++ l2, by rw [List.foldl_cons, h2, h1, List.append_assoc]⟩

theorem act_keeps (code : Nat) (volumes : Msg → Volumes) (f : Rat → Rat) (m : Market) (step : Step) (inbox : Inbox) :
    (∃ l, (act code volumes f m step inbox).market.traded = m.traded ++ l) ∧
    ∀ q ∈ (act code volumes f m step inbox).quotes, ∃ l, q.2.2 = m.traded ++ l := by
  unfold act
  split
  · refine ⟨⟨[], by simp⟩, ?_⟩
    intro q hq
    obtain ⟨p, -, rfl⟩ := List.mem_map.1 hq
    exact ⟨[], by simp⟩
  · simp only
    split
    · refine ⟨⟨[], by simp⟩, ?_⟩
      intro q hq
      obtain ⟨p, -, rfl⟩ := List.mem_map.1 hq
      exact ⟨[], by simp⟩
    · unfold clearMarket
      simp only
      obtain ⟨l, hl⟩ := foldl_touch_keeps (ordered ((collectOrders code step.lower inbox []).1.map fun e => volumes e.2)) m.traded
      refine ⟨⟨l, hl⟩, ?_⟩
      intro q hq
      obtain ⟨p, -, rfl⟩ := List.mem_map.1 hq
      exact ⟨l, hl⟩

/-- **C93 (negation, in general).** Whatever orders are sent and whatever the impact function is, all quotes in all histories have the initial prices: the prices of the
traded properties never change. -/
theorem C93_counterexample_constant (code : Nat) (volumes : Msg → Volumes) (f : Rat → Rat) (m : Market) (h : List (Step × Inbox)) :
    ∀ q ∈ (Spec.history code volumes f m h).2, ∃ l, q.2.2 = m.traded ++ l := by
  induction h generalizing m with
  | nil => simp [Spec.history]
  | cons e h ih =>
    obtain ⟨step, inbox⟩ := e
    intro q hq
    simp only [Spec.history, List.mem_append] at hq
    obtain ⟨⟨l1, h1⟩, h2⟩ := act_keeps code volumes f m step inbox
    rcases hq with hq | hq
    · exact h2 q hq
    · obtain ⟨l2, h3⟩ := ih _ q hq
      exact ⟨l1 ++ l2, by rw [h3, h1, List.append_assoc]⟩

theorem netVolume_zero (orders : List Volumes) (p : Nat) (h : ∀ e ∈ orders.flatten, 2 ≤ e.2.1) : netVolume orders p = 0 := by
  unfold netVolume
  apply List.sum_eq_zero
  intro x hx
  obtain ⟨e, he, rfl⟩ := List.mem_map.1 hx
  have := h e he
  split
  · unfold contribution
    rw [if_neg (by omega), if_neg (by omega)]
  · rfl

theorem multiplier_zero (f : Rat → Rat) (traded : List Traded) (orders : List Volumes) (hbig : ∀ e ∈ orders.flatten, 2 ≤ e.2.1)
    (p : Nat) (t : Traded) (ht : traded.find? (fun t => t.id == p) = some t) (v : Rat) (he : (p, some v) ∈ (clearMarket f traded orders).1) :
    v * ((t.value : Rat) / t.lot) = (t.value : Rat) / t.lot + f 0 := by
  unfold clearMarket at he
  simp only at he
  obtain ⟨p', -, h1⟩ := List.mem_map.1 he
  simp only [Prod.mk.injEq] at h1
  obtain ⟨rfl, h2⟩ := h1
  rw [netVolume_zero orders p' hbig] at h2
  obtain ⟨l, hl⟩ := foldl_touch_keeps (ordered orders) traded
  unfold multiplier at h2
  rw [hl, List.find?_append, ht] at h2
  simp only [Option.some_or] at h2
  split at h2
  · simp at h2
  · rename_i hne
    simp only [Option.some.injEq] at h2
    rw [← h2]
    exact div_mul_cancel₀ _ hne

/-- **C93 (negation).** Whatever is ordered, in portions of two units or more: the multiplier of each traded property is that for a net demand of zero. Already one order to buy 1000 units, for which the net demand is 1000, leaves the
price as it is. -/
theorem C93_counterexample_volume :
    (∀ (f : Rat → Rat) (traded : List Traded) (orders : List Volumes), (∀ e ∈ orders.flatten, 2 ≤ e.2.1) → ∀ (p : Nat) (t : Traded), traded.find? (fun t => t.id == p) = some t →
      ∀ v, (p, some v) ∈ (clearMarket f traded orders).1 → v * ((t.value : Rat) / t.lot) = (t.value : Rat) / t.lot + f 0) ∧
    Spec.netDemand [[(7, 1000, .buy)]] 7 = 1000 ∧ (clearMarket (fun v => v) [⟨7, 50, 1⟩] [[(7, 1000, .buy)]]).1 = [(7, some 1)] :=
  ⟨fun f traded orders h p t ht v he => multiplier_zero f traded orders h p t ht v he, by decide +kernel, by decide +kernel⟩

/-- **C93 (negation).** At a price of 50 and an impact equal to the demand, selling one unit gives a price of 49, selling nothing a price of 51, and buying one unit leaves the price as it is. -/
theorem C93_counterexample_sides :
    (clearMarket (fun v => v) [⟨7, 50, 1⟩] [[(7, 1, .sell)]]).1 = [(7, some (49 / 50))] ∧
    (clearMarket (fun v => v) [⟨7, 50, 1⟩] [[(7, 0, .sell)]]).1 = [(7, some (51 / 50))] ∧
    (clearMarket (fun v => v) [⟨7, 50, 1⟩] [[(7, 1, .buy)]]).1 = [(7, some 1)] := by decide +kernel

/-- **C93 (partial).** If what is ordered of a traded property is in balance, and no volume is 0 or 1, then the multiplier is that for the net demand: it adds the impact of the net
demand to the price. Missing: all other orders, and applying the multiplier. -/
theorem C93_balanced_partial (f : Rat → Rat) (traded : List Traded) (orders : List Volumes) (hbig : ∀ e ∈ orders.flatten, 2 ≤ e.2.1)
    (p : Nat) (hbal : Spec.netDemand orders p = 0) (t : Traded) (ht : traded.find? (fun t => t.id == p) = some t) (v : Rat)
    (he : (p, some v) ∈ (clearMarket f traded orders).1) :
    v * ((t.value : Rat) / t.lot) = (t.value : Rat) / t.lot + f (Spec.netDemand orders p) := by
  rw [hbal]
  exact multiplier_zero f traded orders hbig p t ht v he

example : (clearMarket (fun v => v / 10) [⟨7, 50, 1⟩] [[(7, 10, .buy)], [(7, 10, .sell)]]).1 = [(7, some 1)] := by decide +kernel

/-! ## C94: quotes -/

/-- **C94 (partial).** As long as orders are for listed properties only, quotes list exactly the listed properties. Missing: orders for other properties. -/
theorem C94_listed_partial (code : Nat) (volumes : Msg → Volumes) (f : Rat → Rat) (m : Market) (h : List (Step × Inbox))
    (hl : ∀ e ∈ h, ∀ x ∈ e.2, ∀ v ∈ volumes x.2, v.1 ∈ m.traded.map (·.id)) :
    (Spec.history code volumes f m h).1.traded = m.traded ∧ ∀ q ∈ (Spec.history code volumes f m h).2, q.1 ∈ m.participants ∧ q.2.2 = m.traded := by
  have hcol : ∀ (lower : Nat) (inbox : Inbox) (acc : List (Nat × Msg)) (e : Nat × Msg), e ∈ (collectOrders code lower inbox acc).1 →
      e ∈ acc ∨ ∃ x ∈ inbox, x.2 = e.2 := by
    intro lower inbox
    induction inbox with
    | nil => intro acc e he; exact .inl he
    | cons x inbox ih =>
      obtain ⟨k, y⟩ := x
      intro acc e he
      rw [collectOrders] at he
      split at he
      · split at he
        · exact .inl he
        · rcases ih _ e he with h1 | ⟨z, hz, h2⟩
          · split at h1
            · exact .inl h1
            · rcases List.mem_append.1 h1 with h1 | h1
              · exact .inl h1
              · simp at h1; subst h1; exact .inr ⟨(k, y), by simp, rfl⟩
          · exact .inr ⟨z, List.mem_cons_of_mem _ hz, h2⟩
      · rcases ih _ e he with h1 | ⟨z, hz, h2⟩
        · exact .inl h1
        · exact .inr ⟨z, List.mem_cons_of_mem _ hz, h2⟩
  have hfold : ∀ (ps : List Nat) (traded : List Traded), (∀ p ∈ ps, p ∈ traded.map (·.id)) → ps.foldl touch traded = traded := by
    intro ps traded hps
    induction ps with
    | nil => rfl
    | cons p ps ih =>
      have : touch traded p = traded := by
        obtain ⟨t, ht, h1⟩ := List.mem_map.1 (hps p (by simp))
        unfold touch
        rw [if_pos (List.any_eq_true.2 ⟨t, ht, by simpa using h1⟩)]
      rw [List.foldl_cons, this]
      exact ih fun q hq => hps q (List.mem_cons_of_mem _ hq)
  have hact : ∀ (m : Market) (step : Step) (inbox : Inbox), (∀ x ∈ inbox, ∀ v ∈ volumes x.2, v.1 ∈ m.traded.map (·.id)) →
      (act code volumes f m step inbox).market.traded = m.traded ∧ (act code volumes f m step inbox).market.participants = m.participants ∧
      ∀ q ∈ (act code volumes f m step inbox).quotes, q.1 ∈ m.participants ∧ q.2.2 = m.traded := by
    intro m step inbox hl
    unfold act
    split
    · refine ⟨rfl, rfl, ?_⟩
      intro q hq
      obtain ⟨p, hp, rfl⟩ := List.mem_map.1 hq
      exact ⟨hp, rfl⟩
    · simp only
      split
      · refine ⟨rfl, rfl, ?_⟩
        intro q hq
        obtain ⟨p, hp, rfl⟩ := List.mem_map.1 hq
        exact ⟨hp, rfl⟩
      · have hc : (clearMarket f m.traded ((collectOrders code step.lower inbox []).1.map fun e => volumes e.2)).2 = m.traded := by
          unfold clearMarket
          apply hfold
          intro p hp
          unfold ordered at hp
          rw [List.mem_eraseDups] at hp
          obtain ⟨v, hv, rfl⟩ := List.mem_map.1 hp
          obtain ⟨l, hl1, hl2⟩ := List.mem_flatten.1 hv
          obtain ⟨e, he, rfl⟩ := List.mem_map.1 hl1
          rcases hcol _ _ _ e he with h1 | ⟨x, hx, h2⟩
          · simp at h1
          · exact hl x hx v (by rw [h2]; exact hl2)
        refine ⟨hc, rfl, ?_⟩
        intro q hq
        obtain ⟨p, hp, rfl⟩ := List.mem_map.1 hq
        exact ⟨hp, hc⟩
  have key : ∀ (h : List (Step × Inbox)) (m' : Market), m'.traded = m.traded → m'.participants = m.participants →
      (∀ e ∈ h, ∀ x ∈ e.2, ∀ v ∈ volumes x.2, v.1 ∈ m.traded.map (·.id)) →
      (Spec.history code volumes f m' h).1.traded = m.traded ∧ ∀ q ∈ (Spec.history code volumes f m' h).2, q.1 ∈ m.participants ∧ q.2.2 = m.traded := by
    intro h
    induction h with
    | nil => intro m' h1 _ _; simp [Spec.history, h1]
    | cons e h ih =>
      intro m' h1 h2 hl
      obtain ⟨step, inbox⟩ := e
      obtain ⟨a1, a2, a3⟩ := hact m' step inbox (by rw [h1]; exact hl (step, inbox) (by simp))
      obtain ⟨b1, b2⟩ := ih (act code volumes f m' step inbox).market (by rw [a1, h1]) (by rw [a2, h2]) fun e he => hl e (List.mem_cons_of_mem _ he)
      simp only [Spec.history]
      refine ⟨b1, ?_⟩
      intro q hq
      rcases List.mem_append.1 hq with hq | hq
      · have := a3 q hq; rw [h1, h2] at this; exact this
      · exact b2 q hq
  exact key h m rfl rfl hl

/-- **C94 (negation).** An order for property 8, which the market does not trade, lists it: everyone is then quoted a price of zero for it. -/
theorem C94_counterexample_unlisted :
    (act 9 (fun _ => [(8, 5, .buy)]) (fun v => v) ⟨false, [⟨7, 50, 1⟩], [2]⟩ ⟨3, 10⟩ [(3, ⟨9, 2, 1, 3, 3, 0⟩)]).quotes = [(2, 4, [⟨7, 50, 1⟩, ⟨8, 0, 1⟩])] := by
  decide +kernel

/-- **C94 (negation).** In its first two activations the market sends the same quotes twice. -/
theorem C94_counterexample_twice :
    (Spec.history 9 (fun _ => []) (fun v => v) ⟨true, [⟨7, 50, 1⟩], [2]⟩ [(⟨0, 10⟩, []), (⟨0, 10⟩, [])]).2 =
      [(2, 1, [⟨7, 50, 1⟩]), (2, 1, [⟨7, 50, 1⟩])] := by decide +kernel

example : (Spec.history 9 (fun _ => [(7, 5, .buy)]) (fun v => v) ⟨false, [⟨7, 50, 1⟩], [2]⟩ [(⟨3, 10⟩, [(3, ⟨9, 2, 1, 3, 3, 0⟩)])]).2 = [(2, 4, [⟨7, 50, 1⟩])] := by
  decide +kernel

/-! ## C95: no stall -/

theorem act_no_orders (code : Nat) (volumes : Msg → Volumes) (f : Rat → Rat) (m : Market) (step : Step) (inbox : Inbox) (h : ∀ e ∈ inbox, e.2.type ≠ code)
    (hl : 1 < step.lower) : (act code volumes f m step inbox).wakeUp = step.lower := by
  have h1 : ∀ acc, collectOrders code step.lower inbox acc = (acc, false) := by
    induction inbox with
    | nil => intro acc; rfl
    | cons e inbox ih =>
      obtain ⟨k, y⟩ := e
      intro acc
      rw [collectOrders, if_neg (h (k, y) (by simp))]
      exact ih (fun e he => h e (List.mem_cons_of_mem _ he)) acc
  unfold act
  split
  · rfl
  · simp only [h1, if_true, hl]

/-- **C95 (negation, in general).** From time 2 on, a simulation with an impact function market that receives no orders never completes the step, whatever the other agents do. -/
theorem C95_counterexample_stall {σ : Type} (P : Sched.Program σ) (end_ fuel : Nat) (step : Step) (hl : 1 < step.lower) (w w' : Sched.World σ)
    (hu : Sched.Spec.UniqueIds w) (i code : Nat) (volumes : Msg → Volumes) (f : Rat → Rat)
    (hi : i ∈ w.agents.map (·.id)) (hw : Sched.findWake w.wake i = none ∨ Sched.findWake w.wake i = some step.lower)
    (hact : ∀ r s, ∃ (m : Market) (inbox : Inbox), (∀ e ∈ inbox, e.2.type ≠ code) ∧ (P.act i r s step).2.2 = (act code volumes f m step inbox).wakeUp) :
    Sched.modelStep P end_ fuel step w ≠ some (.ok w') := by
  refine Walras.stuck P end_ fuel step w w' hu i hi hw fun r s => ?_
  obtain ⟨m, inbox, h1, h2⟩ := hact r s
  rw [h2, act_no_orders code volumes f m step inbox h1 hl]

/-- **C95 (partial).** When there are orders for this step and none is stale, the market lets time advance. -/
theorem C95_advances_partial (code : Nat) (volumes : Msg → Volumes) (f : Rat → Rat) (m : Market) (hm : m.sendingQuotes = false) (step : Step) (inbox : Inbox)
    (hf : ∀ e ∈ inbox, e.2.type = code → step.lower ≤ e.2.sent) (ho : ∃ e ∈ inbox, e.2.type = code) :
    (act code volumes f m step inbox).wakeUp = step.upper := by
  have h1 : ∀ (inbox : Inbox) acc, (∀ e ∈ inbox, e.2.type = code → step.lower ≤ e.2.sent) → ((∃ e ∈ inbox, e.2.type = code) ∨ acc ≠ []) →
      (collectOrders code step.lower inbox acc).1 ≠ [] ∧ (collectOrders code step.lower inbox acc).2 = false := by
    intro inbox
    induction inbox with
    | nil =>
      intro acc _ h
      rcases h with ⟨e, he, -⟩ | h
      · simp at he
      · exact ⟨h, rfl⟩
    | cons e inbox ih =>
      obtain ⟨k, y⟩ := e
      intro acc hf h
      rw [collectOrders]
      by_cases hc : y.type = code
      · rw [if_pos hc, if_neg (by have := hf (k, y) (by simp) hc; simp only at this; omega)]
        apply ih _ (fun e he => hf e (List.mem_cons_of_mem _ he))
        right
        split
        · rename_i hany
          intro hnil
          rw [hnil] at hany
          simp at hany
        · simp
      · rw [if_neg hc]
        apply ih _ (fun e he => hf e (List.mem_cons_of_mem _ he))
        rcases h with ⟨e, he, h2⟩ | h
        · rcases List.mem_cons.1 he with rfl | he
          · exact absurd h2 hc
          · exact .inl ⟨e, he, h2⟩
        · exact .inr h
  obtain ⟨h2, h3⟩ := h1 inbox [] hf (.inl ho)
  unfold act
  rw [hm]
  simp only [Bool.false_eq_true, if_false, h3]
  rw [if_neg h2]

example : (act 9 (fun _ => [(7, 5, .buy)]) (fun v => v) ⟨false, [⟨7, 50, 1⟩], [2]⟩ ⟨3, 10⟩ [(3, ⟨9, 2, 1, 3, 3, 0⟩)]).wakeUp = 10 := by decide +kernel

/-- **C95 (negation).** One stale order holds time back as well, however many orders there are for this step: the market is activated again at the same time. -/
theorem C95_counterexample_stale (code : Nat) (volumes : Msg → Volumes) (f : Rat → Rat) (m : Market) (step : Step) (inbox : Inbox)
    (h : ∃ e ∈ inbox, e.2.type = code ∧ e.2.sent < step.lower) : (act code volumes f m step inbox).wakeUp = step.lower := by
  have h1 : ∀ (inbox : Inbox) acc, (∃ e ∈ inbox, e.2.type = code ∧ e.2.sent < step.lower) → (collectOrders code step.lower inbox acc).2 = true := by
    intro inbox
    induction inbox with
    | nil => rintro acc ⟨e, he, -⟩; simp at he
    | cons e inbox ih =>
      obtain ⟨k, y⟩ := e
      intro acc h
      have tail : ¬ (y.type = code ∧ y.sent < step.lower) → ∃ e ∈ inbox, e.2.type = code ∧ e.2.sent < step.lower := by
        intro hn
        obtain ⟨e, he, h2⟩ := h
        rcases List.mem_cons.1 he with rfl | he
        · exact absurd h2 hn
        · exact ⟨e, he, h2⟩
      rw [collectOrders]
      by_cases hc : y.type = code
      · rw [if_pos hc]
        by_cases hs : y.sent < step.lower
        · rw [if_pos hs]
        · rw [if_neg hs]; exact ih _ (tail fun h => hs h.2)
      · rw [if_neg hc]; exact ih _ (tail fun h => hc h.1)
  have h2 := h1 inbox [] h
  unfold act
  by_cases hq : m.sendingQuotes = true
  · rw [if_pos hq]
  · rw [if_neg hq]
    simp only [h2, if_true]
    split <;> simp

example : (act 9 (fun _ => [(7, 5, .buy)]) (fun v => v) ⟨false, [⟨7, 50, 1⟩], [2]⟩ ⟨3, 10⟩ [(3, ⟨9, 2, 1, 3, 3, 0⟩), (3, ⟨9, 4, 1, 2, 3, 0⟩)]).wakeUp = 3 := by decide +kernel

/-- A simulation with a market only. -/
def aloneProgram : Sched.Program Market where
  handlers := fun _ _ _ => []
  act := fun _ _ s step => ((act 9 (fun _ => []) id s step []).market, [], (act 9 (fun _ => []) id s step []).wakeUp)
  shuffle := fun _ _ _ l => l

example (end_ fuel : Nat) (w' : Sched.World Market) :
    Sched.modelStep aloneProgram end_ fuel ⟨2, 10⟩ ⟨[⟨1, ⟨true, [⟨7, 50, 1⟩], []⟩, [], []⟩], [], 0, []⟩ ≠ some (.ok w') :=
  C95_counterexample_stall _ _ _ _ (by decide) _ _ (by simp [Sched.Spec.UniqueIds]) 1 9 (fun _ => []) id (by simp) (.inl rfl)
    (fun _ s => ⟨s, [], by simp, rfl⟩)

end Esl.Impact
