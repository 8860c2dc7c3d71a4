import Verif.Model.Auction
import Verif.Props.Clearing
import Verif.Props.Holders
import Mathlib.Algebra.BigOperators.Group.Finset.Basic
/-! # C146: a Walrasian market conserves positions and money over a whole simulation -/
namespace Esl.Auction
open Esl.Comm Esl.Sched Esl.Inventory Esl.Ledger Esl.Walras Esl.Clearing Esl.Holders Esl.Inventory.Spec
variable {τ : Type}

/-! ## Specification -/

/-- What a participant gets of an item in a clearing: what the market sends to it, less what the market takes from it. -/
def Spec.gets (c : Cleared) (p : Nat) (k : Item) : Int := (Walras.Spec.amount (c.sent p) k : Int) - Walras.Spec.amount (c.received p) k

/-- What a participant gets of an asset in a clearing, where a lending contract counts as a negative unit. -/
def Spec.getsNet (c : Cleared) (p t : Nat) : Int := Spec.gets c p (.asset t) - Spec.gets c p (.short t)

/-- A clearing in which every participant demands at most one property. -/
structure Spec.Clearing (traded : List Quoted) (orders : List Order) (c : Cleared) : Prop where
  single : ∀ o ∈ orders, ∀ s, ∀ e ∈ o.excess s, ∀ e' ∈ o.excess s, e.1 = e'.1
  clears : ∃ fl den money sort keys result, Walras.Spec.Sorts sort ∧ Clearing.Spec.Market money keys traded orders ∧ clearMarket fl den money sort keys traded orders result = .ok c

/-- A clearing in which money can be accounted for: besides, no participant has borrowed units, units are quoted one by one, and payments are exact up to `2 ^ 63`, which no payment exceeds. -/
structure Spec.Exact (traded : List Quoted) (orders : List Order) (c : Cleared) : Prop where
  single : ∀ o ∈ orders, ∀ s, ∀ e ∈ o.excess s, ∀ e' ∈ o.excess s, e.1 = e'.1
  clears : ∃ fl den money sort keys result, Walras.Spec.Sorts sort ∧ Clearing.Spec.Market money keys traded orders ∧ clearMarket fl den money sort keys traded orders result = .ok c ∧
    ∀ u (p : Int), u * p.toNat < 2 ^ 63 → money u p 1 = u * p.toNat
  unborrowed : ∀ o ∈ orders, ∀ t, ((o.supply t).getD (0, 0)).2 = 0
  lots : ∀ q ∈ traded, q.lot = 1
  payments : ∀ o ∈ orders, ∀ q ∈ c.quotes, ∀ k, k ≠ .cash → Walras.Spec.amount (c.sent o.participant) k * q.value.toNat < 2 ^ 63 ∧ Walras.Spec.amount (c.received o.participant) k * q.value.toNat < 2 ^ 63

/-! ## One clearing -/

theorem sum_nodup_subset (f : Nat → Int) (l m : List Nat) (hl : l.Nodup) (hm : m.Nodup) (hsub : ∀ x ∈ m, x ∈ l) (hz : ∀ x ∈ l, x ∉ m → f x = 0) : (l.map f).sum = (m.map f).sum := by
  rw [← List.sum_toFinset f hl, ← List.sum_toFinset f hm]
  symm
  apply Finset.sum_subset
  · intro x hx
    rw [List.mem_toFinset] at hx ⊢
    exact hsub x hx
  · intro x hx hx'
    rw [List.mem_toFinset] at hx hx'
    exact hz x hx hx'

/-- What each participant gets, by its assignment. -/
theorem settled_single (fl : Rat → Rat) (den : Nat) (money : Nat → Int → Nat → Nat) (sort : List (Nat × Int) → List (Nat × Int)) (keys : List Item)
    (traded : List Quoted) (orders : List Order) (result : Nat → Option Rat) (hsort : Walras.Spec.Sorts sort) (hmarket : Clearing.Spec.Market money keys traded orders) (c : Cleared)
    (h : clearMarket fl den money sort keys traded orders (some result) = .ok c) (hsingle : ∀ o ∈ orders, ∀ s, ∀ e ∈ o.excess s, ∀ e' ∈ o.excess s, e.1 = e'.1) :
    ∃ (position : Nat → Nat → Nat × Nat) (assigned : Nat → Nat → Int) (price : Quoted → Int), Clearing.Spec.Position orders position ∧
      (∀ q ∈ traded, (orders.map fun o => assigned o.participant q.id).sum = 0) ∧
      ∀ o ∈ orders, (∃ q ∈ traded, ⟨q.id, price q, q.lot⟩ ∈ c.quotes ∧ (∀ q' ∈ traded, q'.id ≠ q.id → assigned o.participant q'.id = 0) ∧
          Clearing.Spec.Settled money ⟨q.id, q.value, price q, q.lot⟩ (position o.participant q.id) (assigned o.participant q.id) (c.sent o.participant) (c.received o.participant)) ∨
        ((∀ q ∈ traded, assigned o.participant q.id = 0) ∧ c.sent o.participant = none ∧ c.received o.participant = none) := by
  obtain ⟨s, position, assigned, -, hposition, hall, hnone⟩ := C134_settled_partial fl den money sort keys traded orders result hsort hmarket c h
  choose! mult price hall using hall
  refine ⟨position, assigned, price, hposition, ?_, ?_⟩
  · intro q hq
    obtain ⟨-, -, -, ⟨hsum, -, hzero⟩, -⟩ := hall q hq
    generalize mult q = x at hsum hzero
    have e : (orders.map fun o => assigned o.participant q.id) = (orders.map (·.participant)).map fun p => assigned p q.id := by rw [List.map_map]; rfl
    have e' : ((Clearing.Spec.demands fl den s orders q x).map fun d => assigned d.1 q.id) = ((Clearing.Spec.demands fl den s orders q x).map (·.1)).map fun p => assigned p q.id := by rw [List.map_map]; rfl
    rw [e, sum_nodup_subset (fun p => assigned p q.id) _ ((Clearing.Spec.demands fl den s orders q x).map (·.1)) hmarket.participants
      (demands_nodup fl den s q x orders hmarket.participants hmarket.demands) ?_ (fun p _ hp => hzero p hp), ← e', hsum]
    intro p hp
    obtain ⟨d, hd, rfl⟩ := List.mem_map.1 hp
    obtain ⟨o, ho, hd⟩ := List.mem_flatMap.1 hd
    obtain ⟨e, -, rfl⟩ := List.mem_map.1 hd
    exact List.mem_map.2 ⟨o, ho, rfl⟩
  · intro o ho
    by_cases hex : ∃ q ∈ traded, assigned o.participant q.id ≠ 0
    · left
      obtain ⟨q, hq, hqa⟩ := hex
      have demanded : ∀ q' ∈ traded, assigned o.participant q'.id ≠ 0 → ∃ e ∈ o.excess s, e.1 = q'.id := by
        intro q' hq' ha
        obtain ⟨-, -, -, ⟨-, -, hzero⟩, -⟩ := hall q' hq'
        by_contra hno
        apply ha
        apply hzero
        intro hp
        obtain ⟨d, hd, hdp⟩ := List.mem_map.1 hp
        obtain ⟨o', ho', hd⟩ := List.mem_flatMap.1 hd
        obtain ⟨e, he, rfl⟩ := List.mem_map.1 hd
        have := inj_of_nodup hmarket.participants ho' ho hdp
        subst this
        obtain ⟨he, heq⟩ := List.mem_filter.1 he
        exact hno ⟨e, he, by simpa using heq⟩
      have hothers : ∀ q' ∈ traded, q'.id ≠ q.id → assigned o.participant q'.id = 0 := by
        intro q' hq' hne
        by_contra ha
        obtain ⟨e, he, h1⟩ := demanded q' hq' ha
        obtain ⟨e', he', h2⟩ := demanded q hq hqa
        exact hne (by rw [← h1, ← h2]; exact hsingle o ho s e he e' he')
      obtain ⟨-, hn, -, -, hset⟩ := hall q hq
      exact ⟨q, hq, hn, hothers, hset o.participant hothers⟩
    · right
      have hz : ∀ q ∈ traded, assigned o.participant q.id = 0 := by
        intro q hq
        by_contra ha
        exact hex ⟨q, hq, ha⟩
      exact ⟨hz, hnone o.participant hz⟩

/-- **C146, one clearing (partial).** In every clearing in which each participant demands at most one property, for every property: what the participants get of it sums to zero, if a lending contract counts as a negative unit. Whatever they demand, and
whatever the solver finds. Missing: participants that demand several properties, see `C146_counterexample_two`. -/
theorem C146_clearing_partial (traded : List Quoted) (orders : List Order) (c : Cleared) (h : Spec.Clearing traded orders c) (t : Nat) : (orders.map fun o => Spec.getsNet c o.participant t).sum = 0 := by
  obtain ⟨hsingle, fl, den, money, sort, keys, result, hsort, hmarket, hc⟩ := h
  cases result with
  | none =>
    cases hc
    have : (orders.map fun o => Spec.getsNet ⟨traded, none, fun _ => none, fun _ => none⟩ o.participant t) = orders.map fun _ => 0 := by
      apply List.map_congr_left
      intro o _
      rfl
    rw [this]; simp
  | some result =>
    obtain ⟨position, assigned, price, -, hsum, hp⟩ := settled_single fl den money sort keys traded orders result hsort hmarket c hc hsingle
    by_cases ht : ∃ q ∈ traded, q.id = t
    · obtain ⟨q, hq, rfl⟩ := ht
      rw [← hsum q hq]
      congr 1
      apply List.map_congr_left
      intro o ho
      unfold Spec.getsNet Spec.gets
      rcases hp o ho with ⟨q', hq', -, hothers, hset⟩ | ⟨hz, h1, h2⟩
      · by_cases he : q'.id = q.id
        · have s1 := hset.bought
          have s2 := hset.sold
          have s3 := hset.shorted
          have s4 := hset.covered
          simp only [he] at s1 s2 s3 s4
          rw [s1, s2, s3, s4]
          unfold Walras.Spec.bought Walras.Spec.sold Walras.Spec.shorted Walras.Spec.covered
          omega
        · obtain ⟨n1, n2⟩ := hset.nothingElse (.asset q.id) (by simp) (by simp; exact fun e => he e.symm) (by simp)
          obtain ⟨n3, n4⟩ := hset.nothingElse (.short q.id) (by simp) (by simp) (by simp; exact fun e => he e.symm)
          rw [n1, n2, n3, n4, hothers q hq (fun e => he e.symm)]
          rfl
      · rw [h1, h2, hz q hq]; rfl
    · have : (orders.map fun o => Spec.getsNet c o.participant t) = orders.map fun _ => 0 := by
        apply List.map_congr_left
        intro o ho
        unfold Spec.getsNet Spec.gets
        rcases hp o ho with ⟨q', hq', -, -, hset⟩ | ⟨-, h1, h2⟩
        · have he : t ≠ q'.id := fun e => ht ⟨q', hq', e.symm⟩
          obtain ⟨n1, n2⟩ := hset.nothingElse (.asset t) (by simp) (by simpa using he) (by simp)
          obtain ⟨n3, n4⟩ := hset.nothingElse (.short t) (by simp) (by simp) (by simpa using he)
          rw [n1, n2, n3, n4]; rfl
        · rw [h1, h2]; rfl
      rw [this]; simp

theorem sum_comm {α β : Type} (l : List α) (m : List β) (f : α → β → Int) : (l.map fun a => (m.map fun b => f a b).sum).sum = (m.map fun b => (l.map fun a => f a b).sum).sum := by
  induction l with
  | nil => simp
  | cons a l ih =>
    rw [List.map_cons, List.sum_cons, ih, ← List.sum_map_add]
    rfl

theorem sum_one (f : Quoted → Int) (l : List Quoted) (hn : (l.map (·.id)).Nodup) (q : Quoted) (hq : q ∈ l) (hz : ∀ q' ∈ l, q'.id ≠ q.id → f q' = 0) : (l.map f).sum = f q := by
  induction l with
  | nil => simp at hq
  | cons x l ih =>
    rw [List.map_cons, List.nodup_cons] at hn
    rw [List.map_cons, List.sum_cons]
    rcases List.mem_cons.1 hq with rfl | hq
    · have : l.map f = l.map fun _ => 0 := by
        apply List.map_congr_left
        intro y hy
        exact hz y (List.mem_cons_of_mem _ hy) fun e => hn.1 (List.mem_map.2 ⟨y, hy, e⟩)
      rw [this]; simp
    · rw [ih hn.2 hq fun y hy => hz y (List.mem_cons_of_mem _ hy), hz x (List.mem_cons_self ..) fun e => hn.1 (List.mem_map.2 ⟨q, hq, e.symm⟩), zero_add]

/-- **C146, money in one clearing (partial).** If besides nobody has borrowed units, every property is quoted per unit and payments are exact, then what the participants get of money sums to zero: the market neither creates nor keeps any. They may
go short. Missing: participants that close a short position, see `C146_counterexample_money`. -/
theorem C146_money_partial (traded : List Quoted) (orders : List Order) (c : Cleared) (h : Spec.Exact traded orders c) : (orders.map fun o => Spec.gets c o.participant .cash).sum = 0 := by
  obtain ⟨hsingle, ⟨fl, den, money, sort, keys, result, hsort, hmarket, hc, hexact⟩, hun, hlots, hpay⟩ := h
  cases result with
  | none =>
    cases hc
    have : (orders.map fun o => Spec.gets ⟨traded, none, fun _ => none, fun _ => none⟩ o.participant .cash) = orders.map fun _ => 0 := by
      apply List.map_congr_left
      intro o _
      rfl
    rw [this]; simp
  | some result =>
    obtain ⟨position, assigned, price, hposition, hsum, hp⟩ := settled_single fl den money sort keys traded orders result hsort hmarket c hc hsingle
    have each : ∀ o ∈ orders, Spec.gets c o.participant .cash = (traded.map fun q => - (assigned o.participant q.id * (price q).toNat)).sum := by
      intro o ho
      unfold Spec.gets
      rcases hp o ho with ⟨q, hq, hn, hothers, hset⟩ | ⟨hz, h1, h2⟩
      · rw [sum_one (fun q => - (assigned o.participant q.id * (price q).toNat)) traded hmarket.properties q hq (fun q' hq' hne => by simp only [hothers q' hq' hne]; simp)]
        have hpos : (position o.participant q.id).2 = 0 := by rw [hposition o ho]; exact hun o ho q.id
        have s1 := hset.bought
        have s2 := hset.sold
        have s3 := hset.shorted
        have s5 := hset.paid
        have s6 := hset.charged
        have pa := hpay o ho _ hn (.asset q.id) (by simp)
        have ps := hpay o ho _ hn (.short q.id) (by simp)
        simp only [hlots q hq] at s5 s6
        simp only at s1 s2 s3 pa ps
        rw [s1, s2] at pa
        rw [s3] at ps
        rw [hpos] at s6 pa
        have linear : ∀ u, u * (price q).toNat < 2 ^ 63 → Walras.Spec.pay money u (price q) 1 = u * (price q).toNat := by
          intro u hu
          unfold Walras.Spec.pay
          split
          · rename_i h0; rw [h0, Nat.zero_mul]
          · exact hexact u _ hu
        have hcov : Walras.Spec.pay money (Walras.Spec.covered (assigned o.participant q.id) 0) q.value 1 = 0 := by simp [Walras.Spec.covered, Walras.Spec.pay]
        rw [s5, s6, linear _ pa.2, linear _ ps.1, linear _ pa.1, hcov]
        have e : (Walras.Spec.sold (assigned o.participant q.id) (position o.participant q.id).1 : Int) + Walras.Spec.shorted (assigned o.participant q.id) (position o.participant q.id).1
            - Walras.Spec.bought (assigned o.participant q.id) 0 = - assigned o.participant q.id := by
          unfold Walras.Spec.bought Walras.Spec.sold Walras.Spec.shorted
          omega
        push_cast
        rw [← Int.neg_mul, ← e]
        ring
      · rw [h1, h2]
        have : (traded.map fun q => - (assigned o.participant q.id * ((price q).toNat : Int))) = traded.map fun _ => 0 := by
          apply List.map_congr_left
          intro q hq
          rw [hz q hq]; simp
        rw [this]
        simp [Walras.Spec.amount]
    rw [List.map_congr_left each, sum_comm]
    have : (traded.map fun q => (orders.map fun o => - (assigned o.participant q.id * ((price q).toNat : Int))).sum) = traded.map fun _ => 0 := by
      apply List.map_congr_left
      intro q hq
      have h1 : ∀ l : List Order, (l.map fun o => - (assigned o.participant q.id * ((price q).toNat : Int))).sum = - ((l.map fun o => assigned o.participant q.id).sum * ((price q).toNat : Int)) := by
        intro l
        induction l with
        | nil => simp
        | cons o l ih => rw [List.map_cons, List.sum_cons, ih, List.map_cons, List.sum_cons]; ring
      rw [h1, hsum q hq]; simp
    rw [this]; simp

/-! ## Whole simulations -/

/-- Transfers between owners that are sent once to the transferor and once to the transferee. -/
def Spec.Paired (owner : Nat → Prop) (cs : List (Nat × Transfer)) : Prop :=
  ∃ transfers : List Transfer, (∀ t ∈ transfers, owner t.transferor ∧ owner t.transferee) ∧ cs.Perm (transfers.flatMap fun t => [(t.transferor, t), (t.transferee, t)])

/-- The transfers by which the market settles a clearing, if there is one. The participants are owners, and the market is not a participant. -/
def Spec.Settles (setter : Nat) (code : Item → Nat) (owner : Nat → Prop) (clearing : List Quoted → List Order → Cleared → Prop) (cs : List (Nat × Transfer)) : Prop :=
  cs = [] ∨ ∃ traded orders c listing, clearing traded orders c ∧ listing.Nodup ∧
    (∀ o ∈ orders, ∀ k, Walras.Spec.amount (c.sent o.participant) k ≠ 0 ∨ Walras.Spec.amount (c.received o.participant) k ≠ 0 → k ∈ listing) ∧
    (∀ o ∈ orders, owner o.participant ∧ o.participant ≠ setter) ∧ cs = shipments setter code listing (orders.map (·.participant)) c

/-- A simulation with a market. Owners have the callback for transfers. Besides, agents have any callbacks for any messages, and do anything when they act, except for changing inventories directly. The transfers that they send are paired, apart from
those by which the market settles a clearing when it acts. -/
structure Spec.Trading (decode : Nat → Transfer) (owner : Nat → Prop) (setter : Nat) (settles : List (Nat × Transfer) → Prop) (P : Program (Holder τ)) : Prop where
  shuffles : ∀ i t r, Comm.Spec.IsShuffle (P.shuffle i t r)
  owners : ∀ i r, owner i → ∃ before p after, P.handlers i r transferCode = before ++ (p, transferEntry decode i) :: after ∧ ∀ e ∈ before ++ after, Holders.Spec.Neutral e.2.function
  bystanders : ∀ i r, ¬ owner i → ∀ e ∈ P.handlers i r transferCode, Holders.Spec.Neutral e.2.function
  others : ∀ i r c, c ≠ transferCode → ∀ e ∈ P.handlers i r c, Holders.Spec.Neutral e.2.function
  acts : ∀ i r, Holders.Spec.Neutral fun s _ step => P.act i r s step
  replies : ∀ i r c, ∀ e ∈ P.handlers i r c, ∀ s m step, Spec.Paired owner (Holders.Spec.copies decode (e.2.function s m step).2.1)
  sends : ∀ i r s step, i ≠ setter → Spec.Paired owner (Holders.Spec.copies decode (P.act i r s step).2.1)
  clears : ∀ r s step, ∃ cs rest, (Holders.Spec.copies decode (P.act setter r s step).2.1).Perm (cs ++ rest) ∧ settles cs ∧ Spec.Paired owner rest

open Classical in
/-- What owners have yet to add, less what they have yet to remove, of property `k`, according to transfers on their way. -/
noncomputable def Spec.pending (owner : Nat → Prop) (k : Nat) (cs : List (Nat × Transfer)) : Int :=
  (cs.map fun c => if owner c.1 then (Holders.Spec.incoming k c : Int) - Holders.Spec.outgoing k c else 0).sum

/-! ## Lemmas -/

open Classical in
/-- The weight of one copy, for amounts with coefficients. -/
noncomputable def tally (owner : Nat → Prop) (coefs : List (Int × Nat)) (c : Nat × Transfer) : Int :=
  if owner c.1 then (coefs.map fun x => x.1 * ((Holders.Spec.incoming x.2 c : Int) - Holders.Spec.outgoing x.2 c)).sum else 0

/-- The value of an inventory, for amounts with coefficients. -/
def worth (coefs : List (Int × Nat)) (m : Inv) : Int := (coefs.map fun x => x.1 * (held m x.2 : Int)).sum

theorem neutral_message (hs : Nat → Handlers (Holder τ)) (step : Step) (m : Msg) (run : Run (Holder τ)) (h : ∀ e ∈ hs m.type, Holders.Spec.Neutral e.2.function)
    (hal : (processMessage hs step m run).1.agent.failed = false) : run.agent.failed = false ∧ (processMessage hs step m run).1.agent.inventory = run.agent.inventory := by
  unfold processMessage at hal ⊢
  obtain ⟨n1, n2⟩ := neutral_run step m (hs m.type).reverse (fun e he => h e (List.mem_reverse.1 he)) run step.upper
  refine ⟨?_, n1⟩
  cases hx : run.agent.failed with
  | false => rfl
  | true => rw [n2 hx] at hal; exact absurd hal (by simp)

/-- The laws of ledgers for simulations with a market. -/
theorem Spec.Trading.law {decode : Nat → Transfer} {owner : Nat → Prop} {setter : Nat} {settles : List (Nat × Transfer) → Prop} {P : Program (Holder τ)} (h : Spec.Trading decode owner setter settles P)
    {rel : Int → Int → Prop} (R : Relates rel) (value : Inv → Int) (weight : Nat × Transfer → Int)
    (hb : ∀ i m t m', owner i → baseCallback i m t = (m', false) → rel (value m') (value m + weight (i, t))) (hn : ∀ i m t, ¬ owner i → rel (value m) (value m + weight (i, t))) :
    Law rel (fun s : Holder τ => s.failed = false) (fun _ s => value s.inventory) (fun m => if m.type == transferCode then weight (m.recipient, decode m.payload) else 0) P where
  shuffles := h.shuffles
  message := fun i r step m run hi hal => by
    by_cases ho : owner i
    · obtain ⟨h1, h2, h3⟩ := message_owner i (h.owners i r ho) (h.others i r) step m run hal
      refine ⟨h1, ?_⟩
      by_cases hc : m.type = transferCode
      · rw [if_pos (by simp [hc]), hi]
        exact hb _ _ _ _ ho (h3 hc)
      · rw [if_neg (by simp [hc]), h2 hc, Int.add_zero]
        exact R.refl _
    · obtain ⟨h1, h2⟩ := neutral_message (P.handlers i r) step m run (fun e he => by
        by_cases hc : m.type = transferCode
        · rw [hc] at he; exact h.bystanders i r ho e he
        · exact h.others i r _ hc e he) hal
      refine ⟨h1, ?_⟩
      rw [h2]
      by_cases hc : m.type = transferCode
      · rw [if_pos (by simp [hc]), hi]
        exact hn _ _ _ ho
      · rw [if_neg (by simp [hc]), Int.add_zero]
        exact R.refl _
  act := fun i r s step hal => by
    obtain ⟨h1, h2⟩ := h.acts i r s ⟨0, 0, 0, 0, 0, 0⟩ step
    simp only at h1 h2 ⊢
    rw [h1]
    refine ⟨?_, R.refl _⟩
    cases hx : s.failed with
    | false => rfl
    | true => rw [h2 hx] at hal; exact absurd hal (by simp)

theorem weigh_tally (decode : Nat → Transfer) (f : Nat × Transfer → Int) (ms : List Msg) :
    weigh (fun m => if m.type == transferCode then f (m.recipient, decode m.payload) else 0) ms = ((Holders.Spec.copies decode ms).map f).sum := by
  induction ms with
  | nil => rfl
  | cons m ms ih =>
    rw [weigh_cons, ih]
    unfold Holders.Spec.copies
    cases h : m.type == transferCode <;> simp [h]

theorem worth_effect (owner : Nat → Prop) (coefs : List (Int × Nat)) (i : Nat) (m m' : Inv) (t : Transfer) (ho : owner i) (h : baseCallback i m t = (m', false)) :
    worth coefs m' % 2 ^ 64 = (worth coefs m + tally owner coefs (i, t)) % 2 ^ 64 := by
  unfold worth tally
  rw [if_pos ho]
  induction coefs with
  | nil => rfl
  | cons x l ih =>
    simp only [List.map_cons, List.sum_cons]
    have h1 := (base_effect i x.2 m m' t h).1
    have h2 : ((held m' x.2 : Int)) % 2 ^ 64 = (held m x.2 + ((Holders.Spec.incoming x.2 (i, t) : Int) - Holders.Spec.outgoing x.2 (i, t))) % 2 ^ 64 := by omega
    have h3 : (x.1 * (held m' x.2 : Int)) % 2 ^ 64 = (x.1 * (held m x.2 + ((Holders.Spec.incoming x.2 (i, t) : Int) - Holders.Spec.outgoing x.2 (i, t)))) % 2 ^ 64 := by
      rw [Int.mul_emod, h2, ← Int.mul_emod]
    rw [Int.mul_add] at h3
    omega

/-- Paired transfers weigh nothing together. -/
theorem paired_tally (owner : Nat → Prop) (coefs : List (Int × Nat)) (cs : List (Nat × Transfer)) (h : Spec.Paired owner cs) : (cs.map (tally owner coefs)).sum = 0 := by
  obtain ⟨transfers, ho, hp⟩ := h
  rw [perm_sum_int (hp.map (tally owner coefs))]
  clear hp
  induction transfers with
  | nil => rfl
  | cons t l ih =>
    obtain ⟨o1, o2⟩ := ho t (List.mem_cons_self ..)
    simp only [List.flatMap_cons, List.map_append, List.sum_append, ih fun t ht => ho t (List.mem_cons_of_mem _ ht), List.map_cons, List.map_nil, List.sum_cons, List.sum_nil, add_zero]
    unfold tally
    rw [if_pos o1, if_pos o2]
    clear ih
    induction coefs with
    | nil => rfl
    | cons x c ih =>
      simp only [List.map_cons, List.sum_cons]
      have e : (Holders.Spec.incoming x.2 (t.transferor, t) : Int) - Holders.Spec.outgoing x.2 (t.transferor, t) = - ((Holders.Spec.incoming x.2 (t.transferee, t) : Int) - Holders.Spec.outgoing x.2 (t.transferee, t)) := by
        unfold Holders.Spec.incoming Holders.Spec.outgoing
        by_cases he : t.transferor = t.transferee <;> simp [he, Ne.symm]
      rw [e, Int.mul_neg]
      omega

theorem inBundle_bundle (code : Item → Nat) (hcode : Function.Injective code) (listing : List Item) (hn : listing.Nodup) (b : Bag) (k : Item) (hk : (b k).getD 0 ≠ 0 → k ∈ listing) :
    inBundle (bundle code listing b) (code k) = (b k).getD 0 := by
  have absent : ∀ l : List Item, k ∉ l → inBundle (bundle code l b) (code k) = 0 := by
    intro l hl
    apply inBundle_of_not_mem
    intro hm
    obtain ⟨e, he, h1⟩ := List.mem_map.1 hm
    obtain ⟨j, hj, h2⟩ := List.mem_filterMap.1 he
    cases hb : b j with
    | none => rw [hb] at h2; cases h2
    | some q =>
      rw [hb] at h2
      cases h2
      exact hl (hcode h1 ▸ hj)
  by_cases hmem : k ∈ listing
  · clear hk
    induction listing with
    | nil => simp at hmem
    | cons j l ih =>
      obtain ⟨n1, n2⟩ := List.nodup_cons.1 hn
      rcases List.mem_cons.1 hmem with rfl | hm
      · have := absent l n1
        unfold bundle at this ⊢
        rw [List.filterMap_cons]
        cases hb : b k with
        | none => simp only [Option.map_none, Option.getD_none]; exact this
        | some q => simp only [Option.map_some, Option.getD_some]; rw [inBundle_cons, this]; simp
      · have := ih n2 hm
        unfold bundle at this ⊢
        rw [List.filterMap_cons]
        cases hb : b j with
        | none => simp only [Option.map_none]; exact this
        | some q =>
          simp only [Option.map_some]
          rw [inBundle_cons, this, if_neg, Nat.zero_add]
          intro e
          exact n1 (hcode e ▸ hm)
  · rw [absent listing hmem]
    by_contra hne
    exact hmem (hk fun e => hne e.symm)

/-- What the shipments of a clearing weigh. -/
theorem shipments_tally (owner : Nat → Prop) (code : Item → Nat) (hcode : Function.Injective code) (coefs : List (Int × Item)) (setter : Nat) (listing : List Item) (hn : listing.Nodup) (c : Cleared) (ps : List Nat)
    (hall : ∀ p ∈ ps, ∀ k, Walras.Spec.amount (c.sent p) k ≠ 0 ∨ Walras.Spec.amount (c.received p) k ≠ 0 → k ∈ listing) (hown : ∀ p ∈ ps, owner p ∧ p ≠ setter) :
    ((shipments setter code listing ps c).map (tally owner (coefs.map fun x => (x.1, code x.2)))).sum = (ps.map fun p => (coefs.map fun x => x.1 * Spec.gets c p x.2).sum).sum := by
  unfold shipments
  rw [List.map_append, List.sum_append]
  induction ps with
  | nil => rfl
  | cons p ps ih =>
    obtain ⟨o1, o2⟩ := hown p (List.mem_cons_self ..)
    have hp := hall p (List.mem_cons_self ..)
    have ih := ih (fun p hp => hall p (List.mem_cons_of_mem _ hp)) (fun p hp => hown p (List.mem_cons_of_mem _ hp))
    have first : ∀ (b : Bag), (∀ k, Walras.Spec.amount (some b) k ≠ 0 → k ∈ listing) → tally owner (coefs.map fun x => (x.1, code x.2)) (p, ⟨setter, p, bundle code listing b⟩) = (coefs.map fun x => x.1 * (Walras.Spec.amount (some b) x.2 : Int)).sum := by
      intro b hb
      unfold tally
      rw [if_pos o1, List.map_map]
      congr 1
      apply List.map_congr_left
      intro x _
      simp only [Function.comp, Holders.Spec.incoming, Holders.Spec.outgoing, o2, o2.symm, ne_eq, not_false_eq_true, and_true, and_false, if_true, if_false]
      rw [inBundle_bundle code hcode listing hn b x.2 (fun h => hb x.2 h)]
      simp [Walras.Spec.amount]
    have second : ∀ (b : Bag), (∀ k, Walras.Spec.amount (some b) k ≠ 0 → k ∈ listing) → tally owner (coefs.map fun x => (x.1, code x.2)) (p, ⟨p, setter, bundle code listing b⟩) = (coefs.map fun x => - (x.1 * (Walras.Spec.amount (some b) x.2 : Int))).sum := by
      intro b hb
      unfold tally
      rw [if_pos o1, List.map_map]
      congr 1
      apply List.map_congr_left
      intro x _
      simp only [Function.comp, Holders.Spec.incoming, Holders.Spec.outgoing, o2, ne_eq, not_false_eq_true, and_true, and_false, if_true, if_false]
      rw [inBundle_bundle code hcode listing hn b x.2 (fun h => hb x.2 h)]
      simp [Walras.Spec.amount]
    have split : (coefs.map fun x => x.1 * Spec.gets c p x.2).sum = (coefs.map fun x => x.1 * (Walras.Spec.amount (c.sent p) x.2 : Int)).sum + (coefs.map fun x => - (x.1 * (Walras.Spec.amount (c.received p) x.2 : Int))).sum := by
      rw [← List.sum_map_add]
      congr 1
      apply List.map_congr_left
      intro x _
      unfold Spec.gets
      ring
    have zero : ∀ f : Int × Item → Int, (∀ x, f x = 0) → (coefs.map f).sum = 0 := by
      intro f hf
      have : coefs.map f = coefs.map fun _ => 0 := List.map_congr_left fun x _ => hf x
      rw [this]; simp
    have h1 : (((p :: ps).filterMap fun p => (c.sent p).map fun b => ((p, ⟨setter, p, bundle code listing b⟩) : Nat × Transfer)).map (tally owner (coefs.map fun x => (x.1, code x.2)))).sum =
        (coefs.map fun x => x.1 * (Walras.Spec.amount (c.sent p) x.2 : Int)).sum + ((ps.filterMap fun p => (c.sent p).map fun b => ((p, ⟨setter, p, bundle code listing b⟩) : Nat × Transfer)).map (tally owner (coefs.map fun x => (x.1, code x.2)))).sum := by
      rw [List.filterMap_cons]
      cases hs : c.sent p with
      | none =>
        rw [zero (fun x => x.1 * (Walras.Spec.amount (none : Option Bag) x.2 : Int)) (fun x => by simp [Walras.Spec.amount]), zero_add]
        rfl
      | some b =>
        simp only [Option.map_some, List.map_cons, List.sum_cons]
        rw [first b fun k hk => hp k (.inl (by rw [hs]; exact hk))]
    have h2 : (((p :: ps).filterMap fun p => (c.received p).map fun b => ((p, ⟨p, setter, bundle code listing b⟩) : Nat × Transfer)).map (tally owner (coefs.map fun x => (x.1, code x.2)))).sum =
        (coefs.map fun x => - (x.1 * (Walras.Spec.amount (c.received p) x.2 : Int))).sum + ((ps.filterMap fun p => (c.received p).map fun b => ((p, ⟨p, setter, bundle code listing b⟩) : Nat × Transfer)).map (tally owner (coefs.map fun x => (x.1, code x.2)))).sum := by
      rw [List.filterMap_cons]
      cases hs : c.received p with
      | none =>
        rw [zero (fun x => - (x.1 * (Walras.Spec.amount (none : Option Bag) x.2 : Int))) (fun x => by simp [Walras.Spec.amount]), zero_add]
        rfl
      | some b =>
        simp only [Option.map_some, List.map_cons, List.sum_cons]
        rw [second b fun k hk => hp k (.inr (by rw [hs]; exact hk))]
    rw [h1, h2, List.map_cons, List.sum_cons, split, ← ih]
    omega

/-- The ledger of a simulation with a market. -/
theorem run_tally {decode : Nat → Transfer} {owner : Nat → Prop} {setter : Nat} {settles : List (Nat × Transfer) → Prop} {P : Program (Holder τ)} (hP : Spec.Trading decode owner setter settles P) (coefs : List (Int × Nat))
    (hs : ∀ cs, settles cs → (cs.map (tally owner coefs)).sum = 0) (start end_ fuel n : Nat) (w w' : World (Holder τ)) (ts : List Nat) (hu : Sched.Spec.UniqueIds w) (hl : w.log = [])
    (hin : Holders.Spec.Inboxes w) (h : runLoop P end_ fuel n start w = some (.ok (w', ts))) (hal : ∀ a ∈ w'.agents, a.state.failed = false) :
    ((w'.agents.map fun a => worth coefs a.state.inventory).sum + ((Holders.Spec.underway decode w').map (tally owner coefs)).sum) % 2 ^ 64 =
      ((w.agents.map fun a => worth coefs a.state.inventory).sum + ((Holders.Spec.underway decode w).map (tally owner coefs)).sum) % 2 ^ 64 := by
  have A := ledger_run congruent_relates (hP.law congruent_relates (worth coefs) (tally owner coefs) (fun i m t m' ho hb => worth_effect owner coefs i m m' t ho hb)
    (fun i m t ho => by unfold tally; rw [if_neg ho, Int.add_zero])) start end_ fuel n w w' ts hu hl hin h hal
  have pairedZero : ∀ ms, Spec.Paired owner (Holders.Spec.copies decode ms) → weigh (fun m => if m.type == transferCode then tally owner coefs (m.recipient, decode m.payload) else 0) ms = 0 := by
    intro ms hp
    rw [weigh_tally]
    exact paired_tally owner coefs _ hp
  have B := log_balanced (weight := fun m => if m.type == transferCode then tally owner coefs (m.recipient, decode m.payload) else 0) (P := P)
    (fun i r c e he s m step => pairedZero _ (hP.replies i r c e he s m step))
    (fun i r s step => by
      by_cases hi : i = setter
      · subst hi
        obtain ⟨cs, rest, hp, h1, h2⟩ := hP.clears r s step
        rw [weigh_tally, perm_sum_int (hp.map _), List.map_append, List.sum_append, hs cs h1, paired_tally owner coefs rest h2]
        rfl
      · exact pairedZero _ (hP.sends i r s step hi)) start end_ fuel n w w' ts hu hl h
  rw [B, Int.add_zero] at A
  have ledgers : ∀ v : World (Holder τ), ledger (fun _ s => worth coefs s.inventory) (fun m => if m.type == transferCode then tally owner coefs (m.recipient, decode m.payload) else 0) v.agents =
      (v.agents.map fun a => worth coefs a.state.inventory).sum + ((Holders.Spec.underway decode v).map (tally owner coefs)).sum := by
    intro v
    unfold Holders.Spec.underway
    rw [← weigh_tally]
    unfold ledger
    induction v.agents with
    | nil => rfl
    | cons a l ih =>
      rw [List.map_cons, List.sum_cons, ih, List.flatMap_cons, weigh_append, weigh_append, List.map_cons, List.sum_cons]
      unfold flow
      simp only
      omega
  rw [ledgers, ledgers] at A
  exact A

/-- What all agents hold is bounded by what they are sent. -/
theorem run_bound {decode : Nat → Transfer} {owner : Nat → Prop} {setter : Nat} {settles : List (Nat × Transfer) → Prop} {P : Program (Holder τ)} (hP : Spec.Trading decode owner setter settles P) (k : Nat)
    (start end_ fuel n : Nat) (w w' : World (Holder τ)) (ts : List Nat) (hu : Sched.Spec.UniqueIds w) (hl : w.log = [])
    (hin : Holders.Spec.Inboxes w) (h : runLoop P end_ fuel n start w = some (.ok (w', ts))) (hal : ∀ a ∈ w'.agents, a.state.failed = false) :
    Holders.Spec.totalHeld w' k ≤ Holders.Spec.totalHeld w k + ((Holders.Spec.underway decode w ++ Holders.Spec.copies decode (w'.log.flatMap (·.sent))).map (Holders.Spec.incoming k)).sum := by
  have B := ledger_run le_relates (hP.law le_relates (fun m => ((held m k : Nat) : Int)) (fun c => ((Holders.Spec.incoming k c : Nat) : Int)) (fun i m t m' _ hb => by
    have := (base_effect i k m m' t hb).2
    omega) (fun i m t _ => by omega)) start end_ fuel n w w' ts hu hl hin h hal
  rw [ledger_underway decode (fun m => held m k), ledger_underway decode (fun m => held m k), weigh_copies decode (Holders.Spec.incoming k), weigh_copies decode (Holders.Spec.incoming k), weigh_copies decode (Holders.Spec.incoming k)] at B
  rw [List.map_append, List.sum_append]
  unfold Holders.Spec.totalHeld Holders.Spec.underway
  omega

theorem settles_tally (owner : Nat → Prop) (code : Item → Nat) (hcode : Function.Injective code) (coefs : List (Int × Item)) (setter : Nat) (clearing : List Quoted → List Order → Cleared → Prop)
    (hzero : ∀ traded orders c, clearing traded orders c → (orders.map fun o => (coefs.map fun x => x.1 * Spec.gets c o.participant x.2).sum).sum = 0) (cs : List (Nat × Transfer))
    (h : Spec.Settles setter code owner clearing cs) : (cs.map (tally owner (coefs.map fun x => (x.1, code x.2)))).sum = 0 := by
  rcases h with rfl | ⟨traded, orders, c, listing, h1, h2, h3, h4, rfl⟩
  · rfl
  · rw [shipments_tally owner code hcode coefs setter listing h2 c]
    · rw [List.map_map]
      exact hzero traded orders c h1
    · intro p hp k hk
      obtain ⟨o, ho, rfl⟩ := List.mem_map.1 hp
      exact h3 o ho k hk
    · intro p hp
      obtain ⟨o, ho, rfl⟩ := List.mem_map.1 hp
      exact h4 o ho

theorem sum_worth (w : World (Holder τ)) (coefs : List (Int × Nat)) : (w.agents.map fun a => worth coefs a.state.inventory).sum = (coefs.map fun x => x.1 * (Holders.Spec.totalHeld w x.2 : Int)).sum := by
  unfold worth Holders.Spec.totalHeld
  rw [sum_comm]
  congr 1
  apply List.map_congr_left
  intro x _
  induction w.agents with
  | nil => simp
  | cons a l ih =>
    rw [List.map_cons, List.sum_cons, ih, List.map_cons, List.sum_cons]
    push_cast
    ring

theorem sum_tally (owner : Nat → Prop) (coefs : List (Int × Nat)) (cs : List (Nat × Transfer)) : (cs.map (tally owner coefs)).sum = (coefs.map fun x => x.1 * Spec.pending owner x.2 cs).sum := by
  induction cs with
  | nil => simp [Spec.pending]
  | cons c cs ih =>
    rw [List.map_cons, List.sum_cons, ih]
    unfold tally
    split
    · rw [← List.sum_map_add]
      congr 1
      apply List.map_congr_left
      intro x _
      unfold Spec.pending
      rw [List.map_cons, List.sum_cons, if_pos ‹_›]
      ring
    · rw [zero_add]
      congr 1
      apply List.map_congr_left
      intro x _
      unfold Spec.pending
      rw [List.map_cons, List.sum_cons, if_neg ‹_›, zero_add]

/-! ## C146 -/

/-- **C146, with transfers on their way (partial).** In any simulation of any length that completes without an exception, in which a market clears whenever it likes, every participant demands at most one property per clearing, and agents transfer property
among themselves besides: for every asset, what all agents hold less what they have borrowed, together with what is on its way, does not change. This is modulo `2 ^ 64`, the range of amounts. -/
theorem C146_in_transit_partial {decode : Nat → Transfer} {owner : Nat → Prop} {setter : Nat} {code : Item → Nat} {P : Program (Holder τ)} (hcode : Function.Injective code)
    (hP : Spec.Trading decode owner setter (Spec.Settles setter code owner Spec.Clearing) P) (start end_ fuel n : Nat) (w w' : World (Holder τ)) (ts : List Nat) (hu : Sched.Spec.UniqueIds w) (hl : w.log = [])
    (hin : Holders.Spec.Inboxes w) (h : runLoop P end_ fuel n start w = some (.ok (w', ts))) (hal : ∀ a ∈ w'.agents, a.state.failed = false) (t : Nat) :
    ((Holders.Spec.totalHeld w' (code (.asset t)) : Int) - Holders.Spec.totalHeld w' (code (.short t)) + (Spec.pending owner (code (.asset t)) (Holders.Spec.underway decode w') - Spec.pending owner (code (.short t)) (Holders.Spec.underway decode w'))) % 2 ^ 64 =
      ((Holders.Spec.totalHeld w (code (.asset t)) : Int) - Holders.Spec.totalHeld w (code (.short t)) + (Spec.pending owner (code (.asset t)) (Holders.Spec.underway decode w) - Spec.pending owner (code (.short t)) (Holders.Spec.underway decode w))) % 2 ^ 64 := by
  have A := run_tally hP [(1, code (.asset t)), (-1, code (.short t))] (fun cs hcs => settles_tally owner code hcode [(1, .asset t), (-1, .short t)] setter Spec.Clearing (fun traded orders c hc => by
    rw [← C146_clearing_partial traded orders c hc t]
    congr 1
    apply List.map_congr_left
    intro o _
    simp only [List.map_cons, List.map_nil, List.sum_cons, List.sum_nil]
    unfold Spec.getsNet
    ring) cs hcs) start end_ fuel n w w' ts hu hl hin h hal
  rw [sum_worth, sum_worth, sum_tally, sum_tally] at A
  simp only [List.map_cons, List.map_nil, List.sum_cons, List.sum_nil, one_mul, neg_mul, add_zero] at A
  simpa only [sub_eq_add_neg] using A

/-- **C146 (partial).** Once no transfer is on its way, and as long as amounts fit into 64 bits, what all agents hold less what they have borrowed is exactly what it was at the start. -/
theorem C146_positions_partial {decode : Nat → Transfer} {owner : Nat → Prop} {setter : Nat} {code : Item → Nat} {P : Program (Holder τ)} (hcode : Function.Injective code)
    (hP : Spec.Trading decode owner setter (Spec.Settles setter code owner Spec.Clearing) P) (start end_ fuel n : Nat) (w w' : World (Holder τ)) (ts : List Nat) (hu : Sched.Spec.UniqueIds w) (hl : w.log = [])
    (hin : Holders.Spec.Inboxes w) (h : runLoop P end_ fuel n start w = some (.ok (w', ts))) (hal : ∀ a ∈ w'.agents, a.state.failed = false) (t : Nat)
    (hstart : Holders.Spec.underway decode w = []) (hdone : Holders.Spec.underway decode w' = [])
    (hsmall : ∀ k ∈ [Item.asset t, Item.short t], Holders.Spec.totalHeld w (code k) + ((Holders.Spec.copies decode (w'.log.flatMap (·.sent))).map (Holders.Spec.incoming (code k))).sum < 2 ^ 62) :
    (Holders.Spec.totalHeld w' (code (.asset t)) : Int) - Holders.Spec.totalHeld w' (code (.short t)) = Holders.Spec.totalHeld w (code (.asset t)) - Holders.Spec.totalHeld w (code (.short t)) := by
  have A := C146_in_transit_partial hcode hP start end_ fuel n w w' ts hu hl hin h hal t
  have B := run_bound hP (code (.asset t)) start end_ fuel n w w' ts hu hl hin h hal
  have C := run_bound hP (code (.short t)) start end_ fuel n w w' ts hu hl hin h hal
  have D := hsmall (.asset t) (by simp)
  have E := hsmall (.short t) (by simp)
  rw [hstart, List.nil_append] at B C
  rw [hstart, hdone] at A
  simp only [Spec.pending, List.map_nil, List.sum_nil, sub_self, add_zero] at A
  omega

/-- **C146, money (partial).** If moreover nobody has borrowed units when the market clears, properties are quoted per unit and payments are exact, all agents together hold exactly the money they held at the start. -/
theorem C146_cash_partial {decode : Nat → Transfer} {owner : Nat → Prop} {setter : Nat} {code : Item → Nat} {P : Program (Holder τ)} (hcode : Function.Injective code)
    (hP : Spec.Trading decode owner setter (Spec.Settles setter code owner Spec.Exact) P) (start end_ fuel n : Nat) (w w' : World (Holder τ)) (ts : List Nat) (hu : Sched.Spec.UniqueIds w) (hl : w.log = [])
    (hin : Holders.Spec.Inboxes w) (h : runLoop P end_ fuel n start w = some (.ok (w', ts))) (hal : ∀ a ∈ w'.agents, a.state.failed = false)
    (hstart : Holders.Spec.underway decode w = []) (hdone : Holders.Spec.underway decode w' = [])
    (hsmall : Holders.Spec.totalHeld w (code .cash) + ((Holders.Spec.copies decode (w'.log.flatMap (·.sent))).map (Holders.Spec.incoming (code .cash))).sum < 2 ^ 64) :
    Holders.Spec.totalHeld w' (code .cash) = Holders.Spec.totalHeld w (code .cash) := by
  have A := run_tally hP [(1, code .cash)] (fun cs hcs => settles_tally owner code hcode [(1, .cash)] setter Spec.Exact (fun traded orders c hc => by
    rw [← C146_money_partial traded orders c hc]
    congr 1
    apply List.map_congr_left
    intro o _
    simp only [List.map_cons, List.map_nil, List.sum_cons, List.sum_nil]
    ring) cs hcs) start end_ fuel n w w' ts hu hl hin h hal
  have B := run_bound hP (code .cash) start end_ fuel n w w' ts hu hl hin h hal
  rw [hstart, List.nil_append] at B
  rw [sum_worth, sum_worth, hstart, hdone] at A
  simp only [List.map_cons, List.map_nil, List.sum_cons, List.sum_nil, one_mul, add_zero] at A
  omega

/-! ## A simulation with a market and two participants -/

/-- Identifiers: even ones for lending contracts, odd ones for assets, zero for money. -/
def ids : Item → Nat
  | .cash => 0
  | .asset t => 2 * t + 1
  | .short t => 2 * t + 2

theorem ids_injective : Function.Injective ids := by
  intro a b h
  cases a <;> cases b <;> simp [ids] at h ⊢ <;> omega

/-- The market (agent 0) settles a clearing at time 0 by the given transfers; the other agents are owners. -/
def market (cs : List (Nat × Transfer)) : Program (Holder Unit) where
  handlers := fun i _ c => if c = transferCode ∧ i ≠ 0 then [(50, transferEntry (fun p => ((cs[p]?).getD (0, ⟨0, 0, []⟩)).2) i)] else []
  act := fun i _ s step => (s, if i = 0 ∧ step.lower = 0 then cs.mapIdx fun j c => ⟨transferCode, 0, c.1, 0, 0, j⟩ else [], step.upper)
  shuffle := fun _ _ _ l => l

theorem market_trading (cs : List (Nat × Transfer)) (settles : List (Nat × Transfer) → Prop) (h : settles cs) (h0 : settles []) : Spec.Trading (fun p => ((cs[p]?).getD (0, ⟨0, 0, []⟩)).2) (· ≠ 0) 0 settles (market cs) where
  shuffles := fun _ _ _ _ => List.Perm.refl _
  owners := fun i r hi => ⟨[], 50, [], by simp [market, hi], by simp⟩
  bystanders := fun i r hi e he => by simp [market, hi] at he
  others := fun i r c hc e he => by simp [market, hc] at he
  acts := fun i r s m step => ⟨rfl, id⟩
  replies := fun i r c e he s m step => by
    simp only [market] at he
    split at he
    · simp only [List.mem_cons, List.not_mem_nil, or_false] at he
      subst he
      exact ⟨[], by simp, List.Perm.refl _⟩
    · simp at he
  sends := fun i r s step hi => by
    refine ⟨[], by simp, ?_⟩
    simp [market, hi, Holders.Spec.copies]
  clears := fun r s step => by
    by_cases hs : step.lower = 0
    · refine ⟨cs, [], ?_, h, [], by simp, List.Perm.refl _⟩
      have : Holders.Spec.copies (fun p => ((cs[p]?).getD (0, ⟨0, 0, []⟩)).2) ((market cs).act 0 r s step).2.1 = cs := by
        simp only [market, hs, and_self, if_true, Holders.Spec.copies]
        apply List.ext_getElem?
        intro j
        rw [List.filter_eq_self.2 (by
          intro m hm
          obtain ⟨j, hj, rfl⟩ := List.mem_mapIdx.1 hm
          simp), List.getElem?_map, List.getElem?_mapIdx]
        cases hj : cs[j]? with
        | none => rfl
        | some c => simp [hj]
      rw [this, List.append_nil]
    · refine ⟨[], [], ?_, h0, [], by simp, List.Perm.refl _⟩
      simp [market, hs, Holders.Spec.copies]

/-- Participant 1 has money, participant 2 has some money, and units of properties 7 and 8. -/
def traders (borrowed long7 long8 : Nat) : World (Holder Unit) :=
  ⟨[⟨0, ⟨Inv.empty, false, ()⟩, [], []⟩, ⟨1, ⟨(Inv.empty.set 0 (some 5000)).set 16 (some borrowed), false, ()⟩, [], []⟩,
    ⟨2, ⟨((Inv.empty.set 0 (some 100)).set 15 (some long7)).set 17 (some long8), false, ()⟩, [], []⟩], [], 0, []⟩

/-- Participant 1 buys property 7 for ten dollars, participant 2 sells for ten dollars, and has three units. -/
def shortOrders : List Order := [simpleOrder 1 7 10 0, simpleOrder 2 7 (-10) 3]

/-- The transfers: participant 1 pays 1000 cents for five units, of which participant 2 has three and borrows two. -/
def shortTransfers : List (Nat × Transfer) := [(1, ⟨0, 1, [(15, 5)]⟩), (2, ⟨0, 2, [(0, 1000), (16, 2)]⟩), (1, ⟨1, 0, [(0, 1000)]⟩), (2, ⟨2, 0, [(15, 3)]⟩)]

theorem short_market (orders : List Order) (h : orders = shortOrders) : Clearing.Spec.Market floorMoney [.cash, .asset 7, .short 7] [⟨7, 100, 1⟩] orders where
  properties := by decide
  participants := by subst h; decide
  demands := by
    intro o ho s
    simp only [h, shortOrders, simpleOrder, List.mem_cons, List.not_mem_nil, or_false] at ho
    rcases ho with rfl | rfl <;> simp
  payments := fun u p l => lt_of_le_of_lt (Nat.min_le_right _ _) (by norm_num)
  items := by decide

theorem short_single : ∀ o ∈ shortOrders, ∀ s, ∀ e ∈ o.excess s, ∀ e' ∈ o.excess s, e.1 = e'.1 := by
  intro o ho s e he e' he'
  simp only [shortOrders, simpleOrder, List.mem_cons, List.not_mem_nil, or_false] at ho
  rcases ho with rfl | rfl <;> simp at he he' <;> rw [he, he']

/-- Only money, the traded assets and their lending contracts change hands. -/
theorem only_traded (traded : List Quoted) (orders : List Order) (c : Cleared) (h : Spec.Clearing traded orders c) (o : Order) (ho : o ∈ orders) (k : Item)
    (hk : Walras.Spec.amount (c.sent o.participant) k ≠ 0 ∨ Walras.Spec.amount (c.received o.participant) k ≠ 0) : k = .cash ∨ ∃ q ∈ traded, k = .asset q.id ∨ k = .short q.id := by
  obtain ⟨hsingle, fl, den, money, sort, keys, result, hsort, hmarket, hc⟩ := h
  cases result with
  | none => cases hc; simp [Walras.Spec.amount] at hk
  | some result =>
    obtain ⟨position, assigned, price, -, -, hp⟩ := settled_single fl den money sort keys traded orders result hsort hmarket c hc hsingle
    rcases hp o ho with ⟨q, hq, -, -, hset⟩ | ⟨-, h1, h2⟩
    · by_contra hno
      obtain ⟨n1, n2⟩ := hset.nothingElse k (fun e => hno (.inl e)) (fun e => hno (.inr ⟨q, hq, .inl e⟩)) (fun e => hno (.inr ⟨q, hq, .inr e⟩))
      rw [n1, n2] at hk
      simp at hk
    · rw [h1, h2] at hk
      simp [Walras.Spec.amount] at hk

/-- The transfers settle a clearing as C146 requires, also for money. -/
theorem short_settles : Spec.Settles 0 ids (· ≠ 0) Spec.Clearing shortTransfers ∧ Spec.Settles 0 ids (· ≠ 0) Spec.Exact shortTransfers := by
  obtain ⟨c, h1, hd⟩ := clearedWith_spec (f := fun c => decide (c.quotes = [⟨7, 200, 1⟩] ∧ shortTransfers = shipments 0 ids [.cash, .asset 7, .short 7] [1, 2] c ∧
      ∀ o ∈ shortOrders, ∀ k ∈ [Item.cash, Item.asset 7, Item.short 7], Walras.Spec.amount (c.sent o.participant) k * 200 < 2 ^ 63 ∧ Walras.Spec.amount (c.received o.participant) k * 200 < 2 ^ 63))
    (r := clearMarket id 100 floorMoney exampleSort [.cash, .asset 7, .short 7] [⟨7, 100, 1⟩] shortOrders (some fun _ => some 2)) (by decide +kernel)
  obtain ⟨h2, h3⟩ := of_decide_eq_true hd
  have hC : Spec.Clearing [⟨7, 100, 1⟩] shortOrders c := ⟨short_single, id, 100, floorMoney, exampleSort, _, _, exampleSort_sorts, short_market _ rfl, h1⟩
  have hlist : ∀ o ∈ shortOrders, ∀ k, Walras.Spec.amount (c.sent o.participant) k ≠ 0 ∨ Walras.Spec.amount (c.received o.participant) k ≠ 0 → k ∈ [Item.cash, Item.asset 7, Item.short 7] := by
    intro o ho k hk
    rcases only_traded _ _ c hC o ho k hk with rfl | ⟨q, hq, h⟩
    · simp
    · simp only [List.mem_cons, List.not_mem_nil, or_false] at hq
      subst hq
      rcases h with rfl | rfl <;> simp
  have hown : ∀ o ∈ shortOrders, o.participant ≠ 0 ∧ o.participant ≠ 0 := by
    intro o ho
    simp only [shortOrders, simpleOrder, List.mem_cons, List.not_mem_nil, or_false] at ho
    rcases ho with rfl | rfl <;> simp
  refine ⟨.inr ⟨_, shortOrders, c, [.cash, .asset 7, .short 7], hC, by decide, hlist, hown, h3.1⟩, .inr ⟨[⟨7, 100, 1⟩], shortOrders, c, [.cash, .asset 7, .short 7], ?_, by decide, hlist, hown, h3.1⟩⟩
  refine ⟨short_single, ⟨id, 100, floorMoney, exampleSort, _, _, exampleSort_sorts, short_market _ rfl, h1, fun u p hup => ?_⟩, ?_, ?_, ?_⟩
  · unfold floorMoney
    rw [Nat.div_one]
    exact Nat.min_eq_left (by omega)
  · intro o ho t
    simp only [shortOrders, simpleOrder, List.mem_cons, List.not_mem_nil, or_false] at ho
    rcases ho with rfl | rfl <;> simp <;> split <;> rfl
  · intro q hq
    simp only [List.mem_cons, List.not_mem_nil, or_false] at hq
    subst hq; rfl
  · intro o ho q hq k _
    rw [h2] at hq
    simp only [List.mem_cons, List.not_mem_nil, or_false] at hq
    subst hq
    by_cases hk : k ∈ [Item.cash, Item.asset 7, Item.short 7]
    · exact h3.2 o ho k hk
    · have : ¬ (Walras.Spec.amount (c.sent o.participant) k ≠ 0 ∨ Walras.Spec.amount (c.received o.participant) k ≠ 0) := fun h => hk (hlist o ho k h)
      simp only [not_or, ne_eq, not_not] at this
      rw [this.1, this.2]
      simp

/-- The simulation to time 10 meets all hypotheses. Participant 1 ends with 4000 cents and five units, participant 2 with 1100 cents, no units and two borrowed ones. -/
example : ∃ w' ts, runLoop (market shortTransfers) 10 5 5 0 (traders 0 3 0) = some (.ok (w', ts)) ∧ Sched.Spec.UniqueIds (traders 0 3 0) ∧ Holders.Spec.Inboxes (traders 0 3 0) ∧ (traders 0 3 0).log = [] ∧
    (∀ a ∈ w'.agents, a.state.failed = false) ∧ Holders.Spec.underway (fun p => ((shortTransfers[p]?).getD (0, ⟨0, 0, []⟩)).2) (traders 0 3 0) = [] ∧
    Holders.Spec.underway (fun p => ((shortTransfers[p]?).getD (0, ⟨0, 0, []⟩)).2) w' = [] ∧
    (∀ k ∈ [Item.cash, Item.asset 7, Item.short 7], Holders.Spec.totalHeld (traders 0 3 0) (ids k) + ((Holders.Spec.copies (fun p => ((shortTransfers[p]?).getD (0, ⟨0, 0, []⟩)).2) (w'.log.flatMap (·.sent))).map (Holders.Spec.incoming (ids k))).sum < 2 ^ 62) ∧
    w'.agents.map (fun a => (held a.state.inventory 0, held a.state.inventory 15, held a.state.inventory 16)) = [(0, 0, 0), (4000, 5, 0), (1100, 0, 2)] := by
  refine ⟨_, _, rfl, by unfold Sched.Spec.UniqueIds traders; simp, by unfold Holders.Spec.Inboxes traders Comm.Spec.InboxSorted; simp, rfl, ?_, rfl, rfl, by decide, rfl⟩
  intro a ha
  have : a.state.failed ∈ [false, false, false] := List.mem_map_of_mem (f := fun a : Agent (Holder Unit) => a.state.failed) ha
  simpa using this

example : Spec.Trading (fun p => ((shortTransfers[p]?).getD (0, ⟨0, 0, []⟩)).2) (· ≠ 0) 0 (Spec.Settles 0 ids (· ≠ 0) Spec.Clearing) (market shortTransfers) := market_trading _ _ short_settles.1 (.inl rfl)

example : Spec.Trading (fun p => ((shortTransfers[p]?).getD (0, ⟨0, 0, []⟩)).2) (· ≠ 0) 0 (Spec.Settles 0 ids (· ≠ 0) Spec.Exact) (market shortTransfers) := market_trading _ _ short_settles.2 (.inl rfl)

/-! ## Negations -/

/-- Participant 1 buys properties 7 and 8 for ten dollars each, participant 2 sells as much, and has enough of both. -/
def twoOrders : List Order := [⟨1, fun _ => [(7, 10), (8, 10)], fun _ => none⟩, ⟨2, fun _ => [(7, -10), (8, -10)], fun _ => some (20, 0)⟩]

def twoTransfers : List (Nat × Transfer) := [(1, ⟨0, 1, [(15, 10)]⟩), (2, ⟨0, 2, [(0, 2000)]⟩), (1, ⟨1, 0, [(0, 2000)]⟩), (2, ⟨2, 0, [(15, 10), (17, 10)]⟩)]

/-- **C146 (negation).** A participant that buys two properties pays for both and gets one of them; the units of the other that are sold vanish. The market settles one clearing, and after it ten units of property 8 are missing. -/
theorem C146_counterexample_two : ∃ c w' ts, clearMarket id 100 floorMoney exampleSort [.cash, .asset 7, .short 7, .asset 8, .short 8] [⟨7, 100, 1⟩, ⟨8, 100, 1⟩] twoOrders (some fun _ => some 1) = .ok c ∧
    Clearing.Spec.Market floorMoney [.cash, .asset 7, .short 7, .asset 8, .short 8] [⟨7, 100, 1⟩, ⟨8, 100, 1⟩] twoOrders ∧
    (twoOrders.map fun o => Spec.getsNet c o.participant 8).sum = -10 ∧ twoTransfers = shipments 0 ids [.cash, .asset 7, .short 7, .asset 8, .short 8] [1, 2] c ∧
    runLoop (market twoTransfers) 10 5 5 0 (traders 0 20 20) = some (.ok (w', ts)) ∧ (∀ a ∈ w'.agents, a.state.failed = false) ∧
    Holders.Spec.underway (fun p => ((twoTransfers[p]?).getD (0, ⟨0, 0, []⟩)).2) w' = [] ∧ Holders.Spec.totalHeld (traders 0 20 20) 17 = 20 ∧ Holders.Spec.totalHeld w' 17 = 10 := by
  obtain ⟨c, h1, h2⟩ := clearedWith_spec (f := fun c => decide ((twoOrders.map fun o => Spec.getsNet c o.participant 8).sum = -10 ∧ twoTransfers = shipments 0 ids [.cash, .asset 7, .short 7, .asset 8, .short 8] [1, 2] c))
    (r := clearMarket id 100 floorMoney exampleSort [.cash, .asset 7, .short 7, .asset 8, .short 8] [⟨7, 100, 1⟩, ⟨8, 100, 1⟩] twoOrders (some fun _ => some 1)) (by decide +kernel)
  refine ⟨c, _, _, h1, ⟨by decide, by decide, ?_, fun u p l => lt_of_le_of_lt (Nat.min_le_right _ _) (by norm_num), by decide⟩, (of_decide_eq_true h2).1, (of_decide_eq_true h2).2, rfl, ?_, rfl, rfl, rfl⟩
  · intro o ho s
    simp only [twoOrders, List.mem_cons, List.not_mem_nil, or_false] at ho
    rcases ho with rfl | rfl <;> simp
  · intro a ha
    have : a.state.failed ∈ [false, false, false] := List.mem_map_of_mem (f := fun a : Agent (Holder Unit) => a.state.failed) ha
    simpa using this

/-- Participant 1 has borrowed five units of property 7 and buys five, participant 2 sells five. -/
def coverOrders : List Order := [⟨1, fun _ => [(7, 10)], fun _ => some (0, 5)⟩, simpleOrder 2 7 (-10) 20]

def coverTransfers : List (Nat × Transfer) := [(2, ⟨0, 2, [(0, 1000)]⟩), (1, ⟨1, 0, [(0, 500), (16, 5)]⟩), (2, ⟨2, 0, [(15, 5)]⟩)]

/-- **C146 (negation, money).** The price rises from one to two dollars. A participant that closes a short position pays the old price, and the seller gets the new one: money appears. The market settles one clearing, and after it there are 500 cents
more. -/
theorem C146_counterexample_money : ∃ c w' ts, clearMarket id 100 floorMoney exampleSort [.cash, .asset 7, .short 7] [⟨7, 100, 1⟩] coverOrders (some fun _ => some 2) = .ok c ∧ Spec.Clearing [⟨7, 100, 1⟩] coverOrders c ∧
    (coverOrders.map fun o => Spec.gets c o.participant .cash).sum = 500 ∧ coverTransfers = shipments 0 ids [.cash, .short 7, .asset 7] [1, 2] c ∧
    runLoop (market coverTransfers) 10 5 5 0 (traders 5 20 0) = some (.ok (w', ts)) ∧ (∀ a ∈ w'.agents, a.state.failed = false) ∧
    Holders.Spec.underway (fun p => ((coverTransfers[p]?).getD (0, ⟨0, 0, []⟩)).2) w' = [] ∧ Holders.Spec.totalHeld (traders 5 20 0) 0 = 5100 ∧ Holders.Spec.totalHeld w' 0 = 5600 := by
  obtain ⟨c, h1, h2⟩ := clearedWith_spec (f := fun c => decide ((coverOrders.map fun o => Spec.gets c o.participant .cash).sum = 500 ∧ coverTransfers = shipments 0 ids [.cash, .short 7, .asset 7] [1, 2] c))
    (r := clearMarket id 100 floorMoney exampleSort [.cash, .asset 7, .short 7] [⟨7, 100, 1⟩] coverOrders (some fun _ => some 2)) (by decide +kernel)
  refine ⟨c, _, _, h1, ⟨?_, id, 100, floorMoney, exampleSort, [.cash, .asset 7, .short 7], some fun _ => some 2, exampleSort_sorts, ⟨by decide, by decide, ?_, fun u p l => lt_of_le_of_lt (Nat.min_le_right _ _) (by norm_num), by decide⟩, h1⟩,
    (of_decide_eq_true h2).1, (of_decide_eq_true h2).2, rfl, ?_, rfl, rfl, rfl⟩
  · intro o ho s e he e' he'
    simp only [coverOrders, simpleOrder, List.mem_cons, List.not_mem_nil, or_false] at ho
    rcases ho with rfl | rfl <;> simp at he he' <;> rw [he, he']
  · intro o ho s
    simp only [coverOrders, simpleOrder, List.mem_cons, List.not_mem_nil, or_false] at ho
    rcases ho with rfl | rfl <;> simp
  · intro a ha
    have : a.state.failed ∈ [false, false, false] := List.mem_map_of_mem (f := fun a : Agent (Holder Unit) => a.state.failed) ha
    simpa using this

end Esl.Auction
