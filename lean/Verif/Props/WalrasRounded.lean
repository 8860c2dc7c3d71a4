import Verif.Props.Walras
import Mathlib.Tactic.Ring
import Mathlib.Tactic.Linarith
import Mathlib.Tactic.FieldSimp
import Mathlib.Tactic.Positivity
/-! # C87: cash of a clearing when payments are rounded -/
namespace Esl.Walras

/-! ## Specification -/

/-- The value of one unit: the price of a lot, divided by the lot. -/
def Spec.unit (price : Int) (lot : Nat) : Rat := (price : Rat) / (lot : Rat)

/-- The change of the value of the units with which participants close short positions, from the old prices to the new ones. -/
def Spec.change (supply : Nat → Nat → Nat × Nat) (transfers : Nat → Option (List (Nat × Int))) (ts : List Traded) (ps : List Nat) : Rat :=
  (ps.map fun p => (ts.map fun t => (Spec.covered (Spec.assigned transfers t.id p) (supply p t.id).2 : Rat) * (Spec.unit t.price t.lot - Spec.unit t.old t.lot)).sum).sum

/-- Each payment differs from the value of the units by at most `e`. -/
def Spec.Rounds (money : Nat → Int → Nat → Nat) (ts : List Traded) (largest : Nat) (e : Rat) : Prop :=
  ∀ t ∈ ts, ∀ u : Nat, u ≤ largest → |(money u t.price t.lot : Rat) - u * Spec.unit t.price t.lot| ≤ e ∧ |(money u t.old t.lot : Rat) - u * Spec.unit t.old t.lot| ≤ e

/-! ## Sums -/

theorem cast_sum {α : Type} (l : List α) (f : α → Nat) : (((l.map f).sum : Nat) : Rat) = (l.map fun x => (f x : Rat)).sum := by
  induction l with
  | nil => simp
  | cons x l ih => simp only [List.map_cons, List.sum_cons]; push_cast; rw [ih]

theorem cast_sumZ {α : Type} (l : List α) (f : α → Int) : (((l.map f).sum : Int) : Rat) = (l.map fun x => (f x : Rat)).sum := by
  induction l with
  | nil => simp
  | cons x l ih => simp only [List.map_cons, List.sum_cons]; push_cast; rw [ih]

theorem sumQ_add {α : Type} (l : List α) (f g : α → Rat) : (l.map fun x => f x + g x).sum = (l.map f).sum + (l.map g).sum := by
  induction l with
  | nil => simp
  | cons x l ih => simp only [List.map_cons, List.sum_cons, ih]; ring

theorem sumQ_sub {α : Type} (l : List α) (f g : α → Rat) : (l.map fun x => f x - g x).sum = (l.map f).sum - (l.map g).sum := by
  induction l with
  | nil => simp
  | cons x l ih => simp only [List.map_cons, List.sum_cons, ih]; ring

theorem sumQ_mul {α : Type} (l : List α) (f : α → Rat) (a : Rat) : (l.map fun x => f x * a).sum = (l.map f).sum * a := by
  induction l with
  | nil => simp
  | cons x l ih => simp only [List.map_cons, List.sum_cons, ih]; ring

theorem sumQ_swap {α β : Type} (l : List α) (r : List β) (f : α → β → Rat) : (l.map fun x => (r.map fun y => f x y).sum).sum = (r.map fun y => (l.map fun x => f x y).sum).sum := by
  induction l with
  | nil => simp
  | cons x l ih => simp only [List.map_cons, List.sum_cons, ih, sumQ_add]

theorem sumQ_close {α : Type} (l : List α) (f g : α → Rat) (e : Rat) (h : ∀ x ∈ l, |f x - g x| ≤ e) : |(l.map f).sum - (l.map g).sum| ≤ l.length * e := by
  induction l with
  | nil => simp
  | cons x l ih =>
    simp only [List.map_cons, List.sum_cons, List.length_cons]
    have h1 := h x List.mem_cons_self
    have h2 := ih fun y hy => h y (List.mem_cons_of_mem _ hy)
    calc |f x + (l.map f).sum - (g x + (l.map g).sum)| = |(f x - g x) + ((l.map f).sum - (l.map g).sum)| := by ring_nf
      _ ≤ |f x - g x| + |(l.map f).sum - (l.map g).sum| := abs_add_le _ _
      _ ≤ e + l.length * e := by linarith
      _ = ((l.length + 1 : Nat) : Rat) * e := by push_cast; ring

theorem sumQ_zero {α : Type} (l : List α) (f : α → Rat) (h : ∀ x ∈ l, f x = 0) : (l.map f).sum = 0 := by
  induction l with
  | nil => simp
  | cons x l ih => simp only [List.map_cons, List.sum_cons, h x List.mem_cons_self, ih fun y hy => h y (List.mem_cons_of_mem _ hy)]; ring

/-! ## C87 -/

theorem pay_close (money : Nat → Int → Nat → Nat) (u : Nat) (price : Int) (lot : Nat) (e : Rat) (h : |(money u price lot : Rat) - u * Spec.unit price lot| ≤ e) :
    |(Spec.pay money u price lot : Rat) - u * Spec.unit price lot| ≤ e := by
  unfold Spec.pay
  by_cases h0 : u = 0
  · subst h0
    simp only [if_true]
    simpa using le_trans (abs_nonneg _) h
  · rw [if_neg h0]; exact h

theorem pay_zero (money : Nat → Int → Nat → Nat) (price : Int) (lot : Nat) : Spec.pay money 0 price lot = 0 := by
  simp [Spec.pay]

/-- **C87, with rounded payments (partial).** Any number of properties in any lots, any positions and any rounding of payments by at most `e`. If the units assigned balance for each property, then what the market receives, less
what it sends, is the change of value of the units that close short positions, with the opposite sign, up to at most `2 e` for each participant and each property. -/
theorem C87_rounded_partial (money : Nat → Int → Nat → Nat) (supply : Nat → Nat → Nat × Nat) (transfers : Nat → Option (List (Nat × Int))) (ts : List Traded) (hval : Spec.Valid money transfers ts) (ps : List Nat)
    (largest : Nat) (e : Rat) (hround : Spec.Rounds money ts largest e) (hlargest : ∀ p ∈ ps, ∀ t ∈ ts, (Spec.assigned transfers t.id p).natAbs ≤ largest)
    (hsum : ∀ t ∈ ts, (ps.map fun p => Spec.assigned transfers t.id p).sum = 0)
    (hsize : ∀ p ∈ ps, (ts.map fun t => Spec.pay money (Spec.sold (Spec.assigned transfers t.id p) (supply p t.id).1) t.price t.lot +
        Spec.pay money (Spec.shorted (Spec.assigned transfers t.id p) (supply p t.id).1) t.price t.lot).sum < 2 ^ 64 ∧
      (ts.map fun t => Spec.pay money (Spec.covered (Spec.assigned transfers t.id p) (supply p t.id).2) t.old t.lot +
        Spec.pay money (Spec.bought (Spec.assigned transfers t.id p) (supply p t.id).2) t.price t.lot).sum < 2 ^ 64) :
    let s := Spec.settlement money supply transfers ts
    |((Spec.cashReceived s ps : Rat) - Spec.cashSent s ps) + Spec.change supply transfers ts ps| ≤ ps.length * (ts.length * (2 * e)) := by
  intro s
  -- what follows for one participant
  have hp : ∀ p ∈ ps, |((Spec.amount (s.2 p) .cash : Rat) - Spec.amount (s.1 p) .cash) -
      (ts.map fun t => (Spec.assigned transfers t.id p : Rat) * Spec.unit t.price t.lot -
        (Spec.covered (Spec.assigned transfers t.id p) (supply p t.id).2 : Rat) * (Spec.unit t.price t.lot - Spec.unit t.old t.lot)).sum| ≤ ts.length * (2 * e) := by
    intro p hpp
    obtain ⟨-, h1, h2⟩ := C58_flows_partial money supply transfers ts hval p
    obtain ⟨z1, z2⟩ := hsize p hpp
    rw [u64_of_lt z1] at h1
    rw [u64_of_lt z2] at h2
    have h1' : Spec.amount (s.1 p) .cash = _ := h1
    have h2' : Spec.amount (s.2 p) .cash = _ := h2
    rw [h1', h2', cast_sum, cast_sum, ← sumQ_sub]
    refine sumQ_close ts _ _ (2 * e) fun t ht => ?_
    have hl := hlargest p hpp t ht
    have hr := hround t ht
    generalize Spec.assigned transfers t.id p = v at hl ⊢
    generalize (supply p t.id).1 = long
    generalize (supply p t.id).2 = short
    push_cast
    rcases le_total 0 v with h0 | h0
    · have e1 : Spec.sold v long = 0 := by unfold Spec.sold; omega
      have e2 : Spec.shorted v long = 0 := by unfold Spec.shorted; omega
      have e3 : ((Spec.covered v short : Nat) : Rat) + (Spec.bought v short : Nat) = (v : Rat) := by
        have : ((Spec.covered v short : Nat) : Int) + (Spec.bought v short : Nat) = v := by unfold Spec.covered Spec.bought; omega
        exact_mod_cast this
      have c1 := pay_close money (Spec.covered v short) t.old t.lot e (hr _ (by unfold Spec.covered; omega)).2
      have c2 := pay_close money (Spec.bought v short) t.price t.lot e (hr _ (by unfold Spec.bought; omega)).1
      rw [e1, e2, pay_zero]
      calc |(Spec.pay money (Spec.covered v short) t.old t.lot : Rat) + Spec.pay money (Spec.bought v short) t.price t.lot - (((0 : Nat) : Rat) + (0 : Nat)) -
          ((v : Rat) * Spec.unit t.price t.lot - (Spec.covered v short : Rat) * (Spec.unit t.price t.lot - Spec.unit t.old t.lot))| =
          |((Spec.pay money (Spec.covered v short) t.old t.lot : Rat) - Spec.covered v short * Spec.unit t.old t.lot) +
            (Spec.pay money (Spec.bought v short) t.price t.lot - Spec.bought v short * Spec.unit t.price t.lot)| := by rw [← e3]; push_cast; ring_nf
        _ ≤ _ := abs_add_le _ _
        _ ≤ 2 * e := by linarith
    · have e1 : Spec.covered v short = 0 := by unfold Spec.covered; omega
      have e2 : Spec.bought v short = 0 := by unfold Spec.bought; omega
      have e3 : ((Spec.sold v long : Nat) : Rat) + (Spec.shorted v long : Nat) = -(v : Rat) := by
        have : ((Spec.sold v long : Nat) : Int) + (Spec.shorted v long : Nat) = -v := by unfold Spec.sold Spec.shorted; omega
        exact_mod_cast this
      have c1 := pay_close money (Spec.sold v long) t.price t.lot e (hr _ (by unfold Spec.sold; omega)).1
      have c2 := pay_close money (Spec.shorted v long) t.price t.lot e (hr _ (by unfold Spec.shorted; omega)).1
      have e4 : (v : Rat) = -((Spec.sold v long : Nat) : Rat) - (Spec.shorted v long : Nat) := by linarith
      rw [e1, e2, pay_zero, pay_zero]
      calc |((0 : Nat) : Rat) + (0 : Nat) - ((Spec.pay money (Spec.sold v long) t.price t.lot : Rat) + Spec.pay money (Spec.shorted v long) t.price t.lot) -
          ((v : Rat) * Spec.unit t.price t.lot - ((0 : Nat) : Rat) * (Spec.unit t.price t.lot - Spec.unit t.old t.lot))| =
          |-(((Spec.pay money (Spec.sold v long) t.price t.lot : Rat) - Spec.sold v long * Spec.unit t.price t.lot) +
            (Spec.pay money (Spec.shorted v long) t.price t.lot - Spec.shorted v long * Spec.unit t.price t.lot))| := by
              conv_lhs => rw [show (v : Rat) * Spec.unit t.price t.lot = (-((Spec.sold v long : Nat) : Rat) - (Spec.shorted v long : Nat)) * Spec.unit t.price t.lot by rw [← e4]]
              push_cast; ring_nf
        _ = _ := abs_neg _
        _ ≤ _ := abs_add_le _ _
        _ ≤ 2 * e := by linarith
  have h := sumQ_close ps _ _ _ hp
  have e1 : (ps.map fun p => (Spec.amount (s.2 p) .cash : Rat) - Spec.amount (s.1 p) .cash).sum = (Spec.cashReceived s ps : Rat) - Spec.cashSent s ps := by
    unfold Spec.cashReceived Spec.cashSent
    rw [cast_sum, cast_sum, ← sumQ_sub]
  have e2 : (ps.map fun p => (ts.map fun t => (Spec.assigned transfers t.id p : Rat) * Spec.unit t.price t.lot -
        (Spec.covered (Spec.assigned transfers t.id p) (supply p t.id).2 : Rat) * (Spec.unit t.price t.lot - Spec.unit t.old t.lot)).sum).sum = -Spec.change supply transfers ts ps := by
    have : ∀ p, (ts.map fun t => (Spec.assigned transfers t.id p : Rat) * Spec.unit t.price t.lot -
        (Spec.covered (Spec.assigned transfers t.id p) (supply p t.id).2 : Rat) * (Spec.unit t.price t.lot - Spec.unit t.old t.lot)).sum =
        (ts.map fun t => (Spec.assigned transfers t.id p : Rat) * Spec.unit t.price t.lot).sum -
        (ts.map fun t => (Spec.covered (Spec.assigned transfers t.id p) (supply p t.id).2 : Rat) * (Spec.unit t.price t.lot - Spec.unit t.old t.lot)).sum := fun p => sumQ_sub ts _ _
    simp only [this]
    rw [sumQ_sub, sumQ_swap ps ts (fun p t => (Spec.assigned transfers t.id p : Rat) * Spec.unit t.price t.lot), sumQ_zero ts]
    · unfold Spec.change; ring
    · intro t ht
      rw [sumQ_mul ps (fun p => (Spec.assigned transfers t.id p : Rat)), ← cast_sumZ, hsum t ht]
      simp
  rw [e1, e2, sub_neg_eq_add] at h
  exact h

/-- Payments cut off below the smallest unit are rounded by less than one unit. -/
theorem exact_rounds (ts : List Traded) (largest : Nat) (hp : ∀ t ∈ ts, 0 < t.lot ∧ 0 ≤ t.price ∧ 0 ≤ t.old ∧ largest * t.price.toNat < 2 ^ 64 ∧ largest * t.old.toNat < 2 ^ 64) : Spec.Rounds exactMoney ts largest 1 := by
  have one : ∀ (u lot : Nat) (price : Int), 0 < lot → 0 ≤ price → u ≤ largest → largest * price.toNat < 2 ^ 64 → |(exactMoney u price lot : Rat) - u * Spec.unit price lot| ≤ 1 := by
    intro u lot price hl h0 hu hs
    have hup : u * price.toNat < 2 ^ 64 := lt_of_le_of_lt (Nat.mul_le_mul_right _ hu) hs
    have hlt : u * price.toNat / lot < 2 ^ 64 := lt_of_le_of_lt (Nat.div_le_self _ _) hup
    have hlr : (0 : Rat) < lot := by exact_mod_cast hl
    obtain ⟨n, rfl⟩ := Int.eq_ofNat_of_zero_le h0
    unfold exactMoney Spec.unit
    rw [u64_of_lt hlt, Int.toNat_natCast]
    have a : lot * (u * n / lot) ≤ u * n := Nat.mul_div_le _ _
    have b : u * n < lot * (u * n / lot) + lot := Nat.lt_mul_div_succ _ hl
    have a' : (lot : Rat) * ((u * n / lot : Nat) : Rat) ≤ u * n := by exact_mod_cast a
    have b' : (u : Rat) * n < lot * ((u * n / lot : Nat) : Rat) + lot := by exact_mod_cast b
    generalize ((u * n / lot : Nat) : Rat) = x at a' b' ⊢
    have hx : (u : Rat) * (((n : Int) : Rat) / lot) = u * n / lot := by push_cast; ring
    rw [hx, abs_le]
    constructor
    · have : (u : Rat) * n / lot ≤ x + 1 := by rw [div_le_iff₀ hlr]; linarith
      linarith
    · have : x ≤ (u : Rat) * n / lot := by rw [le_div_iff₀ hlr]; linarith
      linarith
  intro t ht u hu
  obtain ⟨h1, h2, h3, h4, h5⟩ := hp t ht
  exact ⟨one u t.lot t.price h1 h2 hu h4, one u t.lot t.old h1 h3 hu h5⟩

/-- **C87 (negation), without any short position.** One participant sells `2 n` units at three per two units to `2 n` participants who buy one each. Each buyer pays one, so the market receives `2 n`, but it sends `3 n`: whatever it charges
too little grows with the number of participants. -/
theorem C87_counterexample_lots (n : Nat) (hn : 0 < n) (hsmall : 6 * n < 2 ^ 64) :
    let transfers : Nat → Option (List (Nat × Int)) := fun k => if k = 7 then some ((0, -(2 * n : Nat)) :: (List.range (2 * n)).map fun i => (i + 1, 1)) else none
    let s := Spec.settlement exactMoney (fun p _ => if p = 0 then (2 * n, 0) else (0, 0)) transfers [⟨7, 3, 3, 2⟩]
    let ps := List.range (2 * n + 1)
    (ps.map fun p => Spec.assigned transfers 7 p).sum = 0 ∧ Spec.cashReceived s ps = 2 * n ∧ Spec.cashSent s ps = 3 * n := by
  intro transfers s ps
  have lk : ∀ (m i : Nat), i < m → ((List.range m).map fun i => (i + 1, (1 : Int))).lookup (i + 1) = some 1 := by
    intro m i hi
    have hmem : (i + 1, (1 : Int)) ∈ (List.range m).map fun i => (i + 1, (1 : Int)) := List.mem_map.2 ⟨i, List.mem_range.2 hi, rfl⟩
    refine lookup_of_mem ?_ hmem
    rw [List.map_map]
    exact List.Nodup.map (fun a b h => by simpa using h) List.nodup_range
  have a0 : Spec.assigned transfers 7 0 = -(2 * n : Nat) := by simp [Spec.assigned, transfers, List.lookup]
  have a1 : ∀ i, i < 2 * n → Spec.assigned transfers 7 (i + 1) = 1 := by
    intro i hi
    have : ((0, -((2 * n : Nat) : Int)) :: (List.range (2 * n)).map fun i => (i + 1, (1 : Int))).lookup (i + 1) = some 1 := by
      rw [List.lookup_cons]
      simp only [show (i + 1 == 0) = false by simp]
      exact lk _ _ hi
    simp only [Spec.assigned, transfers, if_true, Option.getD_some, this]
  have nodup : ((((0, -((2 * n : Nat) : Int)) :: (List.range (2 * n)).map fun i => (i + 1, (1 : Int)))).map (·.1)).Nodup := by
    simp only [List.map_cons, List.map_map, List.nodup_cons]
    refine ⟨by simp, List.Nodup.map (fun a b h => by simpa using h) List.nodup_range⟩
  have hval : Spec.Valid exactMoney transfers [⟨7, 3, 3, 2⟩] := by
    refine ⟨by simp, ?_, ?_, fun u p l => u64_lt _⟩
    · intro t l h
      simp only [transfers] at h
      by_cases ht : t = 7
      · rw [if_pos ht] at h; cases h; exact nodup
      · rw [if_neg ht] at h; cases h
    · intro t p
      by_cases ht : t = 7
      · subst ht
        cases hl : ((0, -((2 * n : Nat) : Int)) :: (List.range (2 * n)).map fun i => (i + 1, (1 : Int))).lookup p with
        | none =>
          have : Spec.assigned transfers 7 p = 0 := by simp only [Spec.assigned, transfers, if_true, Option.getD_some, hl, Option.getD_none]
          rw [this]; decide
        | some x =>
          have hmem : (p, x) ∈ ((0, -((2 * n : Nat) : Int)) :: (List.range (2 * n)).map fun i => (i + 1, (1 : Int))) := by
            obtain ⟨l1, l2, h1, -⟩ := List.lookup_eq_some_iff.1 hl
            rw [h1]; simp
          have : Spec.assigned transfers 7 p = x := by simp only [Spec.assigned, transfers, if_true, Option.getD_some, hl]
          rw [this]
          rcases List.mem_cons.1 hmem with h | h
          · obtain ⟨-, rfl⟩ := Prod.mk.inj h
            rw [Int.natAbs_neg, Int.natAbs_natCast]; omega
          · obtain ⟨i, -, h⟩ := List.mem_map.1 h
            obtain ⟨-, rfl⟩ := Prod.mk.inj h
            decide
      · simp [Spec.assigned, transfers, ht]
  have f0 := C58_flows_partial exactMoney (fun p _ => if p = 0 then (2 * n, 0) else (0, 0)) transfers [⟨7, 3, 3, 2⟩] hval 0
  have s0 : Spec.amount (s.1 0) .cash = 3 * n ∧ Spec.amount (s.2 0) .cash = 0 := by
    obtain ⟨-, h1, h2⟩ := f0
    have h1' : Spec.amount (s.1 0) .cash = _ := h1
    have h2' : Spec.amount (s.2 0) .cash = _ := h2
    rw [h1', h2']
    simp only [List.map_cons, List.map_nil, List.sum_cons, List.sum_nil, if_true, a0]
    have q1 : Spec.sold (-((2 * n : Nat) : Int)) (2 * n) = 2 * n := by unfold Spec.sold; omega
    have q2 : Spec.shorted (-((2 * n : Nat) : Int)) (2 * n) = 0 := by unfold Spec.shorted; omega
    have q3 : Spec.covered (-((2 * n : Nat) : Int)) 0 = 0 := by unfold Spec.covered; omega
    have q4 : Spec.bought (-((2 * n : Nat) : Int)) 0 = 0 := by unfold Spec.bought; omega
    rw [q1, q2, q3, q4, pay_zero]
    have : Spec.pay exactMoney (2 * n) 3 2 = 3 * n := by
      unfold Spec.pay exactMoney
      rw [if_neg (by omega)]
      have : 2 * n * (3 : Int).toNat / 2 = 3 * n := by
        have : (3 : Int).toNat = 3 := rfl
        rw [this]; omega
      rw [this]; exact u64_of_lt (by omega)
    rw [this]
    exact ⟨u64_of_lt (by omega), by decide⟩
  have s1 : ∀ i, i < 2 * n → Spec.amount (s.1 (i + 1)) .cash = 0 ∧ Spec.amount (s.2 (i + 1)) .cash = 1 := by
    intro i hi
    obtain ⟨-, h1, h2⟩ := C58_flows_partial exactMoney (fun p _ => if p = 0 then (2 * n, 0) else (0, 0)) transfers [⟨7, 3, 3, 2⟩] hval (i + 1)
    have h1' : Spec.amount (s.1 (i + 1)) .cash = _ := h1
    have h2' : Spec.amount (s.2 (i + 1)) .cash = _ := h2
    rw [h1', h2']
    simp only [List.map_cons, List.map_nil, List.sum_cons, List.sum_nil, a1 i hi, Nat.add_eq_zero_iff, Nat.one_ne_zero, and_false, if_false]
    decide +kernel
  have r : ps = 0 :: (List.range (2 * n)).map (· + 1) := by
    show List.range (2 * n + 1) = _
    rw [List.range_succ_eq_map]
  have const : ∀ (f : Nat → Nat) (c m : Nat), (∀ i, i < m → f i = c) → ((List.range m).map f).sum = m * c := by
    intro f c m h
    rw [List.map_congr_left (g := fun _ => c) fun i hi => h i (List.mem_range.1 hi)]
    simp
  refine ⟨?_, ?_, ?_⟩
  · rw [r, List.map_cons, List.sum_cons, a0, List.map_map]
    unfold Function.comp
    rw [List.map_congr_left (g := fun _ => (1 : Int)) fun i hi => a1 i (List.mem_range.1 hi)]
    simp
  · unfold Spec.cashReceived
    rw [r, List.map_cons, List.sum_cons, s0.2, List.map_map]
    unfold Function.comp
    rw [const _ 1 _ fun i hi => (s1 i hi).2]
    omega
  · unfold Spec.cashSent
    rw [r, List.map_cons, List.sum_cons, s0.1, List.map_map]
    unfold Function.comp
    rw [const _ 0 _ fun i hi => (s1 i hi).1]
    omega

/-- The hypotheses of the bound are met: two properties, one in lots of three, one participant closes a short position. -/
example : let transfers : Nat → Option (List (Nat × Int)) := fun k => if k = 7 then some [(1, 5), (2, -5)] else if k = 8 then some [(1, -2), (2, 2)] else none
    let ts : List Traded := [⟨7, 10, 20, 3⟩, ⟨8, 6, 8, 2⟩]
    let supply : Nat → Nat → Nat × Nat := fun p _ => if p = 1 then (0, 3) else (5, 0)
    Spec.Rounds exactMoney ts 5 1 ∧ (∀ p ∈ [1, 2], ∀ t ∈ ts, (Spec.assigned transfers t.id p).natAbs ≤ 5) ∧ (∀ t ∈ ts, ([1, 2].map fun p => Spec.assigned transfers t.id p).sum = 0) ∧
    Spec.change supply transfers ts [1, 2] ≠ 0 := by
  refine ⟨exact_rounds _ _ (by decide), by decide, by decide, ?_⟩
  decide +kernel

end Esl.Walras
