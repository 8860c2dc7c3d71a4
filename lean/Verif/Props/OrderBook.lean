import Verif.Lemmas.OrderBook
import Verif.Lemmas.FairBook
/-! # C25-C31: the order book -/
namespace Esl.Book

/-! ## Specification vocabulary

A book is observed through the orders that rest on it (`bids`, `asks`: identifier and order) and its reports. -/

/-- Quantity resting under identifier `i` in a list of entries. -/
def Spec.restingIn (l : List Entry) (i : Nat) : Nat := ((l.filter fun e => decide (e.id = i)).map (·.order.quantity)).sum

/-- Quantity resting on the book under identifier `i`. -/
def Spec.resting (b : Book) (i : Nat) : Nat := Spec.restingIn (b.bids ++ b.asks) i

/-- Reports added between two states. -/
def Spec.newReports (b b' : Book) : List Report := b'.reports.drop b.reports.length

/-- Quantity that reports say was executed for identifier `i`. -/
def Spec.executed (rs : List Report) (i : Nat) : Nat :=
  ((rs.filter fun r => decide (r.state = .match_ ∧ r.ident = i)).map (·.quantity)).sum

/-- The incoming order accepts price `p`. -/
def Spec.Accepts (o : Order) (p : Int) : Prop :=
  match o.side with
  | .buy => p ≤ o.limit
  | .sell => o.limit ≤ p

/-- The resting orders that an incoming order can trade with. -/
def Spec.opposite (b : Book) (o : Order) : List Entry :=
  match o.side with
  | .buy => b.asks
  | .sell => b.bids

/-- `e` has priority over `f` for the incoming order: a better price (lower for a buyer, higher for a seller) or the same price and
placed earlier. Identifiers increase in the order of placement (`C30_unique`). -/
def Spec.Priority (o : Order) (e f : Entry) : Prop :=
  (match o.side with
   | .buy => e.order.limit < f.order.limit
   | .sell => f.order.limit < e.order.limit) ∨
  (e.order.limit = f.order.limit ∧ e.id < f.id)

/-! ## Helper lemmas -/

theorem opposite_eq (b : Book) (o : Order) : Spec.opposite b o = b.half o.side.other := by
  unfold Spec.opposite Book.half Side.other
  cases o.side <;> rfl

theorem accepts_iff (o : Order) (p : Int) : Spec.Accepts o p ↔ crossing o p = true := by
  unfold Spec.Accepts crossing
  cases o.side <;> simp

theorem priority_iff (o : Order) (e f : Entry) (he : e.key = e.order.limit) (hf : f.key = f.order.limit) :
    Spec.Priority o e f ↔ Ahead o.side.other e f := by
  unfold Spec.Priority Ahead rank Side.other
  rw [he, hf]
  cases o.side <;> simp

theorem executed_append (a b : List Report) (i : Nat) : Spec.executed (a ++ b) i = Spec.executed a i + Spec.executed b i := by
  simp [Spec.executed]

theorem restingIn_append (a b : List Entry) (i : Nat) : Spec.restingIn (a ++ b) i = Spec.restingIn a i + Spec.restingIn b i := by
  simp [Spec.restingIn]

theorem restingIn_cons (e : Entry) (l : List Entry) (i : Nat) :
    Spec.restingIn (e :: l) i = (if e.id = i then e.order.quantity else 0) + Spec.restingIn l i := by
  unfold Spec.restingIn
  by_cases h : e.id = i <;> simp [h]

theorem restingIn_perm (a b : List Entry) (h : a.Perm b) (i : Nat) : Spec.restingIn a i = Spec.restingIn b i :=
  ((h.filter _).map _).sum_nat

theorem executed_pair (o : Order) (e : Entry) (x : Nat) (i : Nat) (hi : i ≠ directOrder) :
    Spec.executed (pairOf o e x) i = if e.id = i then x else 0 := by
  unfold Spec.executed pairOf
  have : ¬ directOrder = i := fun h => hi h.symm
  by_cases h : e.id = i <;> simp [h, this]

theorem executed_pair_direct (o : Order) (e : Entry) (x : Nat) (he : e.id ≠ directOrder) :
    Spec.executed (pairOf o e x) directOrder = x := by
  unfold Spec.executed pairOf
  simp [he]

theorem executed_full (o : Order) (l : List Entry) (i : Nat) (hi : i ≠ directOrder) :
    Spec.executed (l.flatMap fun e => pairOf o e e.order.quantity) i = Spec.restingIn l i := by
  induction l with
  | nil => rfl
  | cons e l ih => rw [List.flatMap_cons, executed_append, ih, executed_pair _ _ _ _ hi, restingIn_cons]

theorem executed_full_direct (o : Order) (l : List Entry) (hl : ∀ e ∈ l, e.id ≠ directOrder) :
    Spec.executed (l.flatMap fun e => pairOf o e e.order.quantity) directOrder = volume l := by
  induction l with
  | nil => rfl
  | cons e l ih =>
    rw [List.flatMap_cons, executed_append, ih fun x hx => hl x (List.mem_cons_of_mem _ hx),
      executed_pair_direct _ _ _ (hl e (List.mem_cons_self ..))]
    simp [volume]

theorem result_conserves {c : Int → Bool} {o : Order} {rem : Nat} {l : List Entry} {m : Matched} (h : Result c o rem l m)
    (hl : ∀ e ∈ l, e.id ≠ directOrder) :
    rem = Spec.executed m.reports directOrder + m.remainder ∧
    ∀ i, i ≠ directOrder → Spec.restingIn l i = Spec.executed m.reports i + Spec.restingIn m.resting i := by
  cases h with
  | stop full rest hl' hx hr hm hp hE hs =>
    subst hl'
    rw [hp, hm, executed_full_direct _ _ fun e he => hl e (List.mem_append_left _ he)]
    exact ⟨hr, fun i hi => by rw [executed_full _ _ _ hi, restingIn_append]⟩
  | part full rest e x hl' hx hxe h0 hlt hr h1 hm hp hE =>
    subst hl'
    rw [hp, hm, h1, executed_append, executed_full_direct _ _ fun y hy => hl y (List.mem_append_left _ hy),
      executed_pair_direct _ _ _ (hl e (by simp))]
    refine ⟨hr, fun i hi => ?_⟩
    rw [executed_append, executed_full _ _ _ hi, executed_pair _ _ _ _ hi, restingIn_append, restingIn_cons, restingIn_cons]
    have e1 : (reduce e x).id = e.id := rfl
    have e2 : (reduce e x).order.quantity = e.order.quantity - x := rfl
    rw [e1, e2]
    by_cases he : e.id = i
    · simp only [he, if_true]; omega
    · simp only [he, if_false]; omega

theorem restingIn_fresh (l : List Entry) (i : Nat) (h : ∀ e ∈ l, e.id ≠ i) : Spec.restingIn l i = 0 := by
  induction l with
  | nil => rfl
  | cons e l ih =>
    rw [restingIn_cons, if_neg (h e (List.mem_cons_self ..)), ih fun x hx => h x (List.mem_cons_of_mem _ hx)]

theorem restingIn_mem (l : List Entry) (hn : (l.map (·.id)).Nodup) (e : Entry) (he : e ∈ l) :
    Spec.restingIn l e.id = e.order.quantity := by
  induction l with
  | nil => simp at he
  | cons y l ih =>
    rw [List.map_cons, List.nodup_cons] at hn
    rw [restingIn_cons]
    rcases List.mem_cons.1 he with rfl | he
    · rw [if_pos rfl, restingIn_fresh _ _ fun x hx h => hn.1 (List.mem_map.2 ⟨x, hx, h⟩)]; rfl
    · rw [if_neg (fun h => hn.1 (List.mem_map.2 ⟨e, he, h.symm⟩)), ih hn.2 he]; omega

theorem resting_halves (b : Book) (s : Side) (i : Nat) :
    Spec.resting b i = Spec.restingIn (b.half s) i + Spec.restingIn (b.half s.other) i := by
  unfold Spec.resting
  rw [restingIn_append]
  cases s
  · rfl
  · exact Nat.add_comm _ _

theorem newReports_insert (b : Book) (o : Order) :
    Spec.newReports b (b.insert o) = (matched b o).reports ++
      if (matched b o).remainder > 0 then [⟨.placement, o.side, (matched b o).remainder, b.next, o.limit, o.owner⟩] else [] := by
  unfold Spec.newReports
  rw [(insert_inserted b o).reports, List.append_assoc, List.drop_left]

theorem executed_new (b : Book) (o : Order) (i : Nat) :
    Spec.executed (Spec.newReports b (b.insert o)) i = Spec.executed (matched b o).reports i := by
  rw [newReports_insert, executed_append]
  split <;> simp [Spec.executed]

theorem half_not_direct (b : Book) (h : Inv b) (s : Side) (e : Entry) (he : e ∈ b.half s) : e.id ≠ directOrder := by
  have := h.fresh s e he
  have := h.nextOk
  omega

theorem entry_inj (l : List Entry) (hn : (l.map (·.id)).Nodup) (z : Entry) (hz : z ∈ l) (e : Entry) (he : e ∈ l) (h : z.id = e.id) :
    z = e := by
  induction l with
  | nil => simp at hz
  | cons y l ih =>
    rw [List.map_cons, List.nodup_cons] at hn
    rcases List.mem_cons.1 hz with hz' | hz' <;> rcases List.mem_cons.1 he with he' | he'
    · rw [hz', he']
    · exact absurd (List.mem_map.2 ⟨e, he', by rw [← h, hz']⟩) hn.1
    · exact absurd (List.mem_map.2 ⟨z, hz', by rw [h, he']⟩) hn.1
    · exact ih hn.2 hz' he'

theorem half_nodup (b : Book) (h : Inv b) (s : Side) : ((b.half s).map (·.id)).Nodup := by
  have := nodup_halves b s h.nodup
  rw [List.nodup_append] at this
  exact this.1

/-! ## C25 -/

/-- **C25.** After any history the best bid is below the best ask. -/
theorem C25_uncrossed (ops : List Op) (x y : Int) (hx : (run ops).bid = some x) (hy : (run ops).ask = some y) : x < y :=
  (fair_run ops empty fair_empty).best x y hx hy

/-- The reported best bid (ask) is the highest (lowest) limit among the resting buy (sell) orders; there is none exactly if no such order
rests. So C25 is about all resting orders. -/
theorem C25_best_prices (ops : List Op) :
    (∀ x, (run ops).bid = some x ↔ (∃ e ∈ (run ops).bids, e.order.limit = x) ∧ ∀ e ∈ (run ops).bids, e.order.limit ≤ x) ∧
    (∀ x, (run ops).ask = some x ↔ (∃ e ∈ (run ops).asks, e.order.limit = x) ∧ ∀ e ∈ (run ops).asks, x ≤ e.order.limit) ∧
    (∀ e ∈ (run ops).bids, e.order.side = .buy ∧ 0 < e.order.quantity) ∧
    (∀ e ∈ (run ops).asks, e.order.side = .sell ∧ 0 < e.order.quantity) := by
  have h : Fair (run ops) := fair_run ops empty fair_empty
  have hb := h.buys
  have ha := h.sells
  have hbs := h.bids
  have has := h.asks
  refine ⟨?_, ?_, fun e he => (hb e he).2, fun e he => (ha e he).2⟩
  · intro x
    unfold Book.bid
    cases hl : (run ops).bids with
    | nil => simp
    | cons z l =>
      rw [hl] at hb hbs
      have hz := (hb z (List.mem_cons_self ..)).1
      have hbest : ∀ e ∈ z :: l, e.order.limit ≤ z.key := by
        intro e he
        rw [← (hb e he).1]
        rcases List.mem_cons.1 he with rfl | he
        · exact Int.le_refl _
        · exact (List.pairwise_cons.1 hbs).1 e he
      simp only [List.head?_cons, Option.map_some, Option.some.injEq]
      constructor
      · rintro rfl
        exact ⟨⟨z, List.mem_cons_self .., hz.symm⟩, hbest⟩
      · rintro ⟨⟨e, he, rfl⟩, hall⟩
        have h1 := hall z (List.mem_cons_self ..)
        have h2 := hbest e he
        omega
  · intro x
    unfold Book.ask
    cases hl : (run ops).asks with
    | nil => simp
    | cons z l =>
      rw [hl] at ha has
      have hz := (ha z (List.mem_cons_self ..)).1
      have hbest : ∀ e ∈ z :: l, z.key ≤ e.order.limit := by
        intro e he
        rw [← (ha e he).1]
        rcases List.mem_cons.1 he with rfl | he
        · exact Int.le_refl _
        · exact (List.pairwise_cons.1 has).1 e he
      simp only [List.head?_cons, Option.map_some, Option.some.injEq]
      constructor
      · rintro rfl
        exact ⟨⟨z, List.mem_cons_self .., hz.symm⟩, hbest⟩
      · rintro ⟨⟨e, he, rfl⟩, hall⟩
        have h1 := hall z (List.mem_cons_self ..)
        have h2 := hbest e he
        omega

/-! ## C26 -/

/-- **C26.** For an order inserted after any history: its quantity is what was executed for it plus what rests of it (under the
new identifier); every other identifier loses exactly what was reported as executed for it; and the reports are pairs, one for the
incoming order and one for a resting order on the opposite side, of equal quantity and price, possibly followed by the placement. -/
theorem C26_conserves (ops : List Op) (hn : inserts ops < directOrder) (o : Order) :
    let b := run ops
    let b' := b.insert o
    let new := Spec.newReports b b'
    o.quantity = Spec.executed new directOrder + Spec.resting b' b.next ∧
    (∀ i, i < b.next → Spec.resting b i = Spec.executed new i + Spec.resting b' i) ∧
    ∃ pairs : List (Report × Report), ∃ last : List Report,
      new = pairs.flatMap (fun p => [p.1, p.2]) ++ last ∧
      (∀ p ∈ pairs, p.1.state = .match_ ∧ p.2.state = .match_ ∧ p.1.quantity = p.2.quantity ∧ p.1.limit = p.2.limit ∧
        0 < p.1.quantity ∧
        p.1.side = o.side ∧ p.2.side ≠ o.side ∧ p.1.owner = o.owner ∧ p.1.ident = directOrder ∧
        ∃ e ∈ Spec.opposite b o, e.id = p.2.ident ∧ e.order.owner = p.2.owner ∧ e.order.limit = p.2.limit) ∧
      (last = [] ∨ last = [⟨.placement, o.side, Spec.resting b' b.next, b.next, o.limit, o.owner⟩]) := by
  intro b b' new
  obtain ⟨h, hnx⟩ := run_inv ops hn
  have hlt : b.next < directOrder := Nat.lt_of_le_of_lt hnx hn
  have hm := matched_result b o h
  obtain ⟨h1, h2⟩ := result_conserves hm fun e he => half_not_direct b h _ e he
  have hins := insert_inserted b o
  have hf : ∀ s, ∀ e ∈ b.half s, e.id ≠ b.next := fun s e he => Nat.ne_of_lt (h.fresh s e he)
  have hrestf : Spec.restingIn (matched b o).resting b.next = 0 := by
    have := h2 b.next (Nat.ne_of_lt hlt)
    rw [restingIn_fresh _ _ (hf _)] at this
    omega
  have hown : ∀ i, Spec.restingIn (b'.half o.side) i =
      Spec.restingIn (b.half o.side) i + if b.next = i then (matched b o).remainder else 0 := by
    intro i
    show Spec.restingIn ((b.insert o).half o.side) i = _
    rw [hins.own]
    split
    · rw [restingIn_perm _ _ (emplace_perm ..), restingIn_cons]
      exact Nat.add_comm _ _
    · have : (matched b o).remainder = 0 := by omega
      simp [this]
  have hrem : Spec.resting b' b.next = (matched b o).remainder := by
    rw [resting_halves b' o.side, hown, if_pos rfl, restingIn_fresh _ _ (hf _)]
    show 0 + (matched b o).remainder + Spec.restingIn ((b.insert o).half o.side.other) b.next = _
    rw [hins.opp, hrestf]
    omega
  refine ⟨?_, ?_, ?_⟩
  · rw [hrem]
    show _ = Spec.executed (Spec.newReports b (b.insert o)) directOrder + _
    rw [executed_new]; exact h1
  · intro i hi
    show _ = Spec.executed (Spec.newReports b (b.insert o)) i + _
    rw [executed_new, resting_halves b o.side, resting_halves b' o.side, hown, if_neg (by omega), h2 i (by omega)]
    show _ = _ + (_ + Spec.restingIn ((b.insert o).half o.side.other) i)
    rw [hins.opp]
    omega
  · have hside : ∀ e ∈ b.half o.side.other, e.order.side ≠ o.side := by
      intro e he
      rw [(h.wf _ e he).2.1]
      cases o.side <;> simp [Side.other]
    let mk := fun (p : Entry × Nat) => ((⟨.match_, o.side, p.2, directOrder, p.1.order.limit, o.owner⟩,
      ⟨.match_, p.1.order.side, p.2, p.1.id, p.1.order.limit, p.1.order.owner⟩) : Report × Report)
    have hgood : ∀ e x, e ∈ b.half o.side.other → 0 < x → ∀ p, p = mk (e, x) → (p.1.state = .match_ ∧ p.2.state = .match_ ∧
        p.1.quantity = p.2.quantity ∧ p.1.limit = p.2.limit ∧ 0 < p.1.quantity ∧
        p.1.side = o.side ∧ p.2.side ≠ o.side ∧ p.1.owner = o.owner ∧ p.1.ident = directOrder ∧
        ∃ e ∈ Spec.opposite b o, e.id = p.2.ident ∧ e.order.owner = p.2.owner ∧ e.order.limit = p.2.limit) := by
      rintro e x he hx p rfl
      exact ⟨rfl, rfl, rfl, rfl, hx, rfl, hside e he, rfl, rfl, e, by rw [opposite_eq]; exact he, rfl, rfl, rfl⟩
    have hlast : ∀ rs, (matched b o).reports = rs → ∃ last, new = rs ++ last ∧
        (last = [] ∨ last = [⟨.placement, o.side, Spec.resting b' b.next, b.next, o.limit, o.owner⟩]) := by
      rintro rs rfl
      refine ⟨_, newReports_insert b o, ?_⟩
      rw [hrem]
      split
      · exact .inr rfl
      · exact .inl rfl
    have hflat : ∀ l : List Entry, (l.map fun e => mk (e, e.order.quantity)).flatMap (fun p => [p.1, p.2]) =
        l.flatMap fun e => pairOf o e e.order.quantity := by
      intro l; rw [List.flatMap_map]; rfl
    cases hm with
    | stop full rest hl hx hr hm hp hE hs =>
      obtain ⟨last, e1, e2⟩ := hlast _ hp
      refine ⟨full.map fun e => mk (e, e.order.quantity), last, by rw [hflat]; exact e1, ?_, e2⟩
      intro p hp
      obtain ⟨e, he, rfl⟩ := List.mem_map.1 hp
      have hmem : e ∈ b.half o.side.other := by rw [hl]; exact List.mem_append_left _ he
      exact hgood e _ hmem (h.wf _ e hmem).2.2 _ rfl
    | part full rest e x hl hx hxe h0 hlt hr h1 hm hp hE =>
      obtain ⟨last, e1, e2⟩ := hlast _ hp
      refine ⟨(full.map fun e => mk (e, e.order.quantity)) ++ [mk (e, x)], last, ?_, ?_, e2⟩
      · rw [List.flatMap_append, hflat]; exact e1
      · intro p hp
        rcases List.mem_append.1 hp with hp | hp
        · obtain ⟨y, hy, rfl⟩ := List.mem_map.1 hp
          have hmem : y ∈ b.half o.side.other := by rw [hl]; exact List.mem_append_left _ hy
          exact hgood y _ hmem (h.wf _ y hmem).2.2 _ rfl
        · have hmem : e ∈ b.half o.side.other := by rw [hl]; simp
          exact hgood e x hmem h0 p (by simpa using hp)

/-- **C26.** Inserting an order leaves everything but the quantity of the other resting orders alone: each order on the book afterwards is
either the new one, with the identifier, side, owner, limit and lifetime of the submitted order, or an order that was on the same side before, changed at most in its
quantity. -/
theorem C26_others_unchanged (ops : List Op) (hn : inserts ops < directOrder) (o : Order) :
    let b := run ops
    let b' := b.insert o
    (∀ e ∈ b'.bids, (o.side = .buy ∧ e = ⟨o.limit, b.next, { o with quantity := e.order.quantity }⟩) ∨
      ∃ f ∈ b.bids, e = { f with order := { f.order with quantity := e.order.quantity } }) ∧
    (∀ e ∈ b'.asks, (o.side = .sell ∧ e = ⟨o.limit, b.next, { o with quantity := e.order.quantity }⟩) ∨
      ∃ f ∈ b.asks, e = { f with order := { f.order with quantity := e.order.quantity } }) := by
  intro b b'
  obtain ⟨h, _⟩ := run_inv ops hn
  have hm := matched_result b o h
  have hins := insert_inserted b o
  have key : ∀ s, ∀ e ∈ b'.half s, (o.side = s ∧ e = ⟨o.limit, b.next, { o with quantity := e.order.quantity }⟩) ∨
      ∃ f ∈ b.half s, e = { f with order := { f.order with quantity := e.order.quantity } } := by
    intro s e he
    rcases side_cases o.side s with rfl | rfl
    · have he : e ∈ (b.insert o).half o.side := he
      rw [hins.own] at he
      split at he
      · rcases (mem_emplace _ _ _ _).1 he with rfl | he
        · exact .inl ⟨rfl, rfl⟩
        · exact .inr ⟨e, he, rfl⟩
      · exact .inr ⟨e, he, rfl⟩
    · have he : e ∈ (b.insert o).half o.side.other := he
      rw [hins.opp] at he
      right
      cases hm with
      | stop full rest hl hx hr hm hp hE hs => exact ⟨e, by rw [hl]; rw [hm] at he; simp [he], rfl⟩
      | part full rest f x hl hx hxe h0 hlt hr h1 hm hp hE =>
        rw [hm] at he
        rcases List.mem_cons.1 he with rfl | he
        · exact ⟨f, by rw [hl]; simp, rfl⟩
        · exact ⟨e, by rw [hl]; simp [he], rfl⟩
  exact ⟨key .buy, key .sell⟩

/-! ## C27 -/

theorem executed_in_full {c : Int → Bool} {o : Order} {rem : Nat} {l : List Entry} {m : Matched} (h : Result c o rem l m)
    (hn : (l.map (·.id)).Nodup) (hd : ∀ e ∈ l, e.id ≠ directOrder) :
    ∃ full rest, l = full ++ rest ∧ (∀ e ∈ full, Spec.executed m.reports e.id = e.order.quantity ∧ c e.key = true) ∧
      (∀ e ∈ rest, Spec.executed m.reports e.id = 0 ∨
        (rest.head? = some e ∧ c e.key = true ∧ m.remainder = 0)) ∧
      (m.remainder = 0 ∨ ∀ e ∈ rest.head?, c e.key = false) := by
  cases h with
  | stop full rest hl hx hr hm hp hE hs =>
    subst hl
    rw [List.map_append, List.nodup_append] at hn
    refine ⟨full, rest, rfl, ?_, ?_, hs⟩
    · intro e he
      rw [hp, executed_full _ _ _ (hd e (List.mem_append_left _ he)), restingIn_mem _ hn.1 e he]
      exact ⟨rfl, hx e he⟩
    · intro e he
      left
      rw [hp, executed_full _ _ _ (hd e (List.mem_append_right _ he))]
      exact restingIn_fresh _ _ fun y hy h =>
        hn.2.2 y.id (List.mem_map_of_mem hy) e.id (List.mem_map_of_mem he) h
  | part full rest y x hl hx hxe h0 hlt hr h1 hm hp hE =>
    subst hl
    rw [List.map_append, List.nodup_append] at hn
    have hny := hn.2.1
    rw [List.map_cons, List.nodup_cons] at hny
    refine ⟨full, y :: rest, rfl, ?_, ?_, .inl h1⟩
    · intro e he
      have hne : ¬ y.id = e.id := fun h => hn.2.2 e.id (List.mem_map_of_mem he) y.id (by simp) h.symm
      rw [hp, executed_append, executed_full _ _ _ (hd e (List.mem_append_left _ he)), restingIn_mem _ hn.1 e he,
        executed_pair _ _ _ _ (hd e (List.mem_append_left _ he)), if_neg hne]
      exact ⟨rfl, hx e he⟩
    · intro e he
      rcases List.mem_cons.1 he with rfl | he'
      · exact .inr ⟨rfl, hxe, h1⟩
      · left
        have hne : ¬ y.id = e.id := fun h => hny.1 (h ▸ List.mem_map_of_mem he')
        have hde := hd e (List.mem_append_right _ he)
        rw [hp, executed_append, executed_full _ _ _ hde, executed_pair _ _ _ _ hde, if_neg hne]
        rw [restingIn_fresh _ _ fun z hz h => hn.2.2 z.id (List.mem_map_of_mem hz) e.id (List.mem_map_of_mem he) h]

theorem ahead_asymm {s : Side} {a b : Entry} (h1 : Ahead s a b) (h2 : Ahead s b a) : False := by
  unfold Ahead at *
  rcases h1 with h1 | ⟨h1, h1'⟩ <;> rcases h2 with h2 | ⟨h2, h2'⟩
  · omega
  · rw [h2] at h1; omega
  · rw [h1] at h2; omega
  · omega

/-- **C27.** For an order inserted after any history: if any of a resting order was executed, every resting order with priority over it (better price, or
same price and placed earlier) was executed completely; a resting order whose price the incoming order accepts keeps a part only if the incoming order was
executed completely; and the executions are reported in the order of priority. -/
theorem C27_priority (ops : List Op) (hn : inserts ops < directOrder) (o : Order) :
    let b := run ops
    let new := Spec.newReports b (b.insert o)
    (∀ e ∈ Spec.opposite b o, ∀ f ∈ Spec.opposite b o, Spec.Priority o e f → 0 < Spec.executed new f.id →
      Spec.executed new e.id = e.order.quantity) ∧
    (∀ e ∈ Spec.opposite b o, Spec.Accepts o e.order.limit → Spec.executed new e.id < e.order.quantity →
      Spec.executed new directOrder = o.quantity) ∧
    ∃ order : List Entry, order.Pairwise (Spec.Priority o) ∧ (∀ e ∈ order, e ∈ Spec.opposite b o) ∧
      (new.filter fun r => decide (r.state = .match_ ∧ r.ident ≠ directOrder)).map (·.ident) = order.map (·.id) := by
  intro b new
  obtain ⟨h, hnx⟩ := run_inv ops hn
  have hm := matched_result b o h
  have hnd := half_nodup b h o.side.other
  have hd := fun e he => half_not_direct b h o.side.other e he
  have hs := h.sorted o.side.other
  have hwf := h.wf o.side.other
  obtain ⟨full, rest, hl, h1, h2, h3⟩ := executed_in_full hm hnd hd
  have hpr : ∀ e ∈ b.half o.side.other, ∀ f ∈ b.half o.side.other, (Spec.Priority o e f ↔ Ahead o.side.other e f) :=
    fun e he f hf => priority_iff o e f (hwf e he).1 (hwf f hf).1
  have hnew : ∀ i, Spec.executed new i = Spec.executed (matched b o).reports i := executed_new b o
  rw [opposite_eq]
  refine ⟨?_, ?_, ?_⟩
  · intro e he f hf hp hx
    rw [hpr e he f hf] at hp
    rw [hnew] at hx ⊢
    rw [hl] at he hf hs
    rcases List.mem_append.1 he with he | he
    · exact (h1 e he).1
    · exfalso
      rcases List.mem_append.1 hf with hf | hf
      · exact ahead_asymm hp ((List.pairwise_append.1 hs).2.2 f hf e he)
      · rcases h2 f hf with h0 | ⟨hh, _⟩
        · omega
        · cases rest with
          | nil => simp at hh
          | cons y rest =>
            simp at hh; subst hh
            rcases List.mem_cons.1 he with rfl | he
            · exact ahead_asymm hp hp
            · exact ahead_asymm hp ((List.pairwise_cons.1 (List.pairwise_append.1 hs).2.1).1 e he)
  · intro e he ha hlt
    rw [hnew] at hlt ⊢
    rw [accepts_iff, ← (hwf e he).1] at ha
    have hc := (result_conserves hm hd).1
    have h0 : (matched b o).remainder = 0 := by
      by_cases h0 : (matched b o).remainder = 0
      · exact h0
      · exfalso
        have hleft := no_crossing_left b o h (by omega)
        rw [crossing_iff] at ha
        have hcons := (result_conserves hm hd).2 e.id (hd e he)
        rw [restingIn_mem _ hnd e he] at hcons
        have hpos : 0 < Spec.restingIn (matched b o).resting e.id := by omega
        have : ∃ y ∈ (matched b o).resting, y.id = e.id := by
          by_cases hex : ∃ y ∈ (matched b o).resting, y.id = e.id
          · exact hex
          · rw [restingIn_fresh _ _ fun y hy hye => hex ⟨y, hy, hye⟩] at hpos; omega
        obtain ⟨y, hy, hye⟩ := this
        have hkey : y.key = e.key := by
          have hinj : ∀ z ∈ b.half o.side.other, z.id = e.id → z = e := fun z hz hze => entry_inj _ hnd z hz e he hze
          rcases resting_mem hm y hy with hy' | ⟨z, hz, x, _, _, rfl⟩
          · rw [hinj y hy' hye]
          · rw [← hinj z hz hye]; rfl
        have := hleft y hy
        rw [hkey] at this
        omega
    omega
  · have hfil : ∀ l : List Entry, (∀ e ∈ l, e.id ≠ directOrder) → ∀ q : Entry → Nat,
        ((l.flatMap fun e => pairOf o e (q e)).filter fun r => decide (r.state = .match_ ∧ r.ident ≠ directOrder)).map (·.ident) =
          l.map (·.id) := by
      intro l hl q
      induction l with
      | nil => rfl
      | cons e l ih =>
        have he := hl e (List.mem_cons_self ..)
        rw [List.flatMap_cons, List.filter_append, List.map_append, ih fun x hx => hl x (List.mem_cons_of_mem _ hx)]
        simp [pairOf, he]
    have hplace : ((if (matched b o).remainder > 0 then
        [(⟨.placement, o.side, (matched b o).remainder, b.next, o.limit, o.owner⟩ : Report)] else []).filter
          fun r => decide (r.state = .match_ ∧ r.ident ≠ directOrder)) = [] := by
      split <;> simp
    have hnewr : new = _ := newReports_insert b o
    rw [hnewr, List.filter_append, hplace, List.append_nil]
    have hsub : ∀ l : List Entry, l.Sublist (b.half o.side.other) → l.Pairwise (Spec.Priority o) := by
      intro l hl
      have := hs.sublist hl
      exact this.imp_of_mem fun ha hb hab => (hpr _ (hl.subset ha) _ (hl.subset hb)).2 hab
    cases hm with
    | stop full rest hl hx hr hm hp hE hs =>
      have hsl : full.Sublist (b.half o.side.other) := by rw [hl]; exact List.sublist_append_left ..
      refine ⟨full, hsub _ hsl, fun e he => hsl.subset he, ?_⟩
      rw [hp]
      exact hfil full (fun e he => hd e (hsl.subset he)) _
    | part full rest e x hl hx hxe h0 hlt hr h1 hm hp hE =>
      have hsl : (full ++ [e]).Sublist (b.half o.side.other) := by
        rw [hl]; exact (List.Sublist.refl _).append (by simp)
      refine ⟨full ++ [e], hsub _ hsl, fun e he => hsl.subset he, ?_⟩
      have hde := hd e (hsl.subset (by simp))
      rw [hp, List.filter_append, List.map_append, hfil full (fun y hy => hd y (hsl.subset (by simp [hy])))]
      simp [pairOf, hde]

/-! ## C28 -/

/-- **C28.** Every execution of an order inserted after any history is at the limit of a resting order of the opposite side, which the incoming order
accepts; and when a part of the incoming order rests on the book, no opposite order that it accepts is left. -/
theorem C28_limits (ops : List Op) (hn : inserts ops < directOrder) (o : Order) :
    let b := run ops
    let b' := b.insert o
    (∀ r ∈ Spec.newReports b b', r.state = .match_ →
      Spec.Accepts o r.limit ∧ ∃ e ∈ Spec.opposite b o, e.order.limit = r.limit ∧ (r.ident = directOrder ∨ r.ident = e.id)) ∧
    (0 < Spec.resting b' b.next → ∀ e ∈ Spec.opposite b' o, ¬ Spec.Accepts o e.order.limit) := by
  intro b b'
  obtain ⟨h, hnx⟩ := run_inv ops hn
  have hlt : b.next < directOrder := Nat.lt_of_le_of_lt hnx hn
  have hm := matched_result b o h
  have hwf := h.wf o.side.other
  constructor
  · intro r hr hst
    have hr : r ∈ (matched b o).reports := by
      have hnr : Spec.newReports b b' = _ := newReports_insert b o
      rw [hnr] at hr
      rcases List.mem_append.1 hr with hr | hr
      · exact hr
      · split at hr
        · simp at hr; subst hr; simp at hst
        · simp at hr
    have key : ∀ e x, e ∈ b.half o.side.other → crossing o e.key = true → r ∈ pairOf o e x →
        Spec.Accepts o r.limit ∧ ∃ e ∈ Spec.opposite b o, e.order.limit = r.limit ∧ (r.ident = directOrder ∨ r.ident = e.id) := by
      intro e x he hc hr
      rw [(hwf e he).1, ← accepts_iff] at hc
      rw [opposite_eq]
      simp [pairOf] at hr
      rcases hr with rfl | rfl
      · exact ⟨hc, e, he, rfl, .inl rfl⟩
      · exact ⟨hc, e, he, rfl, .inr rfl⟩
    cases hm with
    | stop full rest hl hx hr' hm hp hE hs =>
      rw [hp] at hr
      obtain ⟨e, he, hr⟩ := List.mem_flatMap.1 hr
      exact key e _ (by rw [hl]; exact List.mem_append_left _ he) (hx e he) hr
    | part full rest e x hl hx hxe h0 hlt hr' h1 hm hp hE =>
      rw [hp] at hr
      rcases List.mem_append.1 hr with hr | hr
      · obtain ⟨e, he, hr⟩ := List.mem_flatMap.1 hr
        exact key e _ (by rw [hl]; exact List.mem_append_left _ he) (hx e he) hr
      · exact key e x (by rw [hl]; simp) hxe hr
  · intro hpos e he hacc
    have hinv : Inv b' := inv_insert b o h hlt
    rw [opposite_eq] at he
    have hwe := hinv.wf _ e he
    rw [accepts_iff, ← hwe.1, crossing_iff] at hacc
    have hrem : 0 < (matched b o).remainder := by
      by_cases h0 : (matched b o).remainder = 0
      · exfalso
        have hc : o.quantity = Spec.executed (Spec.newReports b (b.insert o)) directOrder + Spec.resting b' b.next :=
          (C26_conserves ops hn o).1
        have h1 := (result_conserves hm fun e he => half_not_direct b h _ e he).1
        rw [executed_new] at hc
        omega
      · omega
    have he' : e ∈ (matched b o).resting := by rw [← (insert_inserted b o).opp]; exact he
    have := no_crossing_left b o h hrem e he'
    omega

/-! ## C29 -/

/-- **C29 (partial).** Cancelling after any history: if an order rests under the identifier, it is removed and nothing else, and there is exactly one
new report, of its cancellation with its side, remaining quantity, limit and owner; otherwise (unknown, executed or
already cancelled) nothing changes at all. Missing: the list `orders()` should no longer contain the order, see the counterexample. -/
theorem C29_cancel_partial (ops : List Op) (hn : inserts ops < directOrder) (i : Nat) :
    let b := run ops
    (∀ e ∈ b.bids ++ b.asks, e.id = i →
      (b.cancel i).bids = b.bids.filter (fun x => decide (x.id ≠ i)) ∧
      (b.cancel i).asks = b.asks.filter (fun x => decide (x.id ≠ i)) ∧
      (b.bids ++ b.asks).length = ((b.cancel i).bids ++ (b.cancel i).asks).length + 1 ∧
      (b.cancel i).reports = b.reports ++ [⟨.cancel, e.order.side, e.order.quantity, i, e.order.limit, e.order.owner⟩] ∧
      (b.cancel i).cancel i = b.cancel i) ∧
    ((∀ e ∈ b.bids ++ b.asks, e.id ≠ i) → b.cancel i = b) := by
  intro b
  have h : Inv b := (run_inv ops hn).1
  obtain ⟨h1, h2⟩ := cancel_effect b h i
  constructor
  · intro e he hi
    obtain ⟨s, hs⟩ := (mem_half b e).2 (List.mem_append.1 he)
    obtain ⟨g1, g2, g3, g4⟩ := h1 s e hs hi
    have gb : (b.cancel i).bids = b.bids.filter (fun x => decide (x.id ≠ i)) := g1 .buy
    have ga : (b.cancel i).asks = b.asks.filter (fun x => decide (x.id ≠ i)) := g1 .sell
    refine ⟨gb, ga, ?_, ?_, ?_⟩
    · rw [gb, ga, ← List.filter_append]
      have hnd : ((b.bids ++ b.asks).map (·.id)).Nodup := by rw [List.map_append]; exact h.nodup
      generalize b.bids ++ b.asks = l at he hnd
      clear g1 g2 g3 g4 gb ga h1 h2
      induction l with
      | nil => simp at he
      | cons y l ih =>
        rw [List.map_cons, List.nodup_cons] at hnd
        rcases List.mem_cons.1 he with rfl | he
        · rw [List.filter_cons_of_neg (by simp [hi])]
          have : l.filter (fun x => decide (x.id ≠ i)) = l := by
            rw [List.filter_eq_self]
            intro x hx
            have : x.id ≠ i := fun hxi => hnd.1 (List.mem_map.2 ⟨x, hx, hxi.trans hi.symm⟩)
            simpa using this
          rw [this]; rfl
        · have hy : y.id ≠ i := fun hyi => hnd.1 (List.mem_map.2 ⟨e, he, hi.trans hyi.symm⟩)
          rw [List.filter_cons_of_pos (by simpa using hy)]
          have := ih he hnd.2
          simp only [List.length_cons]
          omega
    · rw [g2, (h.wf s e hs).2.1, ← (h.wf s e hs).1]
    · apply (cancel_effect (b.cancel i) (inv_cancel b i h) i).2
      intro t x hx
      rw [g1 t] at hx
      simpa using (List.mem_filter.1 hx).2
  · intro hno
    exact h2 fun s e he => hno e (List.mem_append.2 ((mem_half b e).1 ⟨s, he⟩))

/-- **C29, negation.** After cancelling, the identifier is still in the list of active orders: one order is placed and cancelled. -/
theorem C29_counterexample_orders :
    let b := run [.insert ⟨.goodUntilCancelled, .buy, 0, 1, 100, 5⟩, .cancel 0]
    b.bids = [] ∧ b.asks = [] ∧ b.orders = [0] := by decide

/-- Cancelling never removes an identifier from the list, whatever the book. -/
theorem C29_counterexample_never_removed (b : Book) (i : Nat) : (b.cancel i).orders = b.orders := by
  unfold Book.cancel Book.orders
  repeat' split
  all_goals rfl

/-- The limits known to the book are those of the resting orders, as long as nothing is cancelled. -/
def Tight (b : Book) : Prop := ∀ x ∈ b.limits, ∃ s, ∃ e ∈ b.half s, e.id = x.1

theorem tight_insert (b : Book) (o : Order) (h : Inv b) (ht : Tight b) : Tight (b.insert o) := by
  have hins := insert_inserted b o
  have hm := matched_result b o h
  obtain ⟨full, rest, hl, hE, hk, _⟩ := resting_keys hm
  have hids := ids_congr _ _ hk
  have hold : ∀ x ∈ eraseLimits (matched b o).erased b.limits, ∃ s, ∃ e ∈ (b.insert o).half s, e.id = x.1 := by
    intro x hx
    unfold eraseLimits at hx
    rw [List.mem_filter, hE] at hx
    obtain ⟨s, e, he, hex⟩ := ht x hx.1
    rcases side_cases o.side s with rfl | rfl
    · refine ⟨o.side, e, ?_, hex⟩
      rw [hins.own]
      split
      · rw [mem_emplace]; exact .inr he
      · exact he
    · rw [hl] at he
      rcases List.mem_append.1 he with he | he
      · exfalso
        have := hx.2
        simp at this
        exact this e he hex
      · have : e.id ∈ (matched b o).resting.map (·.id) := by rw [hids]; exact List.mem_map_of_mem he
        obtain ⟨y, hy, hye⟩ := List.mem_map.1 this
        exact ⟨o.side.other, y, by rw [hins.opp]; exact hy, hye.trans hex⟩
  intro x hx
  rw [hins.limits] at hx
  split at hx
  · rename_i hr
    have hfr : ∀ e ∈ eraseLimits (matched b o).erased b.limits, e.1 ≠ b.next :=
      fun e he => Nat.ne_of_lt (h.limitsFresh e (List.mem_filter.1 he).1)
    rcases (mem_mapEmplace _ _ _ hfr x).1 hx with rfl | hx
    · refine ⟨o.side, placed b o, ?_, rfl⟩
      rw [hins.own, if_pos hr, mem_emplace]; exact .inl rfl
    · exact hold x hx
  · exact hold x hx

/-- **C29 (partial), list of orders.** Every resting order is listed; and while nothing has been cancelled, only resting orders are listed, so that executed
orders disappear from the list. -/
theorem C29_listed_partial (ops : List Op) (hn : inserts ops < directOrder) :
    (∀ e ∈ (run ops).bids ++ (run ops).asks, e.id ∈ (run ops).orders) ∧
    ((∀ i, .cancel i ∉ ops) → ∀ i ∈ (run ops).orders, ∃ e ∈ (run ops).bids ++ (run ops).asks, e.id = i) := by
  constructor
  · intro e he
    obtain ⟨s, hs⟩ := (mem_half _ e).2 (List.mem_append.1 he)
    exact List.mem_map.2 ⟨_, (run_inv ops hn).1.inLimits s e hs, rfl⟩
  · intro hno i hi
    have ht : Tight (run ops) := by
      clear hi
      induction ops using snoc_induct with
      | h0 => intro x hx; simp [run, empty] at hx
      | h1 l op ih =>
        rw [run_append]
        cases op with
        | insert o =>
          have hc : inserts (l ++ [.insert o]) = inserts l + 1 := by simp [inserts]
          rw [hc] at hn
          exact tight_insert _ _ (run_inv l (by omega)).1 (ih (by omega) fun i hi => hno i (List.mem_append_left _ hi))
        | cancel j => exact absurd (by simp) (hno j)
    obtain ⟨x, hx, rfl⟩ := List.mem_map.1 hi
    obtain ⟨s, e, he, hex⟩ := ht x hx
    exact ⟨e, List.mem_append.2 ((mem_half _ e).1 ⟨s, he⟩), hex⟩

/-! ## C30 -/

/-- Identifiers in placement reports. -/
def Spec.placedIds (rs : List Report) : List Nat := (rs.filter fun r => decide (r.state = .placement)).map (·.ident)

theorem placedIds_append (a b : List Report) : Spec.placedIds (a ++ b) = Spec.placedIds a ++ Spec.placedIds b := by
  simp [Spec.placedIds]

theorem placedIds_matched {c : Int → Bool} {o : Order} {rem : Nat} {l : List Entry} {m : Matched} (h : Result c o rem l m) :
    Spec.placedIds m.reports = [] := by
  have hf : ∀ l : List Entry, Spec.placedIds (l.flatMap fun e => pairOf o e e.order.quantity) = [] := by
    intro l
    induction l with
    | nil => rfl
    | cons e l ih => rw [List.flatMap_cons, placedIds_append, ih]; simp [Spec.placedIds, pairOf]
  cases h with
  | stop full rest hl hx hr hm hp hE hs => rw [hp, hf]
  | part full rest e x hl hx hxe h0 hlt hr h1 hm hp hE =>
    rw [hp, placedIds_append, hf]; simp [Spec.placedIds, pairOf]

theorem placedIds_cancel (b : Book) (h : Inv b) (i : Nat) : Spec.placedIds (b.cancel i).reports = Spec.placedIds b.reports := by
  by_cases hex : ∃ s, ∃ e ∈ b.half s, e.id = i
  · obtain ⟨s, e, he, hi⟩ := hex
    rw [((cancel_effect b h i).1 s e he hi).2.1, placedIds_append]
    simp [Spec.placedIds]
  · rw [(cancel_effect b h i).2 fun s e he hi => hex ⟨s, e, he, hi⟩]

/-- **C30.** The identifiers of all placements of a history are strictly increasing, so pairwise different and never reused, and
none of them is the mark of direct executions; every resting order was placed under its identifier, and different resting orders have different identifiers. -/
theorem C30_unique (ops : List Op) (hn : inserts ops < directOrder) :
    (Spec.placedIds (run ops).reports).Pairwise (· < ·) ∧
    (∀ i ∈ Spec.placedIds (run ops).reports, i < directOrder) ∧
    (∀ e ∈ (run ops).bids ++ (run ops).asks, e.id ∈ Spec.placedIds (run ops).reports) ∧
    (((run ops).bids ++ (run ops).asks).map (·.id)).Nodup := by
  have key : ∀ ops, inserts ops < directOrder → (Spec.placedIds (run ops).reports).Pairwise (· < ·) ∧
      (∀ i ∈ Spec.placedIds (run ops).reports, i < (run ops).next) ∧
      (∀ s, ∀ e ∈ (run ops).half s, e.id ∈ Spec.placedIds (run ops).reports) := by
    intro ops hn
    induction ops using snoc_induct with
    | h0 => exact ⟨by simp [run, empty, Spec.placedIds], by simp [run, empty, Spec.placedIds],
        fun s => by cases s <;> simp [run, empty, Book.half]⟩
    | h1 l op ih =>
      rw [run_append]
      cases op with
      | cancel i =>
        have hc : inserts (l ++ [.cancel i]) = inserts l := by simp [inserts]
        rw [hc] at hn
        obtain ⟨i1, i2, i3⟩ := ih hn
        have h := (run_inv l hn).1
        simp only [Book.apply]
        rw [placedIds_cancel _ h, next_cancel]
        refine ⟨i1, i2, ?_⟩
        intro s e he
        by_cases hex : ∃ s, ∃ e ∈ (run l).half s, e.id = i
        · obtain ⟨t, f, hf, hfi⟩ := hex
          rw [((cancel_effect _ h i).1 t f hf hfi).1 s] at he
          exact i3 s e (List.mem_filter.1 he).1
        · rw [(cancel_effect _ h i).2 fun s e he hi => hex ⟨s, e, he, hi⟩] at he
          exact i3 s e he
      | insert o =>
        have hc : inserts (l ++ [.insert o]) = inserts l + 1 := by simp [inserts]
        rw [hc] at hn
        obtain ⟨i1, i2, i3⟩ := ih (by omega)
        obtain ⟨h, hnx⟩ := run_inv l (by omega)
        have hm := matched_result (run l) o h
        have hins := insert_inserted (run l) o
        have hu : u64 ((run l).next + 1) = (run l).next + 1 := by
          unfold u64; rw [Nat.mod_eq_of_lt]; unfold directOrder at hn; omega
        simp only [Book.apply]
        obtain ⟨full, rest, hl, hE, hk, _⟩ := resting_keys hm
        have hids := ids_congr _ _ hk
        have hrest : ∀ e ∈ (matched (run l) o).resting, e.id ∈ Spec.placedIds (run l).reports := by
          intro e he
          have : e.id ∈ rest.map (·.id) := by rw [← hids]; exact List.mem_map_of_mem he
          obtain ⟨y, hy, hye⟩ := List.mem_map.1 this
          rw [← hye]
          exact i3 o.side.other y (by rw [hl]; exact List.mem_append_right _ hy)
        have hr := hins.reports
        have hnxt := hins.next
        rw [hu] at hnxt
        by_cases hrem : (matched (run l) o).remainder > 0
        · rw [if_pos hrem] at hr hnxt
          have hp : Spec.placedIds ((run l).insert o).reports = Spec.placedIds (run l).reports ++ [(run l).next] := by
            rw [hr, placedIds_append, placedIds_append, placedIds_matched hm]
            simp [Spec.placedIds]
          rw [hp, hnxt]
          refine ⟨?_, ?_, ?_⟩
          · rw [List.pairwise_append]
            refine ⟨i1, by simp, ?_⟩
            intro a ha c hc
            simp at hc; subst hc
            exact i2 a ha
          · intro i hi
            rcases List.mem_append.1 hi with hi | hi
            · have := i2 i hi; omega
            · simp at hi; omega
          · intro s e he
            rcases side_cases o.side s with rfl | rfl
            · rw [hins.own, if_pos hrem] at he
              rcases (mem_emplace _ _ _ _).1 he with rfl | he
              · exact List.mem_append_right _ (by simp [placed])
              · exact List.mem_append_left _ (i3 _ e he)
            · rw [hins.opp] at he
              exact List.mem_append_left _ (hrest e he)
        · rw [if_neg hrem] at hr hnxt
          have hp : Spec.placedIds ((run l).insert o).reports = Spec.placedIds (run l).reports := by
            rw [hr, placedIds_append, placedIds_append, placedIds_matched hm]
            simp [Spec.placedIds]
          rw [hp, hnxt]
          refine ⟨i1, i2, ?_⟩
          intro s e he
          rcases side_cases o.side s with rfl | rfl
          · rw [hins.own, if_neg hrem] at he
            exact i3 _ e he
          · rw [hins.opp] at he
            exact hrest e he
  obtain ⟨k1, k2, k3⟩ := key ops hn
  obtain ⟨h, hnx⟩ := run_inv ops hn
  refine ⟨k1, fun i hi => ?_, ?_, ?_⟩
  · have := k2 i hi
    omega
  · intro e he
    obtain ⟨s, hs⟩ := (mem_half _ e).2 (List.mem_append.1 he)
    exact k3 s e hs
  · rw [List.map_append]; exact h.nodup

/-! ## C31 -/

/-- **C31, negation.** An immediate-or-cancel order that finds no counterpart rests on the book. -/
theorem C31_counterexample_rests :
    (run [.insert ⟨.immediateOrCancel, .buy, 0, 1, 100, 5⟩]).bids = [⟨100, 0, ⟨.immediateOrCancel, .buy, 0, 1, 100, 5⟩⟩] := by decide

/-- **C31, negation.** A fill-or-kill order for 5 is executed for 3, and the remaining 2 rest on the book. -/
theorem C31_counterexample_partial_fill :
    let b := run [.insert ⟨.goodUntilCancelled, .sell, 0, 1, 100, 3⟩]
    let b' := b.insert ⟨.fillOrKill, .buy, 0, 2, 100, 5⟩
    Spec.executed (Spec.newReports b b') directOrder = 3 ∧ Spec.resting b' 1 = 2 := by decide

/-- **C31 (partial).** After any history, an order of any lifetime for which enough quantity at acceptable prices rests on the opposite side is executed completely and no part of it
rests. Missing: orders that cannot be executed completely, for which the claim is false. -/
theorem C31_filled_partial (ops : List Op) (hn : inserts ops < directOrder) (o : Order)
    (havail : o.quantity ≤ (((Spec.opposite (run ops) o).filter fun e =>
      match o.side with | .buy => decide (e.order.limit ≤ o.limit) | .sell => decide (o.limit ≤ e.order.limit)).map (·.order.quantity)).sum) :
    let b := run ops
    let b' := b.insert o
    Spec.executed (Spec.newReports b b') directOrder = o.quantity ∧ Spec.resting b' b.next = 0 := by
  intro b b'
  obtain ⟨h, hnx⟩ := run_inv ops hn
  have hm := matched_result b o h
  have hc := (C26_conserves ops hn o).1
  have hc' : o.quantity = Spec.executed (Spec.newReports b b') directOrder + Spec.resting b' b.next := hc
  have hres := result_conserves hm fun e he => half_not_direct b h _ e he
  have hex : Spec.executed (Spec.newReports b b') directOrder = Spec.executed (matched b o).reports directOrder := executed_new b o _
  have hrem0 : (matched b o).remainder = 0 := by
    by_cases h0 : (matched b o).remainder = 0
    · exact h0
    · exfalso
      have hleft := no_crossing_left b o h (by omega)
      have hlen : ((Spec.opposite b o).filter fun e =>
          match o.side with | .buy => decide (e.order.limit ≤ o.limit) | .sell => decide (o.limit ≤ e.order.limit)) =
          (b.half o.side.other).filter fun e => crossing o e.key := by
        rw [opposite_eq]
        apply List.filter_congr
        intro e he
        rw [(h.wf _ e he).1]
        unfold crossing
        cases o.side <;> simp
      have havail' : o.quantity ≤ volume ((b.half o.side.other).filter fun e => crossing o e.key) := by
        rw [← hlen]; exact havail
      cases hm with
      | part full rest e x hl hx hxe h0' hlt hr h1 hm hp hE => exact h0 h1
      | stop full rest hl hx hr hm hp hE hs =>
        have : (rest.filter fun e => crossing o e.key) = [] := by
          rw [List.filter_eq_nil_iff]
          intro e he
          rw [← hm] at he
          have := hleft e he
          rw [crossing_iff]; omega
        rw [hl, List.filter_append, this, List.append_nil, List.filter_eq_self.2 hx] at havail'
        omega
  omega

/-! ## Non-vacuity -/

/-- A history with two sell levels, time priority at one of them, a partial execution and a cancellation. -/
def sampleOps : List Op :=
  [.insert ⟨.goodUntilCancelled, .sell, 0, 1, 101, 4⟩, .insert ⟨.goodUntilCancelled, .sell, 0, 2, 100, 3⟩,
   .insert ⟨.goodUntilCancelled, .sell, 0, 3, 100, 2⟩, .insert ⟨.goodUntilCancelled, .buy, 0, 4, 98, 7⟩, .cancel 3,
   .insert ⟨.goodUntilCancelled, .buy, 0, 5, 99, 1⟩]

example : inserts sampleOps < directOrder ∧ (run sampleOps).bid = some 99 ∧ (run sampleOps).ask = some 100 ∧
    (run sampleOps).asks.map (fun e => (e.key, e.id)) = [(100, 1), (100, 2), (101, 0)] := by decide

/-- An order for 6 up to price 101 takes 3 and 2 at 100, in order of time, and 1 at 101. -/
example : (Spec.newReports (run sampleOps) ((run sampleOps).insert ⟨.goodUntilCancelled, .buy, 0, 9, 101, 6⟩)).map
    (fun r => (r.ident, r.quantity, r.limit)) =
    [(directOrder, 3, 100), (1, 3, 100), (directOrder, 2, 100), (2, 2, 100), (directOrder, 1, 101), (0, 1, 101)] := by decide

/-- The hypotheses of `C31_filled_partial`: 9 units are available up to price 101, and an immediate-or-cancel order for 6 is filled. -/
example : (⟨.immediateOrCancel, .buy, 0, 9, 101, 6⟩ : Order).quantity ≤ (((Spec.opposite (run sampleOps) ⟨.immediateOrCancel, .buy, 0, 9, 101, 6⟩).filter fun e => decide (e.order.limit ≤ 101)).map (·.order.quantity)).sum ∧
    ((run sampleOps).insert ⟨.immediateOrCancel, .buy, 0, 9, 101, 6⟩).bids = (run sampleOps).bids := by decide

/-- Cancelling the order with identifier 2, which is behind another one at the same price, removes it and no other. -/
example : ((run sampleOps).cancel 2).asks.map (·.id) = [1, 0] ∧ ((run sampleOps).cancel 2).bids = (run sampleOps).bids ∧
    (Spec.newReports (run sampleOps) ((run sampleOps).cancel 2)).map (fun r => (r.ident, r.quantity)) = [(2, 2)] := by decide

/-- The orders that have been placed, including one that was cancelled. -/
example : Spec.placedIds (run sampleOps).reports = [0, 1, 2, 3, 4] ∧ (run sampleOps).orders = [0, 1, 2, 3, 4] := by decide

end Esl.Book
