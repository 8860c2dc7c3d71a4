import Verif.Model.OrderBook
/-!
# An invariant of order books that does not depend on identifiers
-/
namespace Esl.Book

/-- Both sides are sorted by limit, hold positive quantities and do not cross; reported matches have positive quantities. -/
structure Fair (b : Book) : Prop where
  bids : b.bids.Pairwise fun x y => y.key ≤ x.key
  asks : b.asks.Pairwise fun x y => x.key ≤ y.key
  buys : ∀ e ∈ b.bids, e.key = e.order.limit ∧ e.order.side = .buy ∧ 0 < e.order.quantity
  sells : ∀ e ∈ b.asks, e.key = e.order.limit ∧ e.order.side = .sell ∧ 0 < e.order.quantity
  uncrossed : ∀ a ∈ b.bids, ∀ c ∈ b.asks, a.key < c.key
  matches_ : ∀ r ∈ b.reports, r.state = .match_ → 0 < r.quantity

theorem fair_empty : Fair empty := by constructor <;> simp [empty]

/-- What the loop leaves. -/
theorem fair_loop (crosses : Int → Bool) (o : Order) (side : Side) : ∀ (l : List Entry) (rem : Nat), (∀ e ∈ l, e.key = e.order.limit ∧ e.order.side = side ∧ 0 < e.order.quantity) →
    ((matchLoop crosses o rem l).resting.map (·.key)).Sublist (l.map (·.key)) ∧
    (∀ e ∈ (matchLoop crosses o rem l).resting, e.key = e.order.limit ∧ e.order.side = side ∧ 0 < e.order.quantity) ∧
    (∀ r ∈ (matchLoop crosses o rem l).reports, 0 < r.quantity) ∧
    (l.Pairwise (fun x y => crosses y.key = true → crosses x.key = true) → 0 < (matchLoop crosses o rem l).remainder → ∀ e ∈ (matchLoop crosses o rem l).resting, crosses e.key = false) := by
  intro l
  induction l with
  | nil => intro rem _; simp [matchLoop]
  | cons e l ih =>
    intro rem h
    have he := h e (List.mem_cons_self ..)
    have hl := fun x hx => h x (List.mem_cons_of_mem _ hx)
    rw [matchLoop]
    by_cases hc : crosses e.key = true
    · rw [if_neg (by simp [hc])]
      by_cases hx : min rem e.order.quantity = 0
      · simp only [hx, if_true]
        refine ⟨List.Sublist.refl _, h, by simp, fun _ hr => ?_⟩
        omega
      · simp only [if_neg hx]
        obtain ⟨i1, i2, i3, i4⟩ := ih (rem - min rem e.order.quantity) hl
        have hrep : ∀ r ∈ [(⟨.match_, o.side, min rem e.order.quantity, directOrder, e.order.limit, o.owner⟩ : Report), ⟨.match_, e.order.side, min rem e.order.quantity, e.id, e.order.limit, e.order.owner⟩] ++
            (matchLoop crosses o (rem - min rem e.order.quantity) l).reports, 0 < r.quantity := by
          intro r hr
          rcases List.mem_append.1 hr with hr | hr
          · simp only [List.mem_cons, List.not_mem_nil, or_false] at hr
            rcases hr with rfl | rfl <;> exact Nat.pos_of_ne_zero hx
          · exact i3 r hr
        by_cases hz : e.order.quantity - min rem e.order.quantity = 0
        · rw [if_pos hz]
          exact ⟨i1.cons _, i2, hrep, fun hp hr => i4 (List.pairwise_cons.1 hp).2 hr⟩
        · rw [if_neg hz]
          refine ⟨i1.cons_cons _, fun x hx' => ?_, hrep, fun _ hr => ?_⟩
          · rcases List.mem_cons.1 hx' with rfl | hx'
            · exact ⟨he.1, he.2.1, Nat.pos_of_ne_zero hz⟩
            · exact i2 x hx'
          · exfalso
            have h0 : rem - min rem e.order.quantity = 0 := by omega
            rw [h0] at hr
            have : ∀ l : List Entry, (matchLoop crosses o 0 l).remainder = 0 := by
              intro l
              cases l with
              | nil => rfl
              | cons y l =>
                rw [matchLoop]
                by_cases hy : crosses y.key = true
                · simp [hy]
                · simp [hy]
            rw [this] at hr
            exact absurd hr (Nat.lt_irrefl 0)
    · rw [if_pos (by simp [hc])]
      refine ⟨List.Sublist.refl _, h, by simp, fun hp _ x hx => ?_⟩
      rcases List.mem_cons.1 hx with rfl | hx
      · simpa using hc
      · cases hcx : crosses x.key with
        | false => rfl
        | true => exact absurd ((List.pairwise_cons.1 hp).1 x hx hcx) hc

theorem mem_emplace' (f : Int → Int → Bool) (e x : Entry) : ∀ l : List Entry, x ∈ emplace f e l ↔ x = e ∨ x ∈ l := by
  intro l
  induction l with
  | nil => simp [emplace]
  | cons y l ih =>
    rw [emplace]
    split
    · simp
    · simp only [List.mem_cons, ih]
      constructor
      · rintro (h | h | h) <;> simp [h]
      · rintro (h | h | h) <;> simp [h]

/-- Emplacing keeps a list sorted. -/
theorem emplace_pairwise (f : Int → Int → Bool) (e : Entry) (R : Int → Int → Prop) (h1 : ∀ x y, f x y = true → R x y) (h2 : ∀ x y, f x y = false → R y x) (ht : ∀ x y z, R x y → R y z → R x z) :
    ∀ l : List Entry, l.Pairwise (fun x y => R x.key y.key) → (emplace f e l).Pairwise fun x y => R x.key y.key := by
  intro l
  induction l with
  | nil => intro _; simp [emplace]
  | cons y l ih =>
    intro hp
    obtain ⟨p1, p2⟩ := List.pairwise_cons.1 hp
    rw [emplace]
    by_cases hf : f e.key y.key = true
    · rw [if_pos hf]
      refine List.pairwise_cons.2 ⟨fun x hx => ?_, hp⟩
      rcases List.mem_cons.1 hx with rfl | hx
      · exact h1 _ _ hf
      · exact ht _ _ _ (h1 _ _ hf) (p1 x hx)
    · rw [if_neg hf]
      refine List.pairwise_cons.2 ⟨fun x hx => ?_, ih p2⟩
      rcases (mem_emplace' f e x l).1 hx with rfl | hx
      · exact h2 _ _ (by simpa using hf)
      · exact p1 x hx

theorem pairwise_keys (R : Int → Int → Prop) {l l' : List Entry} (hs : (l'.map (·.key)).Sublist (l.map (·.key))) (h : l.Pairwise fun x y => R x.key y.key) : l'.Pairwise fun x y => R x.key y.key := by
  rw [← List.pairwise_map (f := fun e : Entry => e.key)] at h ⊢
  exact h.sublist hs

theorem key_mem {l l' : List Entry} (hs : (l'.map (·.key)).Sublist (l.map (·.key))) {e : Entry} (he : e ∈ l') : ∃ e' ∈ l, e'.key = e.key := by
  have := hs.subset (List.mem_map.2 ⟨e, he, rfl⟩)
  obtain ⟨e', h1, h2⟩ := List.mem_map.1 this
  exact ⟨e', h1, h2⟩

theorem fair_insert (b : Book) (o : Order) (h : Fair b) : Fair (b.insert o) := by
  unfold Book.insert
  cases ho : o.side with
  | buy =>
    simp only
    obtain ⟨m1, m2, m3, m4⟩ := fair_loop (fun k => decide (o.limit ≥ k)) o .sell b.asks o.quantity h.sells
    have hmono : b.asks.Pairwise (fun x y => (fun k => decide (o.limit ≥ k)) y.key = true → (fun k => decide (o.limit ≥ k)) x.key = true) :=
      h.asks.imp fun hxy => by simp only [decide_eq_true_eq]; omega
    have m4 := m4 hmono
    generalize matchLoop (fun k => decide (o.limit ≥ k)) o o.quantity b.asks = m at m1 m2 m3 m4
    have hun : ∀ a ∈ b.bids, ∀ c ∈ m.resting, a.key < c.key := by
      intro a ha c hc
      obtain ⟨c', h1, h2⟩ := key_mem m1 hc
      rw [← h2]; exact h.uncrossed a ha c' h1
    have hrep : ∀ r ∈ b.reports ++ m.reports, r.state = .match_ → 0 < r.quantity := by
      intro r hr hs
      rcases List.mem_append.1 hr with hr | hr
      · exact h.matches_ r hr hs
      · exact m3 r hr
    by_cases hr : m.remainder > 0
    · rw [if_pos hr]
      refine ⟨?_, pairwise_keys (fun x y => x ≤ y) m1 h.asks, fun e he => ?_, m2, fun a ha c hc => ?_, fun r hr' hs => ?_⟩
      · exact emplace_pairwise _ _ (fun x y => y ≤ x) (fun x y hxy => by simp only [decide_eq_true_eq] at hxy; omega) (fun x y hxy => by simp only [decide_eq_false_iff_not] at hxy; omega) (fun x y z h1 h2 => by omega) _ h.bids
      · rcases (mem_emplace' _ _ _ _).1 he with rfl | he
        · exact ⟨rfl, rfl, hr⟩
        · exact h.buys e he
      · rcases (mem_emplace' _ _ _ _).1 ha with rfl | ha
        · have := m4 hr c hc
          simp only [decide_eq_false_iff_not] at this
          show o.limit < c.key
          omega
        · exact hun a ha c hc
      · rcases List.mem_append.1 hr' with hr' | hr'
        · exact hrep r hr' hs
        · simp only [List.mem_singleton] at hr'; subst hr'; cases hs
    · rw [if_neg hr]
      exact ⟨h.bids, pairwise_keys (fun x y => x ≤ y) m1 h.asks, h.buys, m2, hun, hrep⟩
  | sell =>
    simp only
    obtain ⟨m1, m2, m3, m4⟩ := fair_loop (fun k => decide (o.limit ≤ k)) o .buy b.bids o.quantity h.buys
    have hmono : b.bids.Pairwise (fun x y => (fun k => decide (o.limit ≤ k)) y.key = true → (fun k => decide (o.limit ≤ k)) x.key = true) :=
      h.bids.imp fun hxy => by simp only [decide_eq_true_eq]; omega
    have m4 := m4 hmono
    generalize matchLoop (fun k => decide (o.limit ≤ k)) o o.quantity b.bids = m at m1 m2 m3 m4
    have hun : ∀ a ∈ m.resting, ∀ c ∈ b.asks, a.key < c.key := by
      intro a ha c hc
      obtain ⟨a', h1, h2⟩ := key_mem m1 ha
      rw [← h2]; exact h.uncrossed a' h1 c hc
    have hrep : ∀ r ∈ b.reports ++ m.reports, r.state = .match_ → 0 < r.quantity := by
      intro r hr hs
      rcases List.mem_append.1 hr with hr | hr
      · exact h.matches_ r hr hs
      · exact m3 r hr
    by_cases hr : m.remainder > 0
    · rw [if_pos hr]
      refine ⟨pairwise_keys (fun x y => y ≤ x) m1 h.bids, ?_, m2, fun e he => ?_, fun a ha c hc => ?_, fun r hr' hs => ?_⟩
      · exact emplace_pairwise _ _ (fun x y => x ≤ y) (fun x y hxy => by simp only [decide_eq_true_eq] at hxy; omega) (fun x y hxy => by simp only [decide_eq_false_iff_not] at hxy; omega) (fun x y z h1 h2 => by omega) _ h.asks
      · rcases (mem_emplace' _ _ _ _).1 he with rfl | he
        · exact ⟨rfl, rfl, hr⟩
        · exact h.sells e he
      · rcases (mem_emplace' _ _ _ _).1 hc with rfl | hc
        · have := m4 hr a ha
          simp only [decide_eq_false_iff_not] at this
          show a.key < o.limit
          omega
        · exact hun a ha c hc
      · rcases List.mem_append.1 hr' with hr' | hr'
        · exact hrep r hr' hs
        · simp only [List.mem_singleton] at hr'; subst hr'; cases hs
    · rw [if_neg hr]
      exact ⟨pairwise_keys (fun x y => y ≤ x) m1 h.bids, h.asks, m2, h.sells, hun, hrep⟩

theorem cancelIn_sublist (side : Side) (p : Int) (i : Nat) : ∀ l : List Entry, (cancelIn side p i l).1.Sublist l ∧ ∀ r ∈ (cancelIn side p i l).2, r.state = .cancel := by
  intro l
  induction l with
  | nil => exact ⟨List.Sublist.refl _, by simp [cancelIn]⟩
  | cons e l ih =>
    rw [cancelIn]
    by_cases h : e.key = p ∧ e.id = i
    · rw [if_pos h]
      exact ⟨List.sublist_cons_self .., by simp⟩
    · rw [if_neg h]
      exact ⟨ih.1.cons_cons _, ih.2⟩

theorem fair_cancel (b : Book) (i : Nat) (h : Fair b) : Fair (b.cancel i) := by
  unfold Book.cancel
  split
  · exact h
  · rename_i p _
    split
    · obtain ⟨c1, c2⟩ := cancelIn_sublist .buy p i b.bids
      refine ⟨h.bids.sublist c1, h.asks, fun e he => h.buys e (c1.subset he), h.sells, fun a ha => h.uncrossed a (c1.subset ha), fun r hr hs => ?_⟩
      rcases List.mem_append.1 hr with hr | hr
      · exact h.matches_ r hr hs
      · rw [c2 r hr] at hs; cases hs
    · split
      · obtain ⟨c1, c2⟩ := cancelIn_sublist .sell p i b.asks
        refine ⟨h.bids, h.asks.sublist c1, h.buys, fun e he => h.sells e (c1.subset he), fun a ha c hc => h.uncrossed a ha c (c1.subset hc), fun r hr hs => ?_⟩
        rcases List.mem_append.1 hr with hr | hr
        · exact h.matches_ r hr hs
        · rw [c2 r hr] at hs; cases hs
      · exact h

theorem fair_run (ops : List Op) (b : Book) (h : Fair b) : Fair (ops.foldl Book.apply b) := by
  induction ops generalizing b with
  | nil => exact h
  | cons op ops ih =>
    apply ih
    cases op with
    | insert o => exact fair_insert b o h
    | cancel i => exact fair_cancel b i h

theorem Fair.strip {b : Book} (h : Fair b) : Fair { b with reports := [] } := ⟨h.bids, h.asks, h.buys, h.sells, h.uncrossed, by simp⟩

theorem Fair.best {b : Book} (h : Fair b) (x y : Int) (hx : b.bid = some x) (hy : b.ask = some y) : x < y := by
  unfold Book.bid at hx
  unfold Book.ask at hy
  obtain ⟨a, ha, rfl⟩ := Option.map_eq_some_iff.1 hx
  obtain ⟨c, hc, rfl⟩ := Option.map_eq_some_iff.1 hy
  exact h.uncrossed a (List.mem_of_head? ha) c (List.mem_of_head? hc)

end Esl.Book
