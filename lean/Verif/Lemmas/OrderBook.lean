import Verif.Model.OrderBook
/-! Helper lemmas for the order book. -/
namespace Esl.Book

/-- Prices as a rank on a side: lower is better. -/
def rank : Side → Int → Int
  | .sell, p => p
  | .buy, p => -p

/-- Strict priority on side `s`. -/
def Ahead (s : Side) (a b : Entry) : Prop := rank s a.key < rank s b.key ∨ (a.key = b.key ∧ a.id < b.id)

def volume (l : List Entry) : Nat := (l.map (·.order.quantity)).sum

/-- The two reports of an execution of `x` units of `e`. -/
def pairOf (o : Order) (e : Entry) (x : Nat) : List Report :=
  [⟨.match_, o.side, x, directOrder, e.order.limit, o.owner⟩, ⟨.match_, e.order.side, x, e.id, e.order.limit, e.order.owner⟩]

def reduce (e : Entry) (x : Nat) : Entry := { e with order := { e.order with quantity := e.order.quantity - x } }

/-- What the matching loop does: it executes a prefix of the list completely, then perhaps a part of the next element. -/
inductive Result (crosses : Int → Bool) (o : Order) (rem : Nat) (l : List Entry) (m : Matched) : Prop where
  | stop (full rest : List Entry) (hl : l = full ++ rest) (hx : ∀ e ∈ full, crosses e.key = true)
      (hr : rem = volume full + m.remainder) (hm : m.resting = rest)
      (hp : m.reports = full.flatMap fun e => pairOf o e e.order.quantity) (he : m.erased = full.map (·.id))
      (hs : m.remainder = 0 ∨ ∀ e ∈ rest.head?, crosses e.key = false)
  | part (full rest : List Entry) (e : Entry) (x : Nat) (hl : l = full ++ e :: rest) (hx : ∀ e ∈ full, crosses e.key = true)
      (hxe : crosses e.key = true) (h0 : 0 < x) (hlt : x < e.order.quantity)
      (hr : rem = volume full + x) (h1 : m.remainder = 0) (hm : m.resting = reduce e x :: rest)
      (hp : m.reports = (full.flatMap fun e => pairOf o e e.order.quantity) ++ pairOf o e x) (he : m.erased = full.map (·.id))

theorem matchLoop_zero (crosses : Int → Bool) (o : Order) (l : List Entry) : matchLoop crosses o 0 l = ⟨0, l, [], []⟩ := by
  cases l with
  | nil => rfl
  | cons e l => unfold matchLoop; split <;> simp

theorem matchLoop_result (crosses : Int → Bool) (o : Order) (rem : Nat) (l : List Entry) (hq : ∀ e ∈ l, 0 < e.order.quantity) :
    Result crosses o rem l (matchLoop crosses o rem l) := by
  induction l generalizing rem with
  | nil => exact .stop [] [] rfl (by simp) (by simp [volume, matchLoop]) rfl rfl rfl (.inr (by simp))
  | cons e l ih =>
    have hqe := hq e (List.mem_cons_self ..)
    unfold matchLoop
    by_cases hc : crosses e.key = true
    · simp only [hc, Bool.not_true, Bool.false_eq_true, if_false]
      by_cases h0 : rem = 0
      · subst h0
        simp only [Nat.zero_min, Nat.zero_sub, if_true]
        exact .stop [] (e :: l) rfl (by simp) (by simp [volume]) rfl rfl rfl (.inl rfl)
      · rw [if_neg (by omega)]
        by_cases hlt : rem < e.order.quantity
        · have hmin : min rem e.order.quantity = rem := by omega
          rw [hmin, if_neg (by omega), Nat.sub_self, matchLoop_zero]
          exact .part [] l e rem rfl (by simp) hc (by omega) hlt (by simp [volume]) rfl rfl rfl rfl
        · have hmin : min rem e.order.quantity = e.order.quantity := by omega
          rw [hmin, if_pos (by omega)]
          have hr := ih (rem - e.order.quantity) (fun x hx => hq x (List.mem_cons_of_mem _ hx))
          cases hr with
          | stop full rest hl hx hr hm hp he hs =>
            refine .stop (e :: full) rest (by rw [hl]; rfl) ?_ ?_ hm ?_ ?_ hs
            · intro y hy
              rcases List.mem_cons.1 hy with rfl | hy
              · exact hc
              · exact hx y hy
            · simp [volume] at hr ⊢; omega
            · simp [hp, pairOf]
            · simp [he]
          | part full rest y x hl hx hxe h0 hlt hr h1 hm hp he =>
            refine .part (e :: full) rest y x (by rw [hl]; rfl) ?_ hxe h0 hlt ?_ h1 hm ?_ ?_
            · intro z hz
              rcases List.mem_cons.1 hz with rfl | hz
              · exact hc
              · exact hx z hz
            · simp [volume] at hr ⊢; omega
            · simp [hp, pairOf]
            · simp [he]
    · have hc : crosses e.key = false := by simpa using hc
      simp only [hc, Bool.not_false, if_true]
      exact .stop [] (e :: l) rfl (by simp) (by simp [volume]) rfl rfl rfl (.inr (by simp [hc]))

/-- The opposite side. -/
def Side.other : Side → Side
  | .buy => .sell
  | .sell => .buy

def Book.half (b : Book) : Side → List Entry
  | .buy => b.bids
  | .sell => b.asks

/-- The loop condition of `insert`. -/
def crossing (o : Order) (k : Int) : Bool :=
  match o.side with
  | .buy => decide (o.limit ≥ k)
  | .sell => decide (o.limit ≤ k)

theorem crossing_iff (o : Order) (k : Int) : crossing o k = true ↔ rank o.side.other k ≤ rank o.side.other o.limit := by
  unfold crossing rank Side.other
  cases o.side <;> simp

def ahead (s : Side) (x y : Int) : Bool :=
  match s with
  | .buy => decide (x > y)
  | .sell => decide (x < y)

theorem ahead_iff (s : Side) (x y : Int) : ahead s x y = true ↔ rank s x < rank s y := by
  unfold ahead rank
  cases s <;> simp

/-- The matching done by an insertion. -/
def matched (b : Book) (o : Order) : Matched := matchLoop (crossing o) o o.quantity (b.half o.side.other)

def placed (b : Book) (o : Order) : Entry := ⟨o.limit, b.next, { o with quantity := (matched b o).remainder }⟩

/-- `insert`, the same for both sides. -/
structure Inserted (b : Book) (o : Order) (b' : Book) : Prop where
  opp : b'.half o.side.other = (matched b o).resting
  own : b'.half o.side = if (matched b o).remainder > 0 then emplace (ahead o.side) (placed b o) (b.half o.side) else b.half o.side
  limits : b'.limits = if (matched b o).remainder > 0 then mapEmplace b.next o.limit (eraseLimits (matched b o).erased b.limits)
    else eraseLimits (matched b o).erased b.limits
  next : b'.next = if (matched b o).remainder > 0 then u64 (b.next + 1) else b.next
  reports : b'.reports = b.reports ++ (matched b o).reports ++
    if (matched b o).remainder > 0 then [⟨.placement, o.side, (matched b o).remainder, b.next, o.limit, o.owner⟩] else []

theorem insert_inserted (b : Book) (o : Order) : Inserted b o (b.insert o) := by
  obtain ⟨lt, sd, sy, ow, li, q⟩ := o
  cases sd
  · by_cases h : (matchLoop (fun k => decide (li ≥ k)) ⟨lt, .buy, sy, ow, li, q⟩ q b.asks).remainder > 0
    · have e : b.insert ⟨lt, .buy, sy, ow, li, q⟩ = _ := if_pos h
      have hm : (matched b ⟨lt, .buy, sy, ow, li, q⟩).remainder > 0 := h
      rw [e]
      constructor <;> simp only [if_pos hm] <;> rfl
    · have e : b.insert ⟨lt, .buy, sy, ow, li, q⟩ = _ := if_neg h
      have hm : ¬ (matched b ⟨lt, .buy, sy, ow, li, q⟩).remainder > 0 := h
      rw [e]
      constructor <;> simp only [if_neg hm, List.append_nil] <;> rfl
  · by_cases h : (matchLoop (fun k => decide (li ≤ k)) ⟨lt, .sell, sy, ow, li, q⟩ q b.bids).remainder > 0
    · have e : b.insert ⟨lt, .sell, sy, ow, li, q⟩ = _ := if_pos h
      have hm : (matched b ⟨lt, .sell, sy, ow, li, q⟩).remainder > 0 := h
      rw [e]
      constructor <;> simp only [if_pos hm] <;> rfl
    · have e : b.insert ⟨lt, .sell, sy, ow, li, q⟩ = _ := if_neg h
      have hm : ¬ (matched b ⟨lt, .sell, sy, ow, li, q⟩).remainder > 0 := h
      rw [e]
      constructor <;> simp only [if_neg hm, List.append_nil] <;> rfl

theorem mem_emplace (f : Int → Int → Bool) (e x : Entry) (l : List Entry) : x ∈ emplace f e l ↔ x = e ∨ x ∈ l := by
  induction l with
  | nil => simp [emplace]
  | cons y l ih =>
    unfold emplace
    split
    · simp
    · simp only [List.mem_cons, ih]
      constructor
      · rintro (h | h | h)
        · exact .inr (.inl h)
        · exact .inl h
        · exact .inr (.inr h)
      · rintro (h | h | h)
        · exact .inr (.inl h)
        · exact .inl h
        · exact .inr (.inr h)

theorem emplace_perm (f : Int → Int → Bool) (e : Entry) (l : List Entry) : (emplace f e l).Perm (e :: l) := by
  induction l with
  | nil => exact .refl _
  | cons y l ih =>
    unfold emplace
    split
    · exact .refl _
    · exact (ih.cons y).trans (.swap ..)

theorem ahead_trans {s : Side} {a b c : Entry} (h1 : Ahead s a b) (h2 : Ahead s b c) : Ahead s a c := by
  unfold Ahead at *
  rcases h1 with h1 | ⟨h1, h1'⟩ <;> rcases h2 with h2 | ⟨h2, h2'⟩
  · left; omega
  · left; rw [← h2]; exact h1
  · left; rw [h1]; exact h2
  · right; exact ⟨h1.trans h2, by omega⟩

theorem rank_inj {s : Side} {p q : Int} (h : rank s p = rank s q) : p = q := by
  cases s <;> simp [rank] at h <;> omega

/-- A new entry with a fresh, largest identifier keeps the side sorted. -/
theorem emplace_sorted (s : Side) (e : Entry) (l : List Entry) (hs : l.Pairwise (Ahead s)) (hid : ∀ x ∈ l, x.id < e.id) :
    (emplace (ahead s) e l).Pairwise (Ahead s) := by
  induction l with
  | nil => simp [emplace]
  | cons y l ih =>
    rw [List.pairwise_cons] at hs
    unfold emplace
    split
    · rename_i h
      rw [ahead_iff] at h
      have hey : Ahead s e y := .inl h
      rw [List.pairwise_cons, List.pairwise_cons]
      refine ⟨?_, hs⟩
      intro z hz
      rcases List.mem_cons.1 hz with rfl | hz
      · exact hey
      · exact ahead_trans hey (hs.1 z hz)
    · rename_i h
      rw [ahead_iff] at h
      rw [List.pairwise_cons]
      refine ⟨?_, ih hs.2 fun x hx => hid x (List.mem_cons_of_mem _ hx)⟩
      intro z hz
      rcases (mem_emplace _ _ _ _).1 hz with rfl | hz
      · unfold Ahead
        by_cases heq : rank s y.key = rank s z.key
        · exact .inr ⟨rank_inj heq, hid y (List.mem_cons_self ..)⟩
        · left; omega
      · exact hs.1 z hz

theorem mem_mapEmplace (k : Nat) (v : Int) (l : List (Nat × Int)) (hk : ∀ e ∈ l, e.1 ≠ k) (x : Nat × Int) :
    x ∈ mapEmplace k v l ↔ x = (k, v) ∨ x ∈ l := by
  induction l with
  | nil => simp [mapEmplace]
  | cons y l ih =>
    unfold mapEmplace
    have := hk y (List.mem_cons_self ..)
    split
    · simp
    · rw [if_neg (fun h => this h.symm), List.mem_cons, ih fun e he => hk e (List.mem_cons_of_mem _ he), List.mem_cons]
      constructor
      · rintro (h | h | h)
        · exact .inr (.inl h)
        · exact .inl h
        · exact .inr (.inr h)
      · rintro (h | h | h)
        · exact .inr (.inl h)
        · exact .inl h
        · exact .inr (.inr h)

theorem mapEmplace_sorted (k : Nat) (v : Int) (l : List (Nat × Int)) (h : (l.map (·.1)).Pairwise (· < ·))
    (hk : ∀ e ∈ l, e.1 < k) : ((mapEmplace k v l).map (·.1)).Pairwise (· < ·) := by
  have : mapEmplace k v l = l ++ [(k, v)] := by
    induction l with
    | nil => rfl
    | cons y l ih =>
      have hy := hk y (List.mem_cons_self ..)
      rw [List.map_cons, List.pairwise_cons] at h
      unfold mapEmplace
      rw [if_neg (by omega), if_neg (by omega), ih h.2 fun e he => hk e (List.mem_cons_of_mem _ he)]
      rfl
  rw [this, List.map_append, List.pairwise_append]
  refine ⟨h, by simp, ?_⟩
  intro a ha b hb
  obtain ⟨e, he, rfl⟩ := List.mem_map.1 ha
  simp at hb
  subst hb
  exact hk e he

/-! ## The invariant -/

structure Inv (b : Book) : Prop where
  sorted : ∀ s, (b.half s).Pairwise (Ahead s)
  wf : ∀ s, ∀ e ∈ b.half s, e.key = e.order.limit ∧ e.order.side = s ∧ 0 < e.order.quantity
  uncrossed : ∀ a ∈ b.bids, ∀ c ∈ b.asks, a.key < c.key
  fresh : ∀ s, ∀ e ∈ b.half s, e.id < b.next
  nodup : (b.bids.map (·.id) ++ b.asks.map (·.id)).Nodup
  inLimits : ∀ s, ∀ e ∈ b.half s, (e.id, e.key) ∈ b.limits
  limitsFresh : ∀ e ∈ b.limits, e.1 < b.next
  limitsSorted : (b.limits.map (·.1)).Pairwise (· < ·)
  nextOk : b.next ≤ directOrder

theorem inv_empty : Inv empty := by
  constructor <;> try (intro s; cases s)
  all_goals simp [empty, Book.half, directOrder]

/-- The entries left by the loop: unchanged ones, or one with a reduced quantity. -/
theorem resting_mem {crosses : Int → Bool} {o : Order} {rem : Nat} {l : List Entry} {m : Matched} (h : Result crosses o rem l m)
    (e : Entry) (he : e ∈ m.resting) :
    e ∈ l ∨ ∃ y ∈ l, ∃ x, 0 < x ∧ x < y.order.quantity ∧ e = reduce y x := by
  cases h with
  | stop full rest hl hx hr hm hp hE hs => left; rw [hm] at he; rw [hl]; exact List.mem_append_right _ he
  | part full rest y x hl hx hxe h0 hlt hr h1 hm hp hE =>
    rw [hm] at he
    rcases List.mem_cons.1 he with rfl | he
    · right; exact ⟨y, by rw [hl]; simp, x, h0, hlt, rfl⟩
    · left; rw [hl]; exact List.mem_append_right _ (List.mem_cons_of_mem _ he)

/-- The resting entries, as keys and identifiers, are a suffix of the original ones; the erased ones are the rest. -/
theorem resting_keys {crosses : Int → Bool} {o : Order} {rem : Nat} {l : List Entry} {m : Matched} (h : Result crosses o rem l m) :
    ∃ full rest, l = full ++ rest ∧ m.erased = full.map (·.id) ∧
      m.resting.map (fun e => (e.key, e.id)) = rest.map (fun e => (e.key, e.id)) ∧
      m.resting.map (fun e => (e.order.side, e.order.limit, e.order.owner)) =
        rest.map (fun e => (e.order.side, e.order.limit, e.order.owner)) := by
  cases h with
  | stop full rest hl hx hr hm hp hE hs => exact ⟨full, rest, hl, hE, by rw [hm], by rw [hm]⟩
  | part full rest y x hl hx hxe h0 hlt hr h1 hm hp hE =>
    exact ⟨full, y :: rest, hl, hE, by rw [hm]; rfl, by rw [hm]; rfl⟩

theorem sorted_congr (s : Side) (l l' : List Entry) (h : l.map (fun e => (e.key, e.id)) = l'.map (fun e => (e.key, e.id)))
    (hs : l'.Pairwise (Ahead s)) : l.Pairwise (Ahead s) := by
  have key : ∀ l : List Entry, l.Pairwise (Ahead s) ↔
      (l.map (fun e => (e.key, e.id))).Pairwise (fun a b => rank s a.1 < rank s b.1 ∨ (a.1 = b.1 ∧ a.2 < b.2)) := by
    intro l; rw [List.pairwise_map]; rfl
  rw [key, h, ← key]; exact hs

theorem ids_congr (l l' : List Entry) (h : l.map (fun e => (e.key, e.id)) = l'.map (fun e => (e.key, e.id))) :
    l.map (·.id) = l'.map (·.id) := by
  have := congrArg (List.map Prod.snd) h
  simpa [List.map_map, Function.comp_def] using this

theorem mem_half (b : Book) (e : Entry) : (∃ s, e ∈ b.half s) ↔ e ∈ b.bids ∨ e ∈ b.asks := by
  constructor
  · rintro ⟨s, h⟩; cases s
    · exact .inl h
    · exact .inr h
  · rintro (h | h)
    · exact ⟨.buy, h⟩
    · exact ⟨.sell, h⟩

theorem nodup_halves (b : Book) (s : Side) (h : (b.bids.map (·.id) ++ b.asks.map (·.id)).Nodup) :
    ((b.half s).map (·.id) ++ (b.half s.other).map (·.id)).Nodup := by
  cases s
  · exact h
  · exact (List.perm_append_comm.nodup_iff).1 h

theorem nodup_of_halves (b : Book) (s : Side) (h : ((b.half s).map (·.id) ++ (b.half s.other).map (·.id)).Nodup) :
    (b.bids.map (·.id) ++ b.asks.map (·.id)).Nodup := by
  cases s
  · exact h
  · exact (List.perm_append_comm.nodup_iff).1 h

theorem uncrossed_halves (b : Book) (s : Side) :
    (∀ a ∈ b.bids, ∀ c ∈ b.asks, a.key < c.key) ↔
    ∀ a ∈ b.half s, ∀ c ∈ b.half s.other, rank s.other a.key < rank s.other c.key := by
  cases s
  · simp [Book.half, Side.other, rank]
  · simp only [Book.half, Side.other, rank]
    constructor
    · intro h a ha c hc; have := h c hc a ha; omega
    · intro h a ha c hc; have := h c hc a ha; omega

theorem side_cases (s t : Side) : t = s ∨ t = s.other := by cases s <;> cases t <;> simp [Side.other]

theorem matched_result (b : Book) (o : Order) (h : Inv b) :
    Result (crossing o) o o.quantity (b.half o.side.other) (matched b o) :=
  matchLoop_result _ _ _ _ fun e he => ((h.wf _ e he).2.2)

/-- After matching with something left, no opposite order crosses. -/
theorem no_crossing_left (b : Book) (o : Order) (h : Inv b) (hr : 0 < (matched b o).remainder) :
    ∀ e ∈ (matched b o).resting, rank o.side.other o.limit < rank o.side.other e.key := by
  have hm := matched_result b o h
  have hs := h.sorted o.side.other
  cases hm with
  | part => omega
  | stop full rest hl hx hr' hm hp hE hst =>
    rw [hm]
    rw [hl, List.pairwise_append] at hs
    rcases hst with hst | hst
    · omega
    · cases rest with
      | nil => simp
      | cons y rest =>
        have hy : crossing o y.key = false := hst y (by simp)
        have hy : rank o.side.other o.limit < rank o.side.other y.key := by
          have : ¬ crossing o y.key = true := by simp [hy]
          rw [crossing_iff] at this; omega
        intro e he
        rcases List.mem_cons.1 he with rfl | he
        · exact hy
        · have := (List.pairwise_cons.1 hs.2.1).1 e he
          unfold Ahead at this
          rcases this with h | ⟨h, _⟩
          · omega
          · rw [← h]; exact hy

theorem inv_insert (b : Book) (o : Order) (h : Inv b) (hn : b.next < directOrder) : Inv (b.insert o) := by
  obtain ⟨hopp, hown, hlim, hnext, _⟩ := insert_inserted b o
  have hm := matched_result b o h
  obtain ⟨full, rest, hl, hE, hk, hk2⟩ := resting_keys hm
  have hids := ids_congr _ _ hk
  have hleft := no_crossing_left b o h
  have hu : u64 (b.next + 1) = b.next + 1 := by
    unfold u64; rw [Nat.mod_eq_of_lt]; unfold directOrder at hn; omega
  rw [hu] at hnext
  have hnd := nodup_halves b o.side h.nodup
  rw [hl, List.map_append] at hnd
  have hmemres : ∀ e ∈ (matched b o).resting, ∃ y ∈ rest, y.key = e.key ∧ y.id = e.id ∧ (e.order.side = o.side.other ∧ e.key = e.order.limit) ∧ 0 < e.order.quantity := by
    intro e he
    have : (e.key, e.id) ∈ rest.map (fun e => (e.key, e.id)) := by
      rw [← hk]; exact List.mem_map.2 ⟨e, he, rfl⟩
    obtain ⟨y, hy, hye⟩ := List.mem_map.1 this
    simp only [Prod.mk.injEq] at hye
    refine ⟨y, hy, hye.1, hye.2, ?_⟩
    rcases resting_mem hm e he with h1 | ⟨z, hz, x, _, hx2, rfl⟩
    · have := h.wf _ e h1
      exact ⟨⟨this.2.1, this.1⟩, this.2.2⟩
    · have := h.wf _ z hz
      refine ⟨⟨this.2.1, this.1⟩, ?_⟩
      simp [reduce]; omega
  have hrestIn : ∀ y ∈ rest, y ∈ b.half o.side.other := fun y hy => by rw [hl]; exact List.mem_append_right _ hy
  have hlf : ∀ e ∈ eraseLimits (matched b o).erased b.limits, e.1 < b.next := fun e he => h.limitsFresh e (List.mem_filter.1 he).1
  have hls : ((eraseLimits (matched b o).erased b.limits).map (·.1)).Pairwise (· < ·) :=
    h.limitsSorted.sublist (List.Sublist.map _ List.filter_sublist)
  have hfreshNe : ∀ e ∈ eraseLimits (matched b o).erased b.limits, e.1 ≠ b.next := fun e he => Nat.ne_of_lt (hlf e he)
  have hlimMem : ∀ x ∈ eraseLimits (matched b o).erased b.limits, x ∈ (b.insert o).limits := by
    intro x hx
    rw [hlim]
    split
    · rw [mem_mapEmplace _ _ _ hfreshNe]; exact .inr hx
    · exact hx
  have hkeep : ∀ e : Entry, (e.id, e.key) ∈ b.limits → e.id ∉ full.map (·.id) → (e.id, e.key) ∈ (b.insert o).limits := by
    intro e he hne
    apply hlimMem
    unfold eraseLimits
    rw [List.mem_filter]
    refine ⟨he, ?_⟩
    rw [hE]
    simpa using hne
  have hownmem : ∀ e ∈ (b.insert o).half o.side, ((matched b o).remainder > 0 ∧ e = placed b o) ∨ e ∈ b.half o.side := by
    intro e he
    rw [hown] at he
    split at he
    · rename_i hr
      rcases (mem_emplace _ _ _ _).1 he with h | h
      · exact .inl ⟨hr, h⟩
      · exact .inr h
    · exact .inr he
  have hle : b.next ≤ (b.insert o).next := by rw [hnext]; split <;> omega
  have hpl : (matched b o).remainder > 0 → (b.insert o).next = b.next + 1 := by intro hr; rw [hnext, if_pos hr]
  have hboth : ∀ {Q : Side → Entry → Prop}, (∀ e ∈ (b.insert o).half o.side, Q o.side e) →
      (∀ e ∈ (b.insert o).half o.side.other, Q o.side.other e) → ∀ s, ∀ e ∈ (b.insert o).half s, Q s e := by
    intro Q h1 h2 s
    rcases side_cases o.side s with rfl | rfl
    · exact h1
    · exact h2
  constructor
  · intro s
    rcases side_cases o.side s with rfl | rfl
    · rw [hown]
      split
      · exact emplace_sorted _ _ _ (h.sorted _) (fun x hx => h.fresh _ x hx)
      · exact h.sorted _
    · rw [hopp]
      have := h.sorted o.side.other
      rw [hl, List.pairwise_append] at this
      exact sorted_congr _ _ _ hk this.2.1
  · refine hboth (Q := fun s e => e.key = e.order.limit ∧ e.order.side = s ∧ 0 < e.order.quantity) ?_ ?_
    · intro e he
      rcases hownmem e he with ⟨hr, rfl⟩ | he
      · exact ⟨rfl, rfl, hr⟩
      · exact h.wf _ e he
    · intro e he
      rw [hopp] at he
      obtain ⟨y, hy, h1, h2, h3, h4⟩ := hmemres e he
      exact ⟨h3.2, h3.1, h4⟩
  · rw [uncrossed_halves _ o.side]
    intro a ha c hc
    rw [hopp] at hc
    rcases hownmem a ha with ⟨hr, rfl⟩ | ha
    · exact hleft hr c hc
    · obtain ⟨y, hy, h1, _⟩ := hmemres c hc
      rw [← h1]
      exact (uncrossed_halves b o.side).1 h.uncrossed a ha y (hrestIn y hy)
  · refine hboth (Q := fun _ e => e.id < (b.insert o).next) ?_ ?_
    · intro e he
      rcases hownmem e he with ⟨hr, rfl⟩ | he
      · rw [hpl hr]; simp [placed]
      · have := h.fresh _ e he; omega
    · intro e he
      rw [hopp] at he
      obtain ⟨y, hy, h1, h2, _⟩ := hmemres e he
      have := h.fresh _ y (hrestIn y hy)
      omega
  · apply nodup_of_halves _ o.side
    rw [hopp, hids, hown]
    have hnd2 : ((b.half o.side).map (·.id) ++ rest.map (·.id)).Nodup :=
      hnd.sublist (List.Sublist.append (List.Sublist.refl _) (List.sublist_append_right _ _))
    split
    · rename_i hr
      have hp := ((emplace_perm (ahead o.side) (placed b o) (b.half o.side)).map (·.id)).append_right (rest.map (·.id))
      rw [hp.nodup_iff, List.map_cons, List.cons_append, List.nodup_cons]
      refine ⟨?_, hnd2⟩
      intro hmem
      rcases List.mem_append.1 hmem with hmem | hmem
      · obtain ⟨e, he, hee⟩ := List.mem_map.1 hmem
        have := h.fresh _ e he
        simp [placed] at hee; omega
      · obtain ⟨e, he, hee⟩ := List.mem_map.1 hmem
        have := h.fresh _ e (hrestIn e he)
        simp [placed] at hee; omega
    · exact hnd2
  · refine hboth (Q := fun _ e => (e.id, e.key) ∈ (b.insert o).limits) ?_ ?_
    · intro e he
      rcases hownmem e he with ⟨hr, rfl⟩ | he
      · rw [hlim, if_pos hr, mem_mapEmplace _ _ _ hfreshNe]; exact .inl rfl
      · apply hkeep e (h.inLimits _ e he)
        intro hin
        rw [List.nodup_append] at hnd
        exact hnd.2.2 e.id (List.mem_map_of_mem he) e.id (List.mem_append_left _ hin) rfl
    · intro e he
      rw [hopp] at he
      obtain ⟨y, hy, h1, h2, _⟩ := hmemres e he
      rw [← h1, ← h2]
      apply hkeep y (h.inLimits _ y (hrestIn y hy))
      intro hin
      rw [List.nodup_append] at hnd
      have := hnd.2.1
      rw [List.nodup_append] at this
      exact this.2.2 y.id hin y.id (List.mem_map_of_mem hy) rfl
  · intro e he
    rw [hlim] at he
    split at he
    · rename_i hr
      rw [hpl hr]
      rcases (mem_mapEmplace _ _ _ hfreshNe e).1 he with rfl | he
      · simp
      · have := hlf e he; omega
    · have := hlf e he; omega
  · rw [hlim]
    split
    · exact mapEmplace_sorted _ _ _ hls hlf
    · exact hls
  · rw [hnext]; split <;> omega

/-! ## Cancelling -/

theorem cancelIn_none (s : Side) (p : Int) (i : Nat) (l : List Entry) (h : ∀ e ∈ l, e.id = i → e.key ≠ p) :
    cancelIn s p i l = (l, []) := by
  induction l with
  | nil => rfl
  | cons e l ih =>
    unfold cancelIn
    rw [if_neg (fun hh => h e (List.mem_cons_self ..) hh.2 hh.1), ih fun x hx => h x (List.mem_cons_of_mem _ hx)]

theorem cancelIn_some (s : Side) (p : Int) (i : Nat) (l : List Entry) (hn : (l.map (·.id)).Nodup) (e : Entry) (he : e ∈ l)
    (hp : e.key = p) (hi : e.id = i) :
    cancelIn s p i l = (l.filter fun x => decide (x.id ≠ i), [⟨.cancel, s, e.order.quantity, i, p, e.order.owner⟩]) := by
  induction l with
  | nil => simp at he
  | cons y l ih =>
    rw [List.map_cons, List.nodup_cons] at hn
    unfold cancelIn
    rcases List.mem_cons.1 he with rfl | he
    · rw [if_pos ⟨hp, hi⟩]
      have : l.filter (fun x => decide (x.id ≠ i)) = l := by
        rw [List.filter_eq_self]
        intro x hx
        have : x.id ≠ i := fun h => hn.1 (by rw [hi, ← h]; exact List.mem_map_of_mem hx)
        simpa using this
      rw [List.filter_cons_of_neg (by simp [hi]), this]
    · have hy : y.id ≠ i := fun h => hn.1 (by rw [h, ← hi]; exact List.mem_map_of_mem he)
      rw [if_neg (fun hh => hy hh.2), ih hn.2 he, List.filter_cons_of_pos (by simpa using hy)]

theorem find_limits (b : Book) (h : Inv b) (i : Nat) (p : Int) (hm : (i, p) ∈ b.limits) :
    (b.limits.find? fun e => e.1 == i) = some (i, p) := by
  have hs := h.limitsSorted
  generalize b.limits = l at hm hs
  induction l with
  | nil => simp at hm
  | cons x l ih =>
    rw [List.map_cons, List.pairwise_cons] at hs
    rcases List.mem_cons.1 hm with rfl | hm
    · simp
    · have : x.1 < i := hs.1 i (List.mem_map.2 ⟨_, hm, rfl⟩)
      rw [List.find?_cons_of_neg (by simp; omega)]
      exact ih hm hs.2

/-- The head of a sorted side has the best price. -/
theorem head_best (s : Side) (l : List Entry) (hs : l.Pairwise (Ahead s)) (e : Entry) (he : e ∈ l) :
    ∃ y, l.head? = some y ∧ rank s y.key ≤ rank s e.key := by
  cases l with
  | nil => simp at he
  | cons y l =>
    refine ⟨y, rfl, ?_⟩
    rcases List.mem_cons.1 he with rfl | he
    · omega
    · rcases (List.pairwise_cons.1 hs).1 e he with h | ⟨h, _⟩
      · omega
      · rw [h]; omega

/-- The effect of `cancel` on a book that satisfies the invariant. -/
theorem cancel_effect (b : Book) (h : Inv b) (i : Nat) :
    (∀ s e, e ∈ b.half s → e.id = i →
      (∀ t, (b.cancel i).half t = (b.half t).filter fun x => decide (x.id ≠ i)) ∧
      (b.cancel i).reports = b.reports ++ [⟨.cancel, s, e.order.quantity, i, e.key, e.order.owner⟩] ∧
      (b.cancel i).limits = b.limits ∧ (b.cancel i).next = b.next) ∧
    ((∀ s, ∀ e ∈ b.half s, e.id ≠ i) → b.cancel i = b) := by
  have hnd := h.nodup
  rw [List.nodup_append] at hnd
  constructor
  · intro s e he hi
    have hf := find_limits b h i e.key (by rw [← hi]; exact h.inLimits s e he)
    unfold Book.cancel
    rw [hf]
    simp only
    cases s with
    | buy =>
      obtain ⟨y, hy, hle⟩ := head_best .buy b.bids (h.sorted .buy) e he
      have hb : (b.bid.any fun q => decide (q ≥ e.key)) = true := by
        simp [Book.bid, hy]; simp [rank] at hle; omega
      rw [if_pos hb, cancelIn_some .buy e.key i b.bids hnd.1 e he rfl hi]
      refine ⟨?_, rfl, rfl, rfl⟩
      intro t
      cases t with
      | buy => rfl
      | sell =>
        symm
        simp only [Book.half]
        rw [List.filter_eq_self]
        intro x hx
        have := hnd.2.2 e.id (List.mem_map_of_mem he) x.id (List.mem_map_of_mem hx)
        simp; intro hxi; exact this (hi.trans hxi.symm)
    | sell =>
      have hb : ¬ (b.bid.any fun q => decide (q ≥ e.key)) = true := by
        simp only [Book.bid]
        cases hh : b.bids with
        | nil => simp
        | cons y l =>
          have := h.uncrossed y (by rw [hh]; exact List.mem_cons_self ..) e he
          simp; omega
      obtain ⟨y, hy, hle⟩ := head_best .sell b.asks (h.sorted .sell) e he
      have ha : (b.ask.any fun q => decide (q ≤ e.key)) = true := by
        simp [Book.ask, hy]; simp [rank] at hle; omega
      rw [if_neg hb, if_pos ha, cancelIn_some .sell e.key i b.asks hnd.2.1 e he rfl hi]
      refine ⟨?_, rfl, rfl, rfl⟩
      intro t
      cases t with
      | sell => rfl
      | buy =>
        symm
        simp only [Book.half]
        rw [List.filter_eq_self]
        intro x hx
        have := hnd.2.2 x.id (List.mem_map_of_mem hx) e.id (List.mem_map_of_mem he)
        simp; intro hxi; exact this (hxi.trans hi.symm)
  · intro hno
    unfold Book.cancel
    split
    · rfl
    · split
      · rw [cancelIn_none _ _ _ b.bids fun e he hi => absurd hi (hno .buy e he)]
        simp
      · split
        · rw [cancelIn_none _ _ _ b.asks fun e he hi => absurd hi (hno .sell e he)]
          simp
        · rfl

theorem inv_cancel (b : Book) (i : Nat) (h : Inv b) : Inv (b.cancel i) := by
  by_cases hex : ∃ s, ∃ e ∈ b.half s, e.id = i
  · obtain ⟨s, e, he, hi⟩ := hex
    obtain ⟨h1, _, h3, h4⟩ := (cancel_effect b h i).1 s e he hi
    have hsub : ∀ t, ((b.cancel i).half t).Sublist (b.half t) := fun t => by rw [h1 t]; exact List.filter_sublist
    have hmem : ∀ t, ∀ x ∈ (b.cancel i).half t, x ∈ b.half t := fun t x hx => (hsub t).subset hx
    constructor
    · intro t; exact (h.sorted t).sublist (hsub t)
    · intro t x hx; exact h.wf t x (hmem t x hx)
    · intro a ha c hc; exact h.uncrossed a (hmem .buy a ha) c (hmem .sell c hc)
    · intro t x hx; rw [h4]; exact h.fresh t x (hmem t x hx)
    · exact h.nodup.sublist (List.Sublist.append ((hsub .buy).map _) ((hsub .sell).map _))
    · intro t x hx; rw [h3]; exact h.inLimits t x (hmem t x hx)
    · rw [h3, h4]; exact h.limitsFresh
    · rw [h3]; exact h.limitsSorted
    · rw [h4]; exact h.nextOk
  · rw [(cancel_effect b h i).2 fun s e he hi => hex ⟨s, e, he, hi⟩]
    exact h

theorem next_insert (b : Book) (o : Order) : (b.insert o).next ≤ b.next + 1 := by
  rw [(insert_inserted b o).next]
  split
  · exact Nat.mod_le _ _
  · omega

theorem next_cancel (b : Book) (i : Nat) : (b.cancel i).next = b.next := by
  unfold Book.cancel
  repeat' split
  all_goals rfl

/-- Number of insertions of a history. -/
def inserts (ops : List Op) : Nat := (ops.filter fun | .insert _ => true | .cancel _ => false).length

theorem run_append (ops : List Op) (op : Op) : run (ops ++ [op]) = (run ops).apply op := by simp [run]

/-- Induction over histories, from the end. -/
theorem snoc_induct {α : Type} {P : List α → Prop} (h0 : P []) (h1 : ∀ l a, P l → P (l ++ [a])) (l : List α) : P l := by
  have : ∀ l : List α, P l.reverse := by
    intro l
    induction l with
    | nil => exact h0
    | cons a l ih => rw [List.reverse_cons]; exact h1 _ _ ih
  have := this l.reverse
  rwa [List.reverse_reverse] at this

theorem run_inv (ops : List Op) (hn : inserts ops < directOrder) : Inv (run ops) ∧ (run ops).next ≤ inserts ops := by
  induction ops using snoc_induct with
  | h0 => exact ⟨inv_empty, Nat.zero_le _⟩
  | h1 l op ih =>
    rw [run_append]
    cases op with
    | insert o =>
      have hi : inserts (l ++ [.insert o]) = inserts l + 1 := by simp [inserts]
      rw [hi] at hn ⊢
      obtain ⟨h1, h2⟩ := ih (by omega)
      have := next_insert (run l) o
      exact ⟨inv_insert _ _ h1 (by omega), by simp only [Book.apply]; omega⟩
    | cancel i =>
      have hi : inserts (l ++ [.cancel i]) = inserts l := by simp [inserts]
      rw [hi] at hn ⊢
      obtain ⟨h1, h2⟩ := ih hn
      exact ⟨inv_cancel _ _ h1, by simp only [Book.apply, next_cancel]; exact h2⟩

end Esl.Book
