import Verif.Lemmas.StaticBook
/-! Helper lemmas for the static order book: matching and placement, against lists of resting orders. -/
namespace Esl.Static
open Esl.Book (Side Lifetime Order Status Report directOrder Entry rank matchLoop Matched emplace crossing ahead pairOf)
open Esl.Pool (Pool upd)

/-- The coding of prices is faithful on the prices `V`: they are valid, they have levels strictly between the first and the last one, decoding gives them
back, and higher prices have higher levels. -/
structure Spec.Faithful (k : Coding) (V : Int → Prop) : Prop where
  some_level : 0 < k.levels
  valid : ∀ v, V v → k.valid v = true
  level : ∀ v, V v → ∃ l : Nat, k.encode v = some (l : Int) ∧ 0 < l ∧ l + 1 < k.levels ∧ k.decode l = v
  mono : ∀ v w l m, V v → V w → v < w → k.encode v = some l → k.encode w = some m → l < m

/-- The level of a price. -/
def lev (k : Coding) (v : Int) : Nat := ((k.encode v).getD 0).toNat

variable {k : Coding} {V : Int → Prop} {cap : Nat}

theorem Spec.Faithful.lev (F : Spec.Faithful k V) {v : Int} (hv : V v) :
    k.encode v = some (lev k v : Int) ∧ 0 < lev k v ∧ lev k v + 1 < k.levels ∧ k.decode (lev k v) = v := by
  obtain ⟨l, h1, h2, h3, h4⟩ := F.level v hv
  have : Static.lev k v = l := by unfold Static.lev; rw [h1]; rfl
  rw [this]; exact ⟨h1, h2, h3, h4⟩

theorem Spec.Faithful.lt_iff (F : Spec.Faithful k V) {v w : Int} (hv : V v) (hw : V w) : v < w ↔ Static.lev k v < Static.lev k w := by
  have h1 := (F.lev hv).1
  have h2 := (F.lev hw).1
  constructor
  · intro h
    have := F.mono v w _ _ hv hw h h1 h2
    omega
  · intro h
    rcases Int.lt_trichotomy v w with h' | h' | h'
    · exact h'
    · subst h'; omega
    · have := F.mono w v _ _ hw hv h' h2 h1
      omega

theorem Spec.Faithful.rank_le (F : Spec.Faithful k V) (sd : Side) {v w : Int} (hv : V v) (hw : V w) :
    rank sd v ≤ rank sd w ↔ rank sd (Static.lev k v : Int) ≤ rank sd (Static.lev k w : Int) := by
  have h1 := F.lt_iff hv hw
  have h2 := F.lt_iff hw hv
  cases sd <;> simp only [rank] <;> omega

/-- Both halves of the book, in order of priority. -/
abbrev Halves := Side → List Entry

def updS (H : Halves) (sd : Side) (l : List Entry) : Halves := fun t => if t = sd then l else H t

theorem updS_same (H : Halves) (sd : Side) (l : List Entry) : updS H sd l sd = l := if_pos rfl
theorem updS_ne (H : Halves) {sd t : Side} (l : List Entry) (h : t ≠ sd) : updS H sd l t = H t := if_neg h
theorem other_ne (sd : Side) : sd.other ≠ sd := by cases sd <;> simp [Book.Side.other]
theorem ne_other (sd : Side) : sd ≠ sd.other := by cases sd <;> simp [Book.Side.other]
theorem other_other (sd : Side) : sd.other.other = sd := by cases sd <;> rfl
theorem eq_or_other (sd t : Side) : t = sd ∨ t = sd.other := by cases sd <;> cases t <;> simp [Book.Side.other]
theorem updS_updS (H : Halves) (sd : Side) (l l' : List Entry) : updS (updS H sd l) sd l' = updS H sd l' := by
  funext t; unfold updS; split <;> rfl
theorem updS_self (H : Halves) (sd : Side) : updS H sd (H sd) = H := by
  funext t; unfold updS; split
  · rename_i h; rw [h]
  · rfl

/-- The entries of a half on a level. -/
def atLevel (k : Coding) (l : Nat) (q : List Entry) : List Entry := q.filter fun e => lev k e.key == l

/-- The queue of a level. -/
def queue (k : Coding) (H : Halves) (l : Nat) : List Entry := atLevel k l (H .buy) ++ atLevel k l (H .sell)

/-- Best price of a side: the position the book keeps. -/
def SBook.best (s : SBook) : Side → Int
  | .buy => s.bestBid
  | .sell => s.bestAsk

/-- Where the position points when the side is empty. -/
def worst (k : Coding) : Side → Int
  | .buy => 0
  | .sell => (k.levels : Int) - 1

def bestOf (k : Coding) (H : Halves) (sd : Side) : Int := ((H sd).head?.map fun e => (lev k e.key : Int)).getD (worst k sd)

/-- The static book `s` represents the resting orders `H`. -/
structure Sim (k : Coding) (V : Int → Prop) (cap : Nat) (s : SBook) (H : Halves) (issued : List Nat) : Prop where
  core : Core k.levels cap s.pool s.levels (queue k H) issued
  ok : ∀ sd, ∀ e ∈ H sd, V e.key ∧ e.order.limit = e.key ∧ e.order.side = sd ∧ 0 < e.order.quantity
  sorted : ∀ sd, (H sd).Pairwise fun a b => rank sd (lev k a.key) ≤ rank sd (lev k b.key)
  best : ∀ sd, s.best sd = bestOf k H sd
  uncrossed : ∀ e ∈ H .buy, ∀ f ∈ H .sell, lev k e.key < lev k f.key

theorem atLevel_nil {l : Nat} {q : List Entry} (h : ∀ e ∈ q, lev k e.key ≠ l) : atLevel k l q = [] := by
  unfold atLevel
  rw [List.filter_eq_nil_iff]
  intro e he
  simpa using h e he

theorem mem_atLevel {l : Nat} {q : List Entry} {e : Entry} : e ∈ atLevel k l q ↔ e ∈ q ∧ lev k e.key = l := by
  unfold atLevel
  rw [List.mem_filter]
  simp

theorem mem_queue {H : Halves} {l : Nat} {e : Entry} : e ∈ queue k H l ↔ ∃ sd, e ∈ H sd ∧ lev k e.key = l := by
  unfold queue
  rw [List.mem_append, mem_atLevel, mem_atLevel]
  constructor
  · rintro (h | h)
    · exact ⟨_, h⟩
    · exact ⟨_, h⟩
  · rintro ⟨sd, h⟩
    cases sd
    · exact .inl h
    · exact .inr h

/-- A level without entries of the other side. -/
theorem queue_one {H : Halves} {l : Nat} (sd : Side) (h : ∀ e ∈ H sd.other, lev k e.key ≠ l) : queue k H l = atLevel k l (H sd) := by
  have h' := atLevel_nil h
  unfold queue
  cases sd
  · have h' : atLevel k l (H .sell) = [] := h'
    rw [h', List.append_nil]
  · have h' : atLevel k l (H .buy) = [] := h'
    rw [h', List.nil_append]

theorem Sim.apart {s : SBook} {H : Halves} {issued : List Nat} (h : Sim k V cap s H issued) (sd : Side) {e f : Entry} (he : e ∈ H sd)
    (hf : f ∈ H sd.other) : lev k f.key ≠ lev k e.key := by
  cases sd
  · have := h.uncrossed e he f hf; omega
  · have := h.uncrossed f hf e he; omega

/-- Entries of the other side are better than any price of this side. -/
theorem Sim.rank_lt {s : SBook} {H : Halves} {issued : List Nat} (h : Sim k V cap s H issued) (sd : Side) {e f : Entry} (he : e ∈ H sd)
    (hf : f ∈ H sd.other) : rank sd (lev k f.key) < rank sd (lev k e.key) := by
  cases sd
  · have := h.uncrossed e he f hf; simp only [rank]; omega
  · have := h.uncrossed f hf e he; simp only [rank]; omega

theorem Core.congrQ {n : Nat} {p : Pool Record} {lv : Nat → Option Nat × Option Nat} {Q Q' : Nat → List Entry} {issued : List Nat}
    (h : Core n cap p lv Q issued) (hQ : ∀ l, Q l = Q' l) : Core n cap p lv Q' issued := by
  have : Q = Q' := funext hQ
  rw [← this]; exact h

theorem upd_ext {β : Type} {f g : Nat → β} {i : Nat} {v : β} (h1 : g i = v) (h2 : ∀ j, j ≠ i → g j = f j) (j : Nat) : upd f i v j = g j := by
  by_cases h : j = i
  · subst h; rw [upd_same, h1]
  · rw [upd_other _ _ h, h2 j h]

/-- Changing one half changes the queues of the levels on which its entries differ. -/
theorem queue_updS {H : Halves} (sd : Side) {q' : List Entry} {l : Nat} {v : List Entry} (h0 : ∀ e ∈ H sd.other, lev k e.key ≠ l)
    (h1 : atLevel k l q' = v) (h2 : ∀ m, m ≠ l → atLevel k m q' = atLevel k m (H sd)) (m : Nat) :
    upd (queue k H) l v m = queue k (updS H sd q') m := by
  apply upd_ext
  · rw [queue_one sd, updS_same, h1]
    intro e he
    rw [updS_ne _ _ (other_ne sd)] at he
    exact h0 e he
  · intro j hj
    unfold queue
    cases sd
    · rw [updS_same, h2 j hj]; rfl
    · rw [updS_same, h2 j hj]; rfl

/-! ### The matching loop of the list model -/

theorem matchLoop_split (c1 c2 : Int → Bool) (h : ∀ x, c1 x = true → c2 x = true) (o : Order) (rem : Nat) (L : List Entry)
    (hq : ∀ e ∈ L, 0 < e.order.quantity) :
    matchLoop c2 o rem L = ⟨(matchLoop c2 o (matchLoop c1 o rem L).remainder (matchLoop c1 o rem L).resting).remainder,
      (matchLoop c2 o (matchLoop c1 o rem L).remainder (matchLoop c1 o rem L).resting).resting,
      (matchLoop c1 o rem L).reports ++ (matchLoop c2 o (matchLoop c1 o rem L).remainder (matchLoop c1 o rem L).resting).reports,
      (matchLoop c1 o rem L).erased ++ (matchLoop c2 o (matchLoop c1 o rem L).remainder (matchLoop c1 o rem L).resting).erased⟩ := by
  induction L generalizing rem with
  | nil => rfl
  | cons e L ih =>
    have hqe := hq e (by simp)
    by_cases hc : c1 e.key = true
    · have hc2 := h _ hc
      by_cases h0 : rem = 0
      · subst h0
        rw [Book.matchLoop_zero, Book.matchLoop_zero, Book.matchLoop_zero]; rfl
      · by_cases hlt : rem < e.order.quantity
        · have hmin : min rem e.order.quantity = rem := by omega
          have e1 : ∀ c : Int → Bool, c e.key = true → matchLoop c o rem (e :: L) =
              ⟨0, Book.reduce e rem :: L, pairOf o e rem, []⟩ := by
            intro c hce
            unfold matchLoop
            simp only [hce, Bool.not_true, Bool.false_eq_true, if_false, hmin, if_neg h0, Nat.sub_self, Book.matchLoop_zero]
            rw [if_neg (by omega)]
            rfl
          rw [e1 c1 hc, e1 c2 hc2, Book.matchLoop_zero]
          simp
        · have hmin : min rem e.order.quantity = e.order.quantity := by omega
          have e1 : ∀ c : Int → Bool, c e.key = true → matchLoop c o rem (e :: L) =
              ⟨(matchLoop c o (rem - e.order.quantity) L).remainder, (matchLoop c o (rem - e.order.quantity) L).resting,
                pairOf o e e.order.quantity ++ (matchLoop c o (rem - e.order.quantity) L).reports,
                e.id :: (matchLoop c o (rem - e.order.quantity) L).erased⟩ := by
            intro c hce
            have hne : e.order.quantity ≠ 0 := by omega
            rw [matchLoop]
            simp only [hce, Bool.not_true, Bool.false_eq_true, if_false, hmin, if_neg hne, Nat.sub_self, if_true]
            rfl
          rw [e1 c1 hc, e1 c2 hc2, ih (rem - e.order.quantity) fun x hx => hq x (List.mem_cons_of_mem _ hx)]
          simp
    · have hc' : c1 e.key = false := by simpa using hc
      have : matchLoop c1 o rem (e :: L) = ⟨rem, e :: L, [], []⟩ := by
        rw [matchLoop]; simp [hc']
      rw [this]
      simp

theorem matchLoop_exhaust (c : Int → Bool) (o : Order) (rem : Nat) (e : Entry) (L : List Entry) (hce : c e.key = true)
    (hpos : 0 < e.order.quantity) (hle : e.order.quantity ≤ rem) : matchLoop c o rem (e :: L) =
      ⟨(matchLoop c o (rem - e.order.quantity) L).remainder, (matchLoop c o (rem - e.order.quantity) L).resting,
        pairOf o e e.order.quantity ++ (matchLoop c o (rem - e.order.quantity) L).reports,
        e.id :: (matchLoop c o (rem - e.order.quantity) L).erased⟩ := by
  have hmin : min rem e.order.quantity = e.order.quantity := by omega
  have hne : e.order.quantity ≠ 0 := by omega
  rw [matchLoop]
  simp only [hce, Bool.not_true, Bool.false_eq_true, if_false, hmin, if_neg hne, Nat.sub_self, if_true]
  rfl

theorem matchLoop_part (c : Int → Bool) (o : Order) (rem : Nat) (e : Entry) (L : List Entry) (hce : c e.key = true)
    (hpos : 0 < rem) (hlt : rem < e.order.quantity) : matchLoop c o rem (e :: L) = ⟨0, Book.reduce e rem :: L, pairOf o e rem, []⟩ := by
  have hmin : min rem e.order.quantity = rem := by omega
  have h0 : rem ≠ 0 := by omega
  unfold matchLoop
  simp only [hce, Bool.not_true, Bool.false_eq_true, if_false, hmin, if_neg h0, Nat.sub_self, Book.matchLoop_zero]
  rw [if_neg (by omega)]
  rfl

theorem matchLoop_stop (c : Int → Bool) (o : Order) (rem : Nat) (L : List Entry) (h : ∀ e ∈ L.head?, c e.key = false) :
    matchLoop c o rem L = ⟨rem, L, [], []⟩ := by
  cases L with
  | nil => rfl
  | cons e L =>
    have : c e.key = false := h e (by simp)
    rw [matchLoop]; simp [this]

/-! ### Moving the best price -/

theorem raiseAsk_spec (lv : Nat → Option Nat × Option Nat) (g : Nat) (hg : g < k.levels)
    (hs : (lv g).1.isSome ∨ g + 1 = k.levels) : ∀ (fuel a : Nat), a ≤ g → (∀ m, a ≤ m → m < g → (lv m).1 = none) → g - a < fuel →
    SBook.raiseAsk k lv fuel (a : Int) = g := by
  intro fuel
  induction fuel with
  | zero => intro a _ _ h; omega
  | succ fuel ih =>
    intro a ha hm hf
    unfold SBook.raiseAsk
    rw [if_pos (by omega)]
    by_cases hag : a = g
    · subst hag
      rw [if_pos]
      rcases hs with h | h
      · exact .inl h
      · right; omega
    · rw [if_neg]
      · have := ih (a + 1) (by omega) (fun m h1 h2 => hm m (by omega) h2) (by omega)
        exact this
      · rintro (h | h)
        · have : (lv a).1 = none := hm a (by omega) (by omega)
          rw [show (a : Int).toNat = a from rfl, this] at h
          cases h
        · omega

theorem lowerBid_spec (lv : Nat → Option Nat × Option Nat) (g : Nat)
    (hs : (lv g).1.isSome ∨ g = 0) : ∀ (fuel a : Nat), g ≤ a → (∀ m, g < m → m ≤ a → (lv m).1 = none) → a - g < fuel →
    SBook.lowerBid lv fuel (a : Int) = g := by
  intro fuel
  induction fuel with
  | zero => intro a _ _ h; omega
  | succ fuel ih =>
    intro a ha hm hf
    unfold SBook.lowerBid
    rw [if_pos (by omega)]
    by_cases hag : a = g
    · subst hag
      rw [if_pos]
      rcases hs with h | h
      · exact .inl h
      · right; omega
    · rw [if_neg]
      · have := ih (a - 1) (by omega) (fun m h1 h2 => hm m (by omega) (by omega)) (by omega)
        have e : ((a - 1 : Nat) : Int) = (a : Int) - 1 := by omega
        rw [e] at this
        exact this
      · rintro (h | h)
        · have : (lv a).1 = none := hm a (by omega) (by omega)
          rw [show (a : Int).toNat = a from rfl, this] at h
          cases h
        · omega

/-! ### One execution -/

variable {s : SBook} {H : Halves} {issued : List Nat}

theorem upd_upd {β : Type} (f : Nat → β) (i : Nat) (v w : β) : upd (upd f i v) i w = upd f i w := by
  funext j; unfold upd; split <;> rfl

/-- The queue of the best level starts with the best entry. -/
theorem Sim.queue_head (h : Sim k V cap s H issued) (sd : Side) {e : Entry} {t : List Entry} (hH : H sd = e :: t) :
    queue k H (lev k e.key) = e :: atLevel k (lev k e.key) t := by
  rw [queue_one sd (fun f hf => h.apart sd (e := e) (by rw [hH]; simp) hf), hH]
  unfold atLevel
  rw [List.filter_cons_of_pos (by simp)]

theorem Sim.level_lt (h : Sim k V cap s H issued) (F : Spec.Faithful k V) (sd : Side) {e : Entry} (he : e ∈ H sd) :
    lev k e.key < k.levels := by
  have := (F.lev (h.ok sd e he).1).2.2.1
  omega

theorem Sim.head_best (h : Sim k V cap s H issued) (sd : Side) {e : Entry} {t : List Entry} (hH : H sd = e :: t) :
    s.best sd = lev k e.key := by
  rw [h.best, bestOf, hH]; rfl

/-- The tail of a half. -/
theorem Sim.tail (h : Sim k V cap s H issued) (F : Spec.Faithful k V) (sd : Side) {e : Entry} {t : List Entry} (hH : H sd = e :: t) (f : Record → Record)
    (s' : SBook)
    (hp : s'.pool = ((detach (modify s.pool (slot cap e) f) ((atLevel k (lev k e.key) t).head?.map (slot cap))).erase e.id).2)
    (hl : s'.levels = upd s.levels (lev k e.key) ((atLevel k (lev k e.key) t).head?.map (slot cap), (atLevel k (lev k e.key) t).getLast?.map (slot cap)))
    (hb : s'.best sd = bestOf k (updS H sd t) sd) (hb' : s'.best sd.other = s.best sd.other) :
    Sim k V cap s' (updS H sd t) issued := by
  have he : e ∈ H sd := by rw [hH]; simp
  have hq := h.queue_head sd hH
  refine ⟨?_, ?_, ?_, ?_, ?_⟩
  · rw [hp, hl]
    refine (h.core.pop (h.level_lt F sd he) hq f).congrQ ?_
    refine queue_updS sd (fun f hf => h.apart sd he hf) rfl ?_
    intro m hm
    rw [hH]
    unfold atLevel
    rw [List.filter_cons_of_neg]
    simp
    omega
  · intro t' x hx
    by_cases ht : t' = sd
    · subst ht
      rw [updS_same] at hx
      exact h.ok t' x (by rw [hH]; exact List.mem_cons_of_mem _ hx)
    · rw [updS_ne _ _ ht] at hx
      exact h.ok t' x hx
  · intro t'
    by_cases ht : t' = sd
    · subst ht
      rw [updS_same]
      have := h.sorted t'
      rw [hH] at this
      exact (List.pairwise_cons.1 this).2
    · rw [updS_ne _ _ ht]; exact h.sorted t'
  · intro t'
    rcases eq_or_other sd t' with rfl | rfl
    · exact hb
    · rw [hb', h.best, bestOf, bestOf, updS_ne _ _ (other_ne sd)]
  · intro x hx y hy
    refine h.uncrossed x ?_ y ?_
    · cases sd
      · rw [updS_same] at hx; rw [hH]; exact List.mem_cons_of_mem _ hx
      · exact hx
    · cases sd
      · exact hy
      · rw [updS_same] at hy; rw [hH]; exact List.mem_cons_of_mem _ hy

/-- The first entry is reduced. -/
theorem Sim.part (h : Sim k V cap s H issued) (F : Spec.Faithful k V) (sd : Side) {e : Entry} {t : List Entry} (hH : H sd = e :: t) (x : Nat)
    (hx : x < e.order.quantity) (s' : SBook)
    (hp : s'.pool = modify s.pool (slot cap e) fun r => { r with quantity := r.quantity - x }) (hl : s'.levels = s.levels)
    (hb : ∀ t, s'.best t = s.best t) : Sim k V cap s' (updS H sd (Book.reduce e x :: t)) issued := by
  have he : e ∈ H sd := by rw [hH]; simp
  have hq := h.queue_head sd hH
  have hmem : ∀ t', ∀ y ∈ updS H sd (Book.reduce e x :: t) t', ∃ z ∈ H t', z.key = y.key := by
    intro t' y hy
    by_cases ht : t' = sd
    · subst ht
      rw [updS_same] at hy
      rcases List.mem_cons.1 hy with rfl | hy
      · exact ⟨e, he, rfl⟩
      · exact ⟨y, by rw [hH]; exact List.mem_cons_of_mem _ hy, rfl⟩
    · rw [updS_ne _ _ ht] at hy
      exact ⟨y, hy, rfl⟩
  refine ⟨?_, ?_, ?_, ?_, ?_⟩
  · rw [hp, hl]
    refine (h.core.reduce (h.level_lt F sd he) hq x).congrQ ?_
    refine queue_updS sd (fun f hf => h.apart sd he hf) ?_ ?_
    · unfold atLevel
      rw [List.filter_cons_of_pos (by simp [Book.reduce])]
    · intro m hm
      rw [hH]
      unfold atLevel
      rw [List.filter_cons_of_neg, List.filter_cons_of_neg]
      · simp; omega
      · simp [Book.reduce]; omega
  · intro t' y hy
    by_cases ht : t' = sd
    · subst ht
      rw [updS_same] at hy
      rcases List.mem_cons.1 hy with rfl | hy
      · have := h.ok t' e he
        refine ⟨this.1, this.2.1, this.2.2.1, ?_⟩
        show 0 < e.order.quantity - x
        omega
      · exact h.ok t' y (by rw [hH]; exact List.mem_cons_of_mem _ hy)
    · rw [updS_ne _ _ ht] at hy
      exact h.ok t' y hy
  · intro t'
    by_cases ht : t' = sd
    · subst ht
      rw [updS_same]
      have := h.sorted t'
      rw [hH] at this
      exact List.pairwise_cons.2 (List.pairwise_cons.1 this)
    · rw [updS_ne _ _ ht]; exact h.sorted t'
  · intro t'
    rw [hb, h.best, bestOf, bestOf]
    by_cases ht : t' = sd
    · subst ht; rw [updS_same, hH]; rfl
    · rw [updS_ne _ _ ht]
  · intro y hy z hz
    obtain ⟨y', hy', ey⟩ := hmem _ y hy
    obtain ⟨z', hz', ez⟩ := hmem _ z hz
    rw [← ey, ← ez]
    exact h.uncrossed y' hy' z' hz'

/-- Levels strictly between a cleared best level and the next best entry are empty. -/
theorem Sim.gap (h : Sim k V cap s H issued) (sd : Side) {e : Entry} {t : List Entry} (hH : H sd = e :: t)
    (m : Nat) (h1 : rank sd (lev k e.key) < rank sd (m : Int)) (h2 : ∀ g ∈ t.head?, rank sd (m : Int) < rank sd (lev k g.key)) :
    queue k (updS H sd t) m = [] := by
  rw [List.eq_nil_iff_forall_not_mem]
  intro x hx
  obtain ⟨t', hx1, hx2⟩ := mem_queue.1 hx
  have he : e ∈ H sd := by rw [hH]; simp
  rcases eq_or_other sd t' with rfl | rfl
  · rw [updS_same] at hx1
    cases t with
    | nil => cases hx1
    | cons g t =>
      have hg := h2 g (by simp)
      have hs := h.sorted t'
      rw [hH] at hs
      have hs := (List.pairwise_cons.1 hs).2
      rcases List.mem_cons.1 hx1 with rfl | hx1
      · rw [hx2] at hg; omega
      · have := (List.pairwise_cons.1 hs).1 x hx1
        rw [hx2] at this; omega
  · rw [updS_ne _ _ (other_ne sd)] at hx1
    have := h.rank_lt sd he hx1
    rw [hx2] at this
    omega

/-- The new best price after the best level was emptied. -/
theorem Sim.cleared (h : Sim k V cap s H issued) (F : Spec.Faithful k V) (o : Order) {e : Entry} {t : List Entry} (hH : H o.side.other = e :: t)
    (hT : atLevel k (lev k e.key) t = []) (lv : Nat → Option Nat × Option Nat)
    (hlv : ∀ m, m < k.levels → (lv m).1 = (queue k (updS H o.side.other t) m).head?.map (slot cap)) (s1 : SBook)
    (hb : ∀ sd, s1.best sd = s.best sd) (hs1 : upd s1.levels (lev k e.key) (none, none) = lv) :
    (s1.clearLevel k o (lev k e.key)).best o.side.other = bestOf k (updS H o.side.other t) o.side.other ∧
    (s1.clearLevel k o (lev k e.key)).best o.side = s.best o.side ∧
    (s1.clearLevel k o (lev k e.key)).levels = lv ∧ (s1.clearLevel k o (lev k e.key)).pool = s1.pool ∧
    (s1.clearLevel k o (lev k e.key)).reports = s1.reports := by
  have he : e ∈ H o.side.other := by rw [hH]; simp
  have hle := (F.lev (h.ok _ e he).1).2
  have hbest := h.head_best o.side.other hH
  have hgap := h.gap o.side.other hH
  have hsort := h.sorted o.side.other
  rw [hH] at hsort
  have hsort := (List.pairwise_cons.1 hsort).1
  have hnotT : ∀ g ∈ t, lev k g.key ≠ lev k e.key := by
    intro g hg hc
    have : g ∈ atLevel k (lev k e.key) t := mem_atLevel.2 ⟨hg, hc⟩
    rw [hT] at this; cases this
  have hok : ∀ g ∈ t, V g.key := fun g hg => (h.ok _ g (by rw [hH]; exact List.mem_cons_of_mem _ hg)).1
  -- what the level of the next entry holds
  have hnext : ∀ g, t.head? = some g → (lv (lev k g.key)).1.isSome := by
    intro g hg
    have hgt : g ∈ t := List.mem_of_mem_head? hg
    rw [hlv _ (by have := (F.lev (hok g hgt)).2.2.1; omega)]
    have : g ∈ queue k (updS H o.side.other t) (lev k g.key) := mem_queue.2 ⟨o.side.other, by rw [updS_same]; exact hgt, rfl⟩
    cases hqq : queue k (updS H o.side.other t) (lev k g.key) with
    | nil => rw [hqq] at this; cases this
    | cons a b => rfl
  have hempty : ∀ m, m < k.levels → rank o.side.other (lev k e.key) < rank o.side.other (m : Int) →
      (∀ g ∈ t.head?, rank o.side.other (m : Int) < rank o.side.other (lev k g.key)) → (lv m).1 = none := by
    intro m hm h1 h2
    rw [hlv m hm, hgap m h1 h2]; rfl
  unfold bestOf
  rw [updS_same]
  unfold SBook.clearLevel
  cases hside : o.side with
  | buy =>
    simp only [hside, Book.Side.other] at *
    refine ⟨?_, ?_, ?_, rfl, rfl⟩
    · have hs1l : (s1.setLevel (lev k e.key) (none, none)).levels = lv := hs1
      have hs1b : (s1.setLevel (lev k e.key) (none, none)).bestAsk = lev k e.key := (hb .sell).trans hbest
      show SBook.raiseAsk k (s1.setLevel (lev k e.key) (none, none)).levels (k.levels + 1)
        ((s1.setLevel (lev k e.key) (none, none)).bestAsk + 1) = _
      rw [hs1l, hs1b]
      cases ht : t.head? with
      | none =>
        have := raiseAsk_spec (k := k) lv (k.levels - 1) (by omega) (.inr (by omega)) (k.levels + 1) (lev k e.key + 1) (by omega) (by
          intro m h1 h2
          refine hempty m (by omega) ?_ ?_
          · simp only [rank]; omega
          · rw [ht]; intro g hg; cases hg) (by omega)
        have e1 : ((lev k e.key + 1 : Nat) : Int) = (lev k e.key : Int) + 1 := by omega
        rw [e1] at this
        rw [this]
        simp only [Option.map_none, Option.getD_none, worst]
        omega
      | some g =>
        have hgt : g ∈ t := List.mem_of_mem_head? ht
        have hg1 := hsort g hgt
        simp only [rank] at hg1
        have hg2 := hnotT g hgt
        have := raiseAsk_spec (k := k) lv (lev k g.key) (by have := (F.lev (hok g hgt)).2.2.1; omega) (.inl (hnext g ht)) (k.levels + 1) (lev k e.key + 1)
          (by omega) (by
          intro m h1 h2
          refine hempty m (by have := (F.lev (hok g hgt)).2.2.1; omega) ?_ ?_
          · simp only [rank]; omega
          · rw [ht]; intro g' hg'
            cases hg'
            simp only [rank]; omega) (by have := (F.lev (hok g hgt)).2.2.1; omega)
        have e1 : ((lev k e.key + 1 : Nat) : Int) = (lev k e.key : Int) + 1 := by omega
        rw [e1] at this
        rw [this]; rfl
    · exact hb .buy
    · exact hs1
  | sell =>
    simp only [hside, Book.Side.other] at *
    refine ⟨?_, ?_, ?_, rfl, rfl⟩
    · have hs1l : (s1.setLevel (lev k e.key) (none, none)).levels = lv := hs1
      have hs1b : (s1.setLevel (lev k e.key) (none, none)).bestBid = lev k e.key := (hb .buy).trans hbest
      show SBook.lowerBid (s1.setLevel (lev k e.key) (none, none)).levels (k.levels + 1)
        ((s1.setLevel (lev k e.key) (none, none)).bestBid - 1) = _
      rw [hs1l, hs1b]
      have e1 : ((lev k e.key - 1 : Nat) : Int) = (lev k e.key : Int) - 1 := by omega
      cases ht : t.head? with
      | none =>
        have := lowerBid_spec lv 0 (.inr rfl) (k.levels + 1) (lev k e.key - 1) (by omega) (by
          intro m h1 h2
          refine hempty m (by omega) ?_ ?_
          · simp only [rank]; omega
          · rw [ht]; intro g hg; cases hg) (by omega)
        rw [e1] at this
        rw [this]
        rfl
      | some g =>
        have hgt : g ∈ t := List.mem_of_mem_head? ht
        have hg1 := hsort g hgt
        simp only [rank] at hg1
        have hg2 := hnotT g hgt
        have := lowerBid_spec lv (lev k g.key) (.inl (hnext g ht)) (k.levels + 1) (lev k e.key - 1)
          (by omega) (by
          intro m h1 h2
          refine hempty m (by omega) ?_ ?_
          · simp only [rank]; omega
          · rw [ht]; intro g' hg'
            cases hg'
            simp only [rank]; omega) (by omega)
        rw [e1] at this
        rw [this]; rfl
    · exact hb .sell
    · exact hs1

end Esl.Static
