import Verif.Lemmas.StaticView
import Verif.Props.StaticCoding
/-! # C31, C35, C36, C75: the static order book

`Spec.Faithful k V` (in `Lemmas/StaticSim.lean`) says what is asked of the translation between prices and levels: the prices in `V` are valid, have a level strictly
inside the range, higher prices have higher levels, and decoding the level gives the price back. C34 shows when this holds (`faithful_exact` below) and when it
does not. -/
namespace Esl.Static
open Esl.Book (Side Lifetime Order Status Report directOrder Entry rank matchLoop Matched emplace crossing ahead pairOf)
open Esl.Pool (Pool upd)

variable {k : Coding} {V : Int → Prop} {cap : Nat}

/-! ## Specification -/

/-- The static book shows the same as the reference book (price-time priority, C25-C28), apart from the names of orders: the reports are the same and come
in the same order, at every price the same orders rest in the same sequence, and the best prices are the same and not crossed. The renaming `ρ` keeps the order of
identifiers. -/
def Spec.SameBook (k : Coding) (s : SBook) (b : Book.Book) : Prop :=
  ∃ ρ : Nat → Nat,
    (∀ i j, i < j → j < b.next → ρ i < ρ j) ∧ (∀ i, i < b.next → ρ i < directOrder) ∧
    s.reports = b.reports.map (Spec.renameReport ρ) ∧
    (∀ r ∈ Spec.view k s, r.limit ≠ none) ∧
    (∀ v : Int, (Spec.view k s).filter (fun r => decide (r.limit = some v)) =
      ((b.bids ++ b.asks).filter fun e => decide (e.order.limit = v)).map fun e => Spec.row (Spec.renameEntry ρ e)) ∧
    s.bid k = .ok b.bid ∧ s.ask k = .ok b.ask ∧
    (∀ x y, s.bid k = .ok (some x) → s.ask k = .ok (some y) → x < y)

/-- The best prices are right: the resting orders are those of two lists, the first with orders reported as placed on the buy side, the second with
orders reported as placed on the sell side; `bid()` is the highest price in the first and `ask()` is the lowest price in the second. -/
def Spec.BestPrices (k : Coding) (s : SBook) : Prop :=
  ∃ bids asks : List Spec.Row,
    (∀ r, r ∈ Spec.view k s ↔ r ∈ bids ∨ r ∈ asks) ∧
    (∀ r ∈ bids, ∃ p ∈ s.reports, p.state = .placement ∧ p.side = .buy ∧ p.ident = r.id ∧ some p.limit = r.limit ∧ p.owner = r.owner) ∧
    (∀ r ∈ asks, ∃ p ∈ s.reports, p.state = .placement ∧ p.side = .sell ∧ p.ident = r.id ∧ some p.limit = r.limit ∧ p.owner = r.owner) ∧
    (match s.bid k with
      | .ok none => bids = []
      | .ok (some x) => (∃ r ∈ bids, r.limit = some x) ∧ ∀ r ∈ bids, ∃ v, r.limit = some v ∧ v ≤ x
      | _ => False) ∧
    (match s.ask k with
      | .ok none => asks = []
      | .ok (some x) => (∃ r ∈ asks, r.limit = some x) ∧ ∀ r ∈ asks, ∃ v, r.limit = some v ∧ x ≤ v
      | _ => False)

/-- An operation in a given state: an order in the range of prices with a positive quantity, or the cancellation of a resting order that is not the last one at a best
price. -/
def Spec.Allowed (k : Coding) (V : Int → Prop) (s : SBook) : Op → Prop
  | .insert o => V o.limit ∧ 0 < o.quantity
  | .cancel i => i ∈ s.orders k ∧
      ∀ x, s.bid k = .ok (some x) ∨ s.ask k = .ok (some x) → ∃ r ∈ Spec.view k s, r.id ≠ i ∧ r.limit = some x

/-- All operations of a history are allowed when they are made. -/
def Spec.Careful (k : Coding) (V : Int → Prop) (cap : Nat) (ops : List Op) : Prop :=
  ∀ pre op post, ops = pre ++ op :: post → ∀ s, Spec.history k cap pre = .ok s → Spec.Allowed k V s op

/-! ## Proofs -/

theorem make_ok (F : Spec.Faithful k V) (hc : 0 < cap) : ∃ b, make k cap = .ok b := by
  have := F.some_level
  unfold make Pool.make
  rw [if_neg (by omega)]
  rw [if_neg (by omega)]
  exact ⟨_, rfl⟩

theorem agree_same (F : Spec.Faithful k V) {s : SBook} {b : Book.Book} {ρ : Nat → Nat} (h : Agree k V cap s b ρ) (hn : (2 * b.next + 3) * cap < 2 ^ 64) :
    Spec.SameBook k s b := by
  have hs := h.sim.issued_sorted
  have hb := h.sim.issued_bound
  have hbid : s.bid k = .ok b.bid := by
    rw [h.sim.bid_eq F]
    show Outcome.ok (((b.bids).map (Spec.renameEntry ρ)).head?.map (·.key)) = _
    rw [List.head?_map, Option.map_map]; rfl
  have hask : s.ask k = .ok b.ask := by
    rw [h.sim.ask_eq F]
    show Outcome.ok (((b.asks).map (Spec.renameEntry ρ)).head?.map (·.key)) = _
    rw [List.head?_map, Option.map_map]; rfl
  refine ⟨ρ, ?_, ?_, h.reports, ?_, ?_, hbid, hask, ?_⟩
  · intro i j hij hj
    rw [List.pairwise_iff_getElem] at hs
    have := hs i j (by simp; omega) (by simpa using hj) hij
    simpa using this
  · intro i hi
    have := hb (ρ i) (List.mem_map.2 ⟨i, List.mem_range.2 hi, rfl⟩)
    have hl : ((List.range b.next).map ρ).length = b.next := by simp
    rw [hl] at this
    have h0 := h.sim.core.cap_pos
    have : (2 * b.next + 3) * cap = (2 * b.next + 1) * cap + 2 * cap := by
      rw [← Nat.add_mul]
    unfold directOrder
    omega
  · intro r hr
    obtain ⟨sd, e, _, rfl⟩ := (h.sim.mem_view F r).1 hr
    simp [Spec.row]
  · intro v
    rw [h.sim.view_at F v]
    show (((b.bids.map (Spec.renameEntry ρ)) ++ (b.asks.map (Spec.renameEntry ρ))).filter _).map Spec.row = _
    rw [← List.map_append, List.filter_map, List.map_map]
    rfl
  · intro x y hx hy
    rw [h.sim.bid_eq F] at hx
    rw [h.sim.ask_eq F] at hy
    injection hx with hx
    injection hy with hy
    obtain ⟨e, he, rfl⟩ := Option.map_eq_some_iff.1 hx
    obtain ⟨f, hf, rfl⟩ := Option.map_eq_some_iff.1 hy
    have he := List.mem_of_mem_head? he
    have hf := List.mem_of_mem_head? hf
    exact (F.lt_iff (h.sim.ok _ e he).1 (h.sim.ok _ f hf).1).2 (h.sim.uncrossed e he f hf)

theorem inserts_map (os : List Order) : Book.inserts (os.map Book.Op.insert) = os.length := by
  induction os with
  | nil => rfl
  | cons o os ih =>
    unfold Book.inserts at *
    simp_all

/-- The agreement for all histories of insertions. -/
theorem agree_run (F : Spec.Faithful k V) (hc : 0 < cap) (os : List Order)
    (hos : ∀ o ∈ os, V o.limit ∧ 0 < o.quantity ∧ o.lifetime = .goodUntilCancelled) (hn : (2 * os.length + 3) * cap < 2 ^ 64) :
    match Spec.history k cap (os.map .insert) with
    | .ok s => ∃ ρ, Agree k V cap s (Book.run (os.map .insert)) ρ
    | .throws => ∃ pre o post, os = pre ++ o :: post ∧
        cap < (Book.run ((pre ++ [o]).map .insert)).bids.length + (Book.run ((pre ++ [o]).map .insert)).asks.length
    | .ub => False := by
  induction os using Book.snoc_induct with
  | h0 =>
    obtain ⟨b, hb⟩ := make_ok F hc
    obtain ⟨h1, h2⟩ := Sim.make F cap b hb
    have : Spec.history k cap (([] : List Order).map .insert) = .ok b := by unfold Spec.history; rw [hb]; rfl
    rw [this]
    refine ⟨id, ?_, ?_, ?_⟩
    · have : (fun sd => ((Book.run (([] : List Order).map .insert)).half sd).map (Spec.renameEntry id)) = fun _ => [] := by
        funext sd; cases sd <;> rfl
      rw [this]; exact h1
    · rw [h2]; rfl
    · intro r hr; cases hr
  | h1 l o ih =>
    have hlen : (l ++ [o]).length = l.length + 1 := by simp
    rw [hlen] at hn
    have hmul : (2 * (l.length + 1) + 3) * cap = (2 * l.length + 3) * cap + 2 * cap := by rw [← Nat.add_mul]; congr 1
    have ih := ih (fun x hx => hos x (by simp [hx])) (by omega)
    obtain ⟨hV, hq, hl⟩ := hos o (by simp)
    have hll : 2 * l.length + 3 ≤ (2 * l.length + 3) * cap := Nat.le_mul_of_pos_right _ hc
    have hins : Book.inserts (l.map Book.Op.insert) < directOrder := by rw [inserts_map]; unfold directOrder; omega
    obtain ⟨hI, hnx⟩ := Book.run_inv (l.map .insert) hins
    rw [inserts_map] at hnx
    rw [List.map_append, List.map_cons, List.map_nil, history_snoc]
    have hrun : Book.run ((l ++ [o]).map .insert) = (Book.run (l.map .insert)).insert o := by
      rw [List.map_append, List.map_cons, List.map_nil, Book.run_append]; rfl
    rw [hrun]
    cases hh : Spec.history k cap (l.map .insert) with
    | ok s =>
      rw [hh] at ih
      obtain ⟨ρ, hA⟩ := ih
      have hb : (2 * (Book.run (l.map .insert)).next + 3) * cap < 2 ^ 64 := by
        have : (2 * (Book.run (l.map .insert)).next + 3) * cap ≤ (2 * l.length + 3) * cap := Nat.mul_le_mul_right _ (by omega)
        omega
      rcases agree_insert F _ ρ hA hI o hV hq hl hb (by unfold directOrder; omega) with ⟨ht, hcap⟩ | ⟨s', ρ', he, hA'⟩
      · have : (Outcome.ok s >>= fun b => b.apply k (.insert o)) = .throws := ht
        rw [this]
        refine ⟨l, o, [], by simp, ?_⟩
        rw [hrun]
        exact hcap
      · have : (Outcome.ok s >>= fun b => b.apply k (.insert o)) = .ok s' := he
        rw [this]
        exact ⟨ρ', hA'⟩
    | throws =>
      rw [hh] at ih
      obtain ⟨pre, x, post, h1, h2⟩ := ih
      exact ⟨pre, x, post ++ [o], by rw [h1]; simp, h2⟩
    | ub => rw [hh] at ih; exact ih

/-- **C35, partial.** For every sequence of good-until-cancelled orders at prices that the levels represent faithfully, the static order book does what the reference book does,
or throws because more orders would rest than it has room for; it never has undefined behaviour. Missing: prices on the first level and, with the default levels, prices
that C34 shows are not represented faithfully; see the counterexamples. The bound excludes histories in which the identifiers exceed 64 bits. -/
theorem C35_matches_partial (F : Spec.Faithful k V) (hc : 0 < cap) (os : List Order)
    (hos : ∀ o ∈ os, V o.limit ∧ 0 < o.quantity ∧ o.lifetime = .goodUntilCancelled) (hn : (2 * os.length + 3) * cap < 2 ^ 64) :
    match Spec.history k cap (os.map .insert) with
    | .ok s => Spec.SameBook k s (Book.run (os.map .insert))
    | .throws => ∃ pre o post, os = pre ++ o :: post ∧
        cap < (Book.run ((pre ++ [o]).map .insert)).bids.length + (Book.run ((pre ++ [o]).map .insert)).asks.length
    | .ub => False := by
  have h := agree_run F hc os hos hn
  have hll : 2 * os.length + 3 ≤ (2 * os.length + 3) * cap := Nat.le_mul_of_pos_right _ hc
  obtain ⟨_, hnx⟩ := Book.run_inv (os.map .insert) (by rw [inserts_map]; unfold directOrder; omega)
  rw [inserts_map] at hnx
  cases hh : Spec.history k cap (os.map .insert) with
  | ok s =>
    rw [hh] at h
    obtain ⟨ρ, hA⟩ := h
    have : (2 * (Book.run (os.map .insert)).next + 3) * cap ≤ (2 * os.length + 3) * cap := Nat.mul_le_mul_right _ (by omega)
    exact agree_same F hA (by omega)
  | throws => rw [hh] at h; exact h
  | ub => rw [hh] at h; exact h

/-- The default levels represent the prices strictly between the minimum and the maximum faithfully, in exact arithmetic with at least two levels for each unit of price. -/
theorem faithful_exact {c : Config} {n : Nat} (h : Spec.Exact c n) (h2 : 2 ≤ n) (hl : 0 ≤ c.lower) :
    Spec.Faithful c.coding (fun v => c.lower < v ∧ v < c.upper) := by
  have hspan : 0 < c.span := by
    obtain ⟨⟨l, _, h3, h4, _⟩, _⟩ := C34_round_trip_partial h h2 hl c.lower (by omega) h.range
    omega
  refine ⟨hspan, ?_, ?_, ?_⟩
  · intro v hv
    show c.contains v = true
    simp [Config.contains]; omega
  · intro v hv
    obtain ⟨⟨l, e1, h3, h4, h5⟩, h6, _⟩ := C34_round_trip_partial h h2 hl v (by omega) hv.2
    obtain ⟨l', e2, h7, h8⟩ := h6 hv.1
    rw [e1] at e2; cases e2
    refine ⟨l.toNat, ?_, by omega, ?_, ?_⟩
    · show c.encode v = _
      rw [e1]; congr 1; omega
    · show l.toNat + 1 < c.span
      omega
    · show c.decode _ = v
      rw [← h5]; congr 1; omega
  · intro v w l m hv hw hvw e1 e2
    obtain ⟨_, _, h7⟩ := C34_round_trip_partial h h2 hl v (by omega) hv.2
    obtain ⟨l', m', e3, e4, h8⟩ := h7 w hvw hw.2
    have e1 : c.encode v = some l := e1
    have e2 : c.encode w = some m := e2
    rw [e1] at e3; rw [e2] at e4
    cases e3; cases e4
    exact h8

/-! ### Histories with cancellations -/

/-- What is known after a careful history. -/
structure Good (k : Coding) (V : Int → Prop) (cap n : Nat) (s : SBook) (H : Halves) (issued : List Nat) : Prop where
  sim : Sim k V cap s H issued
  len : issued.length ≤ n
  placed : ∀ sd, ∀ e ∈ H sd, ∃ p ∈ s.reports, p.state = .placement ∧ p.side = sd ∧ p.ident = e.id ∧ p.limit = e.order.limit ∧ p.owner = e.order.owner

theorem good_insert (F : Spec.Faithful k V) {n : Nat} {s : SBook} {H : Halves} {issued : List Nat} (h : Good k V cap n s H issued)
    (o : Order) (hV : V o.limit) (hq : 0 < o.quantity) (hn : (2 * n + 3) * cap < 2 ^ 64) :
    s.insert k o = .throws ∨ ∃ s' H' issued', s.insert k o = .ok s' ∧ Good k V cap (n + 1) s' H' issued' := by
  have hb : (2 * issued.length + 3) * cap < 2 ^ 64 := by
    have : (2 * issued.length + 3) * cap ≤ (2 * n + 3) * cap := Nat.mul_le_mul_right _ (by have := h.len; omega)
    omega
  obtain ⟨h1, h2, h3⟩ := h.sim.insert F o hV hq hb
  have hlen := h.len
  have hfrom := matchLoop_from (crossing o) o o.quantity (H o.side.other)
  generalize hm : matchLoop (crossing o) o o.quantity (H o.side.other) = m at h1 h2 h3 hfrom
  have hres : ∀ (rs : List Report) (s' : SBook), s'.reports = s.reports ++ rs → ∀ sd, ∀ e ∈ updS H o.side.other m.resting sd,
      ∃ p ∈ s'.reports, p.state = .placement ∧ p.side = sd ∧ p.ident = e.id ∧ p.limit = e.order.limit ∧ p.owner = e.order.owner := by
    intro rs s' hrep sd e he
    have key : ∃ f ∈ H sd, e.id = f.id ∧ e.order.limit = f.order.limit ∧ e.order.owner = f.order.owner := by
      by_cases hsd : sd = o.side.other
      · subst hsd
        rw [updS_same] at he
        obtain ⟨f, hf, a, _, b, c, _⟩ := hfrom e he
        exact ⟨f, hf, a, b, c⟩
      · rw [updS_ne _ _ hsd] at he
        exact ⟨e, he, rfl, rfl, rfl⟩
    obtain ⟨f, hf, a, b, c⟩ := key
    obtain ⟨p, hp, q⟩ := h.placed sd f hf
    refine ⟨p, by rw [hrep]; exact List.mem_append.2 (.inl hp), ?_⟩
    rw [a, b, c]; exact q
  by_cases hr : m.remainder = 0
  · obtain ⟨s', he, hs, hrep⟩ := h1 hr
    exact .inr ⟨s', _, _, he, hs, by omega, hres _ s' hrep⟩
  · by_cases hl : o.lifetime = .immediateOrCancel ∨ o.lifetime = .fillOrKill ∧ m.reports = []
    · obtain ⟨s', he, hs, hrep⟩ := h2 (by omega) hl
      exact .inr ⟨s', _, _, he, hs, by omega, hres _ s' (by rw [hrep, List.append_assoc])⟩
    · rcases h3 (by omega) hl with ⟨ht, _⟩ | ⟨i, s', he, _, _, hs, hrep⟩
      · exact .inl ht
      · refine .inr ⟨s', _, _, he, hs, by simp; omega, ?_⟩
        have hres := hres _ s' (by rw [hrep, List.append_assoc])
        intro sd e hm
        by_cases hsd : sd = o.side
        · subst hsd
          rw [updS_same, Book.mem_emplace] at hm
          rcases hm with rfl | hm
          · exact ⟨⟨.placement, o.side, m.remainder, i, o.limit, o.owner⟩, by rw [hrep]; simp, rfl, rfl, rfl, rfl, rfl⟩
          · exact hres o.side e (by rw [updS_ne _ _ (ne_other _)]; exact hm)
        · rw [updS_ne _ _ hsd] at hm
          exact hres sd e hm

theorem good_cancel (F : Spec.Faithful k V) {n : Nat} {s : SBook} {H : Halves} {issued : List Nat} (h : Good k V cap n s H issued)
    (i : Nat) (ha : Spec.Allowed k V s (.cancel i)) :
    ∃ s' H' issued', s.cancel k i = .ok s' ∧ Good k V cap (n + 1) s' H' issued' := by
  obtain ⟨hi, hx⟩ := ha
  have hi' : ∃ r ∈ Spec.view k s, r.id = i := ⟨_, List.mem_map.2 ⟨i, hi, rfl⟩, rfl⟩
  obtain ⟨r, hr, rfl⟩ := hi'
  obtain ⟨sd, e, he, rfl⟩ := (h.sim.mem_view F r).1 hr
  have hbest : ∃ g, (H sd).head? = some g := by
    cases hh : H sd with
    | nil => rw [hh] at he; cases he
    | cons g t => exact ⟨g, rfl⟩
  obtain ⟨g, hg⟩ := hbest
  have hgm : g ∈ H sd := List.mem_of_mem_head? hg
  have hpr : s.bid k = .ok (some g.key) ∨ s.ask k = .ok (some g.key) := by
    cases sd with
    | buy => left; rw [h.sim.bid_eq F, hg]; rfl
    | sell => right; rw [h.sim.ask_eq F, hg]; rfl
  obtain ⟨r', hr', hne, hlim⟩ := hx g.key hpr
  obtain ⟨sd', f, hf, rfl⟩ := (h.sim.mem_view F r').1 hr'
  have hfk : f.key = g.key := by
    rw [← (h.sim.ok _ f hf).2.1]
    simpa [Spec.row] using hlim
  have hsd : sd' = sd := by
    have hun := h.sim.uncrossed
    cases sd <;> cases sd' <;> first | rfl | skip
    · have := hun g hgm f hf; rw [hfk] at this; omega
    · have := hun f hf g hgm; rw [hfk] at this; omega
  subst hsd
  obtain ⟨s', hs', hrep, hsim⟩ := h.sim.cancel F sd' e he f hf hne (by intro x hx; rw [hg] at hx; cases hx; exact hfk)
  refine ⟨s', _, _, hs', hsim, by have := h.len; omega, ?_⟩
  intro t x hx
  have hx' : x ∈ H t := by
    by_cases ht : t = sd'
    · subst ht; rw [updS_same] at hx; exact (List.mem_filter.1 hx).1
    · rw [updS_ne _ _ ht] at hx; exact hx
  obtain ⟨p, hp, q⟩ := h.placed t x hx'
  exact ⟨p, by rw [hrep]; exact List.mem_append.2 (.inl hp), q⟩

theorem Spec.Careful.init {ops : List Op} {op : Op} (h : Spec.Careful k V cap (ops ++ [op])) :
    Spec.Careful k V cap ops ∧ ∀ s, Spec.history k cap ops = .ok s → Spec.Allowed k V s op := by
  constructor
  · intro pre x post he s hs
    exact h pre x (post ++ [op]) (by rw [he]; simp) s hs
  · intro s hs
    exact h ops op [] (by simp) s hs

theorem good_run (F : Spec.Faithful k V) (hc : 0 < cap) (ops : List Op) (hops : Spec.Careful k V cap ops) (hn : (2 * ops.length + 3) * cap < 2 ^ 64) :
    match Spec.history k cap ops with
    | .ok s => ∃ H issued, Good k V cap ops.length s H issued
    | .throws => True
    | .ub => False := by
  induction ops using Book.snoc_induct with
  | h0 =>
    obtain ⟨b, hb⟩ := make_ok F hc
    obtain ⟨h1, h2⟩ := Sim.make F cap b hb
    have : Spec.history k cap [] = .ok b := by unfold Spec.history; rw [hb]; rfl
    rw [this]
    exact ⟨_, _, h1, Nat.le_refl _, fun sd e he => by cases he⟩
  | h1 l op ih =>
    obtain ⟨hcl, hal⟩ := hops.init
    have hlen : (l ++ [op]).length = l.length + 1 := by simp
    rw [hlen] at hn ⊢
    have hmul : (2 * (l.length + 1) + 3) * cap = (2 * l.length + 3) * cap + 2 * cap := by rw [← Nat.add_mul]; congr 1
    have ih := ih hcl (by omega)
    rw [history_snoc]
    cases hh : Spec.history k cap l with
    | ok s =>
      rw [hh] at ih
      obtain ⟨H, issued, hg⟩ := ih
      have ha := hal s hh
      cases op with
      | insert o =>
        rcases good_insert F hg o ha.1 ha.2 (by omega) with ht | ⟨s', H', is', he, hg'⟩
        · have : (Outcome.ok s >>= fun b => b.apply k (.insert o)) = .throws := ht
          rw [this]; trivial
        · have : (Outcome.ok s >>= fun b => b.apply k (.insert o)) = .ok s' := he
          rw [this]; exact ⟨H', is', hg'⟩
      | cancel i =>
        obtain ⟨s', H', is', he, hg'⟩ := good_cancel F hg i ha
        have : (Outcome.ok s >>= fun b => b.apply k (.cancel i)) = .ok s' := he
        rw [this]; exact ⟨H', is', hg'⟩
    | throws => trivial
    | ub => rw [hh] at ih; exact ih

theorem good_of_history (F : Spec.Faithful k V) (hc : 0 < cap) {ops : List Op} (hops : Spec.Careful k V cap ops) (hn : (2 * ops.length + 3) * cap < 2 ^ 64)
    {s : SBook} (hs : Spec.history k cap ops = .ok s) : ∃ H issued, Good k V cap ops.length s H issued := by
  have := good_run F hc ops hops hn
  rw [hs] at this; exact this

/-- The first order of a side has the best price. -/
theorem Sim.head_is_best {s : SBook} {H : Halves} {issued : List Nat} (h : Sim k V cap s H issued) (F : Spec.Faithful k V) (sd : Side) (g : Entry)
    (hg : (H sd).head? = some g) : ∀ e ∈ H sd, match sd with | .buy => e.key ≤ g.key | .sell => g.key ≤ e.key := by
  intro e he
  have hs := h.sorted sd
  cases hh : H sd with
  | nil => rw [hh] at he; cases he
  | cons x t =>
    rw [hh] at hg he hs
    cases hg
    have hle : rank sd (lev k g.key) ≤ rank sd (lev k e.key) := by
      rcases List.mem_cons.1 he with rfl | he
      · exact Int.le_refl _
      · exact (List.pairwise_cons.1 hs).1 e he
    have hVx := (h.ok sd g (by rw [hh]; simp)).1
    have hVe := (h.ok sd e (by rw [hh]; exact he)).1
    have a := F.lt_iff hVx hVe
    have b := F.lt_iff hVe hVx
    cases sd <;> simp only [rank] at hle ⊢ <;> omega

/-- **C36, partial.** After every history of insertions and cancellations in which no cancellation takes the last order from a best price, `bid()` and `ask()` are the
best prices with a resting order on their side, and there is no undefined behaviour. Missing: cancellations of the last order at a best price, for which it is false
(`C36_counterexample_cancel_best`); prices as in C35. -/
theorem C36_best_prices_partial (F : Spec.Faithful k V) (hc : 0 < cap) (ops : List Op) (hops : Spec.Careful k V cap ops)
    (hn : (2 * ops.length + 3) * cap < 2 ^ 64) :
    match Spec.history k cap ops with
    | .ok s => Spec.BestPrices k s
    | .throws => True
    | .ub => False := by
  have hg := good_run F hc ops hops hn
  cases hh : Spec.history k cap ops with
  | throws => trivial
  | ub => rw [hh] at hg; exact hg
  | ok s =>
    rw [hh] at hg
    obtain ⟨H, issued, hg⟩ := hg
    have hlim : ∀ sd, ∀ e ∈ H sd, (Spec.row e).limit = some e.key := fun sd e he => by rw [← (hg.sim.ok sd e he).2.1]; rfl
    refine ⟨(H .buy).map Spec.row, (H .sell).map Spec.row, ?_, ?_, ?_, ?_, ?_⟩
    · intro r
      rw [hg.sim.mem_view F r]
      constructor
      · rintro ⟨sd, e, he, rfl⟩
        cases sd
        · exact .inl (List.mem_map.2 ⟨e, he, rfl⟩)
        · exact .inr (List.mem_map.2 ⟨e, he, rfl⟩)
      · rintro (hr | hr)
        · obtain ⟨e, he, rfl⟩ := List.mem_map.1 hr
          exact ⟨.buy, e, he, rfl⟩
        · obtain ⟨e, he, rfl⟩ := List.mem_map.1 hr
          exact ⟨.sell, e, he, rfl⟩
    · intro r hr
      obtain ⟨e, he, rfl⟩ := List.mem_map.1 hr
      obtain ⟨p, hp, a, b, c, d, f⟩ := hg.placed .buy e he
      exact ⟨p, hp, a, b, c, by rw [d]; rfl, f⟩
    · intro r hr
      obtain ⟨e, he, rfl⟩ := List.mem_map.1 hr
      obtain ⟨p, hp, a, b, c, d, f⟩ := hg.placed .sell e he
      exact ⟨p, hp, a, b, c, by rw [d]; rfl, f⟩
    · rw [hg.sim.bid_eq F]
      cases hb : (H .buy).head? with
      | none => simp only [Option.map_none]; rw [List.head?_eq_none_iff.1 hb]; rfl
      | some g =>
        have hgm := List.mem_of_mem_head? hb
        refine ⟨⟨_, List.mem_map.2 ⟨g, hgm, rfl⟩, hlim _ g hgm⟩, ?_⟩
        intro r hr
        obtain ⟨e, he, rfl⟩ := List.mem_map.1 hr
        exact ⟨e.key, hlim _ e he, hg.sim.head_is_best F .buy g hb e he⟩
    · rw [hg.sim.ask_eq F]
      cases hb : (H .sell).head? with
      | none => simp only [Option.map_none]; rw [List.head?_eq_none_iff.1 hb]; rfl
      | some g =>
        have hgm := List.mem_of_mem_head? hb
        refine ⟨⟨_, List.mem_map.2 ⟨g, hgm, rfl⟩, hlim _ g hgm⟩, ?_⟩
        intro r hr
        obtain ⟨e, he, rfl⟩ := List.mem_map.1 hr
        exact ⟨e.key, hlim _ e he, hg.sim.head_is_best F .sell g hb e he⟩

/-- **C31, immediate-or-cancel orders in the static book.** The insertion succeeds, no placement is reported, every order that rests afterwards was resting before (with
at least the same quantity), and the quantities reported for the order, executed or cancelled, add up to its quantity. -/
theorem C31_static_immediate_or_cancel (F : Spec.Faithful k V) (hc : 0 < cap) (ops : List Op) (hops : Spec.Careful k V cap ops)
    (hn : (2 * ops.length + 3) * cap < 2 ^ 64) (s : SBook) (hs : Spec.history k cap ops = .ok s) (o : Order) (hV : V o.limit) (hq : 0 < o.quantity)
    (hl : o.lifetime = .immediateOrCancel) :
    ∃ s' rs, s.insert k o = .ok s' ∧ s'.reports = s.reports ++ rs ∧
      (∀ r ∈ Spec.view k s', ∃ r0 ∈ Spec.view k s, r.id = r0.id ∧ r.limit = r0.limit ∧ r.owner = r0.owner ∧ r.quantity ≤ r0.quantity) ∧
      (∀ r ∈ rs, r.state = .match_ ∨ r.state = .cancel) ∧
      ((rs.filter fun r => decide (r.ident = directOrder)).map (·.quantity)).sum = o.quantity := by
  obtain ⟨H, issued, hg⟩ := good_of_history F hc hops hn hs
  have hle : (2 * issued.length + 3) * cap ≤ (2 * ops.length + 3) * cap := Nat.mul_le_mul_right _ (by have := hg.len; omega)
  obtain ⟨h1, h2, _⟩ := hg.sim.insert F o hV hq (by omega)
  have hfrom := matchLoop_from (crossing o) o o.quantity (H o.side.other)
  have hst := matchLoop_states (crossing o) o o.quantity (H o.side.other)
  have hids : ∀ e ∈ H o.side.other, e.id ≠ directOrder := by
    intro e he
    have a := hg.sim.issued_bound e.id (hg.sim.live_issued F _ e he)
    have b : (2 * issued.length + 3) * cap = (2 * issued.length + 1) * cap + 2 * cap := by rw [← Nat.add_mul]
    unfold directOrder; omega
  have hsum := matchLoop_direct (crossing o) o o.quantity (H o.side.other) hids
  generalize hm : matchLoop (crossing o) o o.quantity (H o.side.other) = m at h1 h2 hfrom hst hsum
  have hview : ∀ s', Sim k V cap s' (updS H o.side.other m.resting) issued → ∀ r ∈ Spec.view k s', ∃ r0 ∈ Spec.view k s,
      r.id = r0.id ∧ r.limit = r0.limit ∧ r.owner = r0.owner ∧ r.quantity ≤ r0.quantity := by
    intro s' hs' r hr
    obtain ⟨sd, e, he, rfl⟩ := (hs'.mem_view F r).1 hr
    by_cases hsd : sd = o.side.other
    · subst hsd
      rw [updS_same] at he
      obtain ⟨f, hf, a, _, b, c, d⟩ := hfrom e he
      exact ⟨Spec.row f, (hg.sim.mem_view F _).2 ⟨_, f, hf, rfl⟩, a, by simp [Spec.row, b], c, d⟩
    · rw [updS_ne _ _ hsd] at he
      exact ⟨Spec.row e, (hg.sim.mem_view F _).2 ⟨_, e, he, rfl⟩, rfl, rfl, rfl, Nat.le_refl _⟩
  by_cases hr : m.remainder = 0
  · obtain ⟨s', he, hs', hrep⟩ := h1 hr
    exact ⟨s', m.reports, he, hrep, hview s' hs', fun r h => .inl (hst r h), by omega⟩
  · obtain ⟨s', he, hs', hrep⟩ := h2 (by omega) (.inl hl)
    refine ⟨s', m.reports ++ [⟨.cancel, o.side, m.remainder, directOrder, o.limit, o.owner⟩], he, by rw [hrep, List.append_assoc], hview s' hs', ?_, ?_⟩
    · intro r h
      rcases List.mem_append.1 h with h | h
      · exact .inl (hst r h)
      · right; rw [List.mem_singleton.1 h]
    · rw [List.filter_append, List.map_append, List.sum_append]
      simp only [List.filter_cons, decide_true, if_true, List.filter_nil, List.map_cons, List.map_nil, List.sum_cons, List.sum_nil]
      omega

/-- **C31, fill-or-kill orders in the static book, partial.** Inserting one never fails when nothing rests at a crossing price: it is then cancelled as a whole and the resting orders stay the same. Missing: the
order is not cancelled when it can only be executed in part, see `C31_counterexample_static_fill_or_kill`. -/
theorem C31_static_fill_or_kill_partial (F : Spec.Faithful k V) (hc : 0 < cap) (ops : List Op) (hops : Spec.Careful k V cap ops)
    (hn : (2 * ops.length + 3) * cap < 2 ^ 64) (s : SBook) (hs : Spec.history k cap ops = .ok s) (o : Order) (hV : V o.limit) (hq : 0 < o.quantity)
    (hl : o.lifetime = .fillOrKill)
    (hx : match o.side with
      | .buy => ∀ a, s.ask k = .ok (some a) → o.limit < a
      | .sell => ∀ a, s.bid k = .ok (some a) → a < o.limit) :
    ∃ s', s.insert k o = .ok s' ∧ s'.reports = s.reports ++ [⟨.cancel, o.side, o.quantity, directOrder, o.limit, o.owner⟩] ∧
      Spec.view k s' = Spec.view k s := by
  obtain ⟨H, issued, hg⟩ := good_of_history F hc hops hn hs
  have hle : (2 * issued.length + 3) * cap ≤ (2 * ops.length + 3) * cap := Nat.mul_le_mul_right _ (by have := hg.len; omega)
  obtain ⟨_, h2, _⟩ := hg.sim.insert F o hV hq (by omega)
  have hm : matchLoop (crossing o) o o.quantity (H o.side.other) = ⟨o.quantity, H o.side.other, [], []⟩ := by
    cases hh : H o.side.other with
    | nil => rfl
    | cons g t =>
      have hcr : crossing o g.key = false := by
        have hb := hg.sim.bid_eq F
        have ha := hg.sim.ask_eq F
        cases hsd : o.side with
        | buy =>
          rw [hsd] at hx hh
          have := hx g.key (by rw [ha, show H .sell = g :: t from hh]; rfl)
          simp [crossing, hsd]; omega
        | sell =>
          rw [hsd] at hx hh
          have := hx g.key (by rw [hb, show H .buy = g :: t from hh]; rfl)
          simp [crossing, hsd]; omega
      rw [matchLoop]; simp [hcr]
  rw [hm] at h2
  obtain ⟨s', he, hs', hrep⟩ := h2 hq (.inr ⟨hl, rfl⟩)
  refine ⟨s', he, by rw [hrep]; simp, ?_⟩
  have : updS H o.side.other (H o.side.other) = H := by
    funext sd
    by_cases h : sd = o.side.other
    · rw [h, updS_same]
    · rw [updS_ne _ _ h]
  simp only [this] at hs'
  rw [hs'.view, hg.sim.view]

/-- **C75, partial.** After every careful history, cancelling any resting order (also the last one at a best price) removes exactly that order, and reports its remaining quantity,
price and owner. Missing: identifiers that are not resting, see `C75_counterexample_executed`. -/
theorem C75_cancel_resting_partial (F : Spec.Faithful k V) (hc : 0 < cap) (ops : List Op) (hops : Spec.Careful k V cap ops)
    (hn : (2 * ops.length + 3) * cap < 2 ^ 64) (s : SBook) (hs : Spec.history k cap ops = .ok s) (r : Spec.Row) (hr : r ∈ Spec.view k s) :
    ∃ s' side, s.cancel k r.id = .ok s' ∧
      (∃ v, r.limit = some v ∧ s'.reports = s.reports ++ [⟨.cancel, side, r.quantity, r.id, v, r.owner⟩]) ∧
      (∃ p ∈ s.reports, p.state = .placement ∧ p.side = side ∧ p.ident = r.id) ∧
      s'.orders k = (s.orders k).filter (fun i => i != r.id) ∧
      Spec.view k s' = (Spec.view k s).filter (fun x => x.id != r.id) := by
  obtain ⟨H, issued, hg⟩ := good_of_history F hc hops hn hs
  obtain ⟨sd, e, he, rfl⟩ := (hg.sim.mem_view F r).1 hr
  obtain ⟨s', hs', hrep, _, hcore⟩ := hg.sim.cancel_core F sd e he
  obtain ⟨p, hp, a, b, c, _⟩ := hg.placed sd e he
  have hids := hg.sim.ids_nodup F
  have hq : ∀ l, queue k (updS H sd (without e.id (H sd))) l = (queue k H l).filter fun x => x.id != e.id := by
    have hoth : ∀ t, t ≠ sd → ∀ x ∈ H t, x.id ≠ e.id := by
      intro t ht x hx hc
      rw [List.map_append, List.nodup_append] at hids
      have h3 := hids.2.2
      cases t <;> cases sd <;> first | exact absurd rfl ht | skip
      · exact h3 _ (List.mem_map.2 ⟨x, hx, rfl⟩) _ (List.mem_map.2 ⟨e, he, rfl⟩) hc
      · exact h3 _ (List.mem_map.2 ⟨e, he, rfl⟩) _ (List.mem_map.2 ⟨x, hx, rfl⟩) hc.symm
    have hone : ∀ t l, atLevel k l (updS H sd (without e.id (H sd)) t) = (atLevel k l (H t)).filter fun x => x.id != e.id := by
      intro t l
      by_cases ht : t = sd
      · subst ht
        rw [updS_same]
        unfold atLevel without
        rw [List.filter_filter, List.filter_filter]
        apply List.filter_congr
        intro x _
        rw [Bool.and_comm]
      · rw [updS_ne _ _ ht]
        symm
        rw [List.filter_eq_self]
        intro x hx
        have := hoth t ht x (List.mem_filter.1 hx).1
        simpa using this
    intro l
    unfold queue
    rw [hone, hone, List.filter_append]
  have hsim' : ∀ L : List Nat, (∀ l ∈ L, l < k.levels) → (L.flatMap fun l => chase s' (s'.pool.capacity + 1) (s'.levels l).1) =
      L.flatMap fun l => ((queue k H l).filter fun x => x.id != e.id).map (·.id) := by
    intro L
    induction L with
    | nil => intro _; rfl
    | cons l L ih =>
      intro hL
      have hl := hL l (by simp)
      rw [List.flatMap_cons, List.flatMap_cons, ih fun m hm => hL m (List.mem_cons_of_mem _ hm)]
      congr 1
      rw [hcore.levels l hl, ← hq l]
      have hlen := hcore.length_le hl
      have hcq : ((queue k (updS H sd (without e.id (H sd))) l).length) < s'.pool.capacity + 1 := by rw [hcore.capacity]; omega
      exact chase_eq s' hcore hl (queue k (updS H sd (without e.id (H sd))) l) [] none rfl (hcore.linked l hl) _ hcq
  have hfm : ∀ {α β : Type} (L : List α) (f : α → List β) (p : β → Bool), (L.flatMap f).filter p = L.flatMap fun l => (f l).filter p := by
    intro α β L f p
    induction L with
    | nil => rfl
    | cons a L ih => rw [List.flatMap_cons, List.flatMap_cons, List.filter_append, ih]
  have horders : s'.orders k = (s.orders k).filter (fun i => i != e.id) := by
    rw [hg.sim.orders, hfm]
    unfold SBook.orders
    rw [hsim' _ fun l hl => List.mem_range.1 hl]
    congr 1
    funext l
    rw [List.filter_map]
    rfl
  refine ⟨s', sd, hs', ⟨_, rfl, hrep⟩, ⟨p, hp, a, b, c⟩, horders, ?_⟩
  rw [hg.sim.view, hfm]
  have : Spec.view k s' = (List.range k.levels).flatMap fun l => ((queue k H l).filter fun x => x.id != e.id).map Spec.row := by
    unfold Spec.view SBook.orders
    rw [hsim' _ fun l hl => List.mem_range.1 hl, List.map_flatMap]
    have hL : ∀ L : List Nat, (∀ l ∈ L, l < k.levels) →
        (L.flatMap fun l => (((queue k H l).filter fun x => x.id != e.id).map (·.id)).map fun i =>
          (⟨i, (s'.pool.get i).limit, (s'.pool.get i).quantity, (s'.pool.get i).owner⟩ : Spec.Row)) =
        L.flatMap fun l => ((queue k H l).filter fun x => x.id != e.id).map Spec.row := by
      intro L
      induction L with
      | nil => intro _; rfl
      | cons l L ih =>
        intro hL
        have hl := hL l (by simp)
        rw [List.flatMap_cons, List.flatMap_cons, ih fun m hm => hL m (List.mem_cons_of_mem _ hm)]
        congr 1
        rw [List.map_map]
        apply List.map_congr_left
        intro x hx
        rw [← hq l] at hx
        obtain ⟨h1, h2, h3⟩ := (hcore.linked l hl).at hx
        unfold Pool.get
        simp only [Function.comp, hcore.capacity]
        rw [h1, h2, h3]
        rfl
    exact hL _ fun l hl => List.mem_range.1 hl
  rw [this]
  congr 1
  funext l
  rw [List.filter_map]
  rfl

/-! ### Counterexamples -/

/-- What can be seen of a book after a history: best bid, best ask, resting orders, reports. -/
def Spec.after (c : Config) (capacity : Nat) (ops : List Op) : Outcome (Option Int × Option Int × List Spec.Row × List Report) :=
  Spec.history c.coding capacity ops >>= fun b => b.bid c.coding >>= fun x => b.ask c.coding >>= fun y => .ok (x, y, Spec.view c.coding b, b.reports)

/-- A good-until-cancelled order. -/
def Spec.order (s : Side) (v : Int) (q owner : Nat) : Op := .insert ⟨.goodUntilCancelled, s, 0, owner, v, q⟩

/-- Prices from 1 to 10, two levels for each unit, exact arithmetic. -/
def Spec.sample : Config := ⟨1, 10, 200, 100, none, id⟩

/-- **C36, negation.** When the only order at the best bid is cancelled, `bid()` is empty although a buy order rests at a lower price. -/
theorem C36_counterexample_cancel_best :
    Spec.after Spec.sample 8 [Spec.order .buy 5 10 1, Spec.order .buy 6 10 2, .cancel 1] =
      .ok (none, none, [⟨0, some 5, 10, 1⟩],
        [⟨.placement, .buy, 10, 0, 5, 1⟩, ⟨.placement, .buy, 10, 1, 6, 2⟩, ⟨.cancel, .buy, 10, 1, 6, 2⟩]) := by decide +kernel

/-- **C35, negation.** After a sell order at the lowest valid price both best prices are that price: the book is crossed. -/
theorem C35_counterexample_lowest_sell :
    Spec.after Spec.sample 8 [Spec.order .sell 1 10 1] = .ok (some 1, some 1, [⟨0, some 1, 10, 1⟩], [⟨.placement, .sell, 10, 0, 1, 1⟩]) := by decide +kernel

/-- **C35, negation.** A second sell order at the lowest valid price is executed against the first sell order. -/
theorem C35_counterexample_sell_matches_sell :
    ∃ x y rows, Spec.after Spec.sample 8 [Spec.order .sell 1 10 1, Spec.order .sell 1 4 2] =
      .ok (x, y, rows, [⟨.placement, .sell, 10, 0, 1, 1⟩, ⟨.match_, .sell, 4, directOrder, 1, 2⟩, ⟨.match_, .buy, 4, 0, 1, 1⟩]) :=
  ⟨some 1, some 1, [⟨0, some 1, 6, 1⟩], by decide +kernel⟩

/-- **C35, negation.** Executing all buy orders at the lowest valid price leaves the best bid in front of the first level, and asking for the best bid is undefined behaviour. -/
theorem C35_counterexample_lowest_buy :
    Spec.after Spec.sample 8 [Spec.order .buy 1 10 1, Spec.order .sell 1 10 2] = .ub := by decide +kernel

/-- **C35, negation.** With one level for each unit, a sell and a buy order with the same limit in the upper half of the range are not executed; both rest, and both best prices are
higher than the limit of both orders. -/
theorem C35_counterexample_upper_half :
    Spec.after ⟨0, 10, 100, 100, none, id⟩ 8 [Spec.order .sell 7 10 1, Spec.order .buy 7 10 2] =
      .ok (some 8, some 8, [⟨0, some 7, 10, 1⟩, ⟨1, some 7, 10, 2⟩], [⟨.placement, .sell, 10, 0, 7, 1⟩, ⟨.placement, .buy, 10, 1, 7, 2⟩]) := by
  decide +kernel

/-- **C31, negation, static book.** A fill-or-kill order for 30 is executed for 10, and the remaining 20 rest. -/
theorem C31_counterexample_static_fill_or_kill :
    ∃ x y, Spec.after Spec.sample 8 [Spec.order .sell 5 10 1, .insert ⟨.fillOrKill, .buy, 0, 2, 5, 30⟩] =
      .ok (x, y, [⟨8, some 5, 20, 2⟩], [⟨.placement, .sell, 10, 0, 5, 1⟩, ⟨.match_, .buy, 10, directOrder, 5, 2⟩, ⟨.match_, .sell, 10, 0, 5, 1⟩,
        ⟨.placement, .buy, 20, 8, 5, 2⟩]) :=
  ⟨some 5, none, by decide +kernel⟩

/-- **C75, negation.** Cancelling an order that was executed completely is reported as cancelled to its owner, with quantity 0. -/
theorem C75_counterexample_executed :
    Spec.after Spec.sample 8 [Spec.order .sell 5 10 1, Spec.order .sell 5 10 1, Spec.order .buy 5 10 2, .cancel 0] =
      .ok (none, some 5, [⟨1, some 5, 10, 1⟩],
        [⟨.placement, .sell, 10, 0, 5, 1⟩, ⟨.placement, .sell, 10, 1, 5, 1⟩, ⟨.match_, .buy, 10, directOrder, 5, 2⟩, ⟨.match_, .sell, 10, 0, 5, 1⟩,
         ⟨.cancel, .sell, 0, 0, 5, 1⟩]) := by decide +kernel

/-- **C75, negation.** After that, the block of the executed order is free twice, and orders that were placed disappear: of five orders placed at 6 only
the last one is found. -/
theorem C75_counterexample_lost_orders :
    let ops := [Spec.order .sell 5 10 1, Spec.order .sell 5 10 1, Spec.order .buy 5 10 2, .cancel 0, Spec.order .sell 6 1 3, Spec.order .sell 6 1 4,
      Spec.order .sell 6 1 5, Spec.order .sell 6 1 6, Spec.order .sell 6 1 7]
    (Spec.history Spec.sample.coding 8 ops >>= fun s => .ok (s.orders Spec.sample.coding, (s.reports.filter fun r => r.state = .placement).length)) =
      .ok ([1, 40], 7) := by decide +kernel

/-! ### The hypotheses can be met -/

theorem sample_faithful : Spec.Faithful Spec.sample.coding (fun v => Spec.sample.lower < v ∧ v < Spec.sample.upper) :=
  faithful_exact (c := Spec.sample) (n := 2) ⟨rfl, by decide, by decide, rfl, by decide⟩ (by omega) (by decide)

/-- The configuration of the library's tests, in exact arithmetic. -/
example : Spec.Faithful (Config.coding ⟨1, 1000, 10000, 100, none, id⟩) (fun v => 1 < v ∧ v < 1000) :=
  faithful_exact (c := ⟨1, 1000, 10000, 100, none, id⟩) (n := 100) ⟨rfl, by decide, by decide, rfl, by decide⟩ (by omega) (by decide)

theorem careful_nil : Spec.Careful k V cap [] := by
  intro pre op post h
  simp at h

theorem careful_snoc {ops : List Op} {op : Op} (h : Spec.Careful k V cap ops) (ha : ∀ s, Spec.history k cap ops = .ok s → Spec.Allowed k V s op) :
    Spec.Careful k V cap (ops ++ [op]) := by
  intro pre x post he s hs
  cases post using Book.snoc_induct with
  | h0 =>
    have : ops = pre ∧ op = x := by
      have := List.append_inj' he rfl
      exact ⟨this.1, by simpa using this.2⟩
    rw [← this.1] at hs; rw [← this.2]; exact ha s hs
  | h1 post y _ =>
    have := List.append_inj' (s₁ := ops) (s₂ := pre ++ x :: post) (t₁ := [op]) (t₂ := [y]) (by rw [he]; simp) rfl
    exact h pre x post this.1 s hs

/-- A history with an execution and a cancellation at the best bid is careful. -/
example : Spec.Careful Spec.sample.coding (fun v => Spec.sample.lower < v ∧ v < Spec.sample.upper) 8
    ([Spec.order .buy 5 10 1, Spec.order .buy 6 10 2, Spec.order .buy 6 7 3, Spec.order .sell 6 4 4] ++ [.cancel 0] ++ [.cancel 1]) := by
  have hins : Spec.Careful Spec.sample.coding (fun v => Spec.sample.lower < v ∧ v < Spec.sample.upper) 8
      ((([] ++ [Spec.order .buy 5 10 1]) ++ [Spec.order .buy 6 10 2]) ++ [Spec.order .buy 6 7 3] ++ [Spec.order .sell 6 4 4]) := by
    refine careful_snoc (careful_snoc (careful_snoc (careful_snoc careful_nil ?_) ?_) ?_) ?_ <;> exact fun s _ => by
      show (_ ∧ _) ∧ _; decide
  refine careful_snoc (careful_snoc hins ?_) ?_
  · intro s hs
    have h : (Spec.history Spec.sample.coding 8 [Spec.order .buy 5 10 1, Spec.order .buy 6 10 2, Spec.order .buy 6 7 3, Spec.order .sell 6 4 4] >>= fun s =>
        .ok (s.orders Spec.sample.coding, s.bid Spec.sample.coding, s.ask Spec.sample.coding, Spec.view Spec.sample.coding s)) =
        .ok ([0, 1, 2], .ok (some 6), .ok none, [⟨0, some 5, 10, 1⟩, ⟨1, some 6, 6, 2⟩, ⟨2, some 6, 7, 3⟩]) := by decide +kernel
    have hs' : Spec.history Spec.sample.coding 8 [Spec.order .buy 5 10 1, Spec.order .buy 6 10 2, Spec.order .buy 6 7 3, Spec.order .sell 6 4 4] = .ok s := hs
    rw [hs'] at h
    simp only [Outcome.bind_ok, Outcome.ok.injEq, Prod.mk.injEq] at h
    obtain ⟨a, b, c, d⟩ := h
    refine ⟨by rw [a]; decide, ?_⟩
    intro x hx
    rw [b, c] at hx
    rw [d]
    have : (6 : Int) = x := by simpa using hx
    subst this
    exact ⟨_, List.mem_cons_of_mem _ (List.mem_cons_self ..), by decide, rfl⟩
  · intro s hs
    have h : (Spec.history Spec.sample.coding 8 [Spec.order .buy 5 10 1, Spec.order .buy 6 10 2, Spec.order .buy 6 7 3, Spec.order .sell 6 4 4, .cancel 0] >>= fun s =>
        .ok (s.orders Spec.sample.coding, s.bid Spec.sample.coding, s.ask Spec.sample.coding, Spec.view Spec.sample.coding s)) =
        .ok ([1, 2], .ok (some 6), .ok none, [⟨1, some 6, 6, 2⟩, ⟨2, some 6, 7, 3⟩]) := by decide +kernel
    have hs' : Spec.history Spec.sample.coding 8 [Spec.order .buy 5 10 1, Spec.order .buy 6 10 2, Spec.order .buy 6 7 3, Spec.order .sell 6 4 4, .cancel 0] = .ok s := hs
    rw [hs'] at h
    simp only [Outcome.bind_ok, Outcome.ok.injEq, Prod.mk.injEq] at h
    obtain ⟨a, b, c, d⟩ := h
    refine ⟨by rw [a]; decide, ?_⟩
    intro x hx
    rw [b, c] at hx
    rw [d]
    have : (6 : Int) = x := by simpa using hx
    subst this
    exact ⟨_, List.mem_cons_of_mem _ (List.mem_cons_self ..), by decide, rfl⟩

/-- And its result: the remaining order is the best bid. -/
example : (Spec.after Spec.sample 8 [Spec.order .buy 5 10 1, Spec.order .buy 6 10 2, Spec.order .buy 6 7 3, Spec.order .sell 6 4 4, .cancel 0, .cancel 1] >>= fun x =>
    .ok (x.1, x.2.1, x.2.2.1)) = .ok (some 6, none, [⟨2, some 6, 7, 3⟩]) := by decide +kernel

/-- Orders to which C35 applies, with an execution over two orders and a remainder that rests. -/
example : (Spec.after Spec.sample 8 [Spec.order .sell 5 10 1, Spec.order .sell 5 10 2, Spec.order .buy 6 25 3] >>= fun x => .ok (x.1, x.2.1, x.2.2.1)) =
    .ok (some 6, none, [⟨9, some 6, 5, 3⟩]) := by decide +kernel

end Esl.Static
