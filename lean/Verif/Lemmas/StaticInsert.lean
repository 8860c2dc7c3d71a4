import Verif.Lemmas.StaticMatch
/-! Helper lemmas for the static order book: insertion and cancellation. -/
namespace Esl.Static
open Esl.Book (Side Lifetime Order Status Report directOrder Entry rank matchLoop Matched emplace crossing ahead pairOf)
open Esl.Pool (Pool upd)
variable {k : Coding} {V : Int → Prop} {cap : Nat} {s : SBook} {H : Halves} {issued : List Nat}

/-! ### Number of resting orders -/

theorem nodup_of_levels (lf : Entry → Nat) : ∀ L : List Entry, (∀ l, ((L.filter fun e => lf e == l).map (·.id)).Nodup) →
    (∀ e ∈ L, ∀ f ∈ L, lf e ≠ lf f → e.id ≠ f.id) → (L.map (·.id)).Nodup := by
  intro L
  induction L with
  | nil => intros; exact .nil
  | cons e L ih =>
    intro h1 h2
    rw [List.map_cons, List.nodup_cons]
    refine ⟨?_, ih ?_ ?_⟩
    · intro hm
      obtain ⟨f, hf, hfe⟩ := List.mem_map.1 hm
      by_cases hl : lf f = lf e
      · have := h1 (lf e)
        rw [List.filter_cons_of_pos (by simp), List.map_cons, List.nodup_cons] at this
        exact this.1 (List.mem_map.2 ⟨f, List.mem_filter.2 ⟨hf, by simp [hl]⟩, hfe⟩)
      · exact h2 f (List.mem_cons_of_mem _ hf) e (by simp) hl hfe
    · intro l
      have := h1 l
      by_cases hl : lf e = l
      · rw [List.filter_cons_of_pos (by simp [hl]), List.map_cons, List.nodup_cons] at this
        exact this.2
      · rw [List.filter_cons_of_neg (by simp [hl])] at this
        exact this
    · intro a ha b hb
      exact h2 a (List.mem_cons_of_mem _ ha) b (List.mem_cons_of_mem _ hb)

theorem Sim.ids_nodup (h : Sim k V cap s H issued) (F : Spec.Faithful k V) : ((H .buy ++ H .sell).map (·.id)).Nodup := by
  have hmem : ∀ e ∈ H .buy ++ H .sell, lev k e.key < k.levels ∧ e ∈ queue k H (lev k e.key) := by
    intro e he
    rcases List.mem_append.1 he with he | he
    · exact ⟨h.level_lt F _ he, mem_queue.2 ⟨_, he, rfl⟩⟩
    · exact ⟨h.level_lt F _ he, mem_queue.2 ⟨_, he, rfl⟩⟩
  apply nodup_of_levels (fun e => lev k e.key)
  · intro l
    rw [List.filter_append]
    by_cases hl : l < k.levels
    · exact h.core.nodup l hl
    · have : ∀ sd, (H sd).filter (fun e => lev k e.key == l) = [] := by
        intro sd
        apply atLevel_nil
        intro e he
        have := h.level_lt F _ he
        omega
      rw [this, this]; exact .nil
  · intro e he f hf hne
    exact h.core.apart _ _ (hmem e he).1 (hmem f hf).1 hne e (hmem e he).2 f (hmem f hf).2

theorem Sim.size (h : Sim k V cap s H issued) (F : Spec.Faithful k V) : s.pool.size = (H .buy).length + (H .sell).length := by
  obtain ⟨live, free, hi, hm⟩ := h.core.pool
  have h1 : (live.map (·.1)).Nodup := by
    have := (List.nodup_append.1 hi.nodup).2.1
    rw [List.Nodup, List.pairwise_map] at this ⊢
    exact this.imp fun hab hc => hab (by rw [hc])
  have hp : (live.map (·.1)).Perm ((H .buy ++ H .sell).map (·.id)) := by
    rw [List.perm_ext_iff_of_nodup h1 (h.ids_nodup F)]
    intro i
    rw [hm]
    constructor
    · rintro ⟨l, hl, hi⟩
      obtain ⟨e, he, rfl⟩ := List.mem_map.1 hi
      obtain ⟨sd, he, _⟩ := mem_queue.1 he
      refine List.mem_map.2 ⟨e, ?_, rfl⟩
      cases sd
      · exact List.mem_append_left _ he
      · exact List.mem_append_right _ he
    · intro hi
      obtain ⟨e, he, rfl⟩ := List.mem_map.1 hi
      rcases List.mem_append.1 he with he | he
      · exact ⟨_, h.level_lt F _ he, List.mem_map.2 ⟨e, mem_queue.2 ⟨_, he, rfl⟩, rfl⟩⟩
      · exact ⟨_, h.level_lt F _ he, List.mem_map.2 ⟨e, mem_queue.2 ⟨_, he, rfl⟩, rfl⟩⟩
  have := hp.length_eq
  have hs : s.pool.size = live.length := hi.size
  simpa [hs] using this

/-! ### Placement -/

theorem atLevel_emplace (F : Spec.Faithful k V) (sd : Side) (e : Entry) (he : V e.key) : ∀ q : List Entry, (∀ x ∈ q, V x.key) →
    q.Pairwise (fun a b => rank sd (lev k a.key) ≤ rank sd (lev k b.key)) →
    atLevel k (lev k e.key) (emplace (ahead sd) e q) = atLevel k (lev k e.key) q ++ [e] ∧
    ∀ m, m ≠ lev k e.key → atLevel k m (emplace (ahead sd) e q) = atLevel k m q := by
  intro q
  induction q with
  | nil =>
    intro _ _
    refine ⟨by simp [emplace, atLevel], ?_⟩
    intro m hm
    simp only [emplace, atLevel]
    rw [List.filter_cons_of_neg (by simp; omega)]
  | cons x q ih =>
    intro hV hs
    have hs' := List.pairwise_cons.1 hs
    have hx := hV x (by simp)
    have hrank : rank sd e.key < rank sd x.key ↔ rank sd (lev k e.key : Int) < rank sd (lev k x.key : Int) := by
      have := F.rank_le sd hx he
      omega
    unfold emplace
    by_cases ha : ahead sd e.key x.key = true
    · rw [if_pos ha]
      have hlt := hrank.1 ((Book.ahead_iff ..).1 ha)
      have hnil : atLevel k (lev k e.key) (x :: q) = [] := by
        apply atLevel_nil
        intro y hy hc
        rcases List.mem_cons.1 hy with rfl | hy
        · rw [hc] at hlt; omega
        · have := hs'.1 y hy
          rw [hc] at this; omega
      refine ⟨?_, ?_⟩
      · rw [hnil]
        show List.filter _ _ = _
        rw [List.filter_cons_of_pos (by simp)]
        have : List.filter (fun e_1 => lev k e_1.key == lev k e.key) (x :: q) = [] := hnil
        rw [this]; rfl
      · intro m hm
        show List.filter _ _ = _
        rw [List.filter_cons_of_neg (by simp; omega)]
        rfl
    · rw [if_neg ha]
      obtain ⟨i1, i2⟩ := ih (fun y hy => hV y (List.mem_cons_of_mem _ hy)) hs'.2
      refine ⟨?_, ?_⟩
      · by_cases hl : lev k x.key = lev k e.key
        · show List.filter _ _ = List.filter _ _ ++ _
          rw [List.filter_cons_of_pos (by simpa using hl), List.filter_cons_of_pos (by simpa using hl), List.cons_append]
          congr 1
        · show List.filter _ _ = List.filter _ _ ++ _
          rw [List.filter_cons_of_neg (by simpa using hl), List.filter_cons_of_neg (by simpa using hl)]
          exact i1
      · intro m hm
        by_cases hl : lev k x.key = m
        · show List.filter _ _ = List.filter _ _
          rw [List.filter_cons_of_pos (by simpa using hl), List.filter_cons_of_pos (by simpa using hl)]
          congr 1
          exact i2 m hm
        · show List.filter _ _ = List.filter _ _
          rw [List.filter_cons_of_neg (by simpa using hl), List.filter_cons_of_neg (by simpa using hl)]
          exact i2 m hm

theorem emplace_sorted_lev (F : Spec.Faithful k V) (sd : Side) (e : Entry) (he : V e.key) : ∀ q : List Entry, (∀ x ∈ q, V x.key) →
    q.Pairwise (fun a b => rank sd (lev k a.key) ≤ rank sd (lev k b.key)) →
    (emplace (ahead sd) e q).Pairwise (fun a b => rank sd (lev k a.key) ≤ rank sd (lev k b.key)) := by
  intro q
  induction q with
  | nil => intro _ _; simp [emplace]
  | cons x q ih =>
    intro hV hs
    have hs' := List.pairwise_cons.1 hs
    have hx := hV x (by simp)
    have hrank := F.rank_le sd he hx
    have hrank' := F.rank_le sd hx he
    unfold emplace
    by_cases ha : ahead sd e.key x.key = true
    · rw [if_pos ha]
      have ha := (Book.ahead_iff ..).1 ha
      refine List.pairwise_cons.2 ⟨?_, hs⟩
      intro y hy
      have h1 : rank sd (lev k e.key : Int) ≤ rank sd (lev k x.key : Int) := hrank.1 (by omega)
      rcases List.mem_cons.1 hy with rfl | hy
      · exact h1
      · have := hs'.1 y hy; omega
    · rw [if_neg ha]
      have ha : ¬ rank sd e.key < rank sd x.key := fun h => ha ((Book.ahead_iff ..).2 h)
      refine List.pairwise_cons.2 ⟨?_, ih (fun y hy => hV y (List.mem_cons_of_mem _ hy)) hs'.2⟩
      intro y hy
      rcases (Book.mem_emplace ..).1 hy with rfl | hy
      · exact hrank'.1 (by omega)
      · exact hs'.1 y hy

theorem head_emplace (sd : Side) (e : Entry) (q : List Entry) :
    (emplace (ahead sd) e q).head? = match q with
      | [] => some e
      | x :: _ => if ahead sd e.key x.key = true then some e else some x := by
  cases q with
  | nil => rfl
  | cons x q =>
    unfold emplace
    by_cases h : ahead sd e.key x.key = true
    · simp [h]
    · simp [h]

/-- The book after a placement. -/
def afterPlace (o : Order) (l : Nat) (rem i : Nat) (p : Pool Record) (v : Option Nat × Option Nat) (b : SBook) : SBook :=
  ⟨p, upd b.levels l v, match o.side with | .buy => max b.bestBid l | .sell => b.bestBid,
    match o.side with | .buy => b.bestAsk | .sell => min b.bestAsk l,
    b.reports ++ [⟨.placement, o.side, rem, i, o.limit, o.owner⟩]⟩

theorem place_eq (o : Order) (l rem : Nat) (b : SBook) (i sl : Nat) (p' p'' : Pool Record) (v : Option Nat × Option Nat)
    (h1 : b.pool.emplace ⟨some o.limit, rem, o.owner, none, none⟩ = .ok (i, sl, p')) (h2 : append sl (stored p' sl i) (b.levels l) = .ok (p'', v)) :
    b.place o l rem = .ok (afterPlace o l rem i p'' v b) := by
  unfold SBook.place
  rw [h1]
  simp only [Outcome.bind_ok]
  cases hlv : b.levels l with
  | mk x y =>
    rw [hlv] at h2
    cases x with
    | none =>
      cases h2
      unfold afterPlace
      cases o.side <;> rfl
    | some first =>
      cases y with
      | none => cases h2
      | some last =>
        cases h2
        unfold afterPlace
        cases o.side <;> rfl

theorem Sim.place (h : Sim k V cap s H issued) (F : Spec.Faithful k V) (o : Order) (hV : V o.limit) (rem : Nat) (hrem : 0 < rem)
    (hno : ∀ f ∈ H o.side.other, rank o.side.other (lev k o.limit) < rank o.side.other (lev k f.key))
    (hn : (2 * issued.length + 3) * cap < 2 ^ 64) :
    (s.place o (lev k o.limit) rem = .throws ∧ s.pool.size = cap) ∨
    ∃ i s', s.place o (lev k o.limit) rem = .ok s' ∧ s.pool.size < cap ∧ (∀ j ∈ issued, j < i) ∧
      s'.reports = s.reports ++ [⟨.placement, o.side, rem, i, o.limit, o.owner⟩] ∧
      Sim k V cap s' (updS H o.side (emplace (ahead o.side) ⟨o.limit, i, { o with quantity := rem }⟩ (H o.side))) (issued ++ [i]) := by
  obtain ⟨hle, hl0, hlN, hld⟩ := F.lev hV
  rcases h.core.push (l := lev k o.limit) (by omega) o.limit rem o.owner hn with ⟨ht, hs⟩ | ⟨i, p', p'', v, he, hi, hs, ha, hc⟩
  · left
    refine ⟨?_, hs⟩
    unfold SBook.place
    rw [ht]; rfl
  · right
    refine ⟨i, _, place_eq o _ rem s i _ p' p'' v he ha, hs, hi, rfl, ?_⟩
    have hVs : ∀ x ∈ H o.side, V x.key := fun x hx => (h.ok _ x hx).1
    have hcore := hc ⟨o.limit, i, { o with quantity := rem }⟩ rfl rfl rfl rfl
    obtain ⟨hat1, hat2⟩ := atLevel_emplace F o.side ⟨o.limit, i, { o with quantity := rem }⟩ hV (H o.side) hVs (h.sorted _)
    have hother : ∀ f ∈ H o.side.other, lev k f.key ≠ lev k o.limit := by
      intro f hf hc
      have := hno f hf
      rw [hc] at this; omega
    have hmem : ∀ sd, ∀ x ∈ updS H o.side (emplace (ahead o.side) ⟨o.limit, i, { o with quantity := rem }⟩ (H o.side)) sd,
        x ∈ H sd ∨ (sd = o.side ∧ x = ⟨o.limit, i, { o with quantity := rem }⟩) := by
      intro sd x hx
      by_cases hsd : sd = o.side
      · subst hsd
        rw [updS_same] at hx
        rcases (Book.mem_emplace ..).1 hx with rfl | hx
        · exact .inr ⟨rfl, rfl⟩
        · exact .inl hx
      · rw [updS_ne _ _ hsd] at hx; exact .inl hx
    refine ⟨?_, ?_, ?_, ?_, ?_⟩
    · refine hcore.congrQ ?_
      refine queue_updS o.side hother ?_ hat2
      rw [queue_one o.side hother]
      exact hat1
    · intro sd x hx
      rcases hmem sd x hx with hx | ⟨rfl, rfl⟩
      · exact h.ok sd x hx
      · exact ⟨hV, rfl, rfl, hrem⟩
    · intro sd
      by_cases hsd : sd = o.side
      · subst hsd
        rw [updS_same]
        exact emplace_sorted_lev F o.side ⟨o.limit, i, { o with quantity := rem }⟩ hV (H o.side) hVs (h.sorted _)
      · rw [updS_ne _ _ hsd]; exact h.sorted sd
    · intro sd
      have hbest := h.best sd
      by_cases hsd : sd = o.side
      · subst hsd
        unfold bestOf at hbest ⊢
        rw [updS_same, head_emplace]
        cases hH : H o.side with
        | nil =>
          rw [hH] at hbest
          cases hside : o.side <;> rw [hside] at hbest <;>
            simp only [SBook.best, worst, List.head?_nil, Option.map_none, Option.getD_none, afterPlace, hside, Option.map_some, Option.getD_some] at hbest ⊢ <;> omega
        | cons x q =>
          rw [hH] at hbest
          have hx := hVs x (by rw [hH]; simp)
          have hai := Book.ahead_iff o.side o.limit x.key
          have hr := F.rank_le o.side hx hV
          simp only
          cases hside : o.side <;> rw [hside] at hbest hai hr <;>
            simp only [SBook.best, List.head?_cons, Option.map_some, Option.getD_some, rank] at hbest hai hr
          · by_cases ha' : ahead Side.buy o.limit x.key = true
            · rw [if_pos ha']
              simp only [SBook.best, afterPlace, hside, Option.map_some, Option.getD_some]
              have := hai.1 ha'
              omega
            · rw [if_neg ha']
              simp only [SBook.best, afterPlace, hside, Option.map_some, Option.getD_some]
              have : ¬ _ := fun hh => ha' (hai.2 hh)
              omega
          · by_cases ha' : ahead Side.sell o.limit x.key = true
            · rw [if_pos ha']
              simp only [SBook.best, afterPlace, hside, Option.map_some, Option.getD_some]
              have := hai.1 ha'
              omega
            · rw [if_neg ha']
              simp only [SBook.best, afterPlace, hside, Option.map_some, Option.getD_some]
              have : ¬ _ := fun hh => ha' (hai.2 hh)
              omega
      · unfold bestOf at hbest ⊢
        rw [updS_ne _ _ hsd, ← hbest]
        cases sd <;> cases hside : o.side <;> simp only [SBook.best, afterPlace, hside] <;> exact absurd hside.symm hsd
    · intro x hx y hy
      rcases hmem _ x hx with hx | ⟨hs1, rfl⟩ <;> rcases hmem _ y hy with hy | ⟨hs2, rfl⟩
      · exact h.uncrossed x hx y hy
      · rw [← hs2] at hno
        have := hno x hx
        simp only [rank, Book.Side.other] at this
        show lev k x.key < lev k o.limit
        omega
      · rw [← hs1] at hno
        have := hno y hy
        simp only [rank, Book.Side.other] at this
        show lev k o.limit < lev k y.key
        omega
      · rw [← hs1] at hs2; cases hs2

/-! ### Best prices -/

theorem Sim.best_level (h : Sim k V cap s H issued) (F : Spec.Faithful k V) (sd : Side) :
    s.level k (s.best sd) >>= (fun lv => .ok (lv.1.map fun _ => k.decode (s.best sd))) = .ok ((H sd).head?.map (·.key)) := by
  cases hH : H sd with
  | nil =>
    have hb : s.best sd = worst k sd := by rw [h.best, bestOf, hH]; rfl
    have hN := F.some_level
    have hin : 0 ≤ worst k sd ∧ worst k sd < k.levels := by cases sd <;> simp only [worst] <;> omega
    have hlv := h.core.levels (worst k sd).toNat (by omega)
    have hq : queue k H (worst k sd).toNat = [] := by
      rw [List.eq_nil_iff_forall_not_mem]
      intro e he
      obtain ⟨sd', he1, he2⟩ := mem_queue.1 he
      have := F.lev (h.ok sd' e he1).1
      cases sd <;> simp only [worst] at he2 <;> omega
    rw [hb]
    unfold SBook.level
    rw [if_pos hin, hlv, hq]
    rfl
  | cons e t =>
    have he : e ∈ H sd := by rw [hH]; simp
    have hb := h.head_best sd hH
    have hl := h.level_lt F sd he
    have hlv := h.core.levels (lev k e.key) hl
    rw [h.queue_head sd hH] at hlv
    rw [hb]
    unfold SBook.level
    rw [if_pos (by omega)]
    simp only [Outcome.bind_ok, Int.toNat_natCast]
    rw [hlv, (F.lev (h.ok sd e he).1).2.2.2]
    rfl

theorem Sim.bid_eq (h : Sim k V cap s H issued) (F : Spec.Faithful k V) : s.bid k = .ok ((H .buy).head?.map (·.key)) := h.best_level F .buy
theorem Sim.ask_eq (h : Sim k V cap s H issued) (F : Spec.Faithful k V) : s.ask k = .ok ((H .sell).head?.map (·.key)) := h.best_level F .sell

/-! ### Insertion -/

/-- The test for direct execution. -/
def SBook.crossesBest (k : Coding) (b : SBook) (o : Order) : Outcome Bool :=
  match o.side with
  | .buy => b.ask k >>= fun a => .ok (a.any fun p => decide (o.limit ≥ p))
  | .sell => b.bid k >>= fun a => .ok (a.any fun p => decide (o.limit ≤ p))

theorem Sim.crossesBest (h : Sim k V cap s H issued) (F : Spec.Faithful k V) (o : Order) :
    s.crossesBest k o = .ok ((H o.side.other).head?.any fun e => crossing o e.key) := by
  unfold SBook.crossesBest
  cases hs : o.side with
  | buy =>
    simp only [h.ask_eq F, Outcome.bind_ok, Book.Side.other]
    unfold crossing
    rw [hs]
    cases (H Side.sell).head? <;> rfl
  | sell =>
    simp only [h.bid_eq F, Outcome.bind_ok, Book.Side.other]
    unfold crossing
    rw [hs]
    cases (H Side.buy).head? <;> rfl

/-- `insert` for both sides. -/
theorem insert_eq (b : SBook) (o : Order) (l : Nat) (hv : k.valid o.limit = true) (hq : o.quantity ≠ 0) (he : k.encode o.limit = some (l : Int))
    (hl : l < k.levels) : b.insert k o =
      (b.crossesBest k o >>= fun x =>
        if x then
          matchLevels k o (dirOf o.side) ((rank o.side.other l + 1 - rank o.side.other (b.best o.side.other)).toNat) (b.best o.side.other) o.quantity b >>=
            fun y => y.2.rest o l y.1
        else if o.lifetime = .immediateOrCancel ∨ o.lifetime = .fillOrKill then
          .ok { b with reports := b.reports ++ [⟨.cancel, o.side, o.quantity, directOrder, o.limit, o.owner⟩] }
        else b.rest o l o.quantity) := by
  unfold SBook.insert
  rw [if_neg (by simp [hv, hq]), he]
  simp only
  rw [if_neg (by omega), if_neg (by omega)]
  unfold SBook.crossesBest
  obtain ⟨lt, sd, sy, ow, li, q⟩ := o
  cases sd
  · rfl
  · simp only
    congr 1
    funext x
    cases x
    · rfl
    · simp only [if_true, dirOf, Book.Side.other, rank, SBook.best]
      have : (b.bestBid + 1 - (l : Int)) = (-(l : Int) + 1 - -b.bestBid) := by omega
      rw [this]
      rfl

/-- The matching part of an insertion. -/
theorem Sim.matching (h : Sim k V cap s H issued) (F : Spec.Faithful k V) (o : Order) (hV : V o.limit) :
    let m := matchLoop (crossing o) o o.quantity (H o.side.other)
    ((H o.side.other).head?.any (fun e => crossing o e.key) = false → m = ⟨o.quantity, H o.side.other, [], []⟩) ∧
    ((H o.side.other).head?.any (fun e => crossing o e.key) = true → ∃ s',
      matchLevels k o (dirOf o.side) ((rank o.side.other (lev k o.limit) + 1 - rank o.side.other (s.best o.side.other)).toNat) (s.best o.side.other) o.quantity s
        = .ok (m.remainder, s') ∧
      Sim k V cap s' (updS H o.side.other m.resting) issued ∧ s'.reports = s.reports ++ m.reports) := by
  intro m
  refine ⟨?_, ?_⟩
  · intro hx
    apply matchLoop_stop
    intro e he
    cases hh : (H o.side.other).head? with
    | none => rw [hh] at he; cases he
    | some g =>
      rw [hh] at he hx
      cases he
      simpa using hx
  · intro hx
    obtain ⟨e, t, hH⟩ : ∃ e t, H o.side.other = e :: t := by
      cases hh : H o.side.other with
      | nil => rw [hh] at hx; cases hx
      | cons a b => exact ⟨a, b, rfl⟩
    rw [hH] at hx
    have hx : crossing o e.key = true := by simpa using hx
    have he : e ∈ H o.side.other := by rw [hH]; simp
    have hVe := (h.ok _ e he).1
    have hb := h.head_best _ hH
    have hxr := (F.rank_le o.side.other hVe hV).1 ((Book.crossing_iff ..).1 hx)
    have hsort := h.sorted o.side.other
    rw [hH] at hsort
    have hLe := F.lev hVe
    have hLo := F.lev hV
    have hN : ((rank o.side.other (lev k o.limit) + 1 - rank o.side.other (lev k e.key : Int)).toNat : Int) =
        rank o.side.other (lev k o.limit) + 1 - rank o.side.other (lev k e.key) := by omega
    obtain ⟨s', he', hsim, hrep⟩ := matchLevels_spec F o ((rank o.side.other (lev k o.limit) + 1 - rank o.side.other (lev k e.key : Int)).toNat)
      (lev k e.key) o.quantity s H h (.inr (by
        rw [hH]
        intro f hf
        rcases List.mem_cons.1 hf with rfl | hf
        · exact Int.le_refl _
        · exact (List.pairwise_cons.1 hsort).1 f hf)) (by
        intro f hf
        exact h.rank_lt o.side.other he (by rw [other_other]; exact hf)) (by
        intro j hj
        have hj' : (j : Int) < rank o.side.other (lev k o.limit) + 1 - rank o.side.other (lev k e.key) := by omega
        cases hs : o.side <;> rw [hs] at hj' <;> simp only [rank, Book.Side.other, dirOf] at hj' ⊢ <;> omega)
    rw [hb]
    have hmm : matchLoop (fun x => decide (rank o.side.other (lev k x) < rank o.side.other (lev k e.key) +
        ((rank o.side.other (lev k o.limit) + 1 - rank o.side.other (lev k e.key : Int)).toNat : Int))) o o.quantity (H o.side.other) = m := by
      rw [hN]
      have hcongr : ∀ (c1 c2 : Int → Bool) (rem : Nat) (L : List Entry), (∀ x ∈ L, c1 x.key = c2 x.key) → matchLoop c1 o rem L = matchLoop c2 o rem L := by
        intro c1 c2 rem L
        induction L generalizing rem with
        | nil => intro _; rfl
        | cons x L ih =>
          intro hc
          rw [matchLoop, matchLoop, hc x (by simp)]
          simp only [ih _ fun y hy => hc y (List.mem_cons_of_mem _ hy)]
      apply hcongr
      intro x hx
      have h1 := F.rank_le o.side.other (h.ok _ x hx).1 hV
      have h2 := Book.crossing_iff o x.key
      have h3 : (rank o.side.other (lev k x.key) < rank o.side.other (lev k e.key) + (rank o.side.other (lev k o.limit) + 1 - rank o.side.other (lev k e.key : Int))) ↔
          crossing o x.key = true := by
        rw [h2, h1]; omega
      rw [decide_eq_decide.2 h3, Bool.decide_coe]
    rw [hmm] at he' hsim hrep
    exact ⟨s', he', hsim, hrep⟩

/-- What is left on the other side does not cross if there is a remainder. -/
theorem Sim.no_crossing_left (h : Sim k V cap s H issued) (F : Spec.Faithful k V) (o : Order) (hV : V o.limit)
    (hr : 0 < (matchLoop (crossing o) o o.quantity (H o.side.other)).remainder) :
    ∀ f ∈ (matchLoop (crossing o) o o.quantity (H o.side.other)).resting,
      rank o.side.other (lev k o.limit) < rank o.side.other (lev k f.key) := by
  have hres := Book.matchLoop_result (crossing o) o o.quantity (H o.side.other) (fun x hx => (h.ok _ x hx).2.2.2)
  cases hres with
  | part full rest e x hl hx hxe h0 hlt hr' h1 hm hp he => omega
  | stop full rest hl hx hr' hm hp he hs =>
    rcases hs with hs | hs
    · omega
    · rw [hm]
      intro f hf
      cases hrest : rest with
      | nil => rw [hrest] at hf; cases hf
      | cons a b =>
        have ha := hs a (by rw [hrest]; rfl)
        have haH : a ∈ H o.side.other := by rw [hl, hrest]; simp
        have h1 := F.rank_le o.side.other (h.ok _ a haH).1 hV
        have h2 := Book.crossing_iff o a.key
        have h3 : ¬ rank o.side.other (lev k a.key) ≤ rank o.side.other (lev k o.limit) := by
          rw [← h1, ← h2, ha]; simp
        have hs2 := h.sorted o.side.other
        rw [hl, hrest] at hs2
        rw [hrest] at hf
        rcases List.mem_cons.1 hf with rfl | hf
        · omega
        · have := (List.pairwise_cons.1 (List.pairwise_append.1 hs2).2.1).1 f hf
          omega

/-- Insertion of an order. -/
theorem Sim.insert (h : Sim k V cap s H issued) (F : Spec.Faithful k V) (o : Order) (hV : V o.limit) (hq : 0 < o.quantity)
    (hn : (2 * issued.length + 3) * cap < 2 ^ 64) :
    let m := matchLoop (crossing o) o o.quantity (H o.side.other)
    (m.remainder = 0 → ∃ s', s.insert k o = .ok s' ∧ Sim k V cap s' (updS H o.side.other m.resting) issued ∧ s'.reports = s.reports ++ m.reports) ∧
    (0 < m.remainder → (o.lifetime = .immediateOrCancel ∨ o.lifetime = .fillOrKill ∧ m.reports = []) →
      ∃ s', s.insert k o = .ok s' ∧ Sim k V cap s' (updS H o.side.other m.resting) issued ∧
        s'.reports = s.reports ++ m.reports ++ [⟨.cancel, o.side, m.remainder, directOrder, o.limit, o.owner⟩]) ∧
    (0 < m.remainder → ¬ (o.lifetime = .immediateOrCancel ∨ o.lifetime = .fillOrKill ∧ m.reports = []) →
      (s.insert k o = .throws ∧ m.resting.length + (H o.side).length = cap) ∨
      ∃ i s', s.insert k o = .ok s' ∧ m.resting.length + (H o.side).length < cap ∧ (∀ j ∈ issued, j < i) ∧
        Sim k V cap s' (updS (updS H o.side.other m.resting) o.side (emplace (ahead o.side) ⟨o.limit, i, { o with quantity := m.remainder }⟩ (H o.side)))
          (issued ++ [i]) ∧
        s'.reports = s.reports ++ m.reports ++ [⟨.placement, o.side, m.remainder, i, o.limit, o.owner⟩]) := by
  intro m
  obtain ⟨hle, hl0, hlN, hld⟩ := F.lev hV
  have heq := insert_eq s o (lev k o.limit) (F.valid _ hV) (by omega) hle (by omega)
  rw [h.crossesBest F o] at heq
  simp only [Outcome.bind_ok] at heq
  obtain ⟨hm0, hm1⟩ := h.matching F o hV
  have hne : o.side ≠ o.side.other := ne_other _
  -- after matching, the remainder is treated the same in both cases
  obtain ⟨s1, hsim, hrep, hins⟩ : ∃ s1, Sim k V cap s1 (updS H o.side.other m.resting) issued ∧ s1.reports = s.reports ++ m.reports ∧
      s.insert k o = if 0 < m.remainder ∧ o.lifetime = .fillOrKill ∧ m.reports = [] then
        .ok { s1 with reports := s1.reports ++ [⟨.cancel, o.side, m.remainder, directOrder, o.limit, o.owner⟩] } else s1.rest o (lev k o.limit) m.remainder := by
    cases hx : (H o.side.other).head?.any (fun e => crossing o e.key) with
    | false =>
      have hm := hm0 hx
      have hm' : m = ⟨o.quantity, H o.side.other, [], []⟩ := hm
      rw [hx] at heq
      refine ⟨s, ?_, ?_, ?_⟩
      · rw [hm', updS_self]; exact h
      · rw [hm']; simp
      · rw [heq, hm']
        simp only [Bool.false_eq_true, if_false, and_true]
        by_cases hfok : o.lifetime = .fillOrKill
        · rw [if_pos (.inr hfok), if_pos ⟨hq, hfok⟩]
        · rw [if_neg (c := 0 < o.quantity ∧ _) (fun hc => hfok hc.2)]
          by_cases hioc : o.lifetime = .immediateOrCancel
          · rw [if_pos (.inl hioc)]
            unfold SBook.rest
            rw [if_neg (by omega), if_pos hioc]
          · rw [if_neg (by rintro (h | h); exact hioc h; exact hfok h)]
    | true =>
      obtain ⟨s1, he1, hsim1, hrep1⟩ := hm1 hx
      rw [hx] at heq
      refine ⟨s1, hsim1, hrep1, ?_⟩
      rw [heq]
      simp only [if_true]
      rw [he1]
      simp only [Outcome.bind_ok]
      rw [if_neg]
      rintro ⟨_, _, hr⟩
      -- a crossing order is executed at least in part
      cases hH : H o.side.other with
      | nil => rw [hH] at hx; cases hx
      | cons e t =>
        rw [hH] at hx
        have hx : crossing o e.key = true := by simpa using hx
        have hqe := (h.ok _ e (by rw [hH]; simp)).2.2.2
        have : m = matchLoop (crossing o) o o.quantity (e :: t) := by rw [← hH]
        rw [this] at hr
        by_cases hlt : o.quantity < e.order.quantity
        · rw [matchLoop_part _ o _ e t hx hq hlt] at hr; cases hr
        · rw [matchLoop_exhaust _ o _ e t hx hqe (by omega)] at hr; cases hr
  refine ⟨?_, ?_, ?_⟩
  · intro hr
    refine ⟨s1, ?_, hsim, hrep⟩
    rw [hins, if_neg (by omega), hr]
    unfold SBook.rest
    rw [if_pos rfl]
  · intro hr hlt
    by_cases hf : 0 < m.remainder ∧ o.lifetime = .fillOrKill ∧ m.reports = []
    · refine ⟨{ s1 with reports := s1.reports ++ [⟨.cancel, o.side, m.remainder, directOrder, o.limit, o.owner⟩] },
        hins.trans (if_pos hf), ⟨hsim.core, hsim.ok, hsim.sorted, fun sd => ?_, hsim.uncrossed⟩, by rw [← hrep]⟩
      rw [← hsim.best sd]
      cases sd <;> rfl
    · have hioc : o.lifetime = .immediateOrCancel := by
        rcases hlt with h | h
        · exact h
        · exact absurd ⟨hr, h⟩ hf
      refine ⟨{ s1 with reports := s1.reports ++ [⟨.cancel, o.side, m.remainder, directOrder, o.limit, o.owner⟩] }, ?_,
        ⟨hsim.core, hsim.ok, hsim.sorted, fun sd => ?_, hsim.uncrossed⟩, by rw [← hrep]⟩
      · rw [hins, if_neg hf]
        unfold SBook.rest
        rw [if_neg (by omega), if_pos hioc]
      · rw [← hsim.best sd]
        cases sd <;> rfl
  · intro hr hlt
    have hf : ¬ (0 < m.remainder ∧ o.lifetime = .fillOrKill ∧ m.reports = []) := fun hc => hlt (.inr hc.2)
    have hioc : ¬ o.lifetime = .immediateOrCancel := fun hc => hlt (.inl hc)
    have hplace : s.insert k o = s1.place o (lev k o.limit) m.remainder := by
      rw [hins, if_neg hf]
      unfold SBook.rest
      rw [if_neg (by omega), if_neg hioc]
    have hsize : s1.pool.size = m.resting.length + (H o.side).length := by
      rw [hsim.size F]
      cases hs : o.side <;> simp only [Book.Side.other, updS] <;> simp <;> omega
    have hno := h.no_crossing_left F o hV hr
    rcases hsim.place F o hV m.remainder hr (by rw [updS_same]; exact hno) hn with ⟨h1, h2⟩ | ⟨i, s', h1, h2, h3, h4, h5⟩
    · left
      exact ⟨by rw [hplace, h1], by omega⟩
    · right
      rw [updS_ne _ _ hne] at h5
      refine ⟨i, s', by rw [hplace, h1], by omega, h3, h5, ?_⟩
      rw [h4, hrep]

/-! ### Cancellation -/

theorem level_range (b : SBook) (l : Nat) (h : l < k.levels) : b.level k (l : Int) = .ok (b.levels l) := by
  unfold SBook.level
  rw [if_pos (by omega)]; rfl

theorem filter_split {e : Entry} {A B : List Entry} (hA : ∀ x ∈ A, x.id ≠ e.id) (hB : ∀ x ∈ B, x.id ≠ e.id) :
    (A ++ e :: B).filter (fun x => x.id != e.id) = A ++ B := by
  rw [List.filter_append, List.filter_cons_of_neg (by simp)]
  congr 1
  · rw [List.filter_eq_self]; intro x hx; simpa using hA x hx
  · rw [List.filter_eq_self]; intro x hx; simpa using hB x hx

/-- The remaining orders of a side after one was cancelled. -/
def without (i : Nat) (l : List Entry) : List Entry := l.filter fun x => x.id != i

/-- The effect of cancelling a resting order. -/
theorem Sim.cancel_core (h : Sim k V cap s H issued) (F : Spec.Faithful k V) (sd : Side) (e : Entry) (he : e ∈ H sd) :
    ∃ s', s.cancel k e.id = .ok s' ∧ s'.reports = s.reports ++ [⟨.cancel, sd, e.order.quantity, e.id, e.order.limit, e.order.owner⟩] ∧
      (∀ t, s'.best t = s.best t) ∧ Core k.levels cap s'.pool s'.levels (queue k (updS H sd (without e.id (H sd)))) issued := by
  have hok := h.ok sd e he
  have hl := h.level_lt F sd he
  have hF := F.lev hok.1
  have hmem : e ∈ queue k H (lev k e.key) := mem_queue.2 ⟨sd, he, rfl⟩
  obtain ⟨A, B, hq⟩ := List.append_of_mem hmem
  have hcap := h.core.capacity
  have hlk := h.core.linked _ hl
  rw [hq] at hlk
  have hrec := hlk.mid
  rw [Option.or_none] at hrec
  have hnd := h.core.nodup _ hl
  rw [hq, List.map_append, List.map_cons, List.nodup_append] at hnd
  have hA : ∀ x ∈ A, x.id ≠ e.id := fun x hx hc =>
    hnd.2.2 _ (List.mem_map.2 ⟨x, hx, rfl⟩) _ (List.mem_cons_self ..) hc
  have hB : ∀ x ∈ B, x.id ≠ e.id := fun x hx hc =>
    (List.nodup_cons.1 hnd.2.1).1 (List.mem_map.2 ⟨x, hx, hc⟩)
  obtain ⟨hone, hcore⟩ := h.core.remove hl hq k.record
  -- the side in the report
  have hside : (if ((H .buy).head?.map (·.key)).any (fun p => decide (¬ p < e.order.limit)) then Side.buy else .sell) = sd := by
    rw [hok.2.1]
    cases hH : H .buy with
    | nil =>
      cases sd
      · rw [hH] at he; cases he
      · rfl
    | cons g t =>
      have hg := h.ok .buy g (by rw [hH]; simp)
      cases sd with
      | buy =>
        have hs := h.sorted .buy
        rw [hH] at hs he
        have : ¬ g.key < e.key := by
          rw [F.lt_iff hg.1 hok.1]
          rcases List.mem_cons.1 he with rfl | he'
          · omega
          · have := (List.pairwise_cons.1 hs).1 e he'
            simp only [rank] at this
            omega
        simp [this]
      | sell =>
        have := h.uncrossed g (by rw [hH]; simp) e he
        have : g.key < e.key := (F.lt_iff hg.1 hok.1).2 this
        simp [this]
  -- the pointers of the level
  obtain ⟨first, tl, hfirst⟩ : ∃ a b, A ++ e :: B = a :: b := by
    cases A with
    | nil => exact ⟨_, _, rfl⟩
    | cons a A => exact ⟨_, _, rfl⟩
  obtain ⟨last, hlast⟩ : ∃ z, (A ++ e :: B).getLast? = some z := by rw [hfirst]; exact ⟨_, List.getLast?_cons⟩
  have hlv := h.core.levels _ hl
  rw [hq, hlast, hfirst] at hlv
  have hfm : first ∈ queue k H (lev k e.key) := by rw [hq, hfirst]; simp
  have hlm : last ∈ queue k H (lev k e.key) := by rw [hq]; exact List.mem_of_getLast? hlast
  have hif := h.core.index hl hfm
  have hil := h.core.index hl hlm
  have hp1 : (if s.pool.index (slot cap first) = e.id then (s.pool.data (slot cap first)).succ else some (slot cap first)) =
      (A ++ B).head?.map (slot cap) := by
    rw [hif]
    cases A with
    | nil =>
      have : e = first := by injection hfirst
      subst this
      rw [if_pos rfl, hrec]; rfl
    | cons a A =>
      have : a = first := by injection hfirst
      subst this
      rw [if_neg (hA a (by simp))]; rfl
  have hp2 : (if s.pool.index (slot cap last) = e.id then (s.pool.data (slot cap last)).pred else some (slot cap last)) =
      (A ++ B).getLast?.map (slot cap) := by
    rw [hil]
    cases B with
    | nil =>
      rw [List.getLast?_concat] at hlast
      cases hlast
      rw [if_pos rfl, hrec, List.append_nil]
    | cons b B =>
      have hz : (b :: B).getLast? = some last := by
        rw [List.getLast?_append, List.getLast?_cons_cons] at hlast
        cases hb : (b :: B).getLast? with
        | none => rw [List.getLast?_cons] at hb; cases hb
        | some z => rw [hb] at hlast; exact hlast
      have hlB : last ∈ b :: B := List.mem_of_getLast? hz
      rw [if_neg (hB last hlB), List.getLast?_append, hz]; rfl
  have hkey : k.encode e.order.limit = some (lev k e.key : Int) := by rw [hok.2.1]; exact hF.1
  have hlevel := level_range (k := k) s _ hl
  have hex : s.cancel k e.id = .ok
      ⟨modify (relink (relink (s.pool.erase e.id).2 (A.getLast?.map (slot cap)) fun q => { q with succ := B.head?.map (slot cap) })
        (B.head?.map (slot cap)) fun q => { q with pred := A.getLast?.map (slot cap) }) (slot cap e) fun _ => k.record,
       upd s.levels (lev k e.key) ((A ++ B).head?.map (slot cap), (A ++ B).getLast?.map (slot cap)), s.bestBid, s.bestAsk,
       s.reports ++ [⟨.cancel, sd, e.order.quantity, e.id, e.order.limit, e.order.owner⟩]⟩ := by
    unfold SBook.cancel
    have hsl : e.id % s.pool.capacity = slot cap e := by rw [hcap]
    simp only [hsl, hrec, h.bid_eq F, Outcome.bind_ok, hkey, hlevel, hlv, List.head?_cons, Option.map_some]
    rw [hp1, hp2, hside]
    have e1 : ((s.setLevel (lev k e.key : Int).toNat ((A ++ B).head?.map (slot cap), (A ++ B).getLast?.map (slot cap))).pool.erase e.id) = s.pool.erase e.id := rfl
    rw [e1]
    generalize hE : s.pool.erase e.id = E at hone ⊢
    obtain ⟨n1, pE⟩ := E
    simp only at hone
    subst hone
    simp only [Nat.one_ne_zero, if_false]
    cases A.getLast? <;> cases B.head? <;> rfl
  refine ⟨_, hex, rfl, fun t => by cases t <;> rfl, ?_⟩
  refine hcore.congrQ ?_
  have hapart : ∀ f ∈ H sd.other, lev k f.key ≠ lev k e.key := fun f hf => h.apart sd he hf
  have hqs := queue_one (k := k) sd hapart
  refine queue_updS sd hapart ?_ ?_
  · unfold without atLevel
    rw [List.filter_filter]
    have : (H sd).filter (fun a => (lev k a.key == lev k e.key) && (a.id != e.id)) =
        (atLevel k (lev k e.key) (H sd)).filter (fun x => x.id != e.id) := by
      unfold atLevel
      rw [List.filter_filter]
      congr 1
      funext a
      exact Bool.and_comm ..
    rw [this, ← hqs, hq, filter_split hA hB]
  · intro m hm
    unfold without atLevel
    rw [List.filter_filter]
    apply List.filter_congr
    intro x hx
    by_cases hxe : x.id = e.id
    · have : x = e := by
        have hxl := h.level_lt F sd hx
        by_cases hxx : lev k x.key = lev k e.key
        · exact id_inj (h.core.nodup _ hl) (mem_queue.2 ⟨sd, hx, hxx⟩) hmem hxe
        · exact absurd hxe (h.core.apart _ _ hxl hl hxx x (mem_queue.2 ⟨sd, hx, rfl⟩) e hmem)
      subst this
      have : (lev k x.key == m) = false := by simp; omega
      simp [this]
    · simp [hxe]

theorem head_without (sd : Side) (L : List Entry) (hs : L.Pairwise fun a b => rank sd (lev k a.key) ≤ rank sd (lev k b.key)) (i : Nat)
    (f : Entry) (hf : f ∈ L) (hfi : f.id ≠ i) (g : Entry) (hg : L.head? = some g) (hfg : lev k f.key = lev k g.key) :
    (without i L).head?.map (fun e => lev k e.key) = some (lev k g.key) := by
  cases hw : without i L with
  | nil =>
    have : f ∈ without i L := List.mem_filter.2 ⟨hf, by simpa using hfi⟩
    rw [hw] at this; cases this
  | cons x t =>
    have hsub : (without i L).Sublist L := List.filter_sublist
    have hx : x ∈ L := hsub.subset (by rw [hw]; simp)
    have hs' := hs.sublist hsub
    rw [hw] at hs'
    have hfx : rank sd (lev k x.key) ≤ rank sd (lev k f.key) := by
      have : f ∈ without i L := List.mem_filter.2 ⟨hf, by simpa using hfi⟩
      rw [hw] at this
      rcases List.mem_cons.1 this with rfl | h
      · exact Int.le_refl _
      · exact (List.pairwise_cons.1 hs').1 f h
    have hgx : rank sd (lev k g.key) ≤ rank sd (lev k x.key) := by
      cases L with
      | nil => cases hg
      | cons a b =>
        cases hg
        rcases List.mem_cons.1 hx with rfl | h
        · exact Int.le_refl _
        · exact (List.pairwise_cons.1 hs).1 x h
    rw [hfg] at hfx
    show some (lev k x.key) = _
    congr 1
    cases sd <;> simp only [rank] at hfx hgx <;> omega

/-- Cancelling an order when another one is resting at the best price of its side. -/
theorem Sim.cancel (h : Sim k V cap s H issued) (F : Spec.Faithful k V) (sd : Side) (e : Entry) (he : e ∈ H sd)
    (f : Entry) (hf : f ∈ H sd) (hfi : f.id ≠ e.id) (hfb : ∀ g ∈ (H sd).head?, f.key = g.key) :
    ∃ s', s.cancel k e.id = .ok s' ∧ s'.reports = s.reports ++ [⟨.cancel, sd, e.order.quantity, e.id, e.order.limit, e.order.owner⟩] ∧
      Sim k V cap s' (updS H sd (without e.id (H sd))) issued := by
  obtain ⟨s', h1, h2, h3, h4⟩ := h.cancel_core F sd e he
  refine ⟨s', h1, h2, h4, ?_, ?_, ?_, ?_⟩
  · intro t x hx
    by_cases ht : t = sd
    · subst ht
      rw [updS_same] at hx
      exact h.ok t x (List.mem_filter.1 hx).1
    · rw [updS_ne _ _ ht] at hx; exact h.ok t x hx
  · intro t
    by_cases ht : t = sd
    · subst ht
      rw [updS_same]
      exact (h.sorted t).sublist List.filter_sublist
    · rw [updS_ne _ _ ht]; exact h.sorted t
  · intro t
    rw [h3, h.best]
    by_cases ht : t = sd
    · subst ht
      unfold bestOf
      rw [updS_same]
      cases hh : (H t).head? with
      | none =>
        cases hH : H t with
        | nil => rw [hH] at hf; cases hf
        | cons a b => rw [hH] at hh; cases hh
      | some g =>
        have := head_without (k := k) t (H t) (h.sorted t) e.id f hf hfi g hh (by rw [hfb g (by rw [hh]; rfl)])
        cases hw : (without e.id (H t)).head? with
        | none => rw [hw] at this; cases this
        | some x =>
          rw [hw] at this
          have : lev k x.key = lev k g.key := by injection this
          show (lev k g.key : Int) = (lev k x.key : Int)
          rw [this]
    · unfold bestOf; rw [updS_ne _ _ ht]
  · intro x hx y hy
    refine h.uncrossed x ?_ y ?_
    · cases sd
      · rw [updS_same] at hx; exact (List.mem_filter.1 hx).1
      · exact hx
    · cases sd
      · exact hy
      · rw [updS_same] at hy; exact (List.mem_filter.1 hy).1

/-- A new book. -/
theorem Sim.make (F : Spec.Faithful k V) (capacity : Nat) (b : SBook) (h : make k capacity = .ok b) :
    Sim k V capacity b (fun _ => []) [] ∧ b.reports = [] := by
  unfold Static.make at h
  rw [if_neg (by have := F.some_level; omega)] at h
  obtain ⟨p, hp, hb⟩ := Outcome.bind_eq_ok.1 h
  cases hb
  have hpool : Pool.make () capacity = .ok (forget p) := by
    unfold Pool.make at hp ⊢
    split at hp
    · cases hp
    · rename_i hc
      rw [if_neg hc]
      cases hp
      rfl
  have hinv := Pool.make_inv () capacity _ hpool
  refine ⟨⟨⟨⟨[], _, hinv, ?_⟩, ?_, ?_, ?_, ?_⟩, ?_, ?_, ?_, ?_⟩, rfl⟩
  · intro i
    simp [queue, atLevel]
  · intro l _; rfl
  · intro l _; trivial
  · intro l _; exact .nil
  · intro l m _ _ _ e he; cases he
  · intro sd e he; cases he
  · intro sd; exact .nil
  · intro sd; cases sd <;> rfl
  · intro e he; cases he

end Esl.Static
