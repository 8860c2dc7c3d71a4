import Verif.Lemmas.StaticSim
/-! Helper lemmas for the static order book: the matching loops. -/
namespace Esl.Static
open Esl.Book (Side Lifetime Order Status Report directOrder Entry rank matchLoop Matched emplace crossing ahead pairOf)
open Esl.Pool (Pool upd)
variable {k : Coding} {V : Int → Prop} {cap : Nat} {s : SBook} {H : Halves} {issued : List Nat}

/-- One round of the loop: the order in block `ao` is larger than the remainder. -/
theorem matchAtLevel_part (o : Order) (l fuel rem ao : Nat) (b : SBook) (h0 : 0 < rem) (hlt : rem < (b.pool.data ao).quantity) :
    matchAtLevel k o l (fuel + 1) rem ao b = .ok (0, ⟨modify b.pool ao (fun r => { r with quantity := r.quantity - rem }), b.levels, b.bestBid, b.bestAsk,
      b.reports ++ execReports o rem (b.pool.index ao) (k.decode l) (b.pool.data ao).owner⟩) := by
  unfold matchAtLevel
  have : ¬ (b.pool.data ao).quantity ≤ rem := by omega
  simp only [if_pos h0, this, decide_false, Bool.false_eq_true, if_false]
  rfl

/-- One round of the loop: the order in block `ao` is exhausted. -/
theorem matchAtLevel_exhaust (o : Order) (l fuel rem ao : Nat) (b : SBook) (h0 : 0 < rem) (hle : (b.pool.data ao).quantity ≤ rem) :
    matchAtLevel k o l (fuel + 1) rem ao b =
      match (b.pool.data ao).succ with
      | some s => matchAtLevel k o l fuel (rem - (b.pool.data ao).quantity) s
          ⟨((detach (modify b.pool ao fun r => { r with quantity := 0 }) (b.pool.data ao).succ).erase (b.pool.index ao)).2,
            upd b.levels l ((b.pool.data ao).succ, (b.levels l).2), b.bestBid, b.bestAsk,
            b.reports ++ execReports o (b.pool.data ao).quantity (b.pool.index ao) (k.decode l) (b.pool.data ao).owner⟩
      | none => .ok (rem - (b.pool.data ao).quantity, SBook.clearLevel k o l
          ⟨((detach (modify b.pool ao fun r => { r with quantity := 0 }) (b.pool.data ao).succ).erase (b.pool.index ao)).2,
            upd b.levels l ((b.pool.data ao).succ, (b.levels l).2), b.bestBid, b.bestAsk,
            b.reports ++ execReports o (b.pool.data ao).quantity (b.pool.index ao) (k.decode l) (b.pool.data ao).owner⟩) := by
  rw [matchAtLevel]
  simp only [if_pos h0, hle, decide_true, if_true]
  cases (b.pool.data ao).succ with
  | none => rfl
  | some s => rfl

theorem execReports_pair (o : Order) (e : Entry) (x : Nat) (hs : e.order.side = o.side.other) :
    execReports o x e.id e.order.limit e.order.owner = pairOf o e x := by
  unfold execReports pairOf
  rw [hs]
  cases o.side <;> rfl

theorem Sim.record (h : Sim k V cap s H issued) (F : Spec.Faithful k V) (sd : Side) {e : Entry} {t : List Entry} (hH : H sd = e :: t) :
    s.pool.data (slot cap e) = ⟨some e.order.limit, e.order.quantity, e.order.owner, none,
      (atLevel k (lev k e.key) t).head?.map (slot cap)⟩ ∧ s.pool.index (slot cap e) = e.id ∧ k.decode (lev k e.key) = e.order.limit := by
  have he : e ∈ H sd := by rw [hH]; simp
  have hl := h.level_lt F sd he
  have hq := h.queue_head sd hH
  have hlk := h.core.linked _ hl
  rw [hq] at hlk
  refine ⟨hlk.1, h.core.index hl (by rw [hq]; simp), ?_⟩
  have := h.ok sd e he
  rw [(F.lev this.1).2.2.2, this.2.1]

theorem matchAtLevel_spec (F : Spec.Faithful k V) (o : Order) : ∀ (fuel rem : Nat) (s : SBook) (H : Halves) (e : Entry) (t : List Entry),
    Sim k V cap s H issued → H o.side.other = e :: t → 0 < rem → (queue k H (lev k e.key)).length ≤ fuel →
    ∃ s', matchAtLevel k o (lev k e.key) fuel rem (slot cap e) s =
        .ok ((matchLoop (fun x => lev k x == lev k e.key) o rem (H o.side.other)).remainder, s') ∧
      Sim k V cap s' (updS H o.side.other (matchLoop (fun x => lev k x == lev k e.key) o rem (H o.side.other)).resting) issued ∧
      s'.reports = s.reports ++ (matchLoop (fun x => lev k x == lev k e.key) o rem (H o.side.other)).reports := by
  intro fuel
  induction fuel with
  | zero =>
    intro rem s H e t h hH h0 hf
    rw [h.queue_head _ hH] at hf
    simp at hf
  | succ fuel ih =>
    intro rem s H e t h hH h0 hf
    have he : e ∈ H o.side.other := by rw [hH]; simp
    obtain ⟨hr, hix, hdec⟩ := h.record F o.side.other hH
    have hok := h.ok _ e he
    have hpair := execReports_pair o e
    have hcross : (fun x => lev k x == lev k e.key) e.key = true := by simp
    by_cases hlt : rem < e.order.quantity
    · have hex := matchAtLevel_part (k := k) o (lev k e.key) fuel rem (slot cap e) s h0 (by rw [hr]; exact hlt)
      have hm := matchLoop_part (fun x => lev k x == lev k e.key) o rem e t hcross h0 hlt
      rw [hH, hm]
      refine ⟨_, hex, ?_, ?_⟩
      · exact h.part F o.side.other hH rem hlt _ rfl rfl (fun t => by cases t <;> rfl)
      · rw [hr, hix, hdec]
        show s.reports ++ _ = _
        rw [hpair rem hok.2.2.1]
    · have hex := matchAtLevel_exhaust (k := k) o (lev k e.key) fuel rem (slot cap e) s h0 (by rw [hr]; show e.order.quantity ≤ rem; omega)
      have hm := matchLoop_exhaust (fun x => lev k x == lev k e.key) o rem e t hcross hok.2.2.2 (by omega)
      rw [hH, hm]
      rw [hr, hix, hdec] at hex
      simp only at hex
      rw [hpair e.order.quantity hok.2.2.1] at hex
      have hlv := h.core.levels _ (h.level_lt F _ he)
      rw [h.queue_head _ hH] at hlv
      have hf' := hf
      rw [h.queue_head _ hH, List.length_cons] at hf'
      cases hT : atLevel k (lev k e.key) t with
      | cons g T =>
        rw [hT] at hex hlv hf'
        simp only [List.head?_cons, Option.map_some] at hex
        -- the next entry is the head of the tail
        have hgt : g ∈ t ∧ lev k g.key = lev k e.key := mem_atLevel.1 (by rw [hT]; simp)
        obtain ⟨g', t', ht⟩ : ∃ g' t', t = g' :: t' := by
          cases t with
          | nil => cases hgt.1
          | cons a b => exact ⟨a, b, rfl⟩
        have hsort := h.sorted o.side.other
        rw [hH, ht] at hsort
        have hg'l : lev k g'.key = lev k e.key := by
          have h1 := (List.pairwise_cons.1 hsort).1 g' (by simp)
          have hgt' := hgt.1
          rw [ht] at hgt'
          rcases List.mem_cons.1 hgt' with rfl | hg2
          · exact hgt.2
          · have h2 := (List.pairwise_cons.1 (List.pairwise_cons.1 hsort).2).1 g hg2
            have h3 := hgt.2
            cases hs : o.side <;> rw [hs] at h1 h2 <;> simp only [rank, Book.Side.other] at h1 h2 <;> omega
        have hgg : g = g' := by
          rw [ht] at hT
          unfold atLevel at hT
          rw [List.filter_cons_of_pos (by simpa using hg'l)] at hT
          injection hT with h1 h2
          exact h1.symm
        subst hgg
        let s1 : SBook := ⟨((detach (modify s.pool (slot cap e) fun r => { r with quantity := 0 }) (some (slot cap g))).erase e.id).2,
            upd s.levels (lev k e.key) (some (slot cap g), (s.levels (lev k e.key)).2), s.bestBid, s.bestAsk,
            s.reports ++ pairOf o e e.order.quantity⟩
        have hbestg : bestOf k (updS H o.side.other t) o.side.other = lev k e.key := by
          unfold bestOf
          rw [updS_same, ht]
          show ((lev k g.key : Nat) : Int) = _
          rw [hg'l]
        have hs1 : Sim k V cap s1 (updS H o.side.other t) issued := by
          refine h.tail F o.side.other hH (fun r => { r with quantity := 0 }) s1 ?_ ?_ ?_ ?_
          · rw [hT]; rfl
          · rw [hT]
            show upd s.levels _ _ = _
            rw [hlv]
            congr 2
          · rw [hbestg, ← h.head_best _ hH]
            cases o.side <;> rfl
          · cases o.side <;> rfl
        by_cases hz : rem - e.order.quantity = 0
        · rw [hz] at hex
          rw [hz, Book.matchLoop_zero]
          refine ⟨s1, ?_, hs1, ?_⟩
          · refine hex.trans ?_
            cases fuel with
            | zero => simp at hf'
            | succ f => rw [matchAtLevel, if_neg (by omega)]
          · simp [s1]
        · have hq1 : queue k (updS H o.side.other t) (lev k g.key) = g :: T := by
            rw [hs1.queue_head o.side.other (e := g) (t := t') (by rw [updS_same, ht])]
            rw [ht] at hT
            unfold atLevel at hT
            rw [List.filter_cons_of_pos (by simpa using hg'l)] at hT
            injection hT with h1 h2
            rw [hg'l]
            unfold atLevel
            rw [h2]
          obtain ⟨s', he', hsim, hrep⟩ := ih (rem - e.order.quantity) s1 (updS H o.side.other t) g t' hs1 (by rw [updS_same, ht]) (by omega)
            (by rw [hq1]; omega)
          rw [hg'l, updS_same] at he' hsim hrep
          rw [updS_updS] at hsim
          refine ⟨s', hex.trans he', hsim, ?_⟩
          rw [hrep]
          simp [s1]
      | nil =>
        rw [hT] at hex hlv
        simp only [List.head?_nil, Option.map_none] at hex
        have hstop : matchLoop (fun x => lev k x == lev k e.key) o (rem - e.order.quantity) t = ⟨rem - e.order.quantity, t, [], []⟩ := by
          apply matchLoop_stop
          intro g hg
          have hgt : g ∈ t := List.mem_of_mem_head? hg
          have : g ∉ atLevel k (lev k e.key) t := by rw [hT]; simp
          simpa [mem_atLevel, hgt] using this
        rw [hstop]
        let s1 : SBook := ⟨((detach (modify s.pool (slot cap e) fun r => { r with quantity := 0 }) none).erase e.id).2,
            upd s.levels (lev k e.key) (none, (s.levels (lev k e.key)).2), s.bestBid, s.bestAsk,
            s.reports ++ pairOf o e e.order.quantity⟩
        have hcore : Core k.levels cap s1.pool (upd s.levels (lev k e.key) (none, none)) (queue k (updS H o.side.other t)) issued := by
          have := h.core.pop (h.level_lt F _ he) (h.queue_head _ hH) fun r => { r with quantity := 0 }
          rw [hT] at this
          refine this.congrQ ?_
          refine queue_updS o.side.other (fun f hf => h.apart o.side.other he hf) hT ?_
          intro m hm
          rw [hH]
          unfold atLevel
          rw [List.filter_cons_of_neg]
          simp
          omega
        obtain ⟨c1, c2, c3, c4, c5⟩ := h.cleared F o hH hT (upd s.levels (lev k e.key) (none, none))
          (fun m hm => by rw [hcore.levels m hm]) s1 (fun sd => by cases sd <;> rfl) (upd_upd ..)
        refine ⟨s1.clearLevel k o (lev k e.key), hex, ?_, ?_⟩
        · refine h.tail F o.side.other hH (fun r => { r with quantity := 0 }) _ ?_ ?_ c1 ?_
          · rw [c4, hT]; rfl
          · rw [c3, hT]; rfl
          · rw [other_other, c2]
        · rw [c5]
          simp [s1]

theorem Core.length_le {n : Nat} {p : Pool Record} {lv : Nat → Option Nat × Option Nat} {Q : Nat → List Entry}
    (h : Core n cap p lv Q issued) {l : Nat} (hl : l < n) : (Q l).length ≤ cap := by
  have h1 := h.slots_nodup hl
  have h2 : (Q l).map (slot cap) ⊆ List.range cap := by
    intro x hx
    obtain ⟨e, he, rfl⟩ := List.mem_map.1 hx
    exact List.mem_range.2 (Nat.mod_lt _ h.cap_pos)
  have := h1.length_le_of_subset h2
  simpa using this

def dirOf : Side → Int
  | .buy => 1
  | .sell => -1

theorem rank_step (sd : Side) (l : Int) : rank sd.other (l + dirOf sd) = rank sd.other l + 1 := by
  cases sd
  · rfl
  · simp only [rank, dirOf, Book.Side.other]; omega

theorem rank_inj_lev {sd : Side} {a b : Int} (h : rank sd a = rank sd b) : a = b := by
  cases sd <;> simp only [rank] at h <;> omega

theorem matchLevels_spec (F : Spec.Faithful k V) (o : Order) : ∀ (n : Nat) (l : Int) (rem : Nat) (s : SBook) (H : Halves),
    Sim k V cap s H issued →
    (rem = 0 ∨ ∀ e ∈ H o.side.other, rank o.side.other l ≤ rank o.side.other (lev k e.key)) →
    (∀ f ∈ H o.side, rank o.side.other (lev k f.key) < rank o.side.other l) →
    (∀ j : Nat, j < n → 0 ≤ l + dirOf o.side * j ∧ l + dirOf o.side * j < k.levels) →
    ∃ s', matchLevels k o (dirOf o.side) n l rem s =
        .ok ((matchLoop (fun x => decide (rank o.side.other (lev k x) < rank o.side.other l + n)) o rem (H o.side.other)).remainder, s') ∧
      Sim k V cap s' (updS H o.side.other (matchLoop (fun x => decide (rank o.side.other (lev k x) < rank o.side.other l + n)) o rem (H o.side.other)).resting) issued ∧
      s'.reports = s.reports ++ (matchLoop (fun x => decide (rank o.side.other (lev k x) < rank o.side.other l + n)) o rem (H o.side.other)).reports := by
  intro n
  induction n with
  | zero =>
    intro l rem s H h hge hown hr
    have hstop : matchLoop (fun x => decide (rank o.side.other (lev k x) < rank o.side.other l + (0 : Nat))) o rem (H o.side.other) =
        ⟨rem, H o.side.other, [], []⟩ := by
      rcases hge with rfl | hge
      · exact Book.matchLoop_zero ..
      · apply matchLoop_stop
        intro e he
        have := hge e (List.mem_of_mem_head? he)
        simp; omega
    rw [hstop]
    refine ⟨s, rfl, ?_, by simp⟩
    rw [updS_self]; exact h
  | succ n ih =>
    intro l rem s H h hge hown hr
    by_cases h0 : rem = 0
    · subst h0
      rw [Book.matchLoop_zero]
      refine ⟨s, ?_, ?_, by simp⟩
      · rw [matchLevels, if_neg (by omega)]
      · rw [updS_self]; exact h
    · have hge : ∀ e ∈ H o.side.other, rank o.side.other l ≤ rank o.side.other (lev k e.key) := by
        rcases hge with rfl | hge
        · exact absurd rfl h0
        · exact hge
      have hin := hr 0 (by omega)
      have hin : 0 ≤ l ∧ l < k.levels := by simpa using hin
      have hr' : ∀ j : Nat, j < n → 0 ≤ (l + dirOf o.side) + dirOf o.side * j ∧ (l + dirOf o.side) + dirOf o.side * j < k.levels := by
        intro j hj
        have := hr (j + 1) (by omega)
        have e : l + dirOf o.side * ((j + 1 : Nat) : Int) = (l + dirOf o.side) + dirOf o.side * j := by
          rw [Int.natCast_add, Int.mul_add]; simp; omega
        rw [e] at this; exact this
      have hstep := rank_step o.side l
      have hfun : (fun x => decide (rank o.side.other (lev k x) < rank o.side.other l + ((n + 1 : Nat) : Int))) =
          fun x => decide (rank o.side.other (lev k x) < rank o.side.other (l + dirOf o.side) + n) := by
        funext x
        rw [hstep]
        congr 1
        apply propext
        omega
      rw [hfun]
      have hlevel : s.level k l = .ok (s.levels l.toNat) := if_pos hin
      have hlN : l.toNat < k.levels := by omega
      have hlv := h.core.levels l.toNat hlN
      have hown' : ∀ f ∈ H o.side, lev k f.key ≠ l.toNat := by
        intro f hf hc
        have := hown f hf
        have e : (lev k f.key : Int) = l := by omega
        rw [e] at this; omega
      have hqueue : queue k H l.toNat = atLevel k l.toNat (H o.side.other) := by
        apply queue_one o.side.other
        rw [other_other]; exact hown'
      cases hq : queue k H l.toNat with
      | nil =>
        have hex : matchLevels k o (dirOf o.side) (n + 1) l rem s = matchLevels k o (dirOf o.side) n (l + dirOf o.side) rem s := by
          rw [matchLevels, if_pos (by omega), hlevel, hlv, hq]
          rfl
        rw [hex]
        refine ih (l + dirOf o.side) rem s H h (.inr ?_) ?_ hr'
        · intro e he
          rw [hstep]
          have h1 := hge e he
          have h2 : lev k e.key ≠ l.toNat := by
            intro hc
            have : e ∈ atLevel k l.toNat (H o.side.other) := mem_atLevel.2 ⟨he, hc⟩
            rw [← hqueue, hq] at this; cases this
          have h3 : rank o.side.other (lev k e.key) ≠ rank o.side.other l := fun hc => h2 (by have := rank_inj_lev hc; omega)
          omega
        · intro f hf
          have := hown f hf
          omega
      | cons e T =>
        have heq : e ∈ atLevel k l.toNat (H o.side.other) := by rw [← hqueue, hq]; simp
        obtain ⟨heH, hel⟩ := mem_atLevel.1 heq
        -- the first entry of the level is the best one
        obtain ⟨g, t, hH⟩ : ∃ g t, H o.side.other = g :: t := by
          cases hx : H o.side.other with
          | nil => rw [hx] at heH; cases heH
          | cons a b => exact ⟨a, b, rfl⟩
        have hgl : lev k g.key = l.toNat := by
          have h1 := hge g (by rw [hH]; simp)
          rw [hH] at heH
          rcases List.mem_cons.1 heH with rfl | h2
          · exact hel
          · have hs := h.sorted o.side.other
            rw [hH] at hs
            have h3 := (List.pairwise_cons.1 hs).1 e h2
            rw [hel] at h3
            have e1 : (l.toNat : Int) = l := by omega
            rw [e1] at h3
            have := rank_inj_lev (sd := o.side.other) (a := (lev k g.key : Int)) (b := l) (by omega)
            omega
        have hge' : g = e := by
          rw [hqueue, hH] at hq
          unfold atLevel at hq
          rw [List.filter_cons_of_pos (by simpa using hgl)] at hq
          injection hq
        subst hge'
        have hlen := h.core.length_le hlN
        obtain ⟨s1, he1, hsim1, hrep1⟩ := matchAtLevel_spec F o (s.pool.capacity + 1) rem s H g t h hH (by omega)
          (by rw [hgl, h.core.capacity]; omega)
        rw [hgl] at he1 hsim1 hrep1
        have hsplit := matchLoop_split (fun x => lev k x == l.toNat)
          (fun x => decide (rank o.side.other (lev k x) < rank o.side.other (l + dirOf o.side) + n)) (by
            intro x hx
            have hx : lev k x = l.toNat := by simpa using hx
            have e1 : (lev k x : Int) = l := by omega
            rw [hstep, e1]
            simp; omega) o rem (H o.side.other) (fun x hx => (h.ok _ x hx).2.2.2)
        generalize hm1 : matchLoop (fun x => lev k x == l.toNat) o rem (H o.side.other) = m1 at he1 hsim1 hrep1 hsplit
        have hne : o.side ≠ o.side.other := ne_other _
        have hcond : m1.remainder = 0 ∨ ∀ x ∈ updS H o.side.other m1.resting o.side.other,
            rank o.side.other (l + dirOf o.side) ≤ rank o.side.other (lev k x.key) := by
          have hres := Book.matchLoop_result (fun x => lev k x == l.toNat) o rem (H o.side.other) (fun x hx => (h.ok _ x hx).2.2.2)
          rw [hm1] at hres
          rw [updS_same]
          cases hres with
          | part full rest e x hl hx hxe h0 hlt hr h1 hm hp he => exact .inl h1
          | stop full rest hl hx hr hm hp he hs =>
            rcases hs with hs | hs
            · exact .inl hs
            · right
              rw [hm]
              intro x hx'
              rw [hstep]
              cases hrest : rest with
              | nil => rw [hrest] at hx'; cases hx'
              | cons a b =>
                have ha : lev k a.key ≠ l.toNat := by
                  have := hs a (by rw [hrest]; rfl)
                  simpa using this
                have hamem : a ∈ H o.side.other := by rw [hl, hrest]; simp
                have ha2 := hge a hamem
                have ha3 : rank o.side.other (lev k a.key) ≠ rank o.side.other l := fun hc => ha (by have := rank_inj_lev hc; omega)
                have hs2 := h.sorted o.side.other
                rw [hl, hrest] at hs2
                have hs3 := (List.pairwise_append.1 hs2).2.1
                rw [hrest] at hx'
                rcases List.mem_cons.1 hx' with rfl | hx'
                · omega
                · have := (List.pairwise_cons.1 hs3).1 x hx'
                  omega
        obtain ⟨s2, he2, hsim2, hrep2⟩ := ih (l + dirOf o.side) m1.remainder s1 (updS H o.side.other m1.resting) hsim1 hcond (by
          intro f hf
          rw [updS_ne _ _ hne] at hf
          have := hown f hf
          omega) hr'
        rw [updS_same] at he2 hsim2 hrep2
        rw [updS_updS] at hsim2
        rw [hsplit]
        refine ⟨s2, ?_, hsim2, ?_⟩
        · rw [matchLevels, if_pos (by omega), hlevel, hlv, hq]
          show (matchAtLevel k o l.toNat (s.pool.capacity + 1) rem (slot cap g) s >>= fun x => matchLevels k o (dirOf o.side) n (l + dirOf o.side) x.1 x.2) = _
          rw [he1]
          exact he2
        · rw [hrep2, hrep1, List.append_assoc]

end Esl.Static
