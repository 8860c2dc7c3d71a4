import Verif.Props.QuotedCrossing
/-! # C193, C194: cancelling and priority in a book with quotes of any kind -/
namespace Esl.QPriority
open Esl.Price Esl.QBook
open Esl.QSides (Line)
open Esl.QSides.Spec (Fine AllFine Alike opposite)
open Esl.QCrossing (Inv)

/-! ## Specification -/

/-- The orders that rest on a side, in the order in which they are executed. -/
def Spec.side (s : Side) (b : Book) : List Entry :=
  match s with
  | .buy => b.bids
  | .sell => b.asks

/-- A price on a side that is better for those who trade with it. -/
def Spec.better (s : Side) (v w : Int) : Prop :=
  match s with
  | .buy => v > w
  | .sell => v < w

/-- The first order goes before the second: it has a better price, or the same price and it was placed earlier (identifiers increase). -/
def Spec.before (s : Side) (x y : Entry) : Prop :=
  Spec.better s x.order.limit.price.value y.order.limit.price.value ∨ (x.order.limit.price.value = y.order.limit.price.value ∧ x.id < y.id)

/-! ## Identifiers -/

/-- The identifiers of the orders `L` that rest, and the limits that the book remembers. -/
structure Ids (n next : Nat) (limits : List (Nat × Quote)) (L : List Entry) : Prop where
  bound : next ≤ n
  below : ∀ e ∈ L, e.id < next
  keys : ∀ x ∈ limits, x.1 < next
  nodup : (L.map (·.id)).Nodup
  known : ∀ e ∈ L, limits.find? (fun x => x.1 == e.id) = some (e.id, e.key)

theorem Ids.perm {n next : Nat} {limits : List (Nat × Quote)} {L L' : List Entry} (h : Ids n next limits L) (hp : L.Perm L') : Ids n next limits L' :=
  ⟨h.bound, fun e he => h.below e (hp.mem_iff.2 he), h.keys, (hp.map _).nodup_iff.1 h.nodup, fun e he => h.known e (hp.mem_iff.2 he)⟩

theorem Ids.sublist {n next : Nat} {limits : List (Nat × Quote)} {L L' : List Entry} (h : Ids n next limits L) (hp : L'.Sublist L) : Ids n next limits L' :=
  ⟨h.bound, fun e he => h.below e (hp.subset he), h.keys, h.nodup.sublist (hp.map _), fun e he => h.known e (hp.subset he)⟩

theorem inj_of_nodup (l : List Entry) (h : (l.map (·.id)).Nodup) (x y : Entry) (hx : x ∈ l) (hy : y ∈ l) (he : x.id = y.id) : x = y := by
  induction l with
  | nil => cases hx
  | cons z l ih =>
    rw [List.map_cons, List.nodup_cons] at h
    rcases List.mem_cons.1 hx with hx' | hx' <;> rcases List.mem_cons.1 hy with hy' | hy'
    · rw [hx', hy']
    · exact absurd (List.mem_map.2 ⟨y, hy', by rw [← he, hx']⟩) h.1
    · exact absurd (List.mem_map.2 ⟨x, hx', by rw [he, hy']⟩) h.1
    · exact ih h.2 hx' hy'

theorem loop_same (f : Quote → Outcome Bool) (o : Order) (rem : Nat) (l : List Entry) :
    ((matchLoop f o rem l).passed ++ (matchLoop f o rem l).rest).map (fun e => (e.key, e.id)) = l.map fun e => (e.key, e.id) := by
  induction l generalizing rem with
  | nil => rfl
  | cons e l ih =>
    rw [matchLoop]
    rcases f e.key with (_ | _) | _ | _
    · rfl
    · simp only
      split
      · rfl
      · simp only [List.cons_append, List.map_cons, ih]
    · rfl
    · rfl

theorem loop_erased (f : Quote → Outcome Bool) (o : Order) (rem : Nat) (l : List Entry) :
    (matchLoop f o rem l).erased = ((matchLoop f o rem l).passed.filter fun e => decide (e.order.quantity = 0)).map (·.id) := by
  induction l generalizing rem with
  | nil => rfl
  | cons e l ih =>
    rw [matchLoop]
    rcases f e.key with (_ | _) | _ | _
    · rfl
    · simp only
      split
      · rfl
      · simp only [List.filter_cons, decide_eq_true_eq]
        split
        · simp only [List.map_cons, ih]
        · exact ih _
    · rfl
    · rfl

theorem find_eraseLimits (ids : List Nat) (limits : List (Nat × Quote)) (i : Nat) (h : i ∉ ids) : (eraseLimits ids limits).find? (fun x => x.1 == i) = limits.find? fun x => x.1 == i := by
  unfold eraseLimits
  induction limits with
  | nil => rfl
  | cons x l ih =>
    rw [List.filter_cons]
    by_cases hx : x.1 = i
    · have h1 : ids.contains x.1 = false := by
        rw [hx]
        simpa using h
      rw [if_pos (by rw [h1]; rfl)]
      simp [hx]
    · have hb : (x.1 == i) = false := by simpa using hx
      split
      · rw [List.find?_cons, List.find?_cons, hb, ih]
      · rw [List.find?_cons, hb, ih]

theorem find_mapEmplace (k i : Nat) (v : Quote) (l : List (Nat × Quote)) (h : ∀ x ∈ l, x.1 < k) : (mapEmplace k v l).find? (fun x => x.1 == i) = if i = k then some (k, v) else l.find? fun x => x.1 == i := by
  induction l with
  | nil =>
    by_cases hi : i = k
    · simp [mapEmplace, hi]
    · simp [mapEmplace, hi, Ne.symm hi]
  | cons x l ih =>
    have h1 := h x (List.mem_cons_self ..)
    have ih := ih fun y hy => h y (List.mem_cons_of_mem _ hy)
    rw [mapEmplace, if_neg (by omega), if_neg (by omega), List.find?_cons, ih, List.find?_cons]
    by_cases hx : x.1 = i
    · have hb : (x.1 == i) = true := by simpa using hx
      have : ¬ i = k := by omega
      simp only [hb, if_neg this]
    · have hb : (x.1 == i) = false := by simpa using hx
      simp only [hb]

/-- The loop that matches an order, without exceptions. -/
theorem ids_loop {n next : Nat} {limits : List (Nat × Quote)} (f : Quote → Outcome Bool) (o : Order) (rem : Nat) (l L : List Entry) (hok : (matchLoop f o rem l).outcome = .ok ()) (h : Ids n next limits (l ++ L)) :
    Ids n next (eraseLimits (matchLoop f o rem l).erased limits) ((matchLoop f o rem l).resting ++ L) := by
  have hs := loop_same f o rem l
  have he := loop_erased f o rem l
  generalize matchLoop f o rem l = m at *
  have hr : m.resting = m.passed.filter (fun e => decide (e.order.quantity ≠ 0)) ++ m.rest := by
    unfold Matched.resting
    rw [hok]
  have hsub : (m.resting.map fun e => (e.key, e.id)).Sublist (l.map fun e => (e.key, e.id)) := by
    rw [hr, ← hs]
    exact ((List.filter_sublist).append (List.Sublist.refl _)).map _
  have hmem : ∀ e ∈ m.resting ++ L, ∃ x ∈ l ++ L, x.id = e.id ∧ x.key = e.key := by
    intro e hm
    rcases List.mem_append.1 hm with hm | hm
    · obtain ⟨x, hx, hxe⟩ := List.mem_map.1 (hsub.subset (List.mem_map.2 ⟨e, hm, rfl⟩))
      exact ⟨x, List.mem_append_left _ hx, (Prod.mk.inj hxe).2, (Prod.mk.inj hxe).1⟩
    · exact ⟨e, List.mem_append_right _ hm, rfl, rfl⟩
  have hids : l.map (·.id) = (m.passed ++ m.rest).map (·.id) := by
    have := congrArg (List.map Prod.snd) hs
    rw [List.map_map, List.map_map] at this
    exact this.symm
  have hnd : ((m.passed ++ m.rest ++ L).map (·.id)).Nodup := by
    have := h.nodup
    rw [List.map_append, hids, ← List.map_append] at this
    exact this
  have hnot : ∀ e ∈ m.resting ++ L, e.id ∉ m.erased := by
    intro e hm hin
    rw [he] at hin
    obtain ⟨z, hz, hze⟩ := List.mem_map.1 hin
    obtain ⟨hz1, hz2⟩ := List.mem_filter.1 hz
    have hz2 := of_decide_eq_true hz2
    have hez : e = z := by
      refine inj_of_nodup _ hnd e z ?_ (List.mem_append_left _ (List.mem_append_left _ hz1)) hze.symm
      rw [hr] at hm
      rcases List.mem_append.1 hm with hm | hm
      · rcases List.mem_append.1 hm with hm | hm
        · exact List.mem_append_left _ (List.mem_append_left _ (List.mem_filter.1 hm).1)
        · exact List.mem_append_left _ (List.mem_append_right _ hm)
      · exact List.mem_append_right _ hm
    subst hez
    rw [hr, List.append_assoc] at hm
    rcases List.mem_append.1 hm with hm | hm
    · exact absurd hz2 (of_decide_eq_true (List.mem_filter.1 hm).2)
    · rw [List.append_assoc, List.map_append] at hnd
      exact (List.nodup_append.1 hnd).2.2 e.id (List.mem_map.2 ⟨e, hz1, rfl⟩) e.id (List.mem_map.2 ⟨e, hm, rfl⟩) rfl
  refine ⟨h.bound, fun e hm => ?_, fun x hx => ?_, ?_, fun e hm => ?_⟩
  · obtain ⟨x, hx, h1, -⟩ := hmem e hm
    rw [← h1]
    exact h.below x hx
  · exact h.keys x (List.mem_filter.1 hx).1
  · rw [hr]
    refine hnd.sublist (List.Sublist.map _ ?_)
    exact ((List.filter_sublist).append (List.Sublist.refl _)).append (List.Sublist.refl _)
  · obtain ⟨x, hx, h1, h2⟩ := hmem e hm
    rw [find_eraseLimits _ _ _ (hnot e hm), ← h1, ← h2]
    exact h.known x hx

theorem ids_place {n next : Nat} {limits : List (Nat × Quote)} {L : List Entry} (h : Ids n next limits L) (hn : n + 1 < 2 ^ 64) (e : Entry) (he : e.id = next) : Ids (n + 1) (u64 (next + 1)) (mapEmplace next e.key limits) (e :: L) := by
  have hu : u64 (next + 1) = next + 1 := by
    have := h.bound
    unfold u64
    omega
  rw [hu]
  refine ⟨by have := h.bound; omega, fun x hx => ?_, fun x hx => ?_, ?_, fun x hx => ?_⟩
  · rcases List.mem_cons.1 hx with rfl | hx
    · omega
    · have := h.below x hx
      omega
  · rcases mapEmplace_mem' _ _ _ x hx with rfl | hx
    · simp
    · have := h.keys x hx
      omega
  · rw [List.map_cons, List.nodup_cons]
    refine ⟨fun hin => ?_, h.nodup⟩
    obtain ⟨x, hx, hxe⟩ := List.mem_map.1 hin
    have := h.below x hx
    omega
  · rw [find_mapEmplace _ _ _ _ h.keys]
    rcases List.mem_cons.1 hx with rfl | hx
    · rw [if_pos he, he]
    · rw [if_neg (by have := h.below x hx; omega)]
      exact h.known x hx

theorem Ids.weaken {n next : Nat} {limits : List (Nat × Quote)} {L : List Entry} (h : Ids n next limits L) : Ids (n + 1) next limits L := ⟨Nat.le_succ_of_le h.bound, h.below, h.keys, h.nodup, h.known⟩

def IdsOf (n : Nat) (b : Book) : Prop := Ids n b.next b.limits (b.bids ++ b.asks)

theorem ids_insert (n : Nat) (b : Book) (o : Order) (hb : Inv b) (ho : Fine o.limit) (hn : n + 1 < 2 ^ 64) (h : IdsOf n b) : IdsOf (n + 1) (b.insert o).1 := by
  unfold Book.insert
  cases hside : o.side with
  | buy =>
    have hm := QCrossing.loop_cases (fun k => Quote.ge o.limit k) o o.quantity b.asks hb.asks ((QCrossing.asks_cases hb.lines.2 o.limit ho).imp id fun h => ⟨fun e he => ⟨_, (h.1 e he).2⟩, h.2⟩)
    have hids := ids_loop (n := n) (next := b.next) (limits := b.limits) (fun k => Quote.ge o.limit k) o o.quantity b.asks b.bids
    simp only
    generalize matchLoop (fun k => Quote.ge o.limit k) o o.quantity b.asks = m at *
    rcases hm with rfl | ⟨h1, -, -⟩
    · simp only [Matched.resting, List.nil_append, List.append_nil, QCrossing.eraseLimits_nil]
      exact h.weaken
    · have hids := hids h1 (h.perm List.perm_append_comm)
      rw [h1]
      simp only
      by_cases hpos : m.remainder > 0
      · rw [if_pos hpos]
        rcases hl : emplace Quote.gt (placed b o m.remainder).1 b.bids with l | _ | _
        · refine (ids_place hids hn (placed b o m.remainder).1 rfl).perm ?_
          have hp := QUnits.emplace_perm _ _ _ _ hl
          refine List.Perm.trans ?_ (hp.symm.append_right _)
          exact List.Perm.cons _ List.perm_append_comm
        · exact (hids.perm List.perm_append_comm).weaken
        · exact (hids.perm List.perm_append_comm).weaken
      · rw [if_neg hpos]
        exact (hids.perm List.perm_append_comm).weaken
  | sell =>
    have hm := QCrossing.loop_cases (fun k => Quote.le o.limit k) o o.quantity b.bids hb.bids ((QCrossing.bids_cases hb.lines.1 o.limit ho).imp id fun h => ⟨fun e he => ⟨_, (h.1 e he).2⟩, h.2⟩)
    have hids := ids_loop (n := n) (next := b.next) (limits := b.limits) (fun k => Quote.le o.limit k) o o.quantity b.bids b.asks
    simp only
    generalize matchLoop (fun k => Quote.le o.limit k) o o.quantity b.bids = m at *
    rcases hm with rfl | ⟨h1, -, -⟩
    · simp only [Matched.resting, List.nil_append, List.append_nil, QCrossing.eraseLimits_nil]
      exact h.weaken
    · have hids := hids h1 h
      rw [h1]
      simp only
      by_cases hpos : m.remainder > 0
      · rw [if_pos hpos]
        rcases hl : emplace Quote.lt (placed b o m.remainder).1 b.asks with l | _ | _
        · refine (ids_place hids hn (placed b o m.remainder).1 rfl).perm ?_
          have hp := QUnits.emplace_perm _ _ _ _ hl
          refine List.Perm.trans ?_ (hp.symm.append_left _)
          exact List.perm_middle.symm
        · exact hids.weaken
        · exact hids.weaken
      · rw [if_neg hpos]
        exact hids.weaken

theorem cancel_keeps (b : Book) (i : Nat) : (b.cancel i).1.next = b.next ∧ (b.cancel i).1.limits = b.limits := by
  unfold Book.cancel
  repeat' split
  all_goals exact ⟨rfl, rfl⟩

theorem ids_run (ops : List Op) (h : AllFine ops) (hn : ops.length < 2 ^ 64) : IdsOf ops.length (run ops) := by
  induction ops using List.reverseRecOn with
  | nil => exact ⟨Nat.le_refl _, by simp [run, empty], by simp [run, empty], by simp [run, empty], by simp [run, empty]⟩
  | append_singleton ops op ih =>
    have hf : AllFine ops := fun o ho => h o (List.mem_append_left _ ho)
    rw [List.length_append, List.length_singleton] at hn ⊢
    have ih := ih hf (by omega)
    rw [run_snoc]
    cases op with
    | insert o => exact ids_insert _ _ o (QCrossing.run_inv ops hf) (h o (List.mem_append_right _ (List.mem_singleton.2 rfl))) hn ih
    | cancel i =>
      obtain ⟨h1, h2⟩ := cancel_keeps (run ops) i
      obtain ⟨h3, h4⟩ := QCrossing.cancel_parts (run ops) i
      have := ih.sublist (h3.append h4)
      unfold IdsOf
      simp only [Book.apply]
      rw [h1, h2]
      exact this.weaken

/-! ## Cancelling -/

theorem cancelIn_found (f : Quote → Quote → Outcome Bool) (s : Side) (p : Quote) (i : Nat) (l : List Entry) (hc : ∀ x ∈ l, ∃ c, same f x.key p = .ok c) (hp : same f p p = .ok true) (hn : (l.map (·.id)).Nodup)
    (e : Entry) (he : e ∈ l) (hi : e.id = i) (hk : e.key = p) : cancelIn f s p i l = .ok (l.filter (fun x => decide (x.id ≠ i)), [⟨.cancel, s, e.order.quantity, i, p, e.order.owner⟩]) := by
  induction l with
  | nil => cases he
  | cons x l ih =>
    rw [List.map_cons, List.nodup_cons] at hn
    rw [cancelIn]
    by_cases hx : x.id = i
    · have hxe : e = x := by
        rcases List.mem_cons.1 he with h | h
        · exact h
        · exact absurd (List.mem_map.2 ⟨e, h, hi.trans hx.symm⟩) hn.1
      subst hxe
      rw [hk, hp]
      simp only [hi, and_self, if_true]
      rw [List.filter_cons_of_neg (by simp [hi])]
      have : l.filter (fun x => decide (x.id ≠ i)) = l := by
        refine List.filter_eq_self.2 fun y hy => decide_eq_true fun hyi => hn.1 ?_
        rw [hi, ← hyi]
        exact List.mem_map.2 ⟨y, hy, rfl⟩
      rw [this]
    · obtain ⟨c, hcx⟩ := hc x (List.mem_cons_self ..)
      have he2 : e ∈ l := by
        rcases List.mem_cons.1 he with h | h
        · exact absurd (h ▸ hi) hx
        · exact h
      rw [hcx]
      simp only [hx, and_false, if_false]
      rw [ih (fun y hy => hc y (List.mem_cons_of_mem _ hy)) hn.2 he2, List.filter_cons_of_pos (by simp [hx])]

theorem cancelIn_missing (f : Quote → Quote → Outcome Bool) (s : Side) (p : Quote) (i : Nat) (l l' : List Entry) (rs : List Report) (h : ∀ x ∈ l, x.id ≠ i) (hc : cancelIn f s p i l = .ok (l', rs)) : l' = l ∧ rs = [] := by
  induction l generalizing l' rs with
  | nil =>
    simp only [cancelIn, Outcome.ok.injEq, Prod.mk.injEq] at hc
    exact ⟨hc.1.symm, hc.2.symm⟩
  | cons e l ih =>
    rw [cancelIn] at hc
    split at hc
    · cases hc
    · cases hc
    · rw [if_neg fun hh => h e (List.mem_cons_self ..) hh.2] at hc
      split at hc
      · cases hc
      · cases hc
      · rename_i h2
        simp only [Outcome.ok.injEq, Prod.mk.injEq] at hc
        obtain ⟨rfl, rfl⟩ := hc
        obtain ⟨rfl, rfl⟩ := ih _ _ (fun x hx => h x (List.mem_cons_of_mem _ hx)) h2
        exact ⟨rfl, rfl⟩

/-- On one side all quotes are comparable to each other. -/
theorem side_alike {w : Int → Int → Prop} {l : List Entry} (hl : Line w l) (x y : Entry) (hx : x ∈ l) (hy : y ∈ l) : Alike x.key y.key := by
  have ho := hl.order
  rw [List.pairwise_map] at ho
  cases l with
  | nil => cases hx
  | cons e l =>
    have h1 : ∀ z ∈ e :: l, Alike e.key z.key := by
      intro z hz
      rcases List.mem_cons.1 hz with rfl | hz
      · exact ⟨rfl, rfl⟩
      · exact ((List.pairwise_cons.1 ho).1 z hz).1
    exact ⟨(h1 x hx).1.symm.trans (h1 y hy).1, (h1 x hx).2.symm.trans (h1 y hy).2⟩

theorem same_gt {p q : Quote} (hp : Fine p) (hq : Fine q) (h : Alike p q) : same Quote.gt p q = .ok (decide (p.price.value = q.price.value)) := by
  unfold same
  rw [(C09_equal_lots_partial p q h.1 hp.1 h.2 hp.2 hq.2).2.2.1, (C09_equal_lots_partial q p h.1.symm hq.1 h.2.symm hq.2 hp.2).2.2.1]
  by_cases h1 : p.price.value > q.price.value
  · have h2 : ¬ p.price.value = q.price.value := by omega
    rw [decide_eq_true h1, decide_eq_false h2]
  · rw [decide_eq_false h1]
    by_cases h2 : q.price.value > p.price.value
    · have h3 : ¬ p.price.value = q.price.value := by omega
      rw [decide_eq_true h2, decide_eq_false h3]
      rfl
    · have h3 : p.price.value = q.price.value := by omega
      rw [decide_eq_false h2, decide_eq_true h3]
      rfl

theorem same_lt {p q : Quote} (hp : Fine p) (hq : Fine q) (h : Alike p q) : same Quote.lt p q = .ok (decide (p.price.value = q.price.value)) := by
  unfold same
  rw [(C09_equal_lots_partial p q h.1 hp.1 h.2 hp.2 hq.2).1, (C09_equal_lots_partial q p h.1.symm hq.1 h.2.symm hq.2 hp.2).1]
  by_cases h1 : p.price.value < q.price.value
  · have h2 : ¬ p.price.value = q.price.value := by omega
    rw [decide_eq_true h1, decide_eq_false h2]
  · rw [decide_eq_false h1]
    by_cases h2 : q.price.value < p.price.value
    · have h3 : ¬ p.price.value = q.price.value := by omega
      rw [decide_eq_true h2, decide_eq_false h3]
      rfl
    · have h3 : p.price.value = q.price.value := by omega
      rw [decide_eq_false h2, decide_eq_true h3]
      rfl

theorem filter_other (l : List Entry) (i : Nat) (h : ∀ x ∈ l, x.id ≠ i) : l.filter (fun x => decide (x.id ≠ i)) = l :=
  List.filter_eq_self.2 fun x hx => decide_eq_true (h x hx)

/-- **C193.** Whatever the quotes and exceptions before: cancelling an order that rests never fails, removes exactly that order, and is reported once, with what was left of it. (A book numbers its orders with 64 bits.) -/
theorem C193_cancel (ops : List Op) (h : AllFine ops) (hn : ops.length < 2 ^ 64) (s : Side) (e : Entry) (he : e ∈ Spec.side s (run ops)) :
    (run ops).cancel e.id = ({ run ops with
      bids := (run ops).bids.filter fun x => decide (x.id ≠ e.id)
      asks := (run ops).asks.filter fun x => decide (x.id ≠ e.id)
      reports := (run ops).reports ++ [⟨.cancel, s, e.order.quantity, e.id, e.order.limit, e.order.owner⟩] }, .ok ()) := by
  have hi := QCrossing.run_inv ops h
  have hd := ids_run ops h hn
  generalize run ops = b at *
  have hnd := hd.nodup
  rw [List.map_append] at hnd
  obtain ⟨hn1, hn2, hn3⟩ := List.nodup_append.1 hnd
  unfold Book.cancel
  cases s with
  | buy =>
    have he : e ∈ b.bids := he
    rw [hd.known e (List.mem_append_left _ he)]
    simp only
    have hfe := hi.lines.1.fine e he
    have hbest : best (fun q => Quote.ge q e.key) b.bids = .ok true := by
      have ho := hi.lines.1.order
      rw [List.pairwise_map] at ho
      have hfine := hi.lines.1.fine
      have hal := side_alike hi.lines.1
      cases hb : b.bids with
      | nil => rw [hb] at he; cases he
      | cons x l =>
        rw [hb] at he ho hfine hal
        have ha := hal x e (List.mem_cons_self ..) he
        show Quote.ge x.key e.key = _
        rw [(C09_equal_lots_partial x.key e.key ha.1 (hfine x (List.mem_cons_self ..)).1 ha.2 (hfine x (List.mem_cons_self ..)).2 hfe.2).2.2.2.1]
        congr 1
        refine decide_eq_true ?_
        rcases List.mem_cons.1 he with rfl | he
        · exact Int.le_refl _
        · exact ((List.pairwise_cons.1 ho).1 e he).2
    rw [hbest]
    simp only
    rw [cancelIn_found Quote.gt .buy e.key e.id b.bids (fun x hx => ⟨_, same_gt (hi.lines.1.fine x hx) hfe (side_alike hi.lines.1 x e hx he)⟩) (by rw [same_gt hfe hfe ⟨rfl, rfl⟩]; simp) hn1 e he rfl rfl]
    simp only
    rw [filter_other b.asks e.id fun x hx hxe => hn3 e.id (List.mem_map.2 ⟨e, he, rfl⟩) x.id (List.mem_map.2 ⟨x, hx, rfl⟩) hxe.symm, hi.lines.1.keys e he]
  | sell =>
    have he : e ∈ b.asks := he
    rw [hd.known e (List.mem_append_right _ he)]
    simp only
    have hfe := hi.lines.2.fine e he
    have hbest : best (fun q => Quote.ge q e.key) b.bids = .ok false := by
      have hap := hi.apart
      have hfine := hi.lines.1.fine
      cases hb : b.bids with
      | nil => rfl
      | cons x l =>
        rw [hb] at hap hfine
        obtain ⟨h1, h2⟩ := hap x (List.mem_cons_self ..) e he
        show Quote.ge x.key e.key = _
        rw [QCrossing.ge_product (hfine x (List.mem_cons_self ..)) hfe, if_pos h1]
        congr 1
        refine decide_eq_false ?_
        omega
    have hbest2 : best (fun q => Quote.le q e.key) b.asks = .ok true := by
      have ho := hi.lines.2.order
      rw [List.pairwise_map] at ho
      have hfine := hi.lines.2.fine
      have hal := side_alike hi.lines.2
      cases hb : b.asks with
      | nil => rw [hb] at he; cases he
      | cons x l =>
        rw [hb] at he ho hfine hal
        have ha := hal x e (List.mem_cons_self ..) he
        show Quote.le x.key e.key = _
        rw [(C09_equal_lots_partial x.key e.key ha.1 (hfine x (List.mem_cons_self ..)).1 ha.2 (hfine x (List.mem_cons_self ..)).2 hfe.2).2.1]
        congr 1
        refine decide_eq_true ?_
        rcases List.mem_cons.1 he with rfl | he
        · exact Int.le_refl _
        · exact ((List.pairwise_cons.1 ho).1 e he).2
    rw [hbest]
    simp only
    rw [hbest2]
    simp only
    rw [cancelIn_found Quote.lt .sell e.key e.id b.asks (fun x hx => ⟨_, same_lt (hi.lines.2.fine x hx) hfe (side_alike hi.lines.2 x e hx he)⟩) (by rw [same_lt hfe hfe ⟨rfl, rfl⟩]; simp) hn2 e he rfl rfl]
    simp only
    rw [filter_other b.bids e.id fun x hx hxe => hn3 x.id (List.mem_map.2 ⟨x, hx, rfl⟩) e.id (List.mem_map.2 ⟨e, he, rfl⟩) hxe, hi.lines.2.keys e he]

/-- **C193, other identifiers.** Cancelling what does not rest changes nothing, in any book, also if it ends with an exception. -/
theorem C193_unknown (b : Book) (i : Nat) (h : ∀ s, ∀ e ∈ Spec.side s b, e.id ≠ i) : (b.cancel i).1 = b := by
  unfold Book.cancel
  split
  · rfl
  · split
    · rfl
    · rfl
    · split
      · rfl
      · rfl
      · rename_i hc
        obtain ⟨rfl, rfl⟩ := cancelIn_missing _ _ _ _ _ _ _ (h .buy) hc
        simp [Spec.side]
    · split
      · rfl
      · rfl
      · split
        · rfl
        · rfl
        · rename_i hc
          obtain ⟨rfl, rfl⟩ := cancelIn_missing _ _ _ _ _ _ _ (h .sell) hc
          simp [Spec.side]
      · rfl

/-- **C193, identifiers.** No two orders that rest have the same identifier. -/
theorem C193_unique (ops : List Op) (h : AllFine ops) (hn : ops.length < 2 ^ 64) : ((Spec.side .buy (run ops) ++ Spec.side .sell (run ops)).map (·.id)).Nodup := (ids_run ops h hn).nodup

/-- In the history of `QSides.mixed` the order to sell with identifier 3 rests. -/
example : (Spec.side .sell (run QSides.mixed)).map (fun e => (e.id, e.order.limit)) = [(4, ⟨1, ⟨800, usd⟩⟩), (3, ⟨1, ⟨900, usd⟩⟩)] := by decide +kernel

/-! ## Priority -/

/-- Orders at the same price are in the order in which they were placed. -/
def Timed (l : List Entry) : Prop := (l.map fun e => (e.key, e.id)).Pairwise fun x y => x.1.price.value = y.1.price.value → x.2 < y.2

theorem timed_sublist {l l' : List Entry} (h : Timed l) (hs : (l'.map fun e : Entry => (e.key, e.id)).Sublist (l.map fun e => (e.key, e.id))) : Timed l' := h.sublist hs

theorem resting_same (f : Quote → Outcome Bool) (o : Order) (rem : Nat) (l : List Entry) : ((matchLoop f o rem l).resting.map fun e => (e.key, e.id)).Sublist (l.map fun e => (e.key, e.id)) := by
  rw [← loop_same f o rem l]
  unfold Matched.resting
  split
  · exact ((List.filter_sublist).append (List.Sublist.refl _)).map _
  · exact List.Sublist.refl _

theorem timed_emplace {w : Int → Int → Prop} (hw : ∀ v, w v v) (f : Quote → Quote → Outcome Bool) (e : Entry) (l l' : List Entry) (hf : ∀ x ∈ l, f e.key x.key = .ok true → ∀ v, w x.key.price.value v → e.key.price.value ≠ v)
    (hl : Line w l) (ht : Timed l) (hid : ∀ x ∈ l, x.id < e.id) (h : emplace f e l = .ok l') : Timed l' := by
  induction l generalizing l' with
  | nil =>
    simp only [emplace, Outcome.ok.injEq] at h
    subst h
    simp [Timed]
  | cons x l ih =>
    have hord := hl.order
    rw [List.map_cons, List.pairwise_cons] at hord
    have hl2 : Line w l := ⟨fun y hy => hl.keys y (List.mem_cons_of_mem _ hy), fun y hy => hl.fine y (List.mem_cons_of_mem _ hy), hord.2⟩
    have ht0 := ht
    unfold Timed at ht
    rw [List.map_cons, List.pairwise_cons] at ht
    rw [emplace] at h
    rcases hb : f e.key x.key with (_ | _) | _ | _
    · rw [hb] at h
      simp only at h
      rcases hr : emplace f e l with l2 | _ | _
      · rw [hr] at h
        simp only [Outcome.ok.injEq] at h
        subst h
        have i := ih l2 (fun y hy => hf y (List.mem_cons_of_mem _ hy)) hl2 ht.2 (fun y hy => hid y (List.mem_cons_of_mem _ hy)) hr
        unfold Timed
        rw [List.map_cons, List.pairwise_cons]
        refine ⟨fun q hq => ?_, i⟩
        obtain ⟨y, hy, rfl⟩ := List.mem_map.1 hq
        rcases List.mem_cons.1 ((QUnits.emplace_perm _ _ _ _ hr).mem_iff.1 hy) with rfl | hy
        · exact fun _ => hid x (List.mem_cons_self ..)
        · exact ht.1 _ (List.mem_map.2 ⟨y, hy, rfl⟩)
      · rw [hr] at h; cases h
      · rw [hr] at h; cases h
    · rw [hb] at h
      simp only [Outcome.ok.injEq] at h
      subst h
      unfold Timed
      rw [List.map_cons, List.pairwise_cons]
      refine ⟨fun q hq heq => ?_, ht0⟩
      obtain ⟨y, hy, rfl⟩ := List.mem_map.1 hq
      refine absurd heq (hf x (List.mem_cons_self ..) hb _ ?_)
      rcases List.mem_cons.1 hy with rfl | hy
      · exact hw _
      · exact (hord.1 _ (List.mem_map.2 ⟨y, hy, rfl⟩)).2
    · rw [hb] at h; cases h
    · rw [hb] at h; cases h

theorem timed_insert (n : Nat) (b : Book) (o : Order) (hb : Inv b) (hd : IdsOf n b) (ho : Fine o.limit) (ht : Timed b.bids ∧ Timed b.asks) : Timed (b.insert o).1.bids ∧ Timed (b.insert o).1.asks := by
  unfold Book.insert
  cases o.side with
  | buy =>
    have hm := timed_sublist ht.2 (resting_same (fun k => Quote.ge o.limit k) o o.quantity b.asks)
    simp only
    generalize matchLoop (fun k => Quote.ge o.limit k) o o.quantity b.asks = m at *
    rcases m.outcome with _ | _ | _
    rotate_left
    · exact ⟨ht.1, hm⟩
    · exact ⟨ht.1, hm⟩
    · simp only
      split
      · rcases hl : emplace Quote.gt (placed b o m.remainder).1 b.bids with l | _ | _
        rotate_left
        · exact ⟨ht.1, hm⟩
        · exact ⟨ht.1, hm⟩
        · refine ⟨timed_emplace (w := fun x y => y ≤ x) (fun v => Int.le_refl v) Quote.gt (placed b o m.remainder).1 _ _ (fun x hx hgt v hv => ?_) hb.lines.1 ht.1 (fun x hx => hd.below x (List.mem_append_left _ hx)) hl, hm⟩
          obtain ⟨-, h2⟩ := QSides.gt_ok ho (hb.lines.1.fine x hx) _ hgt
          have h3 := of_decide_eq_true h2.symm
          show o.limit.price.value ≠ v
          omega
      · exact ⟨ht.1, hm⟩
  | sell =>
    have hm := timed_sublist ht.1 (resting_same (fun k => Quote.le o.limit k) o o.quantity b.bids)
    simp only
    generalize matchLoop (fun k => Quote.le o.limit k) o o.quantity b.bids = m at *
    rcases m.outcome with _ | _ | _
    rotate_left
    · exact ⟨hm, ht.2⟩
    · exact ⟨hm, ht.2⟩
    · simp only
      split
      · rcases hl : emplace Quote.lt (placed b o m.remainder).1 b.asks with l | _ | _
        rotate_left
        · exact ⟨hm, ht.2⟩
        · exact ⟨hm, ht.2⟩
        · refine ⟨hm, timed_emplace (w := fun x y => x ≤ y) (fun v => Int.le_refl v) Quote.lt (placed b o m.remainder).1 _ _ (fun x hx hlt v hv => ?_) hb.lines.2 ht.2 (fun x hx => hd.below x (List.mem_append_right _ hx)) hl⟩
          obtain ⟨-, h2⟩ := QSides.lt_ok ho (hb.lines.2.fine x hx) _ hlt
          have h3 := of_decide_eq_true h2.symm
          show o.limit.price.value ≠ v
          omega
      · exact ⟨hm, ht.2⟩

theorem timed_run (ops : List Op) (h : AllFine ops) (hn : ops.length < 2 ^ 64) : Timed (run ops).bids ∧ Timed (run ops).asks := by
  induction ops using List.reverseRecOn with
  | nil => exact ⟨by simp [Timed, run, empty], by simp [Timed, run, empty]⟩
  | append_singleton ops op ih =>
    have hf : AllFine ops := fun o ho => h o (List.mem_append_left _ ho)
    rw [List.length_append, List.length_singleton] at hn
    have ih := ih hf (by omega)
    rw [run_snoc]
    cases op with
    | insert o => exact timed_insert _ _ o (QCrossing.run_inv ops hf) (ids_run ops hf (by omega)) (h o (List.mem_append_right _ (List.mem_singleton.2 rfl))) ih
    | cancel i =>
      obtain ⟨h3, h4⟩ := QCrossing.cancel_parts (run ops) i
      exact ⟨timed_sublist ih.1 (h3.map _), timed_sublist ih.2 (h4.map _)⟩

theorem loop_zero (f : Quote → Outcome Bool) (o : Order) (l : List Entry) : (matchLoop f o 0 l).reports = [] := by
  cases l with
  | nil => rfl
  | cons e l =>
    rw [matchLoop]
    rcases f e.key with (_ | _) | _ | _ <;> simp

/-- What is executed is the beginning of a side, all but the last in full. -/
theorem loop_prefix (f : Quote → Outcome Bool) (o : Order) (rem : Nat) (l : List Entry) (r : Report) (hr : r ∈ (matchLoop f o rem l).reports) (hside : r.side ≠ o.side) (hok : (matchLoop f o rem l).outcome = .ok ()) :
    ∃ pre z post, l = pre ++ z :: post ∧ z.id = r.ident ∧ (∀ e ∈ (matchLoop f o rem l).resting, ∃ e' ∈ z :: post, e'.id = e.id) ∧
      ∀ e ∈ pre, ⟨.match_, e.order.side, e.order.quantity, e.id, e.order.limit, e.order.owner⟩ ∈ (matchLoop f o rem l).reports := by
  induction l generalizing rem with
  | nil => simp [matchLoop] at hr
  | cons e l ih =>
    rw [matchLoop] at hr hok ⊢
    rcases hf : f e.key with (_ | _) | _ | _
    · rw [hf] at hr; simp at hr
    · rw [hf] at hr hok
      simp only at hr hok ⊢
      by_cases h0 : min rem e.order.quantity = 0
      · rw [if_pos h0] at hr; simp at hr
      · rw [if_neg h0] at hr hok ⊢
        have hsame := resting_same f o (rem - min rem e.order.quantity) l
        simp only at hok
        have hrest : ∀ m : Matched, m.outcome = .ok () → ∀ y : Entry, y ∈ Matched.resting { m with passed := { e with order := { e.order with quantity := e.order.quantity - min rem e.order.quantity } } :: m.passed, reports := ([⟨.match_, o.side, min rem e.order.quantity, directOrder, e.order.limit, o.owner⟩,
                   ⟨.match_, e.order.side, min rem e.order.quantity, e.id, e.order.limit, e.order.owner⟩] : List Report) ++ m.reports, erased := if e.order.quantity - min rem e.order.quantity = 0 then e.id :: m.erased else m.erased } →
              (y.id = e.id ∧ e.order.quantity - min rem e.order.quantity ≠ 0) ∨ y ∈ m.resting := by
          intro m hm y hy
          unfold Matched.resting at hy ⊢
          simp only [hm] at hy ⊢
          rw [List.filter_cons] at hy
          split at hy
          · rename_i hd
            rcases List.mem_cons.1 hy with rfl | hy
            · exact .inl ⟨rfl, of_decide_eq_true hd⟩
            · exact .inr hy
          · exact .inr hy
        have hids : ∀ y ∈ (matchLoop f o (rem - min rem e.order.quantity) l).resting, ∃ e' ∈ l, e'.id = y.id := by
          intro y hy
          obtain ⟨x, hx, hxe⟩ := List.mem_map.1 (hsame.subset (List.mem_map.2 ⟨y, hy, rfl⟩))
          exact ⟨x, hx, (Prod.mk.inj hxe).2⟩
        simp only [List.cons_append, List.nil_append, List.mem_cons] at hr
        rcases hr with rfl | rfl | hr
        · exact absurd rfl hside
        · refine ⟨[], e, l, rfl, rfl, fun y hy => ?_, by simp⟩
          rcases hrest _ hok y hy with ⟨h1, -⟩ | h1
          · exact ⟨e, List.mem_cons_self .., h1.symm⟩
          · obtain ⟨e', h2, h3⟩ := hids y h1
            exact ⟨e', List.mem_cons_of_mem _ h2, h3⟩
        · obtain ⟨pre, z, post, i1, i2, i3, i4⟩ := ih _ hr hok
          have hpos : rem - min rem e.order.quantity ≠ 0 := by
            intro hz
            rw [hz, loop_zero] at hr
            cases hr
          have hfull : min rem e.order.quantity = e.order.quantity := by omega
          refine ⟨e :: pre, z, post, by rw [i1]; rfl, i2, fun y hy => ?_, fun y hy => ?_⟩
          · rcases hrest _ hok y hy with ⟨-, h1⟩ | h1
            · omega
            · exact i3 y h1
          · rcases List.mem_cons.1 hy with rfl | hy
            · refine List.mem_append_left _ (List.mem_cons_of_mem _ (List.mem_singleton.2 ?_))
              rw [hfull]
            · exact List.mem_append_right _ (i4 y hy)
    · rw [hf] at hr; simp at hr
    · rw [hf] at hr; simp at hr

/-- An insertion: the orders at the other side, the reports and the orders at the own side. -/
theorem insert_shape (b : Book) (o : Order) (hb : Inv b) (ho : Fine o.limit) : ∃ f, ∃ tail : List Report,
    Spec.side (opposite o.side) (b.insert o).1 = (matchLoop f o o.quantity (Spec.side (opposite o.side) b)).resting ∧
    (b.insert o).1.reports = b.reports ++ ((matchLoop f o o.quantity (Spec.side (opposite o.side) b)).reports ++ tail) ∧
    (∀ r ∈ tail, r.state = .placement) ∧
    (∀ e ∈ Spec.side o.side (b.insert o).1, e ∈ Spec.side o.side b ∨ e.id = b.next) ∧
    ((matchLoop f o o.quantity (Spec.side (opposite o.side) b)).reports = [] ∨ (matchLoop f o o.quantity (Spec.side (opposite o.side) b)).outcome = .ok ()) := by
  unfold Book.insert
  cases hside : o.side with
  | buy =>
    have hcases := QCrossing.asks_cases hb.lines.2 o.limit ho
    have hm := QCrossing.loop_cases (fun k => Quote.ge o.limit k) o o.quantity b.asks hb.asks (hcases.imp id fun h => ⟨fun e he => ⟨_, (h.1 e he).2⟩, h.2⟩)
    have hm2 : (matchLoop (fun k => Quote.ge o.limit k) o o.quantity b.asks).reports = [] ∨ (matchLoop (fun k => Quote.ge o.limit k) o o.quantity b.asks).outcome = .ok () := by
      rcases hm with hm | hm
      · rw [hm]; exact .inl rfl
      · exact .inr hm.1
    refine ⟨fun k => Quote.ge o.limit k, ?_⟩
    simp only [opposite, Spec.side]
    generalize matchLoop (fun k => Quote.ge o.limit k) o o.quantity b.asks = m at *
    rcases hout : m.outcome with _ | _ | _
    rotate_left
    · exact ⟨[], rfl, by simp, by simp, fun e he => .inl he, by rw [← hout]; exact hm2⟩
    · exact ⟨[], rfl, by simp, by simp, fun e he => .inl he, by rw [← hout]; exact hm2⟩
    · simp only
      split
      · rcases hl : emplace Quote.gt (placed b o m.remainder).1 b.bids with l | _ | _
        rotate_left
        · exact ⟨[], rfl, by simp, by simp, fun e he => .inl he, .inr trivial⟩
        · exact ⟨[], rfl, by simp, by simp, fun e he => .inl he, .inr trivial⟩
        · refine ⟨[(placed b o m.remainder).2], rfl, by simp, by simp [placed], fun e he => ?_, .inr trivial⟩
          rcases List.mem_cons.1 ((QUnits.emplace_perm _ _ _ _ hl).mem_iff.1 he) with rfl | he
          · exact .inr rfl
          · exact .inl he
      · exact ⟨[], rfl, by simp, by simp, fun e he => .inl he, .inr trivial⟩
  | sell =>
    have hcases := QCrossing.bids_cases hb.lines.1 o.limit ho
    have hm := QCrossing.loop_cases (fun k => Quote.le o.limit k) o o.quantity b.bids hb.bids (hcases.imp id fun h => ⟨fun e he => ⟨_, (h.1 e he).2⟩, h.2⟩)
    have hm2 : (matchLoop (fun k => Quote.le o.limit k) o o.quantity b.bids).reports = [] ∨ (matchLoop (fun k => Quote.le o.limit k) o o.quantity b.bids).outcome = .ok () := by
      rcases hm with hm | hm
      · rw [hm]; exact .inl rfl
      · exact .inr hm.1
    refine ⟨fun k => Quote.le o.limit k, ?_⟩
    simp only [opposite, Spec.side]
    generalize matchLoop (fun k => Quote.le o.limit k) o o.quantity b.bids = m at *
    rcases hout : m.outcome with _ | _ | _
    rotate_left
    · exact ⟨[], rfl, by simp, by simp, fun e he => .inl he, by rw [← hout]; exact hm2⟩
    · exact ⟨[], rfl, by simp, by simp, fun e he => .inl he, by rw [← hout]; exact hm2⟩
    · simp only
      split
      · rcases hl : emplace Quote.lt (placed b o m.remainder).1 b.asks with l | _ | _
        rotate_left
        · exact ⟨[], rfl, by simp, by simp, fun e he => .inl he, .inr trivial⟩
        · exact ⟨[], rfl, by simp, by simp, fun e he => .inl he, .inr trivial⟩
        · refine ⟨[(placed b o m.remainder).2], rfl, by simp, by simp [placed], fun e he => ?_, .inr trivial⟩
          rcases List.mem_cons.1 ((QUnits.emplace_perm _ _ _ _ hl).mem_iff.1 he) with rfl | he
          · exact .inr rfl
          · exact .inl he
      · exact ⟨[], rfl, by simp, by simp, fun e he => .inl he, .inr trivial⟩

/-- The list of a side is in the order of `Spec.before`. -/
theorem before_in (ops : List Op) (h : AllFine ops) (hn : ops.length < 2 ^ 64) (s : Side) (pre post : List Entry) (z y : Entry) (hl : Spec.side s (run ops) = pre ++ z :: post) (hy : y ∈ Spec.side s (run ops)) (hb : Spec.before s y z) : y ∈ pre := by
  have hi := QCrossing.run_inv ops h
  have ht := timed_run ops h hn
  have key : ∀ (w : Int → Int → Prop) (l : List Entry), Line w l → Timed l → l = pre ++ z :: post → y ∈ l → (w z.order.limit.price.value y.order.limit.price.value → ¬ Spec.better s y.order.limit.price.value z.order.limit.price.value) → w z.order.limit.price.value z.order.limit.price.value → y ∈ pre := by
    intro w l hline htl hl hy hw hrefl
    subst hl
    rcases List.mem_append.1 hy with hy | hy
    · exact hy
    · exfalso
      have hkz := hline.keys z (by simp)
      rcases List.mem_cons.1 hy with rfl | hy
      · rcases hb with hb | hb
        · exact hw hrefl hb
        · omega
      · have hky := hline.keys y (by simp [hy])
        have h1 := hline.order
        have h2 := htl
        unfold Timed at h2
        rw [List.map_append, List.pairwise_append, List.map_cons, List.pairwise_cons] at h1 h2
        have h3 := h1.2.1.1 _ (List.mem_map.2 ⟨y, hy, rfl⟩)
        have h4 := h2.2.1.1 _ (List.mem_map.2 ⟨y, hy, rfl⟩)
        simp only [hkz, hky] at h3 h4
        rcases hb with hb | hb
        · exact hw h3.2 hb
        · have := h4 hb.1.symm
          omega
  cases s with
  | buy => exact key _ _ hi.lines.1 ht.1 hl hy (fun hw hb => by simp only [Spec.better] at hb; omega) (Int.le_refl _)
  | sell => exact key _ _ hi.lines.2 ht.2 hl hy (fun hw hb => by simp only [Spec.better] at hb; omega) (Int.le_refl _)

theorem id_other (ops : List Op) (h : AllFine ops) (hn : ops.length < 2 ^ 64) (s : Side) (x y : Entry) (hx : x ∈ Spec.side s (run ops)) (hy : y ∈ Spec.side (opposite s) (run ops)) : x.id ≠ y.id := by
  have hd := (ids_run ops h hn).nodup
  rw [List.map_append, List.nodup_append] at hd
  cases s with
  | buy => exact hd.2.2 _ (List.mem_map.2 ⟨x, hx, rfl⟩) _ (List.mem_map.2 ⟨y, hy, rfl⟩)
  | sell => exact (hd.2.2 _ (List.mem_map.2 ⟨y, hy, rfl⟩) _ (List.mem_map.2 ⟨x, hx, rfl⟩)).symm

theorem id_same (ops : List Op) (h : AllFine ops) (hn : ops.length < 2 ^ 64) (s : Side) (x y : Entry) (hx : x ∈ Spec.side s (run ops)) (hy : y ∈ Spec.side s (run ops)) (he : x.id = y.id) : x = y := by
  refine inj_of_nodup _ (ids_run ops h hn).nodup x y ?_ ?_ he
  · cases s with
    | buy => exact List.mem_append_left _ hx
    | sell => exact List.mem_append_right _ hx
  · cases s with
    | buy => exact List.mem_append_left _ hy
    | sell => exact List.mem_append_right _ hy

theorem id_below (ops : List Op) (h : AllFine ops) (hn : ops.length < 2 ^ 64) (s : Side) (x : Entry) (hx : x ∈ Spec.side s (run ops)) : x.id < (run ops).next := by
  refine (ids_run ops h hn).below x ?_
  cases s with
  | buy => exact List.mem_append_left _ hx
  | sell => exact List.mem_append_right _ hx

/-- **C194, priority.** After any history with any mixture of quotes, if a new order is executed against the order `x` that rests, then every order `y` on the same side with a better price, or with the same price and placed earlier, is executed for all
of its quantity and does not rest any more. This is so also if the insertion ends with an exception. -/
theorem C194_priority (ops : List Op) (h : AllFine ops) (hn : ops.length < 2 ^ 64) (o : Order) (ho : Fine o.limit) (x y : Entry) (hx : x ∈ Spec.side (opposite o.side) (run ops)) (hy : y ∈ Spec.side (opposite o.side) (run ops))
    (hb : Spec.before (opposite o.side) y x) (r : Report) (hr : r ∈ QSides.Spec.new ops (.insert o)) (hstate : r.state = .match_) (hside : r.side = opposite o.side) (hid : r.ident = x.id) :
    ⟨.match_, y.order.side, y.order.quantity, y.id, y.order.limit, y.order.owner⟩ ∈ QSides.Spec.new ops (.insert o) ∧ ∀ s, ∀ e ∈ Spec.side s (run (ops ++ [.insert o])), e.id ≠ y.id := by
  obtain ⟨f, tail, h1, h2, h3, h4, h5⟩ := insert_shape (run ops) o (QCrossing.run_inv ops h) ho
  unfold QSides.Spec.new at hr ⊢
  rw [run_snoc] at hr ⊢
  simp only [Book.apply] at hr ⊢
  rw [h2, List.drop_left] at hr ⊢
  have hopp : opposite o.side ≠ o.side := by cases o.side <;> simp [opposite]
  rcases List.mem_append.1 hr with hr | hr
  · rcases h5 with h5 | h5
    · rw [h5] at hr; cases hr
    · obtain ⟨pre, z, post, i1, i2, i3, i4⟩ := loop_prefix f o o.quantity _ r hr (by rw [hside]; exact hopp) h5
      have hz : z ∈ Spec.side (opposite o.side) (run ops) := by rw [i1]; simp
      have hzx : z = x := id_same ops h hn _ z x hz hx (by rw [i2, hid])
      subst hzx
      have hpre := before_in ops h hn _ pre post z y i1 hy hb
      refine ⟨List.mem_append_left _ (i4 y hpre), fun s e he => ?_⟩
      by_cases hs : s = o.side
      · subst hs
        rcases h4 e he with h4 | h4
        · exact id_other ops h hn _ e y h4 hy
        · have := id_below ops h hn _ y hy
          omega
      · have hs' : s = opposite o.side := by
          revert hs
          cases s <;> cases o.side <;> simp [opposite]
        subst hs'
        rw [h1] at he
        obtain ⟨e', h6, h7⟩ := i3 e he
        rw [← h7]
        have hd : ((pre ++ z :: post).map (·.id)).Nodup := by
          rw [← i1]
          have hd := (ids_run ops h hn).nodup
          rw [List.map_append, List.nodup_append] at hd
          cases hos : o.side with
          | buy => exact hd.2.1
          | sell => exact hd.1
        rw [List.map_append, List.nodup_append] at hd
        exact (hd.2.2 _ (List.mem_map.2 ⟨y, hpre, rfl⟩) _ (List.mem_map.2 ⟨e', h6, rfl⟩)).symm
  · rw [h3 r hr] at hstate
    cases hstate

/-- **C194, times.** An order that an insertion places has a greater identifier than all orders that rested before. -/
theorem C194_later (ops : List Op) (h : AllFine ops) (hn : ops.length < 2 ^ 64) (o : Order) (ho : Fine o.limit) (s : Side) (e : Entry) (he : e ∈ Spec.side s (run (ops ++ [.insert o]))) (hnew : ∀ t, ∀ x ∈ Spec.side t (run ops), x.id ≠ e.id) :
    ∀ t, ∀ x ∈ Spec.side t (run ops), x.id < e.id := by
  obtain ⟨f, tail, h1, -, -, h4, -⟩ := insert_shape (run ops) o (QCrossing.run_inv ops h) ho
  rw [run_snoc] at he
  simp only [Book.apply] at he
  intro t x hx
  have hlt := id_below ops h hn t x hx
  by_cases hs : s = o.side
  · subst hs
    rcases h4 e he with h4 | h4
    · exact absurd rfl (hnew _ e h4)
    · rw [h4]; exact hlt
  · have hs' : s = opposite o.side := by
      revert hs
      cases s <;> cases o.side <;> simp [opposite]
    subst hs'
    rw [h1] at he
    obtain ⟨y, hy, hye⟩ := List.mem_map.1 ((resting_same _ _ _ _).subset (List.mem_map.2 ⟨e, he, rfl⟩))
    exact absurd (Prod.mk.inj hye).2 (hnew _ y hy)

/-- An order to buy of two units against the orders of `QSides.mixed`, whose better one has identifier 4. -/
example : (QSides.Spec.new QSides.mixed (.insert (order .buy 9 1 900 2))).map (fun r => (r.state, r.side, r.quantity, r.ident)) =
    [(.match_, .buy, 1, directOrder), (.match_, .sell, 1, 4), (.match_, .buy, 1, directOrder), (.match_, .sell, 1, 3)] := by decide +kernel

end Esl.QPriority
