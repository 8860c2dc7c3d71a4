import Verif.Model.StaticBook
import Verif.Lemmas.OrderBook
import Verif.Props.BlockPool
/-! Helper lemmas for the static order book: the linked lists of the levels in the block pool. -/
namespace Esl.Static
open Esl.Book (Side Lifetime Order Status Report directOrder Entry)
open Esl.Pool (Pool upd)

/-- The pool without its elements; the bookkeeping does not depend on them. -/
def forget {α : Type} (p : Pool α) : Pool Unit :=
  ⟨p.capacity, fun _ => (), p.index, p.next, p.end_, p.round, p.back, p.highest, p.size⟩

theorem forget_erase {α : Type} (p : Pool α) (i : Nat) :
    forget (p.erase i).2 = ((forget p).erase i).2 ∧ (p.erase i).1 = ((forget p).erase i).1 ∧ (p.erase i).2.data = p.data := by
  by_cases h1 : p.index (i % p.capacity) ≠ i
  · have e : p.erase i = (0, p) := if_pos h1
    have e' : (forget p).erase i = (0, forget p) := if_pos h1
    rw [e, e']; exact ⟨rfl, rfl, rfl⟩
  · by_cases h2 : p.size = 0
    · have e : p.erase i = _ := (if_neg h1).trans (if_pos h2)
      have e' : (forget p).erase i = _ := (if_neg h1).trans (if_pos h2)
      rw [e, e']; exact ⟨rfl, rfl, rfl⟩
    · have e : p.erase i = _ := (if_neg h1).trans (if_neg h2)
      have e' : (forget p).erase i = _ := (if_neg h1).trans (if_neg h2)
      rw [e, e']; exact ⟨rfl, rfl, rfl⟩

/-- Storing the index of the new element, as `SBook.place` does. -/
def stored {α : Type} (p : Pool α) (s i : Nat) : Pool α := { p with index := upd p.index s i }

theorem forget_emplace {α : Type} (p : Pool α) (e : α) :
    ((forget p).emplaceStored () = .throws → p.emplace e = .throws) ∧
    ((forget p).emplaceStored () = .ub → p.emplace e = .ub) ∧
    (∀ i q, (forget p).emplaceStored () = .ok (i, q) → ∃ s p', p.emplace e = .ok (i, s, p') ∧ forget (stored p' s i) = q ∧
      p'.data = upd p.data s e ∧ p.end_ = some s) := by
  unfold Pool.emplaceStored Pool.emplace
  have e1 : (forget p).size = p.size := rfl
  have e2 : (forget p).capacity = p.capacity := rfl
  have e3 : (forget p).end_ = p.end_ := rfl
  rw [e1, e2, e3]
  by_cases h : p.size ≥ p.capacity
  · simp only [if_pos h]
    refine ⟨fun _ => trivial, ?_, ?_⟩
    · intro h; cases h
    · intro i q h; cases h
  · simp only [if_neg h]
    cases hE : p.end_ with
    | none => exact ⟨fun h => (by cases h), fun _ => rfl, fun i q h => by cases h⟩
    | some a =>
      refine ⟨fun h => (by cases h), fun h => (by cases h), ?_⟩
      intro i q hq
      cases hq
      refine ⟨a, _, rfl, ?_, rfl, rfl⟩
      rfl

/-! ## Linked lists -/

abbrev slot (cap : Nat) (e : Entry) : Nat := e.id % cap

/-- The blocks of the entries of a level are linked in order, and hold what they should. -/
def Linked (cap : Nat) (d : Nat → Record) : Option Nat → List Entry → Prop
  | _, [] => True
  | p, e :: t => d (slot cap e) = ⟨some e.order.limit, e.order.quantity, e.order.owner, p, t.head?.map (slot cap)⟩ ∧
      Linked cap d (some (slot cap e)) t

theorem Linked.congr {cap : Nat} {d d' : Nat → Record} {p : Option Nat} {q : List Entry} (h : Linked cap d p q)
    (he : ∀ e ∈ q, d' (slot cap e) = d (slot cap e)) : Linked cap d' p q := by
  induction q generalizing p with
  | nil => trivial
  | cons e t ih =>
    refine ⟨?_, ih h.2 fun f hf => he f (List.mem_cons_of_mem _ hf)⟩
    rw [he e (List.mem_cons_self ..)]; exact h.1

/-- The state of pool and levels that represents the queues `Q`. -/
structure Core (n cap : Nat) (p : Pool Record) (lv : Nat → Option Nat × Option Nat) (Q : Nat → List Entry) (issued : List Nat) : Prop where
  pool : ∃ live free, Pool.Inv cap (forget p) live issued free ∧ ∀ i, i ∈ live.map (·.1) ↔ ∃ l, l < n ∧ i ∈ (Q l).map (·.id)
  levels : ∀ l, l < n → lv l = ((Q l).head?.map (slot cap), (Q l).getLast?.map (slot cap))
  linked : ∀ l, l < n → Linked cap p.data none (Q l)
  nodup : ∀ l, l < n → ((Q l).map (·.id)).Nodup
  apart : ∀ l m, l < n → m < n → l ≠ m → ∀ e ∈ Q l, ∀ f ∈ Q m, e.id ≠ f.id

variable {n cap : Nat} {p : Pool Record} {lv : Nat → Option Nat × Option Nat} {Q : Nat → List Entry} {issued : List Nat}

theorem Core.index (h : Core n cap p lv Q issued) {l : Nat} (hl : l < n) {e : Entry} (he : e ∈ Q l) :
    p.index (slot cap e) = e.id := by
  obtain ⟨live, free, hi, hm⟩ := h.pool
  have : e.id ∈ live.map (·.1) := (hm e.id).2 ⟨l, hl, List.mem_map.2 ⟨e, he, rfl⟩⟩
  obtain ⟨x, hx, hxe⟩ := List.mem_map.1 this
  have := (hi.idx x hx).1
  rw [hxe] at this
  exact this

theorem Core.cap_pos (h : Core n cap p lv Q issued) : 0 < cap := by
  obtain ⟨live, free, hi, hm⟩ := h.pool
  exact hi.pos

theorem Core.capacity (h : Core n cap p lv Q issued) : p.capacity = cap := by
  obtain ⟨live, free, hi, hm⟩ := h.pool
  exact hi.capEq

/-- Different entries are in different blocks. -/
theorem Core.slot_inj (h : Core n cap p lv Q issued) {l m : Nat} (hl : l < n) (hm : m < n) {e f : Entry} (he : e ∈ Q l)
    (hf : f ∈ Q m) (hs : slot cap e = slot cap f) : e.id = f.id := by
  rw [← h.index hl he, ← h.index hm hf, hs]

theorem id_inj {q : List Entry} (hn : (q.map (·.id)).Nodup) {e f : Entry} (he : e ∈ q) (hf : f ∈ q) (h : e.id = f.id) : e = f := by
  induction q with
  | nil => cases he
  | cons x q ih =>
    rw [List.map_cons, List.nodup_cons] at hn
    rcases List.mem_cons.1 he with he' | he' <;> rcases List.mem_cons.1 hf with hf' | hf'
    · rw [he', hf']
    · exact absurd (List.mem_map.2 ⟨f, hf', by rw [← h, he']⟩) hn.1
    · exact absurd (List.mem_map.2 ⟨e, he', by rw [h, hf']⟩) hn.1
    · exact ih hn.2 he' hf'

theorem upd_same {β : Type} (f : Nat → β) (i : Nat) (v : β) : upd f i v i = v := if_pos rfl
theorem upd_other {β : Type} (f : Nat → β) {i j : Nat} (v : β) (h : j ≠ i) : upd f i v j = f j := if_neg h

theorem filter_ids (live : List (Nat × Unit)) (i j : Nat) :
    j ∈ (live.filter fun x => x.1 != i).map (·.1) ↔ j ∈ live.map (·.1) ∧ j ≠ i := by
  simp only [List.mem_map, List.mem_filter, bne_iff_ne, ne_eq]
  constructor
  · rintro ⟨x, ⟨hx, hne⟩, rfl⟩
    exact ⟨⟨x, hx, rfl⟩, hne⟩
  · rintro ⟨⟨x, hx, rfl⟩, hne⟩
    exact ⟨x, ⟨hx, hne⟩, rfl⟩

/-- What remains of the pool's bookkeeping after an entry was erased. -/
theorem Core.pool_erase (h : Core n cap p lv Q issued) {l : Nat} (hl : l < n) {e : Entry} (he : e ∈ Q l) (q : List Entry)
    (hq : ∀ i, i ∈ q.map (·.id) ↔ i ∈ (Q l).map (·.id) ∧ i ≠ e.id) {p' : Pool Record} (hp : forget p' = forget p) :
    (p'.erase e.id).1 = 1 ∧
    ∃ live free, Pool.Inv cap (forget (p'.erase e.id).2) live issued free ∧
      ∀ i, i ∈ live.map (·.1) ↔ ∃ m, m < n ∧ i ∈ (upd Q l q m).map (·.id) := by
  obtain ⟨live, free, hi, hm⟩ := h.pool
  have hmem : e.id ∈ live.map (·.1) := (hm e.id).2 ⟨l, hl, List.mem_map.2 ⟨e, he, rfl⟩⟩
  obtain ⟨h1, h2⟩ := Pool.erase_inv cap _ live issued free hi e.id hmem
  obtain ⟨f1, f2, f3⟩ := forget_erase p' e.id
  rw [f1, f2, hp]
  refine ⟨h1, _, _, h2, ?_⟩
  intro i
  rw [filter_ids, hm]
  constructor
  · rintro ⟨⟨m, hmn, him⟩, hne⟩
    refine ⟨m, hmn, ?_⟩
    by_cases hml : m = l
    · subst hml; rw [upd_same]; exact (hq i).2 ⟨him, hne⟩
    · rw [upd_other _ _ hml]; exact him
  · rintro ⟨m, hmn, him⟩
    by_cases hml : m = l
    · subst hml
      rw [upd_same] at him
      obtain ⟨h1, h2⟩ := (hq i).1 him
      exact ⟨⟨m, hmn, h1⟩, h2⟩
    · rw [upd_other _ _ hml] at him
      refine ⟨⟨m, hmn, him⟩, ?_⟩
      rintro rfl
      obtain ⟨f, hf, hfe⟩ := List.mem_map.1 him
      exact h.apart m l hmn hl hml f hf e he hfe

/-- Change a record. -/
def modify (p : Pool Record) (s : Nat) (f : Record → Record) : Pool Record := { p with data := upd p.data s (f (p.data s)) }

theorem modify_other (p : Pool Record) {s j : Nat} (f : Record → Record) (h : j ≠ s) : (modify p s f).data j = p.data j := if_neg h

/-- Detach the successor of an exhausted entry. -/
def detach (p : Pool Record) : Option Nat → Pool Record
  | some s => modify p s fun r => { r with pred := none }
  | none => p

theorem forget_detach (p : Pool Record) (s : Option Nat) : forget (detach p s) = forget p := by
  cases s <;> rfl

theorem detach_data (p : Pool Record) (s : Option Nat) (j : Nat) :
    (detach p s).data j = if s = some j then { p.data j with pred := none } else p.data j := by
  cases s with
  | none => rfl
  | some s =>
    show (if j = s then _ else _) = _
    by_cases h : j = s
    · subst h; simp
    · rw [if_neg h, if_neg (by intro hc; cases hc; exact h rfl)]

/-- The first entry of a level is exhausted. -/
theorem Core.pop (h : Core n cap p lv Q issued) {l : Nat} (hl : l < n) {e : Entry} {t : List Entry} (hq : Q l = e :: t)
    (f : Record → Record) :
    Core n cap ((detach (modify p (slot cap e) f) (t.head?.map (slot cap))).erase e.id).2
      (upd lv l (t.head?.map (slot cap), t.getLast?.map (slot cap))) (upd Q l t) issued := by
  have he : e ∈ Q l := by rw [hq]; simp
  have hnd := h.nodup l hl
  rw [hq, List.map_cons, List.nodup_cons] at hnd
  have htl : ∀ x ∈ t, x ∈ Q l := fun x hx => by rw [hq]; exact List.mem_cons_of_mem _ hx
  have hne : ∀ x ∈ t, slot cap x ≠ slot cap e := fun x hx hs =>
    hnd.1 (List.mem_map.2 ⟨x, hx, h.slot_inj hl hl (htl x hx) he hs⟩)
  have hdata := (forget_erase (detach (modify p (slot cap e) f) (t.head?.map (slot cap))) e.id).2.2
  refine ⟨(h.pool_erase hl he t ?_ (p' := detach (modify p (slot cap e) f) (t.head?.map (slot cap))) (forget_detach _ _)).2, ?_, ?_, ?_, ?_⟩
  · intro i
    rw [hq, List.map_cons, List.mem_cons]
    constructor
    · intro hi
      exact ⟨.inr hi, fun hie => hnd.1 (hie ▸ hi)⟩
    · rintro ⟨hi | hi, hne⟩
      · exact absurd hi hne
      · exact hi
  · intro m hm
    by_cases hml : m = l
    · subst hml; rw [upd_same, upd_same]
    · rw [upd_other _ _ hml, upd_other _ _ hml]; exact h.levels m hm
  · intro m hm
    by_cases hml : m = l
    · subst hml
      rw [upd_same, hdata]
      have hlk := h.linked m hm
      rw [hq] at hlk
      cases ht : t with
      | nil => trivial
      | cons x t' =>
        rw [ht] at hlk hne htl
        have hx := hlk.2
        refine ⟨?_, ?_⟩
        · rw [detach_data]
          have : (List.head? (x :: t')).map (slot cap) = some (slot cap x) := rfl
          rw [this, if_pos rfl]
          have : (modify p (slot cap e) f).data (slot cap x) = p.data (slot cap x) := upd_other _ _ (hne x (by simp))
          rw [this, hx.1]
        · refine hx.2.congr ?_
          intro y hy
          rw [detach_data]
          have : (List.head? (x :: t')).map (slot cap) = some (slot cap x) := rfl
          rw [this, if_neg]
          · exact upd_other _ _ (hne y (List.mem_cons_of_mem _ hy))
          · intro hc
            have hs : slot cap x = slot cap y := by injection hc
            have := h.slot_inj hm hm (htl x (by simp)) (htl y (List.mem_cons_of_mem _ hy)) hs
            rw [ht, List.map_cons, List.nodup_cons] at hnd
            exact hnd.2.1 (List.mem_map.2 ⟨y, hy, this.symm⟩)
    · rw [upd_other _ _ hml, hdata]
      refine (h.linked m hm).congr ?_
      intro y hy
      rw [detach_data, if_neg]
      · apply upd_other
        intro hs
        exact h.apart m l hm hl hml y hy e he (h.slot_inj hm hl hy he hs)
      · cases ht : t with
        | nil => intro hc; cases hc
        | cons x t' =>
          intro hc
          have hs : slot cap x = slot cap y := by injection hc
          have hx := htl x (by rw [ht]; simp)
          exact h.apart m l hm hl hml y hy x hx (h.slot_inj hl hm hx hy hs).symm
  · intro m hm
    by_cases hml : m = l
    · subst hml; rw [upd_same]; exact hnd.2
    · rw [upd_other _ _ hml]; exact h.nodup m hm
  · intro a b ha hb hab x hx y hy
    have hx' : x ∈ Q a := by
      by_cases hal : a = l
      · subst hal; rw [upd_same] at hx; exact htl x hx
      · rw [upd_other _ _ hal] at hx; exact hx
    have hy' : y ∈ Q b := by
      by_cases hal : b = l
      · subst hal; rw [upd_same] at hy; exact htl y hy
      · rw [upd_other _ _ hal] at hy; exact hy
    exact h.apart a b ha hb hab x hx' y hy'

/-- The quantity of the first entry of a level is reduced. -/
theorem Core.reduce (h : Core n cap p lv Q issued) {l : Nat} (hl : l < n) {e : Entry} {t : List Entry} (hq : Q l = e :: t) (x : Nat) :
    Core n cap (modify p (slot cap e) fun r => { r with quantity := r.quantity - x }) lv (upd Q l (Book.reduce e x :: t)) issued := by
  have he : e ∈ Q l := by rw [hq]; simp
  have hids : ∀ m, (upd Q l (Book.reduce e x :: t) m).map (·.id) = (Q m).map (·.id) := by
    intro m
    by_cases hml : m = l
    · subst hml; rw [upd_same, hq]; rfl
    · rw [upd_other _ _ hml]
  have hnd := h.nodup l hl
  rw [hq, List.map_cons, List.nodup_cons] at hnd
  refine ⟨?_, ?_, ?_, ?_, ?_⟩
  · obtain ⟨live, free, hi, hm⟩ := h.pool
    refine ⟨live, free, hi, fun i => ?_⟩
    rw [hm]
    constructor
    · rintro ⟨m, hmn, him⟩; exact ⟨m, hmn, by rw [hids]; exact him⟩
    · rintro ⟨m, hmn, him⟩; exact ⟨m, hmn, by rw [hids] at him; exact him⟩
  · intro m hm
    rw [h.levels m hm]
    by_cases hml : m = l
    · subst hml; rw [upd_same, hq]
      cases t with
      | nil => rfl
      | cons y t => simp [List.getLast?_cons, slot, Book.reduce]
    · rw [upd_other _ _ hml]
  · intro m hm
    by_cases hml : m = l
    · subst hml
      rw [upd_same]
      have hlk := h.linked m hm
      rw [hq] at hlk
      refine ⟨?_, ?_⟩
      · show upd _ _ _ (slot cap e) = _
        rw [upd_same, hlk.1]
        rfl
      · refine hlk.2.congr ?_
        intro y hy
        apply upd_other
        intro hs
        exact hnd.1 (List.mem_map.2 ⟨y, hy, h.slot_inj hm hm (by rw [hq]; exact List.mem_cons_of_mem _ hy) he hs⟩)
    · rw [upd_other _ _ hml]
      refine (h.linked m hm).congr ?_
      intro y hy
      apply upd_other
      intro hs
      exact h.apart m l hm hl hml y hy e he (h.slot_inj hm hl hy he hs)
  · intro m hm
    rw [hids]; exact h.nodup m hm
  · intro a b ha hb hab x hx y hy hxy
    have hx' : x.id ∈ (Q a).map (·.id) := by rw [← hids]; exact List.mem_map.2 ⟨x, hx, rfl⟩
    have hy' : y.id ∈ (Q b).map (·.id) := by rw [← hids]; exact List.mem_map.2 ⟨y, hy, rfl⟩
    obtain ⟨u, hu, hux⟩ := List.mem_map.1 hx'
    obtain ⟨v, hv, hvy⟩ := List.mem_map.1 hy'
    exact h.apart a b ha hb hab u hu v hv (by rw [hux, hvy, hxy])

theorem Linked.snoc {d d' : Nat → Record} {pr : Option Nat} {q : List Entry} {e z : Entry} (h : Linked cap d pr q)
    (hz : q.getLast? = some z) (hnd : (q.map (slot cap)).Nodup)
    (h1 : d' (slot cap z) = { d (slot cap z) with succ := some (slot cap e) })
    (h2 : d' (slot cap e) = ⟨some e.order.limit, e.order.quantity, e.order.owner, some (slot cap z), none⟩)
    (h3 : ∀ x ∈ q, slot cap x ≠ slot cap z → d' (slot cap x) = d (slot cap x)) : Linked cap d' pr (q ++ [e]) := by
  induction q generalizing pr with
  | nil => cases hz
  | cons x t ih =>
    cases t with
    | nil =>
      have : x = z := by simpa using hz
      subst this
      refine ⟨?_, ?_, trivial⟩
      · rw [h1, h.1]; rfl
      · rw [h2]; rfl
    | cons y t' =>
      have hz' : (y :: t').getLast? = some z := by simpa [List.getLast?_cons] using hz
      have hzm : z ∈ y :: t' := List.mem_of_getLast? hz'
      have hnd' := hnd
      rw [List.map_cons, List.nodup_cons] at hnd'
      have hxz : slot cap x ≠ slot cap z := fun hs => hnd'.1 (hs ▸ List.mem_map.2 ⟨z, hzm, rfl⟩)
      refine ⟨?_, ?_⟩
      · rw [h3 x (by simp) hxz, h.1]; rfl
      · exact ih h.2 hz' hnd'.2 fun w hw => h3 w (List.mem_cons_of_mem _ hw)

theorem Core.slots_nodup (h : Core n cap p lv Q issued) {l : Nat} (hl : l < n) : ((Q l).map (slot cap)).Nodup := by
  have h1 : ∀ q : List Entry, (∀ x ∈ q, x ∈ Q l) → (q.map (·.id)).Nodup → (q.map (slot cap)).Nodup := by
    intro q
    induction q with
    | nil => intros; exact .nil
    | cons x q ih =>
      intro hs hn
      rw [List.map_cons, List.nodup_cons] at hn
      rw [List.map_cons, List.nodup_cons]
      refine ⟨?_, ih (fun y hy => hs y (List.mem_cons_of_mem _ hy)) hn.2⟩
      intro hm
      obtain ⟨y, hy, hyx⟩ := List.mem_map.1 hm
      exact hn.1 (List.mem_map.2 ⟨y, hy, h.slot_inj hl hl (hs y (List.mem_cons_of_mem _ hy)) (hs x (by simp)) hyx⟩)
  exact h1 _ (fun _ hx => hx) (h.nodup l hl)

/-- The pointers of the level and the pool after a new entry was put at the end of a level. -/
def append (s : Nat) (p : Pool Record) : Option Nat × Option Nat → Outcome (Pool Record × (Option Nat × Option Nat))
  | (none, _) => .ok (p, some s, some s)
  | (some _, none) => .ub
  | (some first, some last) =>
    .ok (modify (modify p last fun r => { r with succ := some s }) s fun r => { r with pred := some last }, some first, some s)

theorem Core.push (h : Core n cap p lv Q issued) {l : Nat} (hl : l < n) (lim : Int) (qty own : Nat)
    (hn : (2 * issued.length + 3) * cap < 2 ^ 64) :
    (p.emplace ⟨some lim, qty, own, none, none⟩ = .throws ∧ p.size = cap) ∨
    ∃ i p' p'' v, p.emplace ⟨some lim, qty, own, none, none⟩ = .ok (i, i % cap, p') ∧ (∀ j ∈ issued, j < i) ∧ p.size < cap ∧
      append (i % cap) (stored p' (i % cap) i) (lv l) = .ok (p'', v) ∧
      ∀ e : Entry, e.id = i → e.order.limit = lim → e.order.quantity = qty → e.order.owner = own →
        Core n cap p'' (upd lv l v) (upd Q l (Q l ++ [e])) (issued ++ [i]) := by
  obtain ⟨live, free, hi, hm⟩ := h.pool
  have hfull := hi.full
  have hsz : p.size = live.length := hi.size
  obtain ⟨ft, fu, fo⟩ := forget_emplace p (⟨some lim, qty, own, none, none⟩ : Record)
  rcases Pool.emplace_inv cap (forget p) live issued free hi () hn with ⟨hf, ht⟩ | ⟨a, rest, i, q, hf, ht, hia, hhi, hinv⟩
  · left
    refine ⟨ft ht, ?_⟩
    rw [hf] at hfull
    simp at hfull
    omega
  · right
    obtain ⟨s, p', hex, hq, hdat, hend⟩ := fo i q ht
    have hsa : s = i % cap := by
      have hc := hi.chain
      have e : (forget p).end_ = some s := hend
      rw [e, hf] at hc
      cases hc
      exact hia.symm
    subst hsa
    have hnew : ∀ l, l < n → ∀ x ∈ Q l, slot cap x ≠ i % cap := by
      intro m hmn x hx hs
      have hxl : x.id ∈ live.map (·.1) := (hm _).2 ⟨m, hmn, List.mem_map.2 ⟨x, hx, rfl⟩⟩
      obtain ⟨y, hy, hyx⟩ := List.mem_map.1 hxl
      have := (List.nodup_append.1 hi.nodup).2.2 a (by rw [hf]; simp) _ (List.mem_map.2 ⟨y, hy, rfl⟩)
      exact this (by rw [hyx, ← hia]; exact hs.symm)
    have hlt : ∀ j ∈ issued, j < i := fun j hj => Nat.lt_of_lt_of_le (hi.below j hj) hhi
    have hsub : ∀ m, m < n → ∀ x ∈ Q m, x.id < i := by
      intro m hmn x hx
      have hxl : x.id ∈ live.map (·.1) := (hm _).2 ⟨m, hmn, List.mem_map.2 ⟨x, hx, rfl⟩⟩
      obtain ⟨y, hy, hyx⟩ := List.mem_map.1 hxl
      rw [← hyx]
      exact hlt _ (hi.sub y hy)
    have hcap : p.size < cap := by
      rw [hf, List.length_cons] at hfull; omega
    have hlv := h.levels l hl
    -- the pool part does not depend on the data
    have hpool : ∀ p'' : Pool Record, forget p'' = q → ∀ e : Entry, e.id = i →
        ∃ live free, Pool.Inv cap (forget p'') live (issued ++ [i]) free ∧
          ∀ j, j ∈ live.map (·.1) ↔ ∃ m, m < n ∧ j ∈ (upd Q l (Q l ++ [e]) m).map (·.id) := by
      intro p'' hp e hei
      refine ⟨_, rest, by rw [hp]; exact hinv, ?_⟩
      intro j
      rw [List.map_append, List.mem_append, hm]
      constructor
      · rintro (⟨m, hmn, hj⟩ | hj)
        · refine ⟨m, hmn, ?_⟩
          by_cases hml : m = l
          · subst hml; rw [upd_same, List.map_append]; exact List.mem_append_left _ hj
          · rw [upd_other _ _ hml]; exact hj
        · refine ⟨l, hl, ?_⟩
          rw [upd_same, List.map_append]
          apply List.mem_append_right
          simpa [hei] using hj
      · rintro ⟨m, hmn, hj⟩
        by_cases hml : m = l
        · subst hml
          rw [upd_same, List.map_append, List.mem_append] at hj
          rcases hj with hj | hj
          · exact .inl ⟨m, hmn, hj⟩
          · right; simpa [hei] using hj
        · rw [upd_other _ _ hml] at hj
          exact .inl ⟨m, hmn, hj⟩
    have hrest : ∀ (p'' : Pool Record) (v : Option Nat × Option Nat) (e : Entry), forget p'' = q → e.id = i →
        v = ((Q l ++ [e]).head?.map (slot cap), (Q l ++ [e]).getLast?.map (slot cap)) →
        Linked cap p''.data none (Q l ++ [e]) →
        (∀ m, m < n → m ≠ l → ∀ x ∈ Q m, p''.data (slot cap x) = p.data (slot cap x)) →
        Core n cap p'' (upd lv l v) (upd Q l (Q l ++ [e])) (issued ++ [i]) := by
      intro p'' v e hp hei hv hlk hd
      refine ⟨hpool p'' hp e hei, ?_, ?_, ?_, ?_⟩
      · intro m hmn
        by_cases hml : m = l
        · subst hml; rw [upd_same, upd_same, hv]
        · rw [upd_other _ _ hml, upd_other _ _ hml]; exact h.levels m hmn
      · intro m hmn
        by_cases hml : m = l
        · subst hml; rw [upd_same]; exact hlk
        · rw [upd_other _ _ hml]
          exact (h.linked m hmn).congr (hd m hmn hml)
      · intro m hmn
        by_cases hml : m = l
        · subst hml; rw [upd_same, List.map_append]
          refine List.nodup_append.2 ⟨h.nodup m hmn, by simp, ?_⟩
          intro x hx y hy hxy
          obtain ⟨w, hw, hwx⟩ := List.mem_map.1 hx
          have : y = i := by simpa [hei] using hy
          have := hsub m hmn w hw
          omega
        · rw [upd_other _ _ hml]; exact h.nodup m hmn
      · intro a b ha hb hab x hx y hy hxy
        have cases : ∀ c, c < n → ∀ w ∈ upd Q l (Q l ++ [e]) c, (w ∈ Q c) ∨ (c = l ∧ w = e) := by
          intro c hc w hw
          by_cases hcl : c = l
          · subst hcl
            rw [upd_same, List.mem_append] at hw
            rcases hw with hw | hw
            · exact .inl hw
            · exact .inr ⟨rfl, by simpa using hw⟩
          · rw [upd_other _ _ hcl] at hw; exact .inl hw
        rcases cases a ha x hx with hx' | ⟨hal, rfl⟩ <;> rcases cases b hb y hy with hy' | ⟨hbl, rfl⟩
        · exact h.apart a b ha hb hab x hx' y hy' hxy
        · have := hsub a ha x hx'; omega
        · have := hsub b hb y hy'; omega
        · omega
    have hdata : ∀ j, (stored p' (i % cap) i).data j = upd p.data (i % cap) ⟨some lim, qty, own, none, none⟩ j := by
      intro j
      show p'.data j = _
      rw [hdat]
    cases hq0 : Q l with
    | nil =>
      rw [hq0] at hlv
      refine ⟨i, p', stored p' (i % cap) i, (some (i % cap), some (i % cap)), hex, hlt, hcap, by rw [hlv]; rfl, ?_⟩
      intro e hei h1 h2 h3
      have := hrest (stored p' (i % cap) i) (some (i % cap), some (i % cap)) e hq hei (by rw [hq0, ← hei]; rfl) ?_ ?_
      · rw [hq0] at this; exact this
      · rw [hq0]
        refine ⟨?_, trivial⟩
        have : slot cap e = i % cap := by rw [← hei]
        rw [hdata, this, upd_same, h1, h2, h3]
        rfl
      · intro m hmn hml x hx
        rw [hdata]
        exact upd_other _ _ (hnew m hmn x hx)
    | cons x t =>
      obtain ⟨z, hz⟩ : ∃ z, (Q l).getLast? = some z := by
        rw [hq0]; exact ⟨_, List.getLast?_cons⟩
      have hzm : z ∈ Q l := List.mem_of_getLast? hz
      have hzn := hnew l hl z hzm
      rw [hz, hq0] at hlv
      refine ⟨i, p', _, (some (slot cap x), some (i % cap)), hex, hlt, hcap, by rw [hlv]; rfl, ?_⟩
      intro e hei h1 h2 h3
      have hse : slot cap e = i % cap := by rw [← hei]
      have := hrest (modify (modify (stored p' (i % cap) i) (slot cap z) fun r => { r with succ := some (i % cap) }) (i % cap)
        fun r => { r with pred := some (slot cap z) }) (some (slot cap x), some (i % cap)) e hq hei ?_ ?_ ?_
      · rw [hq0] at this; exact this
      · rw [hq0]
        rw [List.getLast?_concat, Option.map_some, hse]; rfl
      · refine (h.linked l hl).snoc hz (h.slots_nodup hl) ?_ ?_ ?_
        · show upd _ _ _ _ = _
          rw [upd_other _ _ hzn]
          show upd _ _ _ _ = _
          rw [upd_same, hdata, upd_other _ _ hzn, hse]
        · show upd _ _ _ _ = _
          rw [hse, upd_same]
          rw [modify_other _ _ (Ne.symm hzn), hdata, upd_same, h1, h2, h3]
        · intro y hy hyz
          show upd _ _ _ _ = _
          rw [upd_other _ _ (hnew l hl y hy)]
          show upd _ _ _ _ = _
          rw [upd_other _ _ hyz, hdata, upd_other _ _ (hnew l hl y hy)]
      · intro m hmn hml y hy
        show upd _ _ _ _ = _
        rw [upd_other _ _ (hnew m hmn y hy)]
        show upd _ _ _ _ = _
        rw [upd_other, hdata, upd_other _ _ (hnew m hmn y hy)]
        intro hs
        exact h.apart m l hmn hl hml y hy z hzm (h.slot_inj hmn hl hy hzm hs)

theorem Linked.mid {d : Nat → Record} {pr : Option Nat} {A B : List Entry} {e : Entry} (h : Linked cap d pr (A ++ e :: B)) :
    d (slot cap e) = ⟨some e.order.limit, e.order.quantity, e.order.owner, (A.getLast?.map (slot cap)).or pr, B.head?.map (slot cap)⟩ := by
  induction A generalizing pr with
  | nil => exact h.1
  | cons a A ih =>
    rw [ih h.2]
    congr 1
    cases A with
    | nil => rfl
    | cons b A => rw [List.getLast?_cons_cons, List.getLast?_cons]; rfl

theorem Linked.remove {d d' : Nat → Record} {pr : Option Nat} {A B : List Entry} {e : Entry} (h : Linked cap d pr (A ++ e :: B))
    (hnd : ((A ++ e :: B).map (slot cap)).Nodup)
    (h1 : ∀ x ∈ A, d' (slot cap x) = if A.getLast?.map (slot cap) = some (slot cap x) then { d (slot cap x) with succ := B.head?.map (slot cap) }
      else d (slot cap x))
    (h2 : ∀ x ∈ B, d' (slot cap x) = if B.head?.map (slot cap) = some (slot cap x) then { d (slot cap x) with pred := (A.getLast?.map (slot cap)).or pr }
      else d (slot cap x)) : Linked cap d' pr (A ++ B) := by
  induction A generalizing pr with
  | nil =>
    cases B with
    | nil => trivial
    | cons b B =>
      have hb := h.2
      refine ⟨?_, hb.2.congr ?_⟩
      · rw [h2 b (by simp), if_pos (c := Option.map (slot cap) (b :: B).head? = some (slot cap b)) rfl, hb.1]; rfl
      · intro x hx
        rw [h2 x (List.mem_cons_of_mem _ hx), if_neg]
        intro hc
        have hc : slot cap b = slot cap x := by injection hc
        simp only [List.nil_append, List.map_cons, List.nodup_cons] at hnd
        exact hnd.2.1 (List.mem_map.2 ⟨x, hx, hc.symm⟩)
  | cons a A ih =>
    rw [List.cons_append, List.map_cons, List.nodup_cons] at hnd
    have ha := h.1
    cases A with
    | nil =>
      refine ⟨?_, ?_⟩
      · rw [h1 a (by simp), if_pos (c := Option.map (slot cap) [a].getLast? = some (slot cap a)) rfl, ha]; rfl
      · refine ih h.2 hnd.2 (by intro x hx; cases hx) ?_
        intro x hx
        rw [h2 x hx]; rfl
    | cons b A =>
      refine ⟨?_, ?_⟩
      · rw [h1 a (by simp), if_neg, ha]
        · rfl
        · intro hc
          obtain ⟨z, hz, hza⟩ := Option.map_eq_some_iff.1 hc
          rw [List.getLast?_cons_cons] at hz
          exact hnd.1 (List.mem_map.2 ⟨z, List.mem_append_left _ (List.mem_of_getLast? hz), hza⟩)
      · refine ih h.2 hnd.2 ?_ ?_
        · intro x hx
          rw [h1 x (List.mem_cons_of_mem _ hx), List.getLast?_cons_cons]
        · intro x hx
          rw [h2 x hx, List.getLast?_cons_cons, List.getLast?_cons]
          rfl

/-- Change a record behind a pointer. -/
def relink (p : Pool Record) (s : Option Nat) (f : Record → Record) : Pool Record :=
  match s with
  | none => p
  | some s => modify p s f

theorem relink_data (p : Pool Record) (s : Option Nat) (f : Record → Record) (j : Nat) :
    (relink p s f).data j = if s = some j then f (p.data j) else p.data j := by
  cases s with
  | none => rfl
  | some s =>
    show (if j = s then _ else _) = _
    by_cases h : j = s
    · subst h; simp
    · rw [if_neg h, if_neg (by intro hc; cases hc; exact h rfl)]

theorem forget_relink (p : Pool Record) (s : Option Nat) (f : Record → Record) : forget (relink p s f) = forget p := by
  cases s <;> rfl

/-- An entry is removed from its level. -/
theorem Core.remove (h : Core n cap p lv Q issued) {l : Nat} (hl : l < n) {A B : List Entry} {e : Entry} (hq : Q l = A ++ e :: B)
    (r0 : Record) :
    (p.erase e.id).1 = 1 ∧
    Core n cap (modify (relink (relink (p.erase e.id).2 (A.getLast?.map (slot cap)) fun q => { q with succ := B.head?.map (slot cap) })
        (B.head?.map (slot cap)) fun q => { q with pred := A.getLast?.map (slot cap) }) (slot cap e) fun _ => r0)
      (upd lv l ((A ++ B).head?.map (slot cap), (A ++ B).getLast?.map (slot cap))) (upd Q l (A ++ B)) issued := by
  have he : e ∈ Q l := by rw [hq]; simp
  have hnd := h.nodup l hl
  have hsn := h.slots_nodup hl
  have hsub : ∀ x ∈ A ++ B, x ∈ Q l := by
    intro x hx
    rw [hq]
    rcases List.mem_append.1 hx with hx | hx
    · exact List.mem_append_left _ hx
    · exact List.mem_append_right _ (List.mem_cons_of_mem _ hx)
  have hids : ∀ x ∈ A ++ B, x.id ≠ e.id := by
    intro x hx hxe
    rw [hq, List.map_append, List.map_cons, List.nodup_append] at hnd
    rcases List.mem_append.1 hx with hx | hx
    · exact hnd.2.2 _ (List.mem_map.2 ⟨x, hx, rfl⟩) _ (List.mem_cons_self ..) hxe
    · exact (List.nodup_cons.1 hnd.2.1).1 (List.mem_map.2 ⟨x, hx, hxe⟩)
  have hslots : ∀ x ∈ A ++ B, slot cap x ≠ slot cap e := fun x hx hs =>
    hids x hx (h.slot_inj hl hl (hsub x hx) he hs)
  have herase := h.pool_erase hl he (A ++ B) (p' := p) ?_ rfl
  · obtain ⟨hone, hpool⟩ := herase
    have hdat := (forget_erase p e.id).2.2
    -- the record of an entry after the change
    have hrec : ∀ j, j ≠ slot cap e → (modify (relink (relink (p.erase e.id).2 (A.getLast?.map (slot cap)) fun q => { q with succ := B.head?.map (slot cap) })
        (B.head?.map (slot cap)) fun q => { q with pred := A.getLast?.map (slot cap) }) (slot cap e) fun _ => r0).data j =
        if B.head?.map (slot cap) = some j then
          { (if A.getLast?.map (slot cap) = some j then { p.data j with succ := B.head?.map (slot cap) } else p.data j) with
            pred := A.getLast?.map (slot cap) }
        else if A.getLast?.map (slot cap) = some j then { p.data j with succ := B.head?.map (slot cap) } else p.data j := by
      intro j hj
      rw [modify_other _ _ hj, relink_data, relink_data, hdat]
    refine ⟨hone, ?_, ?_, ?_, ?_, ?_⟩
    · obtain ⟨live, free, h1, h2⟩ := hpool
      refine ⟨live, free, ?_, h2⟩
      have : forget (modify (relink (relink (p.erase e.id).2 (A.getLast?.map (slot cap)) fun q => { q with succ := B.head?.map (slot cap) })
        (B.head?.map (slot cap)) fun q => { q with pred := A.getLast?.map (slot cap) }) (slot cap e) fun _ => r0) = forget (p.erase e.id).2 :=
        (forget_relink _ _ _).trans (forget_relink _ _ _)
      rw [this]; exact h1
    · intro m hm
      by_cases hml : m = l
      · subst hml; rw [upd_same, upd_same]
      · rw [upd_other _ _ hml, upd_other _ _ hml]; exact h.levels m hm
    · intro m hm
      by_cases hml : m = l
      · subst hml
        rw [upd_same]
        have hlk := h.linked m hm
        rw [hq] at hlk hsn
        have hsn' := hsn
        rw [List.map_append, List.map_cons, List.nodup_append] at hsn'
        refine hlk.remove hsn ?_ ?_
        · intro x hx
          rw [hrec _ (hslots x (List.mem_append_left _ hx)), if_neg]
          intro hc
          obtain ⟨b, hb, hbx⟩ := Option.map_eq_some_iff.1 hc
          have hb' : b ∈ B := List.mem_of_mem_head? hb
          exact hsn'.2.2 _ (List.mem_map.2 ⟨x, hx, rfl⟩) _ (List.mem_cons_of_mem _ (List.mem_map.2 ⟨b, hb', rfl⟩)) hbx.symm
        · intro x hx
          rw [hrec _ (hslots x (List.mem_append_right _ hx)), if_neg (c := A.getLast?.map (slot cap) = some (slot cap x))]
          · rw [Option.or_none]
          · intro hc
            obtain ⟨a, ha, hax⟩ := Option.map_eq_some_iff.1 hc
            have ha' : a ∈ A := List.mem_of_getLast? ha
            exact hsn'.2.2 _ (List.mem_map.2 ⟨a, ha', rfl⟩) _ (List.mem_cons_of_mem _ (List.mem_map.2 ⟨x, hx, rfl⟩)) hax
      · rw [upd_other _ _ hml]
        refine (h.linked m hm).congr ?_
        intro y hy
        have hy1 : ∀ x ∈ Q l, slot cap x ≠ slot cap y := fun x hx hs =>
          h.apart m l hm hl hml y hy x hx (h.slot_inj hl hm hx hy hs).symm
        rw [hrec _ (Ne.symm (hy1 e he)), if_neg, if_neg]
        · intro hc
          obtain ⟨a, ha, hax⟩ := Option.map_eq_some_iff.1 hc
          exact hy1 a (hsub a (List.mem_append_left _ (List.mem_of_getLast? ha))) hax
        · intro hc
          obtain ⟨b, hb, hbx⟩ := Option.map_eq_some_iff.1 hc
          exact hy1 b (hsub b (List.mem_append_right _ (List.mem_of_mem_head? hb))) hbx
    · intro m hm
      by_cases hml : m = l
      · subst hml; rw [upd_same]
        rw [hq] at hnd
        exact hnd.sublist ((List.Sublist.append (List.Sublist.refl _) (List.sublist_cons_self ..)).map _)
      · rw [upd_other _ _ hml]; exact h.nodup m hm
    · intro a b ha hb hab x hx y hy
      have hx' : x ∈ Q a := by
        by_cases hal : a = l
        · subst hal; rw [upd_same] at hx; exact hsub x hx
        · rw [upd_other _ _ hal] at hx; exact hx
      have hy' : y ∈ Q b := by
        by_cases hal : b = l
        · subst hal; rw [upd_same] at hy; exact hsub y hy
        · rw [upd_other _ _ hal] at hy; exact hy
      exact h.apart a b ha hb hab x hx' y hy'
  · intro i
    constructor
    · intro hi
      obtain ⟨x, hx, rfl⟩ := List.mem_map.1 hi
      exact ⟨List.mem_map.2 ⟨x, hsub x hx, rfl⟩, hids x hx⟩
    · rintro ⟨hi, hne⟩
      obtain ⟨x, hx, rfl⟩ := List.mem_map.1 hi
      rw [hq] at hx
      refine List.mem_map.2 ⟨x, ?_, rfl⟩
      rcases List.mem_append.1 hx with hx | hx
      · exact List.mem_append_left _ hx
      · rcases List.mem_cons.1 hx with rfl | hx
        · exact absurd rfl hne
        · exact List.mem_append_right _ hx

end Esl.Static
