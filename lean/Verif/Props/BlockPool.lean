import Verif.Model.BlockPool
/-! # C32, C33: the block pool -/
namespace Esl.Pool
variable {α : Type}

/-! ## Specification -/

/-- A correct use of a pool of the given capacity: the pool, the elements that should be in it (by the index they were given), and all indices handed
out so far, in order. Only elements that are in the pool are erased. -/
inductive Spec.Reach (d : α) (cap : Nat) : Pool α → List (Nat × α) → List Nat → Prop where
  | new (p : Pool α) (h : Pool.make d cap = .ok p) : Spec.Reach d cap p [] []
  | emplace (p : Pool α) (live : List (Nat × α)) (issued : List Nat) (e : α) (i : Nat) (p' : Pool α)
      (hr : Spec.Reach d cap p live issued) (h : p.emplaceStored e = .ok (i, p')) :
      Spec.Reach d cap p' (live ++ [(i, e)]) (issued ++ [i])
  | erase (p : Pool α) (live : List (Nat × α)) (issued : List Nat) (i : Nat)
      (hr : Spec.Reach d cap p live issued) (h : i ∈ live.map (·.1)) :
      Spec.Reach d cap (p.erase i).2 (live.filter fun x => x.1 != i) issued

/-! ## Invariant -/

/-- The list of free blocks, from a pointer. -/
inductive Chain (next : Nat → Option Nat) : Option Nat → List Nat → Prop where
  | nil : Chain next none []
  | cons (a : Nat) (l : List Nat) (h : Chain next (next a) l) : Chain next (some a) (a :: l)

theorem Chain.congr {n n' : Nat → Option Nat} {e : Option Nat} {l : List Nat} (h : Chain n e l) (hn : ∀ a ∈ l, n' a = n a) :
    Chain n' e l := by
  induction h with
  | nil => exact .nil
  | cons a l h ih =>
    refine .cons a l ?_
    rw [hn a (List.mem_cons_self ..)]
    exact ih fun b hb => hn b (List.mem_cons_of_mem _ hb)

theorem chain_range (cap : Nat) : ∀ k, k ≤ cap → 0 < k →
    Chain (fun i => if i + 1 < cap then some (i + 1) else none) (some (cap - k)) ((List.range k).map (cap - k + ·)) := by
  intro k
  induction k with
  | zero => omega
  | succ k ih =>
    intro hk _
    rw [List.range_succ_eq_map, List.map_cons]
    refine .cons _ _ ?_
    by_cases h : k = 0
    · subst h
      have : ¬ cap - (0 + 1) + 0 + 1 < cap := by omega
      simp only [this, if_false]
      exact .nil
    · have h1 : cap - (k + 1) + 0 + 1 < cap := by omega
      simp only [h1, if_true]
      have h2 := ih (by omega) (by omega)
      have e1 : cap - (k + 1) + 0 + 1 = cap - k := by omega
      have e2 : ((List.range k).map Nat.succ).map (cap - (k + 1) + ·) = (List.range k).map (cap - k + ·) := by
        rw [List.map_map]
        apply List.map_congr_left
        intro a _
        simp only [Function.comp]
        omega
      rw [e1, e2]; exact h2

structure Inv (cap : Nat) (p : Pool α) (live : List (Nat × α)) (issued : List Nat) (free : List Nat) : Prop where
  pos : 0 < cap
  capEq : p.capacity = cap
  chain : Chain p.next p.end_ free
  nodup : (free ++ live.map (·.1 % cap)).Nodup
  bound : ∀ a ∈ free, a < cap
  full : free.length + live.length = cap
  size : p.size = live.length
  idx : ∀ x ∈ live, p.index (x.1 % cap) = x.1 ∧ p.data (x.1 % cap) = x.2
  sub : ∀ x ∈ live, x.1 ∈ issued
  sorted : issued.Pairwise (· < ·)
  below : ∀ i ∈ issued, i < p.highest
  high : p.highest ≤ (p.round + 1) * cap
  rounds : p.round ≤ 2 * issued.length
  backs : p.back ≤ cap

theorem make_inv (d : α) (cap : Nat) (p : Pool α) (h : Pool.make d cap = .ok p) : Inv cap p [] [] (List.range cap) := by
  unfold Pool.make at h
  split at h
  · cases h
  · rename_i hc
    cases h
    have := chain_range cap cap (by omega) (by omega)
    refine ⟨by omega, rfl, ?_, ?_, ?_, ?_, rfl, ?_, ?_, ?_, ?_, ?_, ?_, ?_⟩
    · simpa using this
    · simpa using List.nodup_range
    · intro a ha; exact List.mem_range.1 ha
    all_goals simp

theorem mul_bound {a b c m : Nat} (h : a ≤ b) (hm : b * c < m) : a * c < m :=
  Nat.lt_of_le_of_lt (Nat.mul_le_mul_right _ h) hm

/-- The arithmetic of `emplace`. -/
theorem bump_spec (cap back round offset n : Nat) (hb : back ≤ cap) (ho : offset < cap) (hr : round ≤ 2 * n)
    (hn : (2 * n + 3) * cap < 2 ^ 64) :
    (bump cap back round offset).1 ≤ cap ∧ round ≤ (bump cap back round offset).2 ∧ (bump cap back round offset).2 ≤ round + 1 := by
  have hcap : cap < 2 ^ 64 / 3 + 1 := by
    have : 3 * cap ≤ (2 * n + 3) * cap := Nat.mul_le_mul_right _ (by omega)
    omega
  have hnn : 2 * n + 3 < 2 ^ 64 := by
    have : (2 * n + 3) * 1 ≤ (2 * n + 3) * cap := Nat.mul_le_mul_left _ (by omega)
    omega
  unfold bump
  have e1 : u64 (round + 1) = round + 1 := Nat.mod_eq_of_lt (by omega)
  have e2 : u64 (back + 1) = back + 1 := Nat.mod_eq_of_lt (by omega)
  rw [e1, e2]
  by_cases h : back > offset
  · simp only [h, if_true]
    rw [if_neg (by omega)]
    exact ⟨by simp only; omega, by simp only; omega, by simp⟩
  · simp only [h, if_false]
    by_cases h' : back + 1 > cap
    · rw [if_pos h', e1]; simp
    · rw [if_neg h']; simp only; omega

theorem emplace_inv (cap : Nat) (p : Pool α) (live : List (Nat × α)) (issued free : List Nat) (h : Inv cap p live issued free) (e : α)
    (hn : (2 * issued.length + 3) * cap < 2 ^ 64) :
    (free = [] ∧ p.emplaceStored e = .throws) ∨
    ∃ a rest i p', free = a :: rest ∧ p.emplaceStored e = .ok (i, p') ∧ i % cap = a ∧ p.highest ≤ i ∧
      Inv cap p' (live ++ [(i, e)]) (issued ++ [i]) rest := by
  have hfull := h.full
  have hsz := h.size
  have hc := h.capEq
  cases hf : free with
  | nil =>
    left
    refine ⟨rfl, ?_⟩
    rw [hf] at hfull
    simp at hfull
    unfold Pool.emplaceStored Pool.emplace
    rw [if_pos (by omega)]; rfl
  | cons a rest =>
    right
    have hch := h.chain
    rw [hf] at hch hfull
    have hend : p.end_ = some a := by
      generalize p.end_ = q at hch
      cases hch; rfl
    rw [hend] at hch
    have hrest : Chain p.next (p.next a) rest := by cases hch; assumption
    have ha : a < cap := h.bound a (by rw [hf]; simp)
    obtain ⟨hb1, hb2, hb3⟩ := bump_spec cap p.back p.round a issued.length h.backs ha h.rounds hn
    have hrd := h.rounds
    have hmul : ∀ r, r ≤ p.round + 2 → r * cap + a + 1 < 2 ^ 64 := by
      intro r hr
      have h1 : (r + 1) * cap ≤ (2 * issued.length + 3) * cap := Nat.mul_le_mul_right _ (by omega)
      have h2 : (r + 1) * cap = r * cap + cap := by rw [Nat.add_mul, Nat.one_mul]
      omega
    generalize hbm : bump cap p.back p.round a = br at hb1 hb2 hb3
    obtain ⟨b, r⟩ := br
    simp only at hb1 hb2 hb3
    have hr64 : u64 (r + 1) = r + 1 := by
      apply Nat.mod_eq_of_lt
      have h1 := hmul (r + 1) (by omega)
      have h2 : (r + 1) * 1 ≤ (r + 1) * cap := Nat.mul_le_mul_left _ h.pos
      omega
    have hu : ∀ r, r ≤ p.round + 2 → u64 (r * cap + a) = r * cap + a := fun r hr => by
      have := hmul r hr
      exact Nat.mod_eq_of_lt (by omega)
    let r' := if r * cap + a < p.highest then r + 1 else r
    have hr'le : r ≤ r' ∧ r' ≤ r + 1 := by
      show r ≤ (if _ then r + 1 else r) ∧ (if _ then r + 1 else r) ≤ _
      split
      · exact ⟨Nat.le_succ _, Nat.le_refl _⟩
      · exact ⟨Nat.le_refl _, Nat.le_succ _⟩
    have hhigh : p.highest ≤ r' * cap + a := by
      show _ ≤ (if _ then _ else _) * cap + a
      split
      · have h1 := h.high
        have h2 : (p.round + 1) * cap ≤ (r + 1) * cap := Nat.mul_le_mul_right _ (by omega)
        omega
      · rename_i hlt; exact Nat.le_of_not_lt hlt
    let i := r' * cap + a
    have hi64 : u64 (i + 1) = i + 1 := Nat.mod_eq_of_lt (hmul r' (by omega))
    have hmod : i % cap = a := by
      show (r' * cap + a) % cap = a
      rw [Nat.mul_add_mod_self_right]
      exact Nat.mod_eq_of_lt ha
    have hex : p.emplaceStored e = .ok (i,
        { p with data := upd p.data a e, end_ := p.next a, back := b, round := r',
                 highest := max p.highest (i + 1), size := p.size + 1, index := upd p.index a i }) := by
      unfold Pool.emplaceStored Pool.emplace
      rw [if_neg (by simp at hfull; omega), hend]
      simp only [hc, hbm]
      rw [hu r (by omega), hr64]
      have : u64 ((if r * cap + a < p.highest then r + 1 else r) * cap + a) = i := hu r' (by omega)
      rw [this, hi64]
      rfl
    refine ⟨a, rest, i, _, rfl, hex, hmod, hhigh, ?_⟩
    have hnd := h.nodup
    rw [hf, List.cons_append, List.nodup_cons] at hnd
    have hnotlive : ∀ x ∈ live, x.1 % cap ≠ a := fun x hx hxa =>
      hnd.1 (List.mem_append_right _ (List.mem_map.2 ⟨x, hx, hxa⟩))
    refine ⟨h.pos, hc, hrest, ?_, ?_, ?_, ?_, ?_, ?_, ?_, ?_, ?_, ?_, hb1⟩
    · rw [List.map_append, ← List.append_assoc]
      refine List.nodup_append.2 ⟨hnd.2, by simp, ?_⟩
      intro x hx y hy
      simp at hy
      rw [hy, hmod]
      rintro rfl
      exact hnd.1 hx
    · intro x hx; exact h.bound x (by rw [hf]; simp [hx])
    · simp at hfull ⊢; omega
    · simp [hsz]
    · intro x hx
      rcases List.mem_append.1 hx with hx | hx
      · have := hnotlive x hx
        simp only [upd, this, if_false]
        exact h.idx x hx
      · simp at hx
        subst hx
        simp only [upd, hmod, if_true, and_self]
    · intro x hx
      rcases List.mem_append.1 hx with hx | hx
      · exact List.mem_append_left _ (h.sub x hx)
      · simp at hx; subst hx; simp
    · refine List.pairwise_append.2 ⟨h.sorted, by simp, ?_⟩
      intro x hx y hy
      simp at hy
      subst hy
      exact Nat.lt_of_lt_of_le (h.below x hx) hhigh
    · intro x hx
      simp only
      rcases List.mem_append.1 hx with hx | hx
      · have := h.below x hx; omega
      · simp at hx; subst hx; omega
    · simp only
      have h1 : (r' + 1) * cap = r' * cap + cap := by rw [Nat.add_mul, Nat.one_mul]
      have h2 : i + 1 ≤ (r' + 1) * cap := by show r' * cap + a + 1 ≤ _; omega
      omega
    · simp only [List.length_append, List.length_singleton]; omega

theorem erase_inv (cap : Nat) (p : Pool α) (live : List (Nat × α)) (issued free : List Nat) (h : Inv cap p live issued free) (i : Nat)
    (hi : i ∈ live.map (·.1)) :
    (p.erase i).1 = 1 ∧ Inv cap (p.erase i).2 (live.filter fun x => x.1 != i) issued (i % cap :: free) := by
  obtain ⟨x, hx, rfl⟩ := List.mem_map.1 hi
  have hc := h.capEq
  have hsz := h.size
  have hlen : 0 < live.length := List.length_pos_of_mem hx
  have hex : p.erase x.1 = (1, { p with next := upd p.next (x.1 % cap) p.end_, end_ := some (x.1 % cap), size := p.size - 1 }) := by
    unfold Pool.erase
    simp only [hc, (h.idx x hx).1, ne_eq, not_true, if_false]
    rw [if_neg (by omega)]
  rw [hex]
  refine ⟨rfl, ?_⟩
  have hnd := h.nodup
  have hnd1 := (List.nodup_append.1 hnd)
  have hnfree : x.1 % cap ∉ free := fun hf => hnd1.2.2 _ hf _ (List.mem_map.2 ⟨x, hx, rfl⟩) rfl
  have hinj : ∀ y ∈ live, y.1 % cap = x.1 % cap → y.1 = x.1 := by
    intro y hy hxy
    rw [← (h.idx y hy).1, ← (h.idx x hx).1, hxy]
  have hfilt : ∀ l : List (Nat × α), (l.map (·.1 % cap)).Nodup → x ∈ l → (∀ y ∈ l, y.1 % cap = x.1 % cap → y.1 = x.1) →
      (l.filter fun y => y.1 != x.1).length + 1 = l.length := by
    intro l
    induction l with
    | nil => simp
    | cons y l ih =>
      intro hn hm hj
      rw [List.map_cons, List.nodup_cons] at hn
      by_cases hy : y.1 = x.1
      · have : l.filter (fun y => y.1 != x.1) = l := by
          rw [List.filter_eq_self]
          intro z hz
          simp only [bne_iff_ne, ne_eq]
          intro hzx
          exact hn.1 (List.mem_map.2 ⟨z, hz, by rw [hzx, hy]⟩)
        rw [List.filter_cons_of_neg (by simp [hy]), this]; rfl
      · rw [List.filter_cons_of_pos (by simp [hy])]
        have hm' : x ∈ l := by
          rcases List.mem_cons.1 hm with rfl | hm
          · exact absurd rfl hy
          · exact hm
        have := ih hn.2 hm' fun z hz => hj z (List.mem_cons_of_mem _ hz)
        simp only [List.length_cons]; omega
  have hfl := hfilt live hnd1.2.1 hx hinj
  have hfull := h.full
  refine ⟨h.pos, hc, ?_, ?_, ?_, ?_, ?_, ?_, ?_, h.sorted, h.below, h.high, h.rounds, h.backs⟩
  · refine .cons _ _ ?_
    show Chain _ (if _ then _ else _) _
    rw [if_pos rfl]
    refine h.chain.congr fun a ha => ?_
    have : a ≠ x.1 % cap := fun hax => hnfree (hax ▸ ha)
    exact if_neg this
  · rw [List.cons_append, List.nodup_cons]
    constructor
    · intro hm
      rcases List.mem_append.1 hm with hm | hm
      · exact hnfree hm
      · obtain ⟨y, hy, hyx⟩ := List.mem_map.1 hm
        obtain ⟨hy1, hy2⟩ := List.mem_filter.1 hy
        simp at hy2
        exact hy2 (hinj y hy1 hyx)
    · exact hnd.sublist ((List.Sublist.refl _).append (List.filter_sublist.map _))
  · intro a ha
    rcases List.mem_cons.1 ha with rfl | ha
    · exact Nat.mod_lt _ h.pos
    · exact h.bound a ha
  · show free.length + 1 + _ = _; omega
  · show p.size - 1 = _; omega
  · intro y hy
    exact h.idx y (List.mem_filter.1 hy).1
  · intro y hy
    exact h.sub y (List.mem_filter.1 hy).1

theorem reach_inv (d : α) (cap : Nat) (p : Pool α) (live : List (Nat × α)) (issued : List Nat) (h : Spec.Reach d cap p live issued)
    (hn : (2 * issued.length + 3) * cap < 2 ^ 64) : ∃ free, Inv cap p live issued free := by
  induction h with
  | new p h => exact ⟨_, make_inv d cap p h⟩
  | emplace p live issued e i p' hr h ih =>
    have hn' : (2 * issued.length + 3) * cap < 2 ^ 64 := by
      refine Nat.lt_of_le_of_lt (Nat.mul_le_mul_right _ ?_) hn
      simp only [List.length_append, List.length_singleton]; omega
    obtain ⟨free, hi⟩ := ih hn'
    rcases emplace_inv cap p live issued free hi e hn' with ⟨_, h'⟩ | ⟨a, rest, j, q, _, h', _, _, hinv⟩
    · rw [h'] at h; cases h
    · rw [h'] at h; cases h; exact ⟨rest, hinv⟩
  | erase p live issued i hr h ih =>
    obtain ⟨free, hi⟩ := ih hn
    exact ⟨_, (erase_inv cap p live issued free hi i h).2⟩

/-! ## C32 -/

/-- **C32 (partial).** In every correct use of a pool in which the user stores the index in the block, as the order book does, up to numbers of insertions at which
the 64-bit counters could overflow: the live elements are in different blocks, each can be read under its index, the indices handed out are
strictly increasing, `size()` is the number of live elements, erasing a live element reports one erased element, `emplace` fails exactly when the pool is full, and otherwise gives an index larger
than all earlier ones. Missing: users that do not store the index in the block themselves; see the counterexample. -/
theorem C32_slots_partial (d : α) (cap : Nat) (p : Pool α) (live : List (Nat × α)) (issued : List Nat)
    (h : Spec.Reach d cap p live issued) (hn : (2 * issued.length + 3) * cap < 2 ^ 64) :
    (live.map (·.1 % cap)).Nodup ∧
    (∀ x ∈ live, p.get x.1 = x.2 ∧ (p.erase x.1).1 = 1) ∧
    issued.Pairwise (· < ·) ∧
    p.size = live.length ∧ live.length ≤ cap ∧
    (∀ e, p.emplaceStored e = .throws ↔ live.length = cap) ∧
    (∀ e, live.length < cap → ∃ i p', p.emplaceStored e = .ok (i, p') ∧ p'.get i = e ∧ (∀ j ∈ issued, j < i) ∧
      ∀ x ∈ live, i % cap ≠ x.1 % cap) := by
  obtain ⟨free, hi⟩ := reach_inv d cap p live issued h hn
  have hfull := hi.full
  refine ⟨(List.nodup_append.1 hi.nodup).2.1, ?_, hi.sorted, hi.size, by omega, ?_, ?_⟩
  · intro x hx
    refine ⟨?_, (erase_inv cap p live issued free hi x.1 (List.mem_map.2 ⟨x, hx, rfl⟩)).1⟩
    unfold Pool.get
    rw [hi.capEq]
    exact (hi.idx x hx).2
  · intro e
    rcases emplace_inv cap p live issued free hi e hn with ⟨hf, ht⟩ | ⟨a, rest, j, q, hf, ht, _, _, _⟩
    · rw [hf, List.length_nil] at hfull
      rw [ht]
      exact ⟨fun _ => by omega, fun _ => rfl⟩
    · rw [hf, List.length_cons] at hfull
      rw [ht]
      constructor
      · intro h; cases h
      · intro h; omega
  · intro e hlt
    rcases emplace_inv cap p live issued free hi e hn with ⟨hf, ht⟩ | ⟨a, rest, j, q, hf, ht, hja, hhj, hinv⟩
    · rw [hf] at hfull; simp at hfull; omega
    · refine ⟨j, q, ht, ?_, fun k hk => Nat.lt_of_lt_of_le (hi.below k hk) hhj, ?_⟩
      · have := hinv.idx (j, e) (by simp)
        unfold Pool.get
        rw [hinv.capEq]
        exact this.2
      · intro x hx heq
        have := (List.nodup_append.1 hi.nodup).2.2 a (by rw [hf]; simp) _ (List.mem_map.2 ⟨x, hx, rfl⟩)
        exact this (hja ▸ heq)

/-- **C32, negation.** No element of a pool can be read through a constant reference: the call never ends, whatever the pool and the index, whereas one call suffices otherwise. -/
theorem C32_counterexample_constant (p : Pool α) (i : Nat) : (∀ n, p.read i .constant n = none) ∧ ∀ n, p.read i .mutable (n + 1) = some (p.get i) := by
  refine ⟨fun n => ?_, fun n => rfl⟩
  induction n with
  | zero => rfl
  | succ n ih => exact ih

/-- A pool after two insertions by a user who only calls `emplace`. -/
def twoUnstored : Outcome (Nat × Nat × Pool Nat) :=
  Pool.make 0 2 >>= fun p => p.emplace 7 >>= fun (_, _, p) => p.emplace 8

/-- **C32, negation.** The pool does not store the indices itself: with `emplace` alone, the second element has the index 1, but erasing 1 erases
nothing, so that the pool of capacity 2 stays full and the next `emplace` fails. -/
theorem C32_counterexample_unstored :
    ∃ p, twoUnstored = .ok (1, 1, p) ∧ (p.erase 1).1 = 0 ∧ (p.erase 1).2.emplace 9 = .throws := by
  have hex : twoUnstored = .ok (1, 1, _) := rfl
  exact ⟨_, hex, rfl, rfl⟩

/-! ## C33 -/

/-- **C33, negation.** Erasing an element twice, while another one is live, puts its block into the list of free blocks twice and counts two erased elements, and two later
insertions get the same block. -/
theorem C33_counterexample_double_erase :
    ∃ p p1 p2 p3, Spec.Reach (0 : Nat) 3 p [(0, 7), (1, 8)] [0, 1] ∧
      p1 = (p.erase 0).2 ∧ (p1.erase 0).1 = 1 ∧
      (p1.erase 0).2.emplaceStored 9 = .ok (3, p2) ∧ p2.emplaceStored 10 = .ok (6, p3) ∧ 3 % 3 = 6 % 3 ∧ p3.get 3 = 10 := by
  obtain ⟨p0, h0⟩ : ∃ p0, Pool.make (0 : Nat) 3 = .ok p0 := ⟨_, rfl⟩
  have r0 := Spec.Reach.new (d := (0 : Nat)) (cap := 3) p0 h0
  cases h0
  have r1 := Spec.Reach.emplace _ _ _ 7 0 _ r0 rfl
  have e2 := Spec.Reach.emplace (d := (0 : Nat)) (cap := 3) _ _ _ 8 1 _ r1 rfl
  exact ⟨_, _, _, _, e2, rfl, rfl, rfl, rfl, rfl, rfl⟩

/-- **C33, negation.** Erasing index 0 of a pool that never had an element reports that nothing was erased, but the next two insertions get the same block. -/
theorem C33_counterexample_never_inserted :
    ∃ p p1 p2, Pool.make (0 : Nat) 3 = .ok p ∧ (p.erase 0).1 = 0 ∧ (p.erase 0).2.emplaceStored 7 = .ok (0, p1) ∧
      p1.emplaceStored 8 = .ok (3, p2) ∧ p2.get 0 = 8 := by
  exact ⟨_, _, _, rfl, rfl, rfl, rfl, rfl⟩

/-- **C33 (partial).** Once the block of an erased element has been used again, erasing the element again does nothing and reports that nothing was erased. Missing: the time
until then, for which the claim is false. -/
theorem C33_reused_partial (d : α) (cap : Nat) (p : Pool α) (live : List (Nat × α)) (issued : List Nat)
    (h : Spec.Reach d cap p live issued) (hn : (2 * issued.length + 3) * cap < 2 ^ 64) (i : Nat) (hdead : i ∉ live.map (·.1))
    (hreused : ∃ x ∈ live, x.1 % cap = i % cap) : p.erase i = (0, p) := by
  obtain ⟨free, hi⟩ := reach_inv d cap p live issued h hn
  obtain ⟨x, hx, hxi⟩ := hreused
  unfold Pool.erase
  simp only [hi.capEq]
  rw [if_pos]
  rw [← hxi, (hi.idx x hx).1]
  intro hne
  exact hdead (List.mem_map.2 ⟨x, hx, hne⟩)

/-- Non-vacuity: a pool of capacity 2 that was filled, emptied in part and filled again; the stale index 0 is refused. -/
example : ∃ p, Spec.Reach (0 : Nat) 2 p [(1, 8), (2, 9)] [0, 1, 2] ∧ p.erase 0 = (0, p) ∧ p.emplaceStored 10 = .throws := by
  obtain ⟨p0, h0⟩ : ∃ p0, Pool.make (0 : Nat) 2 = .ok p0 := ⟨_, rfl⟩
  have r0 := Spec.Reach.new (d := (0 : Nat)) (cap := 2) p0 h0
  cases h0
  have r1 := Spec.Reach.emplace _ _ _ 7 0 _ r0 rfl
  have r2 := Spec.Reach.emplace _ _ _ 8 1 _ r1 rfl
  have r3 := Spec.Reach.erase _ _ _ 0 r2 (by decide)
  have r4 := Spec.Reach.emplace _ _ _ 9 2 _ r3 rfl
  have hr : Spec.Reach (0 : Nat) 2 _ [(1, 8), (2, 9)] [0, 1, 2] := r4
  exact ⟨_, hr, rfl, rfl⟩

end Esl.Pool
