import Verif.Lemmas.Walras
import Verif.Props.Scheduler
import Mathlib.Data.List.Sort
/-!
Properties of the Walrasian price setter: C56 (transfers balance), C57 (netting), C58 (deliveries), C59 (prices, second part),
C60 (stalling), C86 (zero demand), C87 (clearing price), C88 (market dates), C89 (orders).
-/
namespace Esl.Walras

/-! ## C56: transfers balance -/

/-- Rounding towards zero. -/
def Spec.towardsZero (q : Rat) : Int := if 0 ≤ q then ⌊q⌋ else ⌈q⌉

/-- `sort` is some sorting function by absolute amount. -/
def Spec.Sorts (sort : List (Nat × Int) → List (Nat × Int)) : Prop :=
  ∀ l, (sort l).Perm l ∧ (sort l).Pairwise fun a b => |a.2| ≤ |b.2|

/-- The total of the demands, each rounded towards zero. -/
def Spec.excess (demands : List (Nat × Rat)) : Int := (demands.map fun e => Spec.towardsZero e.2).sum

/-- How far amounts are from the rounded demands, in total. -/
def Spec.deviation (demands : List (Nat × Rat)) (amounts : List Int) : Int :=
  (List.zipWith (fun e x => |x - Spec.towardsZero e.2|) demands amounts).sum

theorem trunc_spec (q : Rat) : Double.trunc q = Spec.towardsZero q := by
  unfold Spec.towardsZero
  split
  · exact trunc_nonneg q ‹_›
  · exact trunc_neg q (not_le.1 ‹_›)

theorem transfersOf_spec (sort : List (Nat × Int) → List (Nat × Int)) (hs : Spec.Sorts sort) (demands : List (Nat × Rat))
    (r : List (Nat × Int)) (h : transfersOf sort demands = .ok r) :
    ∃ (l : List (Nat × Rat)) (d : Int), l.Perm demands ∧ (d = 1 ∨ d = -1) ∧ Spec.excess demands = -d * |Spec.excess demands| ∧
      r = spread d (l.map fun e => (e.1, Spec.towardsZero e.2)) (Spec.excess demands).natAbs ∧
      (l.map fun e => Spec.towardsZero e.2).Pairwise (fun a b => |a| ≤ |b|) := by
  unfold transfersOf at h
  rw [Outcome.bind_eq_ok] at h
  obtain ⟨⟨al, err⟩, h1, h2⟩ := h
  obtain ⟨h3, h4⟩ := allocate_ok _ _ _ h1
  simp only [trunc_spec, zero_add] at h3 h4
  obtain ⟨hp, hsorted⟩ := hs al
  rw [h3] at hp
  obtain ⟨l, hl, he⟩ := perm_map_exists _ _ _ hp
  have hsorted' : (l.map fun e => Spec.towardsZero e.2).Pairwise (fun a b => |a| ≤ |b|) := by
    rw [h3, he] at hsorted
    rw [List.pairwise_map] at hsorted ⊢
    exact hsorted
  have h2 : Outcome.ok (if err < 0 then spread 1 (sort al) err.natAbs else spread (-1) (sort al) err.natAbs) = Outcome.ok r := by
    by_cases hc : 1 < al.length ∧ (al.any fun e => e.2 == -2 ^ 63) = true
    · rw [if_pos hc] at h2; cases h2
    · rw [if_neg hc] at h2
      by_cases hf : fits (if err < 0 then spread 1 (sort al) err.natAbs else spread (-1) (sort al) err.natAbs) = true
      · rwa [if_pos hf] at h2
      · rw [if_neg hf] at h2; cases h2
  simp only [h3, he, h4] at h2
  change Outcome.ok (if Spec.excess demands < 0 then _ else _) = _ at h2
  have h5 : (demands.map fun e => Spec.towardsZero e.2).sum = Spec.excess demands := rfl
  rw [h5] at h2
  split at h2
  · rename_i hneg
    refine ⟨l, 1, hl, .inl rfl, ?_, (Outcome.ok.inj h2).symm, hsorted'⟩
    rw [abs_of_neg hneg]; ring
  · rename_i hpos
    refine ⟨l, -1, hl, .inr rfl, ?_, (Outcome.ok.inj h2).symm, hsorted'⟩
    rw [abs_of_nonneg (not_lt.1 hpos)]; ring

theorem excess_perm {l demands : List (Nat × Rat)} (h : l.Perm demands) : Spec.excess l = Spec.excess demands :=
  (h.map _).sum_eq

/-- **C56.** For every set of demands of one property, and however the sort orders equal amounts: the amounts assigned sum to zero;
they belong to the participants with demands, one amount each (`l` is the list of demands in another order); in total they deviate from
the rounded demands by the absolute excess, and each one by at most its share of it, rounded up. -/
theorem C56_balanced (sort : List (Nat × Int) → List (Nat × Int)) (hs : Spec.Sorts sort) (demands : List (Nat × Rat))
    (r : List (Nat × Int)) (h : transfersOf sort demands = .ok r) :
    (r.map (·.2)).sum = 0 ∧
    ∃ l : List (Nat × Rat), l.Perm demands ∧ r.map (·.1) = l.map (·.1) ∧
      Spec.deviation l (r.map (·.2)) = |Spec.excess demands| ∧
      List.Forall₂ (fun e x => |x.2 - Spec.towardsZero e.2| ≤ ⌈(|Spec.excess demands| : Rat) / demands.length⌉) l r := by
  obtain ⟨l, d, hl, hd, he, rfl, -⟩ := transfersOf_spec sort hs demands r h
  set k := (Spec.excess demands).natAbs with hk
  have hkabs : (k : Int) = |Spec.excess demands| := Int.natCast_natAbs _
  have hlsum : ((l.map fun e => (e.1, Spec.towardsZero e.2)).map (·.2)).sum = Spec.excess demands := by
    rw [List.map_map]; exact excess_perm hl
  have hall := spread_forall₂ d (l.map fun e => (e.1, Spec.towardsZero e.2)) k
  have hsum : ((spread d (l.map fun e => (e.1, Spec.towardsZero e.2)) k).map (·.2)).sum = 0 := by
    by_cases hnil : l = []
    · subst hnil
      have h0 := spread_length d (List.map (fun e : Nat × Rat => (e.1, Spec.towardsZero e.2)) []) k
      have h1 : spread d (List.map (fun e : Nat × Rat => (e.1, Spec.towardsZero e.2)) []) k = [] := List.eq_nil_of_length_eq_zero (by simpa using h0)
      rw [h1]; rfl
    · rw [spread_sum _ _ _ (by simpa using hnil), hlsum, hkabs]
      rw [he]
      rcases hd with rfl | rfl <;> simp [abs_mul]
  refine ⟨hsum, l, hl, ?_, ?_, ?_⟩
  · have : ∀ (a b : List (Nat × Int)) (t : Nat), List.Forall₂ (fun e x => x.1 = e.1 ∧ ∃ m : Nat, m ≤ t ∧ x.2 - e.2 = d * m) a b →
        b.map (·.1) = a.map (·.1) := by
      intro a b t hab
      induction hab with
      | nil => rfl
      | cons hx _ ih => simp [hx.1, ih]
    rw [this _ _ _ hall, List.map_map]; rfl
  · have h1 := forall₂_sum_dev d hd _ _ _ hall
    rw [hsum, hlsum] at h1
    have h2 : Spec.deviation l ((spread d (l.map fun e => (e.1, Spec.towardsZero e.2)) k).map (·.2)) =
        (List.zipWith (fun e x => |x.2 - e.2|) (l.map fun e => (e.1, Spec.towardsZero e.2))
          (spread d (l.map fun e => (e.1, Spec.towardsZero e.2)) k)).sum := by
      unfold Spec.deviation
      rw [List.zipWith_map_left, List.zipWith_map_right]
    rw [h2, h1, he]
    rcases hd with rfl | rfl <;> simp [abs_mul]
  · rw [List.forall₂_map_left_iff] at hall
    refine hall.imp fun e x hx => ?_
    obtain ⟨-, m, hm, hxm⟩ := hx
    simp only at hxm
    rw [hxm]
    have h1 : |d * (m : Int)| = m := by rcases hd with rfl | rfl <;> simp
    rw [h1]
    rw [List.length_map, hl.length_eq] at hm
    by_cases hn : demands.length = 0
    · rw [hn] at hm; simp at hm; subst hm; simp [hn]
    · have h2 : (m : Int) ≤ ((k + demands.length - 1) / demands.length : Nat) := by exact_mod_cast hm
      refine le_trans h2 ?_
      have h3 : (((k + demands.length - 1) / demands.length : Nat) : Int) ≤ ⌈((k : Rat) / demands.length)⌉ := by
        rw [Int.le_ceil_iff]
        have hpos : (0 : Rat) < demands.length := by exact_mod_cast Nat.pos_of_ne_zero hn
        rw [lt_div_iff₀ hpos]
        have h4 : (k + demands.length - 1) / demands.length * demands.length ≤ k + demands.length - 1 := Nat.div_mul_le_self _ _
        generalize (k + demands.length - 1) / demands.length = z at h4
        have h5 : z * demands.length < k + demands.length := by omega
        have h6 : (z : Rat) * demands.length < k + demands.length := by exact_mod_cast h5
        rw [Int.cast_natCast]
        linarith
      have h7 : ((k : Nat) : Rat) = |(Spec.excess demands : Rat)| := by
        have := congrArg (fun z : Int => (z : Rat)) hkabs
        push_cast at this
        exact this
      rw [h7] at h3
      exact h3

/-- **C56.** No other assignment that sums to zero is closer to the rounded demands. -/
theorem C56_minimal (demands : List (Nat × Rat)) (amounts : List Int) (hl : amounts.length = demands.length) (h0 : amounts.sum = 0) :
    |Spec.excess demands| ≤ Spec.deviation demands amounts := by
  have h1 := sum_le_dev (demands.map fun e => Spec.towardsZero e.2) amounts (by simpa using hl.symm)
  rw [h0, sub_zero] at h1
  unfold Spec.deviation Spec.excess
  rw [List.zipWith_map_left] at h1
  exact h1

/-- **C56.** If the market clears, i.e. the demands sum to zero, then every participant is assigned its demand up to less than two units. -/
theorem C56_cleared (sort : List (Nat × Int) → List (Nat × Int)) (hs : Spec.Sorts sort) (demands : List (Nat × Rat))
    (r : List (Nat × Int)) (h : transfersOf sort demands = .ok r) (h0 : (demands.map (·.2)).sum = 0) :
    ∃ l : List (Nat × Rat), l.Perm demands ∧ List.Forall₂ (fun e x => x.1 = e.1 ∧ |(x.2 : Rat) - e.2| < 2) l r := by
  obtain ⟨-, l, hl, hk, -, hall⟩ := C56_balanced sort hs demands r h
  have hround : ∀ q : Rat, |(Spec.towardsZero q : Rat) - q| < 1 := by
    intro q
    unfold Spec.towardsZero
    split
    · rw [abs_sub_lt_iff]
      constructor <;> linarith [Int.floor_le q, Int.lt_floor_add_one q]
    · rw [abs_sub_lt_iff]
      constructor <;> linarith [Int.le_ceil q, Int.ceil_lt_add_one q]
  have hbound : ∀ ds : List (Nat × Rat), ds ≠ [] → |(Spec.excess ds : Rat) - (ds.map (·.2)).sum| < ds.length := by
    intro ds
    induction ds with
    | nil => simp
    | cons e ds ih =>
      intro _
      unfold Spec.excess at ih ⊢
      simp only [List.map_cons, List.sum_cons, List.length_cons]
      have h1 := hround e.2
      by_cases hd : ds = []
      · subst hd; simpa using h1
      · have h2 := ih hd
        push_cast
        have h3 : (Spec.towardsZero e.2 : Rat) + ((ds.map fun e => Spec.towardsZero e.2).sum : Int) - (e.2 + (ds.map (·.2)).sum) =
          ((Spec.towardsZero e.2 : Rat) - e.2) + (((ds.map fun e => Spec.towardsZero e.2).sum : Int) - (ds.map (·.2)).sum) := by ring
        have h4 := abs_add_le ((Spec.towardsZero e.2 : Rat) - e.2) ((((ds.map fun e => Spec.towardsZero e.2).sum : Int) : Rat) - (ds.map (·.2)).sum)
        rw [← h3] at h4
        linarith
  have hceil : ⌈(|Spec.excess demands| : Rat) / demands.length⌉ ≤ 1 := by
    by_cases hd : demands = []
    · subst hd; simp
    · have h1 := hbound demands hd
      rw [h0, sub_zero] at h1
      have hpos : (0 : Rat) < demands.length := by exact_mod_cast List.length_pos_iff.2 hd
      rw [Int.ceil_le]
      push_cast
      rw [div_le_one hpos]
      exact h1.le
  refine ⟨l, hl, ?_⟩
  clear hl h
  induction hall with
  | nil => exact .nil
  | cons hx _ ih =>
    simp only [List.map_cons, List.cons.injEq] at hk
    refine .cons ⟨hk.1, ?_⟩ (ih hk.2)
    rename_i e x _ _ _
    have h1 : |(x.2 : Rat) - (Spec.towardsZero e.2 : Rat)| ≤ 1 := by exact_mod_cast le_trans hx hceil
    have h2 := hround e.2
    have h3 := abs_add_le ((x.2 : Rat) - (Spec.towardsZero e.2 : Rat)) ((Spec.towardsZero e.2 : Rat) - e.2)
    rw [sub_add_sub_cancel] at h3
    linarith

/-- **C56.** The computation is defined if the rounded demands are not larger than a signed 64-bit number in total. -/
theorem C56_defined (sort : List (Nat × Int) → List (Nat × Int)) (hs : Spec.Sorts sort) (demands : List (Nat × Rat))
    (h : (demands.map fun e => |Spec.towardsZero e.2|).sum < 2 ^ 63) : ∃ r, transfersOf sort demands = .ok r := by
  have h1 : |(0 : Int)| + (demands.map fun e => |Double.trunc e.2|).sum < 2 ^ 63 := by
    simp only [trunc_spec, abs_zero, zero_add]; exact h
  obtain ⟨⟨al, err⟩, hr⟩ := allocate_defined demands 0 h1
  obtain ⟨h3, h4⟩ := allocate_ok _ _ _ hr
  simp only [zero_add] at h3 h4
  have hsum : ∀ l : List (Nat × Int), l.Perm al → ((l.map (·.2)).map fun y => |y|).sum < 2 ^ 63 ∧ (l.map (·.2)).sum = err := by
    intro l hl
    have e1 := ((hl.map (·.2)).map fun y => |y|).sum_eq
    have e2 := (hl.map (·.2)).sum_eq
    rw [e1, e2, h3, h4]
    simp only [List.map_map, trunc_spec]
    exact ⟨h, rfl⟩
  have hbound : ∀ d : Int, d = 1 ∨ d = -1 → (err.natAbs : Int) = -d * err → fits (spread d (sort al) err.natAbs) = true := by
    intro d hd he
    obtain ⟨b1, b2⟩ := hsum _ (hs al).1
    unfold fits
    rw [List.all_eq_true]
    intro y hy
    have := abs_lt.1 (lt_of_le_of_lt (spread_bound d hd (sort al) err.natAbs (by rw [b2]; exact he) y hy) b1)
    exact decide_eq_true ⟨this.1.le, this.2⟩
  have hmin : ¬ (1 < al.length ∧ (al.any fun e => e.2 == -2 ^ 63) = true) := by
    rintro ⟨-, hany⟩
    rw [List.any_eq_true] at hany
    obtain ⟨e, he, he'⟩ := hany
    have b1 := (hsum al (List.Perm.refl _)).1
    have b2 := List.single_le_sum (l := (al.map (·.2)).map fun y => |y|) (by
      intro x hx; obtain ⟨y, -, rfl⟩ := List.mem_map.1 hx; exact abs_nonneg _) |e.2|
      (List.mem_map.2 ⟨e.2, List.mem_map.2 ⟨e, he, rfl⟩, rfl⟩)
    have b3 : e.2 = -2 ^ 63 := by simpa using he'
    rw [b3] at b2
    have b4 : |(-2 ^ 63 : Int)| = 2 ^ 63 := by decide
    rw [b4] at b2
    exact absurd (lt_of_le_of_lt b2 b1) (lt_irrefl _)
  unfold transfersOf
  rw [hr, Outcome.bind_ok]
  simp only
  rw [if_neg hmin]
  by_cases hneg : err < 0
  · rw [if_pos hneg, if_pos (hbound 1 (.inl rfl) (by rw [Int.ofNat_natAbs_of_nonpos hneg.le]; ring))]
    exact ⟨_, rfl⟩
  · rw [if_neg hneg, if_pos (hbound (-1) (.inr rfl) (by rw [Int.natAbs_of_nonneg (not_lt.1 hneg)]; ring))]
    exact ⟨_, rfl⟩

/-- **C56.** In a market with several properties, every property somebody has a demand for gets its transfers, and no other property does. -/
theorem C56_every_property (sort : List (Nat × Int) → List (Nat × Int)) (demands : Nat → Option (List (Nat × Rat))) (qs : List Quoted)
    (r : List (Nat × List (Nat × Int))) (h : computeTransfers sort demands qs = .ok r) :
    r.map (·.1) = (qs.map (·.id)).filter (fun p => (demands p).isSome) ∧
    ∀ e ∈ r, ∃ l, demands e.1 = some l ∧ transfersOf sort l = .ok e.2 := by
  induction qs generalizing r with
  | nil =>
    simp only [computeTransfers, Outcome.ok.injEq] at h
    subst h; simp
  | cons q qs ih =>
    rw [computeTransfers] at h
    cases hq : demands q.id with
    | none =>
      rw [hq] at h
      simpa [hq] using ih r h
    | some l =>
      rw [hq] at h
      simp only [Outcome.bind_eq_ok] at h
      obtain ⟨t, h1, r', h2, h3⟩ := h
      simp only [Outcome.ok.injEq] at h3
      subst h3
      obtain ⟨h4, h5⟩ := ih r' h2
      refine ⟨by simp [hq, h4], ?_⟩
      intro e he
      rcases List.mem_cons.1 he with rfl | he
      · exact ⟨l, hq, h1⟩
      · exact h5 e he

/-- Insertion sort by absolute amount. -/
def exampleSort (l : List (Nat × Int)) : List (Nat × Int) := l.insertionSort fun a b => a.2.natAbs ≤ b.2.natAbs

theorem exampleSort_sorts : Spec.Sorts exampleSort := by
  intro l
  refine ⟨List.perm_insertionSort _ _, ?_⟩
  haveI : Std.Total (fun a b : Nat × Int => a.2.natAbs ≤ b.2.natAbs) := ⟨fun a b => le_total _ _⟩
  haveI : IsTrans (Nat × Int) (fun a b => a.2.natAbs ≤ b.2.natAbs) := ⟨fun a b c => le_trans⟩
  have h := List.pairwise_insertionSort (fun a b : Nat × Int => a.2.natAbs ≤ b.2.natAbs) l
  exact h.imp fun hab => by rw [Int.abs_eq_natAbs, Int.abs_eq_natAbs]; omega

example : Spec.excess [(1, 5/2), (2, 7/2), (3, -6)] = -1 := by decide +kernel

example : ∃ r, transfersOf exampleSort [(1, 5/2), (2, 7/2), (3, -6)] = .ok r ∧ (r.map (·.2)).sum = 0 := by
  obtain ⟨r, hr⟩ := C56_defined exampleSort exampleSort_sorts [(1, 5/2), (2, 7/2), (3, -6)] (by decide +kernel)
  exact ⟨r, hr, (C56_balanced _ exampleSort_sorts _ _ hr).1⟩

/-! ## C86: participants without demand -/

/-- If the rounded demands sum to zero, every participant is assigned exactly its rounded demand. -/
theorem C86_exact_partial (sort : List (Nat × Int) → List (Nat × Int)) (hs : Spec.Sorts sort) (demands : List (Nat × Rat))
    (r : List (Nat × Int)) (h : transfersOf sort demands = .ok r) (h0 : Spec.excess demands = 0) :
    r.Perm (demands.map fun e => (e.1, Spec.towardsZero e.2)) := by
  obtain ⟨l, d, hl, -, -, rfl, -⟩ := transfersOf_spec sort hs demands r h
  rw [h0]
  exact hl.map _

/-- **C86 (negation).** The demands of four participants sum to zero, and the first demands nothing. Whatever the sort does, the first
participant buys one unit. -/
theorem C86_counterexample_forced_trade (sort : List (Nat × Int) → List (Nat × Int)) (hs : Spec.Sorts sort) (r : List (Nat × Int))
    (h : transfersOf sort [(1, 0), (2, 3/2), (3, 3/2), (4, -3)] = .ok r) : (1, 1) ∈ r := by
  have he : Spec.excess [(1, 0), (2, 3/2), (3, 3/2), (4, -3)] = -1 := by decide +kernel
  obtain ⟨l, d, hl, hd, hx, rfl, hsorted⟩ := transfersOf_spec sort hs _ r h
  rw [he] at hx ⊢
  have hd1 : d = 1 := by
    rcases hd with rfl | rfl
    · rfl
    · revert hx; decide
  subst hd1
  cases l with
  | nil => exact absurd hl.length_eq (by simp)
  | cons e l =>
    have h1 : (1, (0 : Rat)) ∈ e :: l := hl.mem_iff.2 (by simp)
    have h2 : |Spec.towardsZero e.2| ≤ 0 := by
      rcases List.mem_cons.1 h1 with h1 | h1
      · rw [← h1]; decide +kernel
      · have h3 := (List.pairwise_cons.1 hsorted).1 (Spec.towardsZero 0) (List.mem_map.2 ⟨_, h1, rfl⟩)
        have h4 : |Spec.towardsZero 0| = 0 := by decide +kernel
        rwa [h4] at h3
    have h5 : e ∈ [(1, (0 : Rat)), (2, 3/2), (3, 3/2), (4, -3)] := hl.mem_iff.1 (by simp)
    have h6 : e = (1, 0) := by
      simp only [List.mem_cons, List.not_mem_nil, or_false] at h5
      rcases h5 with rfl | rfl | rfl | rfl
      · rfl
      · exact absurd h2 (by decide +kernel)
      · exact absurd h2 (by decide +kernel)
      · exact absurd h2 (by decide +kernel)
    subst h6
    have h7 : Spec.towardsZero 0 = 0 := by decide +kernel
    simp [spread, h7]

/-- **C86 (negation).** The demands of five participants sum to zero, and the first wants to buy half a unit. Whatever the sort does, the first
participant sells one unit. -/
theorem C86_counterexample_wrong_side (sort : List (Nat × Int) → List (Nat × Int)) (hs : Spec.Sorts sort) (r : List (Nat × Int))
    (h : transfersOf sort [(1, 1/2), (2, 4), (3, -3/2), (4, -3/2), (5, -3/2)] = .ok r) : (1, -1) ∈ r := by
  have he : Spec.excess [(1, 1/2), (2, 4), (3, -3/2), (4, -3/2), (5, -3/2)] = 1 := by decide +kernel
  obtain ⟨l, d, hl, hd, hx, rfl, hsorted⟩ := transfersOf_spec sort hs _ r h
  rw [he] at hx ⊢
  have hd1 : d = -1 := by
    rcases hd with rfl | rfl
    · revert hx; decide
    · rfl
  subst hd1
  cases l with
  | nil => exact absurd hl.length_eq (by simp)
  | cons e l =>
    have h4 : |Spec.towardsZero (1/2)| = 0 := by decide +kernel
    have h1 : (1, (1/2 : Rat)) ∈ e :: l := hl.mem_iff.2 (by simp)
    have h2 : |Spec.towardsZero e.2| ≤ 0 := by
      rcases List.mem_cons.1 h1 with h1 | h1
      · rw [← h1, h4]
      · have h3 := (List.pairwise_cons.1 hsorted).1 (Spec.towardsZero (1/2)) (List.mem_map.2 ⟨_, h1, rfl⟩)
        rwa [h4] at h3
    have h5 : e ∈ [(1, (1/2 : Rat)), (2, 4), (3, -3/2), (4, -3/2), (5, -3/2)] := hl.mem_iff.1 (by simp)
    have h6 : e = (1, 1/2) := by
      simp only [List.mem_cons, List.not_mem_nil, or_false] at h5
      rcases h5 with rfl | rfl | rfl | rfl | rfl
      · rfl
      · exact absurd h2 (by decide +kernel)
      · exact absurd h2 (by decide +kernel)
      · exact absurd h2 (by decide +kernel)
      · exact absurd h2 (by decide +kernel)
    subst h6
    have h7 : Spec.towardsZero (1/2) = 0 := by decide +kernel
    rw [show ((1 : Int).natAbs) = 1 from rfl]
    simp only [List.map_cons, h7, spread, Nat.zero_mod, List.modify_zero_cons]
    simp

example : (([(1, 1/2), (2, 4), (3, -3/2), (4, -3/2), (5, -3/2)] : List (Nat × Rat)).map (·.2)).sum = 0 := by decide +kernel

example : ∃ r, transfersOf exampleSort [(1, 1/2), (2, 4), (3, -3/2), (4, -3/2), (5, -3/2)] = .ok r :=
  C56_defined _ exampleSort_sorts _ (by decide +kernel)

example : (([(1, 0), (2, 3/2), (3, 3/2), (4, -3)] : List (Nat × Rat)).map (·.2)).sum = 0 := by decide +kernel

/-! ## C57: netting -/

/-- The amount of an item in a participant's bundle (nothing if there is no bundle). -/
def Spec.amount (e : Option Bag) (k : Item) : Nat := (e.bind fun b => b k).getD 0

theorem netItem_other (k j : Item) (b : Bag × Bag) (h : j ≠ k) : (netItem k b).1 j = b.1 j ∧ (netItem k b).2 j = b.2 j := by
  unfold netItem
  split
  · simp
  · split
    · simp
    · split
      · simp
      · split
        · simp [h]
        · split <;> simp [h]

theorem netItem_congr (k : Item) (b c : Bag × Bag) (h1 : b.1 k = c.1 k) (h2 : b.2 k = c.2 k) :
    (netItem k b).1 k = (netItem k c).1 k ∧ (netItem k b).2 k = (netItem k c).2 k := by
  unfold netItem
  rw [h1, h2]
  cases h3 : c.2 k with
  | none => simp [h1, h2, h3]
  | some v =>
    by_cases hv : v = 0
    · simp [hv, h1, h2]
    · cases h4 : c.1 k with
      | none => simp [hv, h1, h2]
      | some s =>
        simp only [hv, if_false]
        by_cases hgt : v > s
        · simp [hgt]
        · by_cases hlt : v < s
          · simp [hgt, hlt, h2]
          · simp [hgt, hlt, h2]

theorem foldl_netItem (keys : List Item) (hn : keys.Nodup) (k : Item) (b : Bag × Bag) :
    ((keys.foldl (fun b k => netItem k b) b).1 k, (keys.foldl (fun b k => netItem k b) b).2 k) =
      if k ∈ keys then ((netItem k b).1 k, (netItem k b).2 k) else (b.1 k, b.2 k) := by
  induction keys generalizing b with
  | nil => simp
  | cons j keys ih =>
    rw [List.foldl_cons, ih (List.nodup_cons.1 hn).2]
    by_cases hk : k = j
    · subst hk
      rw [if_neg (List.nodup_cons.1 hn).1]
      simp
    · have h1 := netItem_other j k b hk
      have h2 := netItem_congr k (netItem j b) b h1.1 h1.2
      simp [hk, h1.1, h1.2, h2.1, h2.2]

/-- **C57.** The effect of netting on each item, exactly. `keys` are the items of the bundle received from the participant, in any order. The net
amount received is unchanged, except that an amount that is not larger than the amount sent is charged again. -/
theorem C57_net_error (keys : List Item) (hn : keys.Nodup) (send recv : Option Bag)
    (hk : ∀ k b, recv = some b → (k ∈ keys ↔ b k ≠ none)) (k : Item) :
    (Spec.amount (net keys send recv).2 k : Int) - Spec.amount (net keys send recv).1 k =
      (Spec.amount recv k : Int) - Spec.amount send k +
        if Spec.amount recv k ≤ Spec.amount send k then (Spec.amount recv k : Int) else 0 := by
  have key : ∀ x : Int, (Spec.amount recv k ≤ Spec.amount send k → x = Spec.amount recv k) →
      (¬ Spec.amount recv k ≤ Spec.amount send k → x = 0) →
      (Spec.amount (net keys send recv).2 k : Int) - Spec.amount (net keys send recv).1 k =
        (Spec.amount recv k : Int) - Spec.amount send k + x := by
    intro x hx1 hx2
    cases hs : send with
    | none =>
      cases hr : recv with
      | none => subst hs; subst hr; simp [Spec.amount] at hx1; simp [net, Spec.amount, hx1]
      | some r =>
        subst hs; subst hr
        simp only [net, Spec.amount, Option.bind_none, Option.getD_none] at hx1 hx2 ⊢
        omega
    | some s =>
      cases hr : recv with
      | none => subst hs; subst hr; simp [Spec.amount] at hx1; simp [net, Spec.amount, hx1]
      | some r =>
        have h1 := foldl_netItem keys hn k (s, r)
        subst hs; subst hr
        simp only [net, Spec.amount, Option.bind_some] at hx1 hx2 ⊢
        have hmem := hk k r rfl
        by_cases hm : k ∈ keys
        · rw [if_pos hm] at h1
          obtain ⟨h2, h3⟩ := Prod.mk.inj h1
          rw [h2, h3]
          cases hrk : r k with
          | none => exact absurd hrk (hmem.1 hm)
          | some v =>
            unfold netItem
            simp only [hrk, Option.getD_some] at hx1 hx2 ⊢
            by_cases hv : v = 0
            · subst hv; simp at hx1; simp [hrk, hx1]
            · cases hsk : s k with
              | none => simp [hv, hsk, hrk] at hx2 ⊢; exact hx2
              | some q =>
                simp only [hv, if_false, hsk, Option.getD_some] at hx1 hx2 ⊢
                by_cases hgt : v > q
                · simp [hgt]; omega
                · by_cases hlt : v < q
                  · simp [hgt, hlt, hrk]; omega
                  · simp [hgt, hlt, hrk]; omega
        · rw [if_neg hm] at h1
          obtain ⟨h2, h3⟩ := Prod.mk.inj h1
          have hrk : r k = none := by by_contra hne; exact hm (hmem.2 hne)
          rw [h2, h3]
          simp only [hrk, Option.getD_none] at hx1 hx2 ⊢
          have := hx1 (Nat.zero_le _)
          omega
  apply key
  · intro h; rw [if_pos h]
  · intro h; rw [if_neg h]

/-- **C57 (partial).** Netting leaves the net amount of an item unchanged if more of it is received than sent, or none is received. Missing:
the other case, in which it is false. -/
theorem C57_netting_partial (keys : List Item) (hn : keys.Nodup) (send recv : Option Bag)
    (hk : ∀ k b, recv = some b → (k ∈ keys ↔ b k ≠ none)) (k : Item)
    (h : Spec.amount send k < Spec.amount recv k ∨ Spec.amount recv k = 0) :
    (Spec.amount (net keys send recv).2 k : Int) - Spec.amount (net keys send recv).1 k =
      (Spec.amount recv k : Int) - Spec.amount send k := by
  rw [C57_net_error keys hn send recv hk k]
  split <;> omega

/-- A bundle with some cash only. -/
def cashBag (q : Nat) : Bag := fun k => if k = .cash then some q else none

/-- **C57 (negation).** The market owes 100 to a participant that owes it 60. After netting, it sends 40 and still collects 60, so the participant pays 20
instead of receiving 40. -/
theorem C57_counterexample :
    (net [.cash] (some (cashBag 100)) (some (cashBag 60))).1.map (fun b => b .cash) = some (some 40) ∧
    (net [.cash] (some (cashBag 100)) (some (cashBag 60))).2.map (fun b => b .cash) = some (some 60) := by
  decide +kernel

example : ∀ k b, some (cashBag 60) = some b → (k ∈ [Item.cash] ↔ b k ≠ none) := by
  intro k b h
  cases Option.some.inj h
  unfold cashBag
  by_cases hk : k = .cash <;> simp [hk]

/-! ## C58: settlement -/

/-- The amount of property `t` assigned to participant `p` (zero if there is none). -/
def Spec.assigned (transfers : Nat → Option (List (Nat × Int))) (t : Nat) (p : Nat) : Int :=
  (((transfers t).getD []).lookup p).getD 0

/-- Units bought to close a short position, when `v` units are assigned to a participant with `short` lending contracts. -/
def Spec.covered (v : Int) (short : Nat) : Nat := min v.toNat short

/-- Units bought beyond that. -/
def Spec.bought (v : Int) (short : Nat) : Nat := v.toNat - short

/-- Units sold from the `long` units a participant has. -/
def Spec.sold (v : Int) (long : Nat) : Nat := min (-v).toNat long

/-- Units sold beyond that. -/
def Spec.shorted (v : Int) (long : Nat) : Nat := (-v).toNat - long

/-- What is paid for some units; nothing is paid for no units. -/
def Spec.pay (money : Nat → Int → Nat → Nat) (units : Nat) (price : Int) (lot : Nat) : Nat :=
  if units = 0 then 0 else money units price lot

def Bounded (e : Option Bag) : Prop := ∀ k, Spec.amount e k < 2 ^ 64

theorem amount_addTo (e : Option Bag) (j k : Item) (q : Nat) (hq : q < 2 ^ 64) :
    Spec.amount (addTo e j q) k = if k = j then u64 (Spec.amount e k + q) else Spec.amount e k := by
  unfold addTo Spec.amount Bag.add
  by_cases hk : k = j
  · subst hk
    simp only [Option.bind_some, if_true]
    cases e with
    | none => simp only [Option.getD_none, Bag.empty, Option.bind_none, Option.getD_some, zero_add, u64]; exact (Nat.mod_eq_of_lt hq).symm
    | some b =>
      simp only [Option.getD_some, Option.bind_some]
      cases b k with
      | none => simp only [Option.getD_none, Option.getD_some, zero_add, u64]; exact (Nat.mod_eq_of_lt hq).symm
      | some a => simp
  · simp only [Option.bind_some, if_neg hk]
    cases e with
    | none => simp [Bag.empty]
    | some b => simp

theorem amount_new (t k : Item) (q : Nat) (e : Option Bag) :
    Spec.amount (some (e.getD (Bag.empty.add t q))) k = if e = none then (if k = t then q else 0) else Spec.amount e k := by
  cases e with
  | none =>
    simp only [Spec.amount, Option.getD_none, Option.bind_some, Bag.add, Bag.empty, if_true]
    split <;> simp
  | some b => simp [Spec.amount]

theorem amount_none (k : Item) : Spec.amount none k = 0 := rfl

theorem u64_u64_add (a b : Nat) : u64 (u64 a + b) = u64 (a + b) := by
  unfold u64; rw [Nat.mod_add_mod]

theorem u64_of_lt {a : Nat} (h : a < 2 ^ 64) : u64 a = a := Nat.mod_eq_of_lt h

section Settlement
variable {money : Nat → Int → Nat → Nat} (hm : ∀ u p l, money u p l < 2 ^ 64)
include hm

/-- One settlement step, on all items. -/
theorem settleEntry_amounts (t : Traded) (supply : Nat × Nat) (v : Int) (hv : v.natAbs < 2 ^ 64) (e : Option Bag × Option Bag)
    (hb1 : Bounded e.1) (hb2 : Bounded e.2) (k : Item) :
    Spec.amount (settleEntry money t supply v e).1 k =
      (if k = .cash then u64 (Spec.amount e.1 k + (Spec.pay money (Spec.sold v supply.1) t.price t.lot +
          Spec.pay money (Spec.shorted v supply.1) t.price t.lot))
       else if k = .short t.id then u64 (Spec.amount e.1 k + Spec.shorted v supply.1)
       else if k = .asset t.id ∧ e.1 = none then Spec.bought v supply.2
       else Spec.amount e.1 k) ∧
    Spec.amount (settleEntry money t supply v e).2 k =
      (if k = .cash then u64 (Spec.amount e.2 k + (Spec.pay money (Spec.covered v supply.2) t.old t.lot +
          Spec.pay money (Spec.bought v supply.2) t.price t.lot))
       else if k = .short t.id then u64 (Spec.amount e.2 k + Spec.covered v supply.2)
       else if k = .asset t.id then u64 (Spec.amount e.2 k + Spec.sold v supply.1)
       else Spec.amount e.2 k) := by
  obtain ⟨send, recv⟩ := e
  obtain ⟨long, short⟩ := supply
  have hs : u64 (Spec.amount send k) = Spec.amount send k := u64_of_lt (hb1 k)
  have hr : u64 (Spec.amount recv k) = Spec.amount recv k := u64_of_lt (hb2 k)
  have hnone : send = none → Spec.amount send k = 0 := by rintro rfl; rfl
  unfold settleEntry
  by_cases hv0 : v = 0
  · subst hv0
    simp only [if_true, Spec.pay, Spec.sold, Spec.shorted, Spec.covered, Spec.bought]
    simp only [Int.toNat_zero, neg_zero, Nat.zero_min, Nat.zero_sub, if_true, add_zero, hs, hr]
    constructor
    · split
      · rfl
      · split
        · rfl
        · split
          · exact hnone (by tauto)
          · rfl
    · split
      · rfl
      · split
        · rfl
        · split <;> rfl
  · rw [if_neg hv0]
    by_cases hpos : 0 < v
    · rw [if_pos hpos]
      have e1 : (-v).toNat = 0 := by omega
      have e2 : v.toNat = v.natAbs := by omega
      have hvpos : 0 < v.natAbs := by omega
      simp only [Spec.pay, Spec.sold, Spec.shorted, Spec.covered, Spec.bought, e1, e2, Nat.zero_min, Nat.zero_sub, if_true, add_zero, hs]
      unfold settleBuy
      generalize v.natAbs = w at *
      by_cases hsh : 0 < short
      · simp only [hsh, if_true]
        have hc : w - min w short = w - short := by omega
        have hc0 : min w short ≠ 0 := by omega
        have hcb : min w short < 2 ^ 64 := lt_of_le_of_lt (min_le_left _ _) hv
        have hrb : w - short < 2 ^ 64 := lt_of_le_of_lt (Nat.sub_le _ _) hv
        rw [hc]
        by_cases hrest : 0 < w - short
        · simp only [hrest, if_true, amount_new, amount_addTo _ _ _ _ hcb, amount_addTo _ _ _ _ (hm _ _ _), hc0, if_false, Nat.pos_iff_ne_zero.1 hrest]
          refine ⟨?_, ?_⟩
          · cases k <;> by_cases hn : send = none <;> simp [hn, amount_none]
          · cases k <;> simp [u64_u64_add, add_assoc, hr]
        · have h0 : w - short = 0 := by omega
          simp only [h0, lt_irrefl, if_false, amount_addTo _ _ _ _ hcb, amount_addTo _ _ _ _ (hm _ _ _), hc0, if_true, add_zero]
          refine ⟨?_, ?_⟩
          · cases k <;> simp
            intro _ hn; exact hnone hn
          · cases k <;> simp [hr]
      · have hsh0 : short = 0 := by omega
        simp only [hsh0, lt_irrefl, if_false, Nat.sub_zero, Nat.min_zero, if_true, zero_add, hvpos, amount_new, Nat.pos_iff_ne_zero.1 hvpos, add_zero, hr,
          amount_addTo _ _ _ _ (hm _ _ _)]
        refine ⟨?_, ?_⟩
        · cases k <;> by_cases hn : send = none <;> simp [hn, amount_none]
        · cases k <;> simp
    · rw [if_neg hpos]
      have e1 : v.toNat = 0 := by omega
      have e2 : (-v).toNat = v.natAbs := by omega
      have hvpos : 0 < v.natAbs := by omega
      simp only [Spec.pay, Spec.sold, Spec.shorted, Spec.covered, Spec.bought, e1, e2, Nat.zero_min, Nat.zero_sub, if_true, add_zero, hr]
      unfold settleSell
      generalize v.natAbs = w at *
      by_cases hlg : 0 < long
      · simp only [hlg, if_true]
        have hc : w - min w long = w - long := by omega
        have hc0 : min w long ≠ 0 := by omega
        have hcb : min w long < 2 ^ 64 := lt_of_le_of_lt (min_le_left _ _) hv
        have hrb : w - long < 2 ^ 64 := lt_of_le_of_lt (Nat.sub_le _ _) hv
        rw [hc]
        by_cases hrest : 0 < w - long
        · simp only [hrest, if_true, amount_addTo _ _ _ _ hcb, amount_addTo _ _ _ _ hrb, amount_addTo _ _ _ _ (hm _ _ _), hc0, if_false,
            Nat.pos_iff_ne_zero.1 hrest]
          refine ⟨?_, ?_⟩
          · cases k <;> simp [u64_u64_add, add_assoc]
            intro _ hn; exact hnone hn
          · cases k <;> simp
        · have h0 : w - long = 0 := by omega
          simp only [h0, lt_irrefl, if_false, amount_addTo _ _ _ _ hcb, amount_addTo _ _ _ _ (hm _ _ _), hc0, if_true, add_zero]
          refine ⟨?_, ?_⟩
          · cases k <;> simp [hs]
            intro _ hn; exact hnone hn
          · cases k <;> simp
      · have hlg0 : long = 0 := by omega
        simp only [hlg0, lt_irrefl, if_false, Nat.sub_zero, Nat.min_zero, if_true, zero_add, hvpos, Nat.pos_iff_ne_zero.1 hvpos, add_zero, hr,
          amount_addTo _ _ _ _ (hm _ _ _), amount_addTo _ _ _ _ hv]
        refine ⟨?_, ?_⟩
        · cases k <;> simp
          intro _ hn; exact hnone hn
        · cases k <;> simp

theorem settleEntry_bounded (t : Traded) (supply : Nat × Nat) (v : Int) (hv : v.natAbs < 2 ^ 64) (e : Option Bag × Option Bag)
    (hb1 : Bounded e.1) (hb2 : Bounded e.2) :
    Bounded (settleEntry money t supply v e).1 ∧ Bounded (settleEntry money t supply v e).2 := by
  have hb : Spec.bought v supply.2 < 2 ^ 64 := by unfold Spec.bought; omega
  constructor
  · intro k
    rw [(settleEntry_amounts hm t supply v hv e hb1 hb2 k).1]
    split
    · exact u64_lt _
    · split
      · exact u64_lt _
      · split
        · exact hb
        · exact hb1 k
  · intro k
    rw [(settleEntry_amounts hm t supply v hv e hb1 hb2 k).2]
    split
    · exact u64_lt _
    · split
      · exact u64_lt _
      · split
        · exact u64_lt _
        · exact hb2 k

omit hm in
/-- The market opens a bundle for a participant exactly when it sells or buys more than its short position. -/
theorem settleEntry_none (t : Traded) (supply : Nat × Nat) (v : Int) (e : Option Bag × Option Bag) :
    (settleEntry money t supply v e).1 = none ↔ e.1 = none ∧ ¬ (v < 0 ∨ 0 < Spec.bought v supply.2) := by
  obtain ⟨send, recv⟩ := e
  obtain ⟨long, short⟩ := supply
  unfold settleEntry Spec.bought
  by_cases hv0 : v = 0
  · simp [hv0]
  · rw [if_neg hv0]
    by_cases hpos : 0 < v
    · rw [if_pos hpos]
      unfold settleBuy
      simp only
      have h1 : (0 < v.natAbs - if 0 < short then min v.natAbs short else 0) ↔ 0 < v.toNat - short := by
        split <;> omega
      by_cases hr : 0 < v.toNat - short
      · rw [if_pos (h1.2 hr)]; simp; omega
      · rw [if_neg (fun h => hr (h1.1 h))]; simp; omega
    · rw [if_neg hpos]
      have hn : v < 0 := by omega
      unfold settleSell
      simp only
      by_cases hl : 0 < long
      · simp only [hl, if_true]
        split <;> simp [addTo, hn]
      · simp only [hl, if_false, Nat.sub_zero]
        rw [if_pos (by omega)]
        simp [addTo, hn]

omit hm in
theorem settleProperty_at (supply : Nat → Nat → Nat × Nat) (t : Traded) (l : List (Nat × Int)) (hn : (l.map (·.1)).Nodup)
    (s : Parcels × Parcels) (p : Nat) :
    ((settleProperty money supply t l s).1 p, (settleProperty money supply t l s).2 p) =
      settleEntry money t (supply p t.id) ((l.lookup p).getD 0) (s.1 p, s.2 p) := by
  induction l generalizing s with
  | nil => simp [settleProperty, settleEntry]
  | cons e l ih =>
    obtain ⟨q, v⟩ := e
    rw [settleProperty, ih (List.nodup_cons.1 hn).2]
    by_cases hp : p = q
    · subst hp
      have h1 : l.lookup p = none := by
        rw [List.lookup_eq_none_iff]
        intro x hx
        have := (List.nodup_cons.1 hn).1
        simp only [bne_iff_ne, ne_eq]
        rintro rfl
        exact this (List.mem_map.2 ⟨x, hx, rfl⟩)
      rw [h1]
      simp [settleEntry, List.lookup]
    · have h1 : (p == q) = false := by simpa using hp
      simp [hp, List.lookup, h1]

omit hm in
theorem settle_at (supply : Nat → Nat → Nat × Nat) (transfers : Nat → Option (List (Nat × Int))) (ts : List Traded)
    (hn : ∀ t l, transfers t = some l → (l.map (·.1)).Nodup) (s : Parcels × Parcels) (p : Nat) :
    ((settle money supply transfers ts s).1 p, (settle money supply transfers ts s).2 p) =
      ts.foldl (fun e t => settleEntry money t (supply p t.id) (Spec.assigned transfers t.id p) e) (s.1 p, s.2 p) := by
  induction ts generalizing s with
  | nil => rfl
  | cons t ts ih =>
    rw [settle, List.foldl_cons]
    cases ht : transfers t.id with
    | none =>
      simp only
      rw [ih]
      congr 1
      simp [Spec.assigned, ht, settleEntry]
    | some l =>
      simp only
      rw [ih, settleProperty_at supply t l (hn t.id l ht)]
      simp [Spec.assigned, ht]

/-- The amounts a participant is sent and charged after a series of settlement steps. -/
theorem fold_amounts (supply : Nat → Nat × Nat) (v : Nat → Int) (ts : List Traded) (hid : (ts.map (·.id)).Nodup)
    (hv : ∀ t ∈ ts, (v t.id).natAbs < 2 ^ 64) (e : Option Bag × Option Bag) (hb1 : Bounded e.1) (hb2 : Bounded e.2) :
    let r := ts.foldl (fun e t => settleEntry money t (supply t.id) (v t.id) e) e
    Bounded r.1 ∧ Bounded r.2 ∧
    Spec.amount r.1 .cash = u64 (Spec.amount e.1 .cash + (ts.map fun t => Spec.pay money (Spec.sold (v t.id) (supply t.id).1) t.price t.lot +
      Spec.pay money (Spec.shorted (v t.id) (supply t.id).1) t.price t.lot).sum) ∧
    Spec.amount r.2 .cash = u64 (Spec.amount e.2 .cash + (ts.map fun t => Spec.pay money (Spec.covered (v t.id) (supply t.id).2) t.old t.lot +
      Spec.pay money (Spec.bought (v t.id) (supply t.id).2) t.price t.lot).sum) ∧
    (∀ k, k ∉ ts.map (·.id) → Spec.amount r.1 (.asset k) = Spec.amount e.1 (.asset k) ∧ Spec.amount r.2 (.asset k) = Spec.amount e.2 (.asset k) ∧
      Spec.amount r.1 (.short k) = Spec.amount e.1 (.short k) ∧ Spec.amount r.2 (.short k) = Spec.amount e.2 (.short k)) ∧
    (∀ t ∈ ts, Spec.amount r.2 (.asset t.id) = u64 (Spec.amount e.2 (.asset t.id) + Spec.sold (v t.id) (supply t.id).1) ∧
      Spec.amount r.1 (.short t.id) = u64 (Spec.amount e.1 (.short t.id) + Spec.shorted (v t.id) (supply t.id).1) ∧
      Spec.amount r.2 (.short t.id) = u64 (Spec.amount e.2 (.short t.id) + Spec.covered (v t.id) (supply t.id).2)) := by
  induction ts generalizing e with
  | nil =>
    simp only [List.foldl_nil, List.map_nil, List.sum_nil, add_zero]
    exact ⟨hb1, hb2, (u64_of_lt (hb1 _)).symm, (u64_of_lt (hb2 _)).symm, by simp, by simp⟩
  | cons t ts ih =>
    obtain ⟨hid1, hid2⟩ := List.nodup_cons.1 hid
    have hvt := hv t (by simp)
    have hstep := settleEntry_amounts hm t (supply t.id) (v t.id) hvt e hb1 hb2
    obtain ⟨hc1, hc2⟩ := settleEntry_bounded hm t (supply t.id) (v t.id) hvt e hb1 hb2
    obtain ⟨i1, i2, i3, i4, i5, i6⟩ := ih hid2 (fun t ht => hv t (List.mem_cons_of_mem _ ht)) _ hc1 hc2
    simp only [List.foldl_cons]
    refine ⟨i1, i2, ?_, ?_, ?_, ?_⟩
    · rw [i3, (hstep .cash).1, if_pos rfl, u64_u64_add, List.map_cons, List.sum_cons, add_assoc]
    · rw [i4, (hstep .cash).2, if_pos rfl, u64_u64_add, List.map_cons, List.sum_cons, add_assoc]
    · intro k hk
      simp only [List.map_cons, List.mem_cons, not_or] at hk
      obtain ⟨j1, j2, j3, j4⟩ := i5 k hk.2
      rw [j1, j2, j3, j4, (hstep _).1, (hstep _).2, (hstep _).1, (hstep _).2]
      simp [hk.1]
    · intro t' ht'
      rcases List.mem_cons.1 ht' with rfl | ht'
      · obtain ⟨-, j2, j3, j4⟩ := i5 t'.id hid1
        rw [j2, j3, j4, (hstep _).2, (hstep _).1, (hstep _).2]
        simp
      · have hne : t'.id ≠ t.id := by
          intro he; exact hid1 (List.mem_map.2 ⟨t', ht', he⟩)
        obtain ⟨j1, j2, j3⟩ := i6 t' ht'
        rw [j1, j2, j3, (hstep _).2, (hstep _).1, (hstep _).2]
        simp [hne]

omit hm in
/-- Whether a bundle has been opened, after a series of settlement steps. -/
theorem fold_none (supply : Nat → Nat × Nat) (v : Nat → Int) (ts : List Traded) (e : Option Bag × Option Bag) :
    (ts.foldl (fun e t => settleEntry money t (supply t.id) (v t.id) e) e).1 = none ↔
      e.1 = none ∧ ∀ t ∈ ts, ¬ (v t.id < 0 ∨ 0 < Spec.bought (v t.id) (supply t.id).2) := by
  induction ts generalizing e with
  | nil => simp
  | cons t ts ih =>
    rw [List.foldl_cons, ih, settleEntry_none, List.forall_mem_cons, and_assoc]

omit hm in
theorem bounded_none : Bounded none := by
  intro k; simp [Spec.amount]

end Settlement

/-- The setting of a settlement: the properties are different, every participant occurs once per property, assigned amounts and payments fit into 64 bits. -/
structure Spec.Valid (money : Nat → Int → Nat → Nat) (transfers : Nat → Option (List (Nat × Int))) (ts : List Traded) : Prop where
  properties : (ts.map (·.id)).Nodup
  participants : ∀ t l, transfers t = some l → (l.map (·.1)).Nodup
  amounts : ∀ t p, (Spec.assigned transfers t p).natAbs < 2 ^ 64
  payments : ∀ u p l, money u p l < 2 ^ 64

/-- What the market sends to (`.1`) and receives from (`.2`) its participants, before netting. -/
def Spec.settlement (money : Nat → Int → Nat → Nat) (supply : Nat → Nat → Nat × Nat) (transfers : Nat → Option (List (Nat × Int)))
    (ts : List Traded) : Parcels × Parcels := settle money supply transfers ts (fun _ => none, fun _ => none)

/-- **C58, all flows but the deliveries.** For every participant: the units received and the contracts sent and received are those that follow from the
amount assigned and the position; cash is paid for every unit sold and charged for every unit bought, whether or not it is delivered. -/
theorem C58_flows_partial (money : Nat → Int → Nat → Nat) (supply : Nat → Nat → Nat × Nat) (transfers : Nat → Option (List (Nat × Int)))
    (ts : List Traded) (hval : Spec.Valid money transfers ts) (p : Nat) :
    let send := (Spec.settlement money supply transfers ts).1 p
    let recv := (Spec.settlement money supply transfers ts).2 p
    let v := fun t : Traded => Spec.assigned transfers t.id p
    let long := fun t : Traded => (supply p t.id).1
    let short := fun t : Traded => (supply p t.id).2
    (∀ t ∈ ts, Spec.amount recv (.asset t.id) = Spec.sold (v t) (long t) ∧
      Spec.amount send (.short t.id) = Spec.shorted (v t) (long t) ∧
      Spec.amount recv (.short t.id) = Spec.covered (v t) (short t)) ∧
    Spec.amount send .cash = u64 (ts.map fun t => Spec.pay money (Spec.sold (v t) (long t)) t.price t.lot +
      Spec.pay money (Spec.shorted (v t) (long t)) t.price t.lot).sum ∧
    Spec.amount recv .cash = u64 (ts.map fun t => Spec.pay money (Spec.covered (v t) (short t)) t.old t.lot +
      Spec.pay money (Spec.bought (v t) (short t)) t.price t.lot).sum := by
  have h1 := settle_at (money := money) supply transfers ts hval.participants (fun _ => none, fun _ => none) p
  obtain ⟨-, -, h4, h5, -, h6⟩ := fold_amounts hval.payments (fun t => supply p t) (fun t => Spec.assigned transfers t p) ts hval.properties
    (fun t _ => hval.amounts t.id p) (none, none) bounded_none bounded_none
  obtain ⟨h2, h3⟩ := Prod.mk.inj h1
  simp only [Spec.settlement]
  rw [h2, h3]
  refine ⟨?_, by simpa [amount_none] using h4, by simpa [amount_none] using h5⟩
  intro t ht
  obtain ⟨j1, j2, j3⟩ := h6 t ht
  rw [j1, j2, j3]
  have hv := hval.amounts t.id p
  simp only [amount_none, zero_add]
  refine ⟨u64_of_lt ?_, u64_of_lt ?_, u64_of_lt ?_⟩
  · unfold Spec.sold; omega
  · unfold Spec.shorted; omega
  · unfold Spec.covered; omega

/-- **C58, the deliveries, exactly.** Of the units a participant buys of a property, it is sent all if the market has nothing else to send to it for the
properties before it (in iteration order), and none otherwise. -/
theorem C58_delivered (money : Nat → Int → Nat → Nat) (supply : Nat → Nat → Nat × Nat) (transfers : Nat → Option (List (Nat × Int)))
    (pre post : List Traded) (t : Traded) (hval : Spec.Valid money transfers (pre ++ t :: post)) (p : Nat)
    [Decidable (∃ s ∈ pre, Spec.assigned transfers s.id p < 0 ∨ 0 < Spec.bought (Spec.assigned transfers s.id p) (supply p s.id).2)] :
    Spec.amount ((Spec.settlement money supply transfers (pre ++ t :: post)).1 p) (.asset t.id) =
      if ∃ s ∈ pre, Spec.assigned transfers s.id p < 0 ∨ 0 < Spec.bought (Spec.assigned transfers s.id p) (supply p s.id).2 then 0
      else Spec.bought (Spec.assigned transfers t.id p) (supply p t.id).2 := by
  have h1 := settle_at (money := money) supply transfers (pre ++ t :: post) hval.participants (fun _ => none, fun _ => none) p
  obtain ⟨h2, -⟩ := Prod.mk.inj h1
  rw [Spec.settlement, h2, List.foldl_append, List.foldl_cons]
  have hid := hval.properties
  rw [List.map_append, List.map_cons, List.nodup_append] at hid
  obtain ⟨hid1, hid2, hid3⟩ := hid
  have hpre : t.id ∉ pre.map (·.id) := fun h => hid3 _ h _ (by simp) rfl
  have hpost : t.id ∉ post.map (·.id) := (List.nodup_cons.1 hid2).1
  obtain ⟨b1, b2, -, -, a1, -⟩ := fold_amounts hval.payments (fun t => supply p t) (fun t => Spec.assigned transfers t p) pre hid1
    (fun t _ => hval.amounts t.id p) (none, none) bounded_none bounded_none
  have hn := fold_none (money := money) (fun t => supply p t) (fun t => Spec.assigned transfers t p) pre (none, none)
  simp only at b1 b2 a1 hn
  set e := pre.foldl (fun e t => settleEntry money t (supply p t.id) (Spec.assigned transfers t.id p) e) (none, none) with he
  have hv := hval.amounts t.id p
  obtain ⟨c1, c2⟩ := settleEntry_bounded hval.payments t (supply p t.id) _ hv e b1 b2
  obtain ⟨-, -, -, -, a2, -⟩ := fold_amounts hval.payments (fun t => supply p t) (fun t => Spec.assigned transfers t p) post
    (List.nodup_cons.1 hid2).2 (fun t _ => hval.amounts t.id p) _ c1 c2
  rw [(a2 t.id hpost).1, (settleEntry_amounts hval.payments t (supply p t.id) _ hv e b1 b2 _).1]
  have h0 : Spec.amount e.1 (.asset t.id) = 0 := (a1 t.id hpre).1
  by_cases hex : ∃ s ∈ pre, Spec.assigned transfers s.id p < 0 ∨ 0 < Spec.bought (Spec.assigned transfers s.id p) (supply p s.id).2
  · rw [if_pos hex]
    have hne : ¬ e.1 = none := by
      intro hnone
      obtain ⟨s, hs, hs'⟩ := hex
      exact (hn.1 hnone).2 s hs hs'
    simp [hne, h0]
  · rw [if_neg hex]
    have hnone : e.1 = none := hn.2 ⟨trivial, fun s hs h => hex ⟨s, hs, h⟩⟩
    simp [hnone]

/-- **C58 (partial).** A participant that trades a single property is sent what it buys, and its position changes by the amount assigned to it. Missing: several
properties, for which it is false. -/
theorem C58_single_partial (money : Nat → Int → Nat → Nat) (supply : Nat → Nat → Nat × Nat) (transfers : Nat → Option (List (Nat × Int)))
    (pre post : List Traded) (t : Traded) (hval : Spec.Valid money transfers (pre ++ t :: post)) (p : Nat)
    (hsingle : ∀ s ∈ pre, Spec.assigned transfers s.id p = 0) :
    let send := (Spec.settlement money supply transfers (pre ++ t :: post)).1 p
    let recv := (Spec.settlement money supply transfers (pre ++ t :: post)).2 p
    Spec.amount send (.asset t.id) = Spec.bought (Spec.assigned transfers t.id p) (supply p t.id).2 ∧
    (Spec.amount send (.asset t.id) : Int) - Spec.amount recv (.asset t.id) + Spec.amount recv (.short t.id) - Spec.amount send (.short t.id) =
      Spec.assigned transfers t.id p := by
  classical
  have h1 := C58_delivered money supply transfers pre post t hval p
  rw [if_neg (by
    rintro ⟨s, hs, h⟩
    rw [hsingle s hs] at h
    simp [Spec.bought] at h)] at h1
  obtain ⟨h2, -, -⟩ := C58_flows_partial money supply transfers (pre ++ t :: post) hval p
  obtain ⟨h3, h4, h5⟩ := h2 t (by simp)
  refine ⟨h1, ?_⟩
  simp only at h3 h4 h5 ⊢
  rw [h1, h3, h4, h5]
  unfold Spec.bought Spec.sold Spec.covered Spec.shorted
  omega

/-- Exact payments. -/
def exactMoney (u : Nat) (price : Int) (lot : Nat) : Nat := u64 (u * price.toNat / lot)

/-- Two participants; the first has ten units of property 1 and the second ten units of property 2. The price of property 1 is 10, that of property 2 is 6. They exchange
ten units. -/
def swapTransfers (t : Nat) : Option (List (Nat × Int)) :=
  if t = 1 then some [(1, -10), (2, 10)] else if t = 2 then some [(1, 10), (2, -10)] else none

def swapSupply (p t : Nat) : Nat × Nat := if p = t then (10, 0) else (0, 0)

def swapTraded : List Traded := [⟨1, 10, 10, 1⟩, ⟨2, 6, 6, 1⟩]

theorem swap_valid : Spec.Valid exactMoney swapTransfers swapTraded where
  properties := by decide
  participants := by
    intro t l h
    unfold swapTransfers at h
    split at h
    · cases h; decide
    · split at h
      · cases h; decide
      · cases h
  amounts := by
    intro t p
    have h : Spec.assigned swapTransfers t p = 0 ∨ Spec.assigned swapTransfers t p = 10 ∨ Spec.assigned swapTransfers t p = -10 := by
      unfold Spec.assigned swapTransfers
      by_cases h1 : t = 1
      · subst h1
        by_cases hp1 : p = 1
        · subst hp1; decide
        · by_cases hp2 : p = 2
          · subst hp2; decide
          · simp [List.lookup, beq_eq_false_iff_ne.2 hp1, beq_eq_false_iff_ne.2 hp2]
      · by_cases h2 : t = 2
        · subst h2
          by_cases hp1 : p = 1
          · subst hp1; decide
          · by_cases hp2 : p = 2
            · subst hp2; decide
            · simp [List.lookup, beq_eq_false_iff_ne.2 hp1, beq_eq_false_iff_ne.2 hp2]
        · simp [h1, h2]
    rcases h with h | h | h <;> rw [h] <;> decide
  payments := fun u p l => u64_lt _

/-- **C58 (negation).** The first participant sells ten units of property 1 and buys ten units of property 2, for which 60 are charged. The market never sends it property 2. -/
theorem C58_counterexample :
    Spec.assigned swapTransfers 2 1 = 10 ∧
    Spec.amount ((Spec.settlement exactMoney swapSupply swapTransfers swapTraded).1 1) (.asset 2) = 0 ∧
    Spec.amount ((Spec.settlement exactMoney swapSupply swapTransfers swapTraded).2 1) .cash = 60 ∧
    Spec.amount ((Spec.settlement exactMoney swapSupply swapTransfers swapTraded).2 1) (.asset 1) = 10 := by
  decide +kernel

/-- **C57 and C58 (negation), together.** After netting, the first participant has handed over ten units worth 100 and paid 60, and is sent 40. -/
theorem C57_counterexample_clearing :
    let s := Spec.settlement exactMoney swapSupply swapTransfers swapTraded
    let n := net [.asset 1, .cash] (s.1 1) (s.2 1)
    Spec.amount n.2 (.asset 1) = 10 ∧ Spec.amount n.2 .cash = 60 ∧ Spec.amount n.1 .cash = 40 ∧ Spec.amount n.1 (.asset 2) = 0 := by
  decide +kernel

/-- A buyer of a single property receives it. -/
example : Spec.amount ((Spec.settlement exactMoney swapSupply swapTransfers swapTraded).1 2) (.asset 1) = 10 := by decide +kernel

/-! ## C87: everyone trades at the clearing price -/

/-- The cash the market sends to and receives from the participants in a list. -/
def Spec.cashSent (s : Parcels × Parcels) (ps : List Nat) : Nat := (ps.map fun p => Spec.amount (s.1 p) .cash).sum
def Spec.cashReceived (s : Parcels × Parcels) (ps : List Nat) : Nat := (ps.map fun p => Spec.amount (s.2 p) .cash).sum

theorem lookup_of_mem {l : List (Nat × Int)} (hn : (l.map (·.1)).Nodup) {e : Nat × Int} (he : e ∈ l) : l.lookup e.1 = some e.2 := by
  induction l with
  | nil => simp at he
  | cons x l ih =>
    obtain ⟨hx, hl⟩ := List.nodup_cons.1 hn
    rcases List.mem_cons.1 he with rfl | hel
    · simp [List.lookup]
    · have hne : (e.1 == x.1) = false := by
        rw [beq_eq_false_iff_ne]
        intro h; exact hx (List.mem_map.2 ⟨e, hel, h⟩)
      obtain ⟨x1, x2⟩ := x
      rw [List.lookup]
      simp only at hne
      rw [hne]
      exact ih hl hel

theorem sum_map_mul {α : Type} (l : List α) (f : α → Nat) (k : Nat) : (l.map f).sum * k = (l.map fun x => f x * k).sum := by
  induction l with
  | nil => simp
  | cons x l ih => simp [Nat.add_mul, ih]

/-- **C87 (partial).** If one property is traded, in lots of one and without a short position, and payments are exact, then the market receives as much cash as it
sends: every unit is bought and sold at the clearing price. Missing: short positions, for which it is false. -/
theorem C87_cash_partial (supply : Nat → Nat → Nat × Nat) (t : Traded) (l : List (Nat × Int)) (hn : (l.map (·.1)).Nodup)
    (hlot : t.lot = 1) (hsum : (l.map (·.2)).sum = 0) (hshort : ∀ p, (supply p t.id).2 = 0)
    (hsize : ∀ e ∈ l, e.2.natAbs < 2 ^ 64 ∧ e.2.natAbs * t.price.toNat < 2 ^ 64) :
    let s := Spec.settlement exactMoney supply (fun k => if k = t.id then some l else none) [t]
    Spec.cashReceived s (l.map (·.1)) = Spec.cashSent s (l.map (·.1)) ∧
    Spec.cashSent s (l.map (·.1)) = (l.map fun e => (-e.2).toNat).sum * t.price.toNat := by
  have hassigned : ∀ e ∈ l, Spec.assigned (fun k => if k = t.id then some l else none) t.id e.1 = e.2 := by
    intro e he
    simp [Spec.assigned, lookup_of_mem hn he]
  have hval : Spec.Valid exactMoney (fun k => if k = t.id then some l else none) [t] := by
    refine ⟨by simp, ?_, ?_, fun u p l => u64_lt _⟩
    · intro k l' h
      split at h
      · cases h; exact hn
      · cases h
    · intro k p
      unfold Spec.assigned
      by_cases hk : k = t.id
      · subst hk
        simp only [if_true, Option.getD_some]
        cases h : l.lookup p with
        | none => simp
        | some v =>
          obtain ⟨l1, l2, h1, -⟩ := List.lookup_eq_some_iff.1 h
          exact (hsize (p, v) (by rw [h1]; simp)).1
      · simp [hk]
  have hex : ∀ u : Nat, ∀ w : Nat, u ≤ w → w * t.price.toNat < 2 ^ 64 → Spec.pay exactMoney u t.price t.lot = u * t.price.toNat := by
    intro u w huw hw
    unfold Spec.pay exactMoney
    split
    · simp [*]
    · rw [hlot, Nat.div_one]
      exact u64_of_lt (lt_of_le_of_lt (Nat.mul_le_mul_right _ huw) hw)
  have hcash : ∀ e ∈ l,
      Spec.amount ((Spec.settlement exactMoney supply (fun k => if k = t.id then some l else none) [t]).1 e.1) .cash = (-e.2).toNat * t.price.toNat ∧
      Spec.amount ((Spec.settlement exactMoney supply (fun k => if k = t.id then some l else none) [t]).2 e.1) .cash = e.2.toNat * t.price.toNat := by
    intro e he
    obtain ⟨-, h1, h2⟩ := C58_flows_partial exactMoney supply _ [t] hval e.1
    simp only [List.map_cons, List.map_nil, List.sum_cons, List.sum_nil, add_zero, hassigned e he, hshort] at h1 h2
    rw [h1, h2]
    have hs := (hsize e he).2
    constructor
    · rw [hex (Spec.sold e.2 (supply e.1 t.id).1) e.2.natAbs (by unfold Spec.sold; omega) hs,
        hex (Spec.shorted e.2 (supply e.1 t.id).1) e.2.natAbs (by unfold Spec.shorted; omega) hs, ← Nat.add_mul]
      have h3 : Spec.sold e.2 (supply e.1 t.id).1 + Spec.shorted e.2 (supply e.1 t.id).1 = (-e.2).toNat := by
        unfold Spec.sold Spec.shorted; omega
      rw [h3]
      exact u64_of_lt (lt_of_le_of_lt (Nat.mul_le_mul_right _ (by omega)) hs)
    · have h0 : Spec.covered e.2 0 = 0 := by unfold Spec.covered; omega
      have h3 : Spec.bought e.2 0 = e.2.toNat := by unfold Spec.bought; omega
      rw [h0, h3, hex e.2.toNat e.2.natAbs (by omega) hs]
      have h4 : Spec.pay exactMoney 0 t.old t.lot = 0 := by simp [Spec.pay]
      rw [h4, zero_add]
      exact u64_of_lt (lt_of_le_of_lt (Nat.mul_le_mul_right _ (by omega)) hs)
  have hsent : Spec.cashSent (Spec.settlement exactMoney supply (fun k => if k = t.id then some l else none) [t]) (l.map (·.1)) =
      (l.map fun e => (-e.2).toNat).sum * t.price.toNat := by
    unfold Spec.cashSent
    rw [List.map_map, sum_map_mul]
    congr 1
    apply List.map_congr_left
    intro e he
    exact (hcash e he).1
  have hrecv : Spec.cashReceived (Spec.settlement exactMoney supply (fun k => if k = t.id then some l else none) [t]) (l.map (·.1)) =
      (l.map fun e => e.2.toNat).sum * t.price.toNat := by
    unfold Spec.cashReceived
    rw [List.map_map, sum_map_mul]
    congr 1
    apply List.map_congr_left
    intro e he
    exact (hcash e he).2
  refine ⟨?_, hsent⟩
  rw [hsent, hrecv]
  congr 1
  have h5 : ∀ l : List (Nat × Int), (((l.map fun e => e.2.toNat).sum : Nat) : Int) - ((l.map fun e => (-e.2).toNat).sum : Nat) = (l.map (·.2)).sum := by
    intro l
    induction l with
    | nil => rfl
    | cons e l ih => simp only [List.map_cons, List.sum_cons]; push_cast at ih ⊢; omega
  have h6 := h5 l
  rw [hsum] at h6
  omega

/-- The units that participants buy to close short positions, valued at `value` each. -/
def Spec.coveredAt (supply : Nat → Nat → Nat × Nat) (transfers : Nat → Option (List (Nat × Int))) (ts : List Traded) (ps : List Nat) (value : Traded → Nat) : Nat :=
  (ps.map fun p => (ts.map fun t => Spec.covered (Spec.assigned transfers t.id p) (supply p t.id).2 * value t).sum).sum

theorem sum_map_add' {α : Type} (l : List α) (f g : α → Nat) : (l.map fun x => f x + g x).sum = (l.map f).sum + (l.map g).sum := by
  induction l with
  | nil => rfl
  | cons x l ih => simp only [List.map_cons, List.sum_cons, ih]; omega

theorem sum_swap {α β : Type} (l : List α) (r : List β) (f : α → β → Nat) : (l.map fun x => (r.map fun y => f x y).sum).sum = (r.map fun y => (l.map fun x => f x y).sum).sum := by
  induction l with
  | nil => simp
  | cons x l ih => simp only [List.map_cons, List.sum_cons, ih, sum_map_add']

theorem sum_map_le' {α : Type} (l : List α) (f g : α → Nat) (h : ∀ x ∈ l, f x ≤ g x) : (l.map f).sum ≤ (l.map g).sum := by
  induction l with
  | nil => simp
  | cons x l ih =>
    simp only [List.map_cons, List.sum_cons]
    have h1 := h x List.mem_cons_self
    have h2 := ih fun y hy => h y (List.mem_cons_of_mem _ hy)
    omega

theorem le_sum_map {α : Type} (l : List α) (f : α → Nat) (x : α) (hx : x ∈ l) : f x ≤ (l.map f).sum := by
  induction l with
  | nil => simp at hx
  | cons y l ih =>
    simp only [List.map_cons, List.sum_cons]
    rcases List.mem_cons.1 hx with rfl | h
    · omega
    · have := ih h; omega

/-- What is paid for units in lots that divide the price. -/
theorem pay_exact (u lot : Nat) (price : Int) (hd : lot ∣ price.toNat) (hs : u * (price.toNat / lot) < 2 ^ 64) : Spec.pay exactMoney u price lot = u * (price.toNat / lot) := by
  unfold Spec.pay exactMoney
  by_cases h : u = 0
  · simp [h]
  · rw [if_neg h, Nat.mul_div_assoc _ hd]
    exact u64_of_lt hs

/-- **C87, the difference (partial).** Any number of properties, in lots that divide their prices, and any positions. If the units assigned to the participants balance for each property, then the cash the market receives differs from
what it sends by exactly the change of the price of the units that close short positions, in whatever combination of properties: they are charged at the old price. Missing: lots for which payments are rounded. -/
theorem C87_difference_partial (supply : Nat → Nat → Nat × Nat) (transfers : Nat → Option (List (Nat × Int))) (ts : List Traded) (hval : Spec.Valid exactMoney transfers ts) (ps : List Nat)
    (hlot : ∀ t ∈ ts, t.lot ∣ t.price.toNat ∧ t.lot ∣ t.old.toNat) (hsum : ∀ t ∈ ts, (ps.map fun p => Spec.assigned transfers t.id p).sum = 0)
    (hsize : ∀ p ∈ ps, (ts.map fun t => (Spec.assigned transfers t.id p).natAbs * (t.price.toNat / t.lot + t.old.toNat / t.lot)).sum < 2 ^ 64) :
    let s := Spec.settlement exactMoney supply transfers ts
    Spec.cashReceived s ps + Spec.coveredAt supply transfers ts ps (fun t => t.price.toNat / t.lot) = Spec.cashSent s ps + Spec.coveredAt supply transfers ts ps (fun t => t.old.toNat / t.lot) := by
  intro s
  have hp : ∀ p ∈ ps, Spec.amount (s.1 p) .cash = (ts.map fun t => (-Spec.assigned transfers t.id p).toNat * (t.price.toNat / t.lot)).sum ∧
      Spec.amount (s.2 p) .cash + (ts.map fun t => Spec.covered (Spec.assigned transfers t.id p) (supply p t.id).2 * (t.price.toNat / t.lot)).sum =
        (ts.map fun t => (Spec.assigned transfers t.id p).toNat * (t.price.toNat / t.lot)).sum +
        (ts.map fun t => Spec.covered (Spec.assigned transfers t.id p) (supply p t.id).2 * (t.old.toNat / t.lot)).sum := by
    intro p hpp
    have hs := hsize p hpp
    obtain ⟨-, h1, h2⟩ := C58_flows_partial exactMoney supply transfers ts hval p
    have each : ∀ t ∈ ts, ∀ u, u ≤ (Spec.assigned transfers t.id p).natAbs → u * (t.price.toNat / t.lot) < 2 ^ 64 ∧ u * (t.old.toNat / t.lot) < 2 ^ 64 := by
      intro t ht u hu
      have := le_sum_map ts (fun t => (Spec.assigned transfers t.id p).natAbs * (t.price.toNat / t.lot + t.old.toNat / t.lot)) t ht
      simp only [Nat.mul_add] at this
      have a := Nat.mul_le_mul_right (t.price.toNat / t.lot) hu
      have b := Nat.mul_le_mul_right (t.old.toNat / t.lot) hu
      simp only [Nat.mul_add] at hs
      omega
    constructor
    · rw [h1]
      have e : (ts.map fun t => Spec.pay exactMoney (Spec.sold (Spec.assigned transfers t.id p) (supply p t.id).1) t.price t.lot +
          Spec.pay exactMoney (Spec.shorted (Spec.assigned transfers t.id p) (supply p t.id).1) t.price t.lot) =
          ts.map fun t => (-Spec.assigned transfers t.id p).toNat * (t.price.toNat / t.lot) := by
        apply List.map_congr_left
        intro t ht
        rw [pay_exact _ _ _ (hlot t ht).1 (each t ht _ (by unfold Spec.sold; omega)).1, pay_exact _ _ _ (hlot t ht).1 (each t ht _ (by unfold Spec.shorted; omega)).1, ← Nat.add_mul]
        congr 1
        unfold Spec.sold Spec.shorted; omega
      rw [e]
      refine u64_of_lt (lt_of_le_of_lt (sum_map_le' ts _ _ fun t _ => ?_) hs)
      exact Nat.mul_le_mul (show (-Spec.assigned transfers t.id p).toNat ≤ (Spec.assigned transfers t.id p).natAbs by omega) (Nat.le_add_right _ _)
    · rw [h2]
      have e : (ts.map fun t => Spec.pay exactMoney (Spec.covered (Spec.assigned transfers t.id p) (supply p t.id).2) t.old t.lot +
          Spec.pay exactMoney (Spec.bought (Spec.assigned transfers t.id p) (supply p t.id).2) t.price t.lot) =
          ts.map fun t => Spec.covered (Spec.assigned transfers t.id p) (supply p t.id).2 * (t.old.toNat / t.lot) +
            Spec.bought (Spec.assigned transfers t.id p) (supply p t.id).2 * (t.price.toNat / t.lot) := by
        apply List.map_congr_left
        intro t ht
        rw [pay_exact _ _ _ (hlot t ht).2 (each t ht _ (by unfold Spec.covered; omega)).2, pay_exact _ _ _ (hlot t ht).1 (each t ht _ (by unfold Spec.bought; omega)).1]
      have hlt : (ts.map fun t => Spec.covered (Spec.assigned transfers t.id p) (supply p t.id).2 * (t.old.toNat / t.lot) +
            Spec.bought (Spec.assigned transfers t.id p) (supply p t.id).2 * (t.price.toNat / t.lot)).sum < 2 ^ 64 := by
        refine lt_of_le_of_lt (sum_map_le' ts _ _ fun t _ => ?_) hs
        have a := Nat.mul_le_mul_right (t.old.toNat / t.lot) (show Spec.covered (Spec.assigned transfers t.id p) (supply p t.id).2 ≤ (Spec.assigned transfers t.id p).natAbs by unfold Spec.covered; omega)
        have b := Nat.mul_le_mul_right (t.price.toNat / t.lot) (show Spec.bought (Spec.assigned transfers t.id p) (supply p t.id).2 ≤ (Spec.assigned transfers t.id p).natAbs by unfold Spec.bought; omega)
        rw [Nat.mul_add]
        omega
      rw [e, u64_of_lt hlt, ← sum_map_add', ← sum_map_add']
      congr 1
      apply List.map_congr_left
      intro t _
      have : Spec.covered (Spec.assigned transfers t.id p) (supply p t.id).2 + Spec.bought (Spec.assigned transfers t.id p) (supply p t.id).2 = (Spec.assigned transfers t.id p).toNat := by
        unfold Spec.covered Spec.bought; omega
      rw [← this, Nat.add_mul]; omega
  have hbal : (ps.map fun p => (ts.map fun t => (Spec.assigned transfers t.id p).toNat * (t.price.toNat / t.lot)).sum).sum =
      (ps.map fun p => (ts.map fun t => (-Spec.assigned transfers t.id p).toNat * (t.price.toNat / t.lot)).sum).sum := by
    rw [sum_swap ps ts (fun p t => (Spec.assigned transfers t.id p).toNat * (t.price.toNat / t.lot)), sum_swap ps ts (fun p t => (-Spec.assigned transfers t.id p).toNat * (t.price.toNat / t.lot))]
    congr 1
    apply List.map_congr_left
    intro t ht
    rw [← sum_map_mul ps (fun p => (Spec.assigned transfers t.id p).toNat), ← sum_map_mul ps (fun p => (-Spec.assigned transfers t.id p).toNat)]
    congr 1
    have h5 : ∀ l : List Nat, (((l.map fun p => (Spec.assigned transfers t.id p).toNat).sum : Nat) : Int) - ((l.map fun p => (-Spec.assigned transfers t.id p).toNat).sum : Nat) =
        (l.map fun p => Spec.assigned transfers t.id p).sum := by
      intro l
      induction l with
      | nil => rfl
      | cons e l ih => simp only [List.map_cons, List.sum_cons]; push_cast at ih ⊢; omega
    have h6 := h5 ps
    rw [hsum t ht] at h6
    omega
  unfold Spec.cashReceived Spec.cashSent Spec.coveredAt
  rw [← sum_map_add', List.map_congr_left fun p hpp => (hp p hpp).2, List.map_congr_left fun p hpp => (hp p hpp).1, sum_map_add', hbal]

/-- **C87, exactly when (partial).** So the market receives as much cash as it sends if and only if the units that close short positions are worth as much at the old prices as at the new ones; in particular if nobody closes one,
or if no price changes. -/
theorem C87_balanced_iff_partial (supply : Nat → Nat → Nat × Nat) (transfers : Nat → Option (List (Nat × Int))) (ts : List Traded) (hval : Spec.Valid exactMoney transfers ts) (ps : List Nat)
    (hlot : ∀ t ∈ ts, t.lot ∣ t.price.toNat ∧ t.lot ∣ t.old.toNat) (hsum : ∀ t ∈ ts, (ps.map fun p => Spec.assigned transfers t.id p).sum = 0)
    (hsize : ∀ p ∈ ps, (ts.map fun t => (Spec.assigned transfers t.id p).natAbs * (t.price.toNat / t.lot + t.old.toNat / t.lot)).sum < 2 ^ 64) :
    let s := Spec.settlement exactMoney supply transfers ts
    Spec.cashReceived s ps = Spec.cashSent s ps ↔
      Spec.coveredAt supply transfers ts ps (fun t => t.price.toNat / t.lot) = Spec.coveredAt supply transfers ts ps (fun t => t.old.toNat / t.lot) := by
  intro s
  have h := C87_difference_partial supply transfers ts hval ps hlot hsum hsize
  simp only at h
  show Spec.cashReceived (Spec.settlement exactMoney supply transfers ts) ps = Spec.cashSent (Spec.settlement exactMoney supply transfers ts) ps ↔ _
  omega

/-- The case of the negation below, with two properties, one of them in lots of two. -/
example : let transfers : Nat → Option (List (Nat × Int)) := fun k => if k = 7 then some [(1, 5), (2, -5)] else if k = 8 then some [(1, -2), (2, 2)] else none
    let ts : List Traded := [⟨7, 10, 20, 1⟩, ⟨8, 6, 8, 2⟩]
    let s := Spec.settlement exactMoney (fun p _ => if p = 1 then (0, 5) else (5, 0)) transfers ts
    (∀ t ∈ ts, t.lot ∣ t.price.toNat ∧ t.lot ∣ t.old.toNat) ∧ (∀ t ∈ ts, ([1, 2].map fun p => Spec.assigned transfers t.id p).sum = 0) ∧
    (∀ p ∈ [1, 2], (ts.map fun t => (Spec.assigned transfers t.id p).natAbs * (t.price.toNat / t.lot + t.old.toNat / t.lot)).sum < 2 ^ 64) ∧
    Spec.cashReceived s [1, 2] + 100 = Spec.cashSent s [1, 2] + 50 := by
  decide +kernel

/-- The first participant has borrowed five units, the second has five units. -/
def coverSupply (p _t : Nat) : Nat × Nat := if p = 1 then (0, 5) else (5, 0)

/-- **C87 (negation).** The price rises from 10 to 20, and five units change hands. The seller is paid 100, but the buyer, who closes a short position, is charged
50: the old price. -/
theorem C87_counterexample :
    let s := Spec.settlement exactMoney coverSupply (fun k => if k = 7 then some [(1, 5), (2, -5)] else none) [⟨7, 10, 20, 1⟩]
    Spec.cashReceived s [1, 2] = 50 ∧ Spec.cashSent s [1, 2] = 100 := by
  decide +kernel

example : let s := Spec.settlement exactMoney (fun _ _ => (5, 0)) (fun k => if k = 7 then some [(1, 5), (2, -5)] else none) [⟨7, 10, 20, 1⟩]
    Spec.cashReceived s [1, 2] = Spec.cashSent s [1, 2] ∧ Spec.cashSent s [1, 2] = 100 := by
  decide +kernel

/-! ## C59: prices stay positive -/

/-- The rounding of `double`s, as far as it matters here. -/
def Spec.KeepsSign (fl : Rat → Rat) : Prop := ∀ x, 0 ≤ x → 0 ≤ fl x

theorem binary64_keepsSign : Spec.KeepsSign Double.binary64 := by
  intro x hx
  unfold Double.binary64
  split
  · exact le_refl _
  · have h1 : 0 ≤ x.num := Rat.num_nonneg.2 hx
    rw [if_pos (by omega)]
    unfold Double.roundPos
    simp only
    split
    · exact mul_nonneg (by exact_mod_cast Nat.zero_le _) (by exact_mod_cast Nat.zero_le _)
    · exact div_nonneg (by exact_mod_cast Nat.zero_le _) (by exact_mod_cast Nat.zero_le _)

/-- A price times a multiplier, rounded towards zero, or one if that is zero. `fl` rounds to numbers of the platform. -/
def Spec.repriced (fl : Rat → Rat) (value : Int) (x : Rat) : Int :=
  if Spec.towardsZero (fl (fl value * x)) = 0 then 1 else Spec.towardsZero (fl (fl value * x))

theorem applyOne_spec (fl : Rat → Rat) (value : Int) (x : Rat) :
    applyOne fl value x = if InI64 (Spec.towardsZero (fl (fl value * x))) then .ok (Spec.repriced fl value x) else .ub := by
  unfold applyOne Spec.repriced InI64
  simp only [trunc_spec]

/-- **C56, markets with several properties.** The transfers of each property sum to zero and are those of its demands, as in `C56_balanced`. -/
theorem C56_market (sort : List (Nat × Int) → List (Nat × Int)) (hs : Spec.Sorts sort) (demands : Nat → Option (List (Nat × Rat))) (qs : List Quoted)
    (r : List (Nat × List (Nat × Int))) (h : computeTransfers sort demands qs = .ok r) :
    r.map (·.1) = (qs.map (·.id)).filter (fun p => (demands p).isSome) ∧
    ∀ e ∈ r, ∃ ds, demands e.1 = some ds ∧ (e.2.map (·.2)).sum = 0 ∧
      ∃ l : List (Nat × Rat), l.Perm ds ∧ e.2.map (·.1) = l.map (·.1) ∧ Spec.deviation l (e.2.map (·.2)) = |Spec.excess ds| ∧
        List.Forall₂ (fun d x => |x.2 - Spec.towardsZero d.2| ≤ ⌈(|Spec.excess ds| : Rat) / ds.length⌉) l e.2 := by
  obtain ⟨h1, h2⟩ := C56_every_property sort demands qs r h
  refine ⟨h1, fun e he => ?_⟩
  obtain ⟨ds, h3, h4⟩ := h2 e he
  exact ⟨ds, h3, C56_balanced sort hs ds e.2 h4⟩

/-- **C59, all outcomes.** Every quote gets its price times its multiplier, rounded towards zero, or the price one, and nothing else changes, if there is a multiplier for each property and no product
is beyond 64 bits; otherwise the behaviour is undefined. -/
theorem C59_applied (fl : Rat → Rat) (result : Nat → Option Rat) (qs : List Quoted) :
    (∀ rs, applyResults fl result qs = .ok rs ↔
      List.Forall₂ (fun q r => ∃ x, result q.id = some x ∧ InI64 (Spec.towardsZero (fl (fl q.value * x))) ∧ r = ⟨q.id, Spec.repriced fl q.value x, q.lot⟩) qs rs) ∧
    (applyResults fl result qs = .ub ↔ ∃ q ∈ qs, ∀ x, result q.id = some x → ¬ InI64 (Spec.towardsZero (fl (fl q.value * x)))) := by
  induction qs with
  | nil => exact ⟨fun rs => by simp [applyResults, eq_comm], by simp [applyResults]⟩
  | cons q qs ih =>
    obtain ⟨ih1, ih2⟩ := ih
    rw [applyResults]
    cases hx : result q.id with
    | none =>
      refine ⟨fun rs => ⟨fun h => by simp at h, fun h => ?_⟩, ⟨fun _ => ⟨q, by simp, fun x h => by rw [hx] at h; cases h⟩, fun _ => rfl⟩⟩
      cases h with
      | cons h1 _ => obtain ⟨x, h2, -⟩ := h1; rw [hx] at h2; cases h2
    | some x =>
      simp only
      rw [applyOne_spec]
      by_cases hi : InI64 (Spec.towardsZero (fl (fl q.value * x)))
      · rw [if_pos hi]
        simp only [Outcome.bind_ok]
        constructor
        · intro rs
          simp only [Outcome.bind_eq_ok, Outcome.ok.injEq]
          constructor
          · rintro ⟨r, h1, rfl⟩
            exact .cons ⟨x, hx, hi, rfl⟩ ((ih1 r).1 h1)
          · intro h
            cases h with
            | cons h1 h2 =>
              obtain ⟨y, hy, -, rfl⟩ := h1
              rw [hx] at hy
              cases hy
              exact ⟨_, (ih1 _).2 h2, rfl⟩
        · constructor
          · intro h
            cases hq : applyResults fl result qs with
            | ok r => rw [hq] at h; simp at h
            | throws => rw [hq] at h; simp at h
            | ub =>
              obtain ⟨q', h1, h2⟩ := ih2.1 hq
              exact ⟨q', List.mem_cons_of_mem _ h1, h2⟩
          · rintro ⟨q', h1, h2⟩
            rcases List.mem_cons.1 h1 with rfl | h1
            · exact absurd hi (h2 x hx)
            · rw [ih2.2 ⟨q', h1, h2⟩]; rfl
      · rw [if_neg hi]
        refine ⟨fun rs => ⟨fun h => by simp at h, fun h => ?_⟩, ⟨fun _ => ⟨q, by simp, fun y h => by rw [hx] at h; cases h; exact hi⟩, fun _ => rfl⟩⟩
        cases h with
        | cons h1 _ =>
          obtain ⟨y, h2, h3, -⟩ := h1
          rw [hx] at h2
          cases h2
          exact absurd h3 hi

example : applyResults Double.binary64 (fun i => if i = 1 then some (-(2 ^ 63)) else none) [⟨1, 1, 1⟩] = .ok [⟨1, -(2 ^ 63), 1⟩] ∧
    applyResults Double.binary64 (fun i => if i = 1 then some (2 ^ 63) else none) [⟨1, 1, 1⟩] = .ub ∧
    applyResults Double.binary64 (fun i => if i = 1 then some 1 else none) [⟨1, 1, 1⟩, ⟨2, 1, 1⟩] = .ub := by decide +kernel

/-- **C59.** Applying nonnegative multipliers to positive prices gives positive prices, for the same properties and lots; a price never becomes zero. -/
theorem C59_positive (fl : Rat → Rat) (hfl : Spec.KeepsSign fl) (result : Nat → Option Rat) (qs rs : List Quoted)
    (hq : ∀ q ∈ qs, 0 < q.value) (hr : ∀ q ∈ qs, ∀ x, result q.id = some x → 0 ≤ x) (h : applyResults fl result qs = .ok rs) :
    (∀ q ∈ rs, 0 < q.value) ∧ rs.map (fun q => (q.id, q.lot)) = qs.map (fun q => (q.id, q.lot)) := by
  induction qs generalizing rs with
  | nil =>
    simp only [applyResults, Outcome.ok.injEq] at h
    subst h; simp
  | cons q qs ih =>
    rw [applyResults] at h
    cases hx : result q.id with
    | none => rw [hx] at h; simp at h
    | some x =>
      rw [hx] at h
      simp only [Outcome.bind_eq_ok] at h
      obtain ⟨v, h1, r, h2, h3⟩ := h
      simp only [Outcome.ok.injEq] at h3
      subst h3
      obtain ⟨i1, i2⟩ := ih r (fun q hq' => hq q (List.mem_cons_of_mem _ hq')) (fun q hq' => hr q (List.mem_cons_of_mem _ hq')) h2
      have hv : 0 < v := by
        unfold applyOne at h1
        simp only at h1
        split at h1
        · have hnn : (0 : Rat) ≤ fl (fl q.value * x) := by
            apply hfl
            apply mul_nonneg
            · apply hfl
              exact_mod_cast (hq q (by simp)).le
            · exact hr q (by simp) x hx
          have h4 : 0 ≤ Double.trunc (fl (fl q.value * x)) := by
            rw [trunc_nonneg _ hnn]; exact Int.floor_nonneg.2 hnn
          simp only [Outcome.ok.injEq] at h1
          subst h1
          split <;> omega
        · simp at h1
      exact ⟨by
        intro y hy
        rcases List.mem_cons.1 hy with rfl | hy
        · exact hv
        · exact i1 y hy, by simp [i2]⟩

/-- **C59 (negation).** A negative multiplier, which the unclamped methods may return, makes a price negative. -/
theorem C59_counterexample_negative : applyResults id (fun _ => some (-1)) [⟨1, 10, 1⟩] = .ok [⟨1, -10, 1⟩] := by decide +kernel

example : applyResults Double.binary64 (fun _ => some (1/11)) [⟨1, 10, 1⟩, ⟨2, 100, 1⟩] = .ok [⟨1, 1, 1⟩, ⟨2, 9, 1⟩] := by decide +kernel

/-! ## C89: which orders are cleared -/

open Esl.Comm in
/-- The orders in an inbox, in order of delivery. -/
def Spec.orders (code : Nat) (inbox : Inbox) : List Msg := (inbox.map (·.2)).filter fun m => m.type == code

open Esl.Comm in
theorem collectOrders_spec (code lower : Nat) (inbox : Inbox) (acc : List (Nat × Msg)) (hacc : (acc.map (·.1)).Nodup) :
    ((collectOrders code lower inbox acc).map (·.1)).Nodup ∧
    ∀ a m, (a, m) ∈ collectOrders code lower inbox acc ↔
      (a, m) ∈ acc ∨ (a ∉ acc.map (·.1) ∧
        (((Spec.orders code inbox).takeWhile fun m => decide (lower ≤ m.sent)).find? fun m => m.sender == a) = some m) := by
  induction inbox generalizing acc with
  | nil => simp [collectOrders, Spec.orders, hacc]
  | cons e inbox ih =>
    obtain ⟨k, x⟩ := e
    rw [collectOrders]
    by_cases hc : x.type = code
    · rw [if_pos hc]
      have ho : Spec.orders code ((k, x) :: inbox) = x :: Spec.orders code inbox := by
        simp [Spec.orders, hc]
      rw [ho]
      by_cases hs : x.sent < lower
      · rw [if_pos hs]
        have : decide (lower ≤ x.sent) = false := by simpa using hs
        simp [List.takeWhile_cons, this, hacc]
      · rw [if_neg hs]
        have hd : decide (lower ≤ x.sent) = true := by simpa using hs
        rw [List.takeWhile_cons, if_pos hd]
        by_cases hany : acc.any fun e => e.1 == x.sender
        · rw [if_pos hany]
          obtain ⟨h1, h2⟩ := ih acc hacc
          refine ⟨h1, fun a m => ?_⟩
          rw [h2 a m, List.find?_cons]
          have hmem : x.sender ∈ acc.map (·.1) := by
            rw [List.any_eq_true] at hany
            obtain ⟨y, hy, hy'⟩ := hany
            exact List.mem_map.2 ⟨y, hy, by simpa using hy'⟩
          by_cases ha : x.sender = a
          · subst ha; simp only [hmem, not_true_eq_false, false_and]
          · have : (x.sender == a) = false := by simpa using ha
            rw [this]
        · rw [if_neg hany]
          have hnot : x.sender ∉ acc.map (·.1) := by
            intro hmem
            obtain ⟨y, hy, hy'⟩ := List.mem_map.1 hmem
            exact hany (List.any_eq_true.2 ⟨y, hy, by simpa using hy'⟩)
          obtain ⟨h1, h2⟩ := ih (acc ++ [(x.sender, x)]) (by
            rw [List.map_append, List.nodup_append]
            refine ⟨hacc, by simp, ?_⟩
            intro y hy z hz
            simp at hz
            subst hz
            rintro rfl
            exact hnot hy)
          refine ⟨h1, fun a m => ?_⟩
          rw [h2 a m, List.find?_cons]
          by_cases ha : x.sender = a
          · subst ha
            have : (x.sender == x.sender) = true := by simp
            rw [this]
            simp only [List.mem_append, List.mem_singleton, List.map_append, List.map_cons, List.map_nil, Prod.mk.injEq, true_and,
              or_true, not_true_eq_false, false_and, or_false, hnot, not_false_eq_true, Option.some.injEq]
            constructor
            · rintro (h | h)
              · exact .inl h
              · exact .inr h.symm
            · rintro (h | h)
              · exact .inl h
              · exact .inr h.symm
          · have : (x.sender == a) = false := by simpa using ha
            have ha' : ¬ a = x.sender := fun h => ha h.symm
            rw [this]
            simp [ha']
    · rw [if_neg hc]
      have ho : Spec.orders code ((k, x) :: inbox) = Spec.orders code inbox := by
        simp [Spec.orders, hc]
      rw [ho]
      exact ih acc hacc

open Esl.Comm in
theorem act_cases (code : Nat) (s : Setter) (step : Step) (inbox : Inbox) : ∃ os d,
    os = collectOrders code step.lower inbox [] ∧ d = step.lower + (if os = [] then 0 else 1) ∧ (act code s step inbox).orders = os ∧
    (act code s step inbox).wakeUp = (if os = [] then step.lower else step.lower + 1) ∧
    (((s.sendingQuotes = true ∧ s.nextMarketDate = 0 ∨ s.nextMarketDate < d) ∧ (act code s step inbox).quotes = s.participants.map (fun p => (p, d)) ∧
        (act code s step inbox).setter = ⟨false, d, s.participants⟩) ∨
      (¬ (s.sendingQuotes = true ∧ s.nextMarketDate = 0 ∨ s.nextMarketDate < d) ∧ (act code s step inbox).quotes = [] ∧
        (act code s step inbox).setter = ⟨false, s.nextMarketDate, s.participants⟩)) := by
  refine ⟨_, _, rfl, rfl, ?_⟩
  unfold act
  simp only
  generalize collectOrders code step.lower inbox [] = os
  generalize step.lower + (if os = [] then 0 else 1) = d
  by_cases hc : s.sendingQuotes = true ∧ s.nextMarketDate = 0 ∨ s.nextMarketDate < d
  · rw [if_pos hc]; exact ⟨rfl, rfl, .inl ⟨hc, rfl, rfl⟩⟩
  · rw [if_neg hc]; exact ⟨rfl, rfl, .inr ⟨hc, rfl, rfl⟩⟩

open Esl.Comm in
/-- **C89.** Which orders a price setter clears, exactly: at most one per participant, the participant's first among those that come before the first stale order. -/
theorem C89_cleared_orders (code : Nat) (s : Setter) (step : Step) (inbox : Inbox) :
    (((act code s step inbox).orders).map (·.1)).Nodup ∧
    ∀ a m, (a, m) ∈ (act code s step inbox).orders ↔
      (((Spec.orders code inbox).takeWhile fun m => decide (step.lower ≤ m.sent)).find? fun m => m.sender == a) = some m := by
  have h : (act code s step inbox).orders = collectOrders code step.lower inbox [] := by
    obtain ⟨os, d, h1, -, h2, -⟩ := act_cases code s step inbox
    rw [h2, h1]
  rw [h]
  obtain ⟨h1, h2⟩ := collectOrders_spec code step.lower inbox [] (by simp)
  exact ⟨h1, fun a m => by rw [h2 a m]; simp⟩

theorem takeWhile_all {α : Type} (p : α → Bool) (l : List α) (h : ∀ x ∈ l, p x = true) : l.takeWhile p = l := by
  induction l with
  | nil => rfl
  | cons x l ih => rw [List.takeWhile_cons, if_pos (h x (by simp)), ih fun y hy => h y (List.mem_cons_of_mem _ hy)]

open Esl.Comm in
/-- **C89 (partial).** If no order in the inbox is stale, every participant with an order takes part, with the first order it sent. Missing: stale orders, and
orders that are not due yet. -/
theorem C89_fresh_partial (code : Nat) (s : Setter) (step : Step) (inbox : Inbox)
    (hf : ∀ e ∈ inbox, e.2.type = code → step.lower ≤ e.2.sent) (a : Nat) (m : Msg) :
    (a, m) ∈ (act code s step inbox).orders ↔ ((Spec.orders code inbox).find? fun m => m.sender == a) = some m := by
  rw [(C89_cleared_orders code s step inbox).2 a m]
  have : (Spec.orders code inbox).takeWhile (fun m => decide (step.lower ≤ m.sent)) = Spec.orders code inbox := by
    apply takeWhile_all
    intro m hm
    unfold Spec.orders at hm
    rw [List.mem_filter, List.mem_map] at hm
    obtain ⟨⟨e, he, rfl⟩, h2⟩ := hm
    simpa using hf e he (by simpa using h2)
  rw [this]

/-- **C89 (negation).** Participant 2 sent its order one step before it was due, participant 3 sent its order now. The market is not cleared. -/
theorem C89_counterexample_stale :
    (act 9 (Setter.initial [2, 3]) ⟨5, 10⟩ [(5, ⟨9, 2, 1, 4, 5, 0⟩), (5, ⟨9, 3, 1, 5, 5, 0⟩)]).orders = [] := by decide +kernel

/-- **C89 (negation).** An order that is due at time 8 is cleared at time 5. -/
theorem C89_counterexample_early :
    (act 9 (Setter.initial [2]) ⟨5, 10⟩ [(8, ⟨9, 2, 1, 5, 8, 0⟩)]).orders = [(2, ⟨9, 2, 1, 5, 8, 0⟩)] := by decide +kernel

example : (act 9 (Setter.initial [2, 3]) ⟨5, 10⟩ [(5, ⟨9, 2, 1, 5, 5, 0⟩), (5, ⟨9, 2, 1, 5, 5, 1⟩), (5, ⟨9, 3, 1, 5, 5, 0⟩)]).orders =
    [(2, ⟨9, 2, 1, 5, 5, 0⟩), (3, ⟨9, 3, 1, 5, 5, 0⟩)] := by decide +kernel

/-! ## C88: every market date is quoted once -/

open Esl.Comm in
/-- The quotes sent in a series of activations. -/
def Spec.quotesSent (code : Nat) : Setter → List (Step × Inbox) → List (Nat × Nat)
  | _, [] => []
  | s, (step, inbox) :: h => (act code s step inbox).quotes ++ Spec.quotesSent code (act code s step inbox).setter h

open Esl.Comm in
theorem quotes_later (code : Nat) (h : List (Step × Inbox)) (s : Setter) (hs : s.sendingQuotes = false) (hp : s.participants.Nodup) (p : Nat) :
    (∀ q ∈ Spec.quotesSent code s h, s.nextMarketDate < q.2 ∧ q.1 ∈ s.participants) ∧
    ((Spec.quotesSent code s h).filter fun q => q.1 == p).Pairwise fun a b => a.2 < b.2 := by
  induction h generalizing s with
  | nil => simp [Spec.quotesSent]
  | cons e h ih =>
    obtain ⟨step, inbox⟩ := e
    rw [Spec.quotesSent]
    obtain ⟨os, d, -, -, -, -, ⟨hc, hq1, hq2⟩ | ⟨hc, hq1, hq2⟩⟩ := act_cases code s step inbox
    · rw [hq1, hq2]
      simp only [hs, Bool.false_eq_true, false_and, false_or] at hc
      obtain ⟨i1, i2⟩ := ih ⟨false, d, s.participants⟩ rfl hp
      simp only at i1
      constructor
      · intro q hq
        rcases List.mem_append.1 hq with hq | hq
        · obtain ⟨x, hx, rfl⟩ := List.mem_map.1 hq
          exact ⟨hc, hx⟩
        · obtain ⟨j1, j2⟩ := i1 q hq
          exact ⟨by omega, j2⟩
      · rw [List.filter_append, List.pairwise_append]
        refine ⟨?_, i2, ?_⟩
        · rw [List.filter_map, List.pairwise_map]
          apply List.Pairwise.imp_of_mem (R := fun a b => a ≠ b)
          · intro a b ha hb hab
            have h1 := (List.mem_filter.1 ha).2
            have h2 := (List.mem_filter.1 hb).2
            simp at h1 h2
            omega
          · exact hp.sublist List.filter_sublist
        · intro x hx y hy
          obtain ⟨z, hz, rfl⟩ := List.mem_map.1 (List.mem_filter.1 hx).1
          exact (i1 y (List.mem_filter.1 hy).1).1
    · rw [hq1, hq2, List.nil_append]
      exact ih ⟨false, s.nextMarketDate, s.participants⟩ rfl hp

open Esl.Comm in
/-- **C88.** In every history of a price setter, the delivery dates of the quotes sent to a participant are strictly increasing: no date is quoted twice. -/
theorem C88_dates_increase (code : Nat) (ps : List Nat) (hp : ps.Nodup) (h : List (Step × Inbox)) (p : Nat) :
    ((Spec.quotesSent code (Setter.initial ps) h).filter fun q => q.1 == p).Pairwise fun a b => a.2 < b.2 := by
  cases h with
  | nil => simp [Spec.quotesSent]
  | cons e h =>
    obtain ⟨step, inbox⟩ := e
    rw [Spec.quotesSent]
    obtain ⟨os, d, -, -, -, -, ⟨hc, hq1, hq2⟩ | ⟨hc, hq1, hq2⟩⟩ := act_cases code (Setter.initial ps) step inbox
    case inr => exact absurd (.inl ⟨rfl, rfl⟩) hc
    rw [hq1, hq2]
    simp only [Setter.initial]
    obtain ⟨i1, i2⟩ := quotes_later code h ⟨false, d, ps⟩ rfl hp p
    rw [List.filter_append, List.pairwise_append]
    refine ⟨?_, i2, ?_⟩
    · rw [List.filter_map, List.pairwise_map]
      apply List.Pairwise.imp_of_mem (R := fun a b => a ≠ b)
      · intro a b ha hb hab
        have h1 := (List.mem_filter.1 ha).2
        have h2 := (List.mem_filter.1 hb).2
        simp at h1 h2
        omega
      · exact hp.sublist List.filter_sublist
    · intro x hx y hy
      obtain ⟨z, hz, rfl⟩ := List.mem_map.1 (List.mem_filter.1 hx).1
      exact (i1 y (List.mem_filter.1 hy).1).1

open Esl.Comm in
/-- **C88.** Quotes go to all participants, with a delivery date that is not in the past, and after a clearing that is later than the current time. -/
theorem C88_everyone (code : Nat) (s : Setter) (step : Step) (inbox : Inbox) (h : (act code s step inbox).quotes ≠ []) :
    (act code s step inbox).quotes.map (·.1) = s.participants ∧
    ∀ q ∈ (act code s step inbox).quotes, step.lower ≤ q.2 ∧ ((act code s step inbox).orders ≠ [] → step.lower < q.2) := by
  obtain ⟨os, d, -, hd, ho, -, ⟨-, hq1, hq2⟩ | ⟨-, hq1, hq2⟩⟩ := act_cases code s step inbox
  · rw [hq1, ho]
    refine ⟨by simp [List.map_map, Function.comp_def], ?_⟩
    intro q hq
    obtain ⟨x, -, rfl⟩ := List.mem_map.1 hq
    simp only
    refine ⟨by omega, ?_⟩
    intro hne
    rw [hd, if_neg hne]
    omega
  · exact absurd hq1 h

example : Spec.quotesSent 9 (Setter.initial [2]) [(⟨0, 10⟩, []), (⟨0, 10⟩, []), (⟨0, 10⟩, [(0, ⟨9, 2, 1, 0, 0, 0⟩)]), (⟨1, 10⟩, [(1, ⟨9, 2, 1, 1, 1, 0⟩)])] =
    [(2, 0), (2, 1), (2, 2)] := by decide +kernel

/-! ## C60: a market without orders stalls the simulation -/

open Esl.Comm in
/-- With an order to clear, the price setter wakes up in the next step. -/
theorem C60_advances_partial (code : Nat) (s : Setter) (step : Step) (inbox : Inbox) (h : (act code s step inbox).orders ≠ []) :
    (act code s step inbox).wakeUp = step.lower + 1 := by
  obtain ⟨os, d, -, -, ho, hw, -⟩ := act_cases code s step inbox
  rw [ho] at h
  rw [hw, if_neg h]

open Esl.Comm in
theorem act_no_orders (code : Nat) (s : Setter) (step : Step) (inbox : Inbox) (h : ∀ e ∈ inbox, e.2.type ≠ code) :
    (act code s step inbox).wakeUp = step.lower := by
  have h1 : ∀ acc, collectOrders code step.lower inbox acc = acc := by
    induction inbox with
    | nil => intro acc; rfl
    | cons e inbox ih =>
      obtain ⟨k, m⟩ := e
      intro acc
      rw [collectOrders, if_neg (h (k, m) (by simp))]
      exact ih (fun e he => h e (List.mem_cons_of_mem _ he)) acc
  obtain ⟨os, d, h2, -, -, hw, -⟩ := act_cases code s step inbox
  rw [hw, h2, h1, if_pos rfl]

open Esl.Comm Esl.Sched in
theorem stalled_round {σ : Type} {P : Program σ} {end_ : Nat} {step : Step} {n : Nat} {w w' : World σ} (i : Nat)
    (hact : ∀ r s, (P.act i r s step).2.2 ≤ step.lower)
    (hn : (w.agents.map (·.id)).Nodup) (h : round P end_ step n w = .ok w')
    (hw : (findWake w.wake i = none ∧ i ∈ w.agents.map (·.id)) ∨ ∃ t, findWake w.wake i = some t ∧ t ≤ step.lower) :
    ∃ t, findWake w'.wake i = some t ∧ t ≤ step.lower := by
  obtain ⟨w1, s, sent, h1, h2, rfl⟩ := round_ok h
  have e1 := runJobs_ids _ _ _ _ _ _ _ h1
  obtain ⟨e0, e2, e3, _⟩ := sendMessages_inv (by rw [e1]; exact hn) h2
  have hw1 : ∃ t, findWake w1.wake i = some t ∧ t ≤ step.lower := by
    refine runJobs_induct (fun v => ∃ t, findWake v.wake i = some t ∧ t ≤ step.lower) ?_ _ _ _ (mid_start _ w hn _) h1 ?_
    · rintro a rem v v' hm hj ⟨t, hv, ht⟩
      obtain ⟨_, rfl⟩ := runJob_ok hj
      simp only
      by_cases hia : i = a.id
      · subst hia
        refine ⟨_, by rw [findWake_setWake, if_pos rfl], ?_⟩
        unfold job
        simp only
        exact le_trans (Nat.min_le_right _ _) (hact _ _)
      · exact ⟨t, by rw [findWake_setWake, if_neg hia]; exact hv, ht⟩
    · simp only
      rw [findWake_emplace]
      rcases hw with ⟨h3, h4⟩ | ⟨t, h3, h4⟩
      · rw [h3]; exact ⟨step.lower, by simp only [if_pos h4], le_refl _⟩
      · rw [h3]; exact ⟨t, rfl, h4⟩
  obtain ⟨t, hw1, ht⟩ := hw1
  obtain ⟨t', g5, g6, _⟩ := (foldl_lowerWake (w1.agents.flatMap (·.outbox)) w1.wake i).1 t hw1
  exact ⟨t', by simp only; rw [e3]; exact g5, by omega⟩

open Esl.Comm Esl.Sched in
/-- An agent that always asks to be woken up at the current time, or before, keeps the step from completing. -/
theorem stuck {σ : Type} (P : Program σ) (end_ fuel : Nat) (step : Step) (w w' : World σ) (hu : Sched.Spec.UniqueIds w) (i : Nat)
    (hi : i ∈ w.agents.map (·.id)) (hw : findWake w.wake i = none ∨ findWake w.wake i = some step.lower)
    (hact' : ∀ r s, (P.act i r s step).2.2 ≤ step.lower) : modelStep P end_ fuel step w ≠ some (.ok w') := by
  have key : ∀ fuel n w, (w.agents.map (·.id)).Nodup →
      ((findWake w.wake i = none ∧ i ∈ w.agents.map (·.id)) ∨ ∃ t, findWake w.wake i = some t ∧ t ≤ step.lower) →
      stepLoop P end_ step fuel n w ≠ some (.ok w') := by
    intro fuel
    induction fuel with
    | zero => intro n w _ _; simp [stepLoop]
    | succ fuel ih =>
      intro n w hn hw
      unfold stepLoop
      cases hr : round P end_ step n w with
      | throws => simp
      | ub => simp
      | ok w1 =>
        simp only
        obtain ⟨t, h1, h2⟩ := stalled_round i hact' hn hr hw
        have h3 := round_ids hn hr
        have h4 := determineNext_le_find end_ _ _ _ h1
        rw [← round_first hn hr] at h4
        rw [if_pos (by omega)]
        exact ih (n + 1) w1 (by rw [h3]; exact hn) (.inr ⟨t, h1, h2⟩)
  unfold modelStep
  split
  · simp
  · apply key fuel 0 w hu
    rcases hw with hw | hw
    · exact .inl ⟨hw, hi⟩
    · exact .inr ⟨_, hw, le_refl _⟩

open Esl.Comm Esl.Sched in
/-- **C60 (negation, in general).** Take any simulation with a price setter (agent `i`) whose inbox contains no orders whenever it acts, and any step at whose time the price
setter is due or has not acted yet. The step never completes, whatever the other agents do. -/
theorem C60_counterexample_stall {σ : Type} (P : Program σ) (end_ fuel : Nat) (step : Step) (w w' : World σ) (hu : Sched.Spec.UniqueIds w) (i code : Nat)
    (hi : i ∈ w.agents.map (·.id)) (hw : findWake w.wake i = none ∨ findWake w.wake i = some step.lower)
    (hact : ∀ r s, ∃ (ps : Setter) (inbox : Inbox), (∀ e ∈ inbox, e.2.type ≠ code) ∧ (P.act i r s step).2.2 = (act code ps step inbox).wakeUp) :
    modelStep P end_ fuel step w ≠ some (.ok w') := by
  refine stuck P end_ fuel step w w' hu i hi hw fun r s => ?_
  obtain ⟨ps, inbox, h1, h2⟩ := hact r s
  rw [h2, act_no_orders code ps step inbox h1]

open Esl.Comm Esl.Sched in
/-- A simulation with a price setter only. -/
def aloneProgram : Program Setter where
  handlers := fun _ _ _ => []
  act := fun _ _ s step => ((act 9 s step []).setter, [], (act 9 s step []).wakeUp)
  shuffle := fun _ _ _ l => l

open Esl.Comm Esl.Sched in
example (end_ fuel : Nat) (w' : World Setter) :
    modelStep aloneProgram end_ fuel ⟨0, 10⟩ ⟨[⟨1, Setter.initial [], [], []⟩], [], 0, []⟩ ≠ some (.ok w') :=
  C60_counterexample_stall _ _ _ _ _ _ (by simp [Sched.Spec.UniqueIds]) 1 9 (by simp) (.inl rfl)
    (fun _ s => ⟨s, [], by simp, rfl⟩)

end Esl.Walras
