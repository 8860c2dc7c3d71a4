import Verif.Model.Algorithms
import Mathlib.Tactic.Ring
import Mathlib.Tactic.Linarith
import Mathlib.Tactic.FieldSimp
import Mathlib.Algebra.Order.Field.Rat
import Mathlib.Algebra.Order.BigOperators.Group.List
import Mathlib.Data.List.Nodup
import Mathlib.Algebra.Order.Round
/-! C61, C62, C78, C79: the general algorithms. -/
namespace Esl.Algo

/-! ## C78: powers -/

/-- **C78.** `nonnegative_integer_power` of an unsigned type with `w` bits is the power modulo `2^w`; in particular it is the power if that is representable. -/
theorem C78_power (w x p : Nat) (hx : x < 2 ^ w) : power w x p = x ^ p % 2 ^ w := by
  induction p using Nat.strongRecOn with
  | ind p ih =>
    unfold power
    by_cases h0 : p = 0
    · simp [h0]
    · rw [if_neg h0]
      by_cases h1 : p = 1
      · simp [h1, Nat.mod_eq_of_lt hx]
      · rw [if_neg h1]
        simp only
        rw [ih (p / 2) (by omega)]
        by_cases h2 : p % 2 = 0
        · rw [if_pos h2, ← Nat.mul_mod, ← Nat.pow_add]
          congr 2; omega
        · rw [if_neg h2]
          have e : x ^ p = x * x ^ (p / 2) * x ^ (p / 2) := by
            rw [Nat.mul_assoc, ← Nat.pow_add, ← Nat.pow_succ']
            congr 1; omega
          rw [e, Nat.mul_mod (x * x ^ (p / 2)), Nat.mul_mod x (x ^ (p / 2) % 2 ^ w), Nat.mod_mod, ← Nat.mul_mod x, Nat.mul_mod (x * x ^ (p / 2) % 2 ^ w), Nat.mod_mod, Nat.mod_mod]

theorem C78_power_exact (w x p : Nat) (h : x ^ p < 2 ^ w) (hx : x < 2 ^ w) : power w x p = x ^ p := by
  rw [C78_power w x p hx, Nat.mod_eq_of_lt h]

example : (3 : Nat) ^ 20 < 2 ^ 32 ∧ power 32 3 20 = 3486784401 := ⟨by decide, by rw [C78_power_exact] <;> decide⟩

/-! ## C79: arrays -/

theorem copyLoop_range' {α : Type} (a : List α) (shift read : Nat) : ∀ (m s : Nat) (result : List α), shift ≤ s → read ≤ s → s + m ≤ a.length + read → s + m ≤ result.length + shift →
    copyLoop a shift read (List.range' s m) result = .ok (result.take (s - shift) ++ (a.drop (s - read)).take m ++ result.drop (s - shift + m)) := by
  intro m
  induction m with
  | zero => intro s result _ _ _ _; simp [copyLoop]
  | succ m ih =>
    intro s result h1 h2 h3 h4
    rw [List.range'_succ]
    unfold copyLoop
    have hlt : s - read < a.length := by omega
    rw [List.getElem?_eq_getElem hlt]
    simp only
    rw [if_pos (by omega), ih (s + 1) _ (by omega) (by omega) (by omega) (by rw [List.length_set]; omega)]
    congr 1
    have e1 : s + 1 - shift = s - shift + 1 := by omega
    have e2 : s + 1 - read = s - read + 1 := by omega
    have hr : s - shift < result.length := by omega
    rw [e1, e2, List.take_succ_eq_append_getElem (by rw [List.length_set]; exact hr)]
    rw [List.getElem_set_self, List.take_set_of_le (Nat.le_refl _)]
    rw [List.drop_set_of_lt (by omega)]
    rw [List.drop_eq_getElem_cons hlt, List.take_succ_cons]
    simp [Nat.add_assoc, Nat.add_comm 1 m]

/-- **C79, concatenation.** `array_concatenate` gives the elements of the first array followed by those of the second. -/
theorem C79_concatenate {α : Type} (zero : α) (a b : List α) : concatenate zero a b = .ok (a ++ b) := by
  unfold concatenate
  rw [List.range_eq_range', copyLoop_range' a 0 0 a.length 0 _ (by omega) (by omega) (by omega) (by simp), Outcome.bind_ok,
    copyLoop_range' b 0 a.length b.length a.length _ (by omega) (by omega) (by omega) (by simp)]
  simp

/-- **C79, slices.** `array_slice` gives the elements from `start_` to before `end_`. -/
theorem C79_slice {α : Type} (zero : α) (start_ end_ : Nat) (a : List α) (h1 : start_ ≤ end_) (h2 : end_ ≤ a.length) : slice zero start_ end_ a = .ok ((a.drop start_).take (end_ - start_)) := by
  unfold slice
  rw [copyLoop_range' a start_ 0 (end_ - start_) start_ _ (by omega) (by omega) (by omega) (by simp; omega)]
  simp

/-- **C79.** Cutting an array in two anywhere and concatenating the pieces gives the array back; and `to_array` agrees with `array_slice`. -/
theorem C79_cut_and_join {α : Type} (zero : α) (k : Nat) (a : List α) (h : k ≤ a.length) :
    (slice zero 0 k a >>= fun l => slice zero k a.length a >>= fun r => concatenate zero l r) = .ok a ∧
    toArray 0 k a = slice zero 0 k a ∧ toArray k a.length a = slice zero k a.length a := by
  rw [C79_slice zero 0 k a (by omega) h, C79_slice zero k a.length a h (Nat.le_refl _)]
  refine ⟨?_, ?_, ?_⟩
  · rw [Outcome.bind_ok, Outcome.bind_ok, C79_concatenate]
    congr 1
    simp only [List.drop_zero, Nat.sub_zero]
    rw [List.take_of_length_le (l := a.drop k) (by simp), List.take_append_drop]
  · unfold toArray; rw [if_neg (by omega)]
  · unfold toArray; rw [if_neg (by omega)]

example : slice '0' 1 3 ['a', 'b', 'c', 'd'] = .ok ['b', 'c'] ∧ concatenate '0' ['a'] ['b', 'c'] = .ok ['a', 'b', 'c'] := by decide

/-! ## C61: allocations -/

namespace Spec

/-- The order in which `std::sort` may leave the indices: a permutation, by decreasing remainder. -/
def SortedBy (fractions : List Rat) (indices : List Nat) : Prop :=
  indices.Perm (List.range fractions.length) ∧
  indices.Pairwise fun i j => ∀ f g, fractions[i]? = some f → fractions[j]? = some g → remainderOf g ≤ remainderOf f

/-- `n` is a nearest integer of `q`, above if there are two. -/
def Nearest (q : Rat) (n : Int) : Prop := (n : Rat) - 1 / 2 ≤ q ∧ q < (n : Rat) + 1 / 2

end Spec

/-- To the nearest integer, halves away from zero. `round` is Mathlib's: halves upwards. -/
def Spec.rounded (q : Rat) : Int := if 0 ≤ q then round q else -round (-q)

/-- The sum from the first to the last, each rounded by `fl`. -/
def Spec.total (fl : Rat → Rat) (fractions : List Rat) : Rat := fractions.foldl (fun sum f => fl (sum + f)) 0

theorem roundAway_rounded : roundAway = Spec.rounded := by
  funext q
  unfold roundAway Spec.rounded
  simp only [round_eq]

theorem roundAway_nearest (q : Rat) (h : 0 ≤ q) : Spec.Nearest q (roundAway q) := by
  unfold roundAway Spec.Nearest
  rw [if_pos h]
  have h1 := Int.floor_le (q + 1 / 2)
  have h2 := Int.lt_floor_add_one (q + 1 / 2)
  constructor <;> linarith

theorem nearest_unique (q : Rat) (m n : Int) (hm : Spec.Nearest q m) (hn : Spec.Nearest q n) : m = n := by
  obtain ⟨a, b⟩ := hm
  obtain ⟨c, d⟩ := hn
  have h1 : (m : Rat) < (n : Rat) + 1 := by linarith
  have h2 : (n : Rat) < (m : Rat) + 1 := by linarith
  have h1' : m < n + 1 := by exact_mod_cast h1
  have h2' : n < m + 1 := by exact_mod_cast h2
  omega

theorem nearbyint_cases (q : Rat) (n : Int) (h : Spec.Nearest q n) : (q ≠ n - 1 / 2 → nearbyint q = n) ∧ (q = n - 1 / 2 → remainderOf q = 1 / 2 ∨ remainderOf q = -1 / 2) := by
  obtain ⟨h1, h2⟩ := h
  have hf1 := Int.floor_le q
  have hf2 := Int.lt_floor_add_one q
  constructor
  · intro hne
    have hlt : (n : Rat) - 1 / 2 < q := lt_of_le_of_ne h1 (Ne.symm hne)
    have a1 : ((⌊q⌋ : Int) : Rat) < n + 1 := by linarith
    have a2 : (n : Rat) < ⌊q⌋ + 2 := by linarith
    have a1' : ⌊q⌋ < n + 1 := by exact_mod_cast a1
    have a2' : n < ⌊q⌋ + 2 := by exact_mod_cast a2
    unfold nearbyint
    rcases (by omega : n = ⌊q⌋ ∨ n = ⌊q⌋ + 1) with e | e
    · have e' : (n : Rat) = ⌊q⌋ := by exact_mod_cast e
      rw [if_pos (by linarith)]
      exact e.symm
    · have e' : (n : Rat) = ⌊q⌋ + 1 := by exact_mod_cast e
      rw [if_neg (by linarith), if_pos (by linarith)]
      exact e.symm
  · intro he
    have e : ⌊q⌋ = n - 1 := by
      rw [Int.floor_eq_iff]
      push_cast
      constructor <;> linarith
    have e' : ((⌊q⌋ : Int) : Rat) = n - 1 := by rw [e]; push_cast; rfl
    unfold remainderOf nearbyint
    rw [if_neg (by linarith), if_neg (by linarith)]
    split
    · left; linarith
    · right; push_cast; linarith

/-- What sorting by the remainders of `nearbyint` means for those of `round`: the first has the largest, unless it is a half. -/
theorem remainder_largest (f g : Rat) (n m : Int) (hn : Spec.Nearest f n) (hm : Spec.Nearest g m) (hne : f ≠ n - 1 / 2) (h : remainderOf g ≤ remainderOf f) : g - m ≤ f - n := by
  have e1 : remainderOf f = f - n := by unfold remainderOf; rw [(nearbyint_cases f n hn).1 hne]
  by_cases hg : g = m - 1 / 2
  · have := hn.1
    linarith
  · have e2 : remainderOf g = g - m := by unfold remainderOf; rw [(nearbyint_cases g m hm).1 hg]
    linarith

theorem roundAway_nonneg (q : Rat) (h : 0 ≤ q) : 0 ≤ roundAway q := by
  unfold roundAway
  rw [if_pos h]
  exact Int.floor_nonneg.2 (by linarith)

theorem nearSum_eq : ∀ (fs : List Rat) (near : Int), (∀ f ∈ fs, 0 ≤ f) → 0 ≤ near → near + (fs.map roundAway).sum < 2 ^ 31 →
    nearSum fs near = .ok (near + (fs.map roundAway).sum) := by
  intro fs
  induction fs with
  | nil => intro near _ _ _; simp [nearSum]
  | cons f fs ih =>
    intro near hf hn hs
    simp only [List.map_cons, List.sum_cons] at hs
    have h0 := roundAway_nonneg f (hf f (by simp))
    have hrest : 0 ≤ (fs.map roundAway).sum := by
      apply List.sum_nonneg
      intro z hz
      obtain ⟨g, hg, rfl⟩ := List.mem_map.1 hz
      exact roundAway_nonneg g (hf g (List.mem_cons_of_mem _ hg))
    unfold nearSum
    rw [if_pos (by unfold InInt; omega), ih _ (fun g hg => hf g (List.mem_cons_of_mem _ hg)) (by omega) (by omega)]
    simp only [List.map_cons, List.sum_cons]
    congr 1
    omega

theorem nearSum_ok : ∀ (fs : List Rat) (near z : Int), nearSum fs near = .ok z → z = near + (fs.map roundAway).sum := by
  intro fs
  induction fs with
  | nil => intro near z h; injection h with h; simp [h]
  | cons f fs ih =>
    intro near z h
    unfold nearSum at h
    split at h
    · rw [ih _ _ h]; simp; omega
    · cases h

theorem sum_set_add (l : List Int) (i : Nat) (v : Int) (h : l[i]? = some v) : (l.set i (v + 1)).sum = l.sum + 1 := by
  induction l generalizing i with
  | nil => simp at h
  | cons a l ih =>
    cases i with
    | zero => simp at h; subst h; simp; omega
    | succ i => simp at h; simp [ih i h]; omega

theorem le_sum (l : List Int) (h : ∀ z ∈ l, 0 ≤ z) (v : Int) (hv : v ∈ l) : v ≤ l.sum := by
  induction l with
  | nil => cases hv
  | cons a l ih =>
    have h0 : 0 ≤ l.sum := List.sum_nonneg fun z hz => h z (List.mem_cons_of_mem _ hz)
    have ha := h a (by simp)
    simp only [List.sum_cons]
    rcases List.mem_cons.1 hv with rfl | hv
    · omega
    · have := ih (fun z hz => h z (List.mem_cons_of_mem _ hz)) hv; omega

theorem bump_ok : ∀ (k : Nat) (indices : List Nat) (r : List Int), indices.Nodup → (∀ i ∈ indices, i < r.length) → k ≤ indices.length → (∀ z ∈ r, 0 ≤ z) → r.sum + k < 2 ^ 31 →
    ∃ r', bump k indices r = .ok r' ∧ r'.length = r.length ∧ r'.sum = r.sum + k ∧ ∀ (i : Nat) (v : Int), r[i]? = some v → r'[i]? = some (v + if i ∈ indices.take k then 1 else 0) := by
  intro k
  induction k with
  | zero => intro indices r _ _ _ _ _; exact ⟨r, by simp [bump], rfl, by simp, fun i v h => by simp [h]⟩
  | succ k ih =>
    intro indices r hnd hin hk hr hs
    cases indices with
    | nil => simp at hk
    | cons i indices =>
      have hi := hin i (by simp)
      have hg : r[i]? = some r[i] := List.getElem?_eq_getElem hi
      generalize r[i] = v at hg
      have hv := hr v (List.mem_of_getElem? hg)
      have hvs := le_sum r hr v (List.mem_of_getElem? hg)
      rw [List.nodup_cons] at hnd
      have hset := sum_set_add r i v hg
      obtain ⟨r', h1, h2, h3, h4⟩ := ih indices (r.set i (v + 1)) hnd.2 (fun j hj => by rw [List.length_set]; exact hin j (List.mem_cons_of_mem _ hj)) (by simpa using hk)
        (fun z hz => by
          rcases List.mem_or_eq_of_mem_set hz with h | rfl
          · exact hr z h
          · omega) (by rw [hset]; push_cast at hs ⊢; omega)
      refine ⟨r', ?_, by rw [h2, List.length_set], by rw [h3, hset]; push_cast; omega, ?_⟩
      · unfold bump
        rw [hg]
        simp only
        rw [if_pos (by unfold InInt; push_cast at hs; omega)]
        exact h1
      · intro j w hj
        by_cases hji : j = i
        · subst hji
          rw [hg] at hj; injection hj with hj; subst hj
          have := h4 j (v + 1) (by rw [List.getElem?_set_self hi])
          rw [this, if_neg (fun hm => hnd.1 (List.mem_of_mem_take hm)), if_pos (by simp)]
          simp
        · have := h4 j w (by rw [List.getElem?_set_ne (Ne.symm hji)]; exact hj)
          rw [this]
          simp [hji]

theorem sum_rounding : ∀ fs : List Rat, (∀ f ∈ fs, 0 ≤ f) → fs.sum ≤ (((fs.map roundAway).sum : Int) : Rat) + fs.length / 2 := by
  intro fs
  induction fs with
  | nil => intro _; simp
  | cons f fs ih =>
    intro hf
    have h1 := (roundAway_nearest f (hf f (by simp))).2
    have h2 := ih fun g hg => hf g (List.mem_cons_of_mem _ hg)
    simp only [List.map_cons, List.sum_cons, List.length_cons]
    push_cast
    linarith

theorem sumOf_id (fractions : List Rat) : sumOf id fractions = fractions.sum := by
  have : ∀ (l : List Rat) (a : Rat), l.foldl (fun sum f => id (sum + f)) a = a + l.sum := by
    intro l
    induction l with
    | nil => intro a; simp
    | cons x l ih => intro a; rw [List.foldl_cons, ih, List.sum_cons]; simp only [id]; ring
  have := this fractions 0
  rw [zero_add] at this
  exact this

/-- Whatever the computed sum is: if it is not negative, and its rounded value exceeds the sum of the rounded values by no more than their number. -/
theorem allocate_ok (fl : Rat → Rat) (fractions : List Rat) (indices : List Nat) (hsort : Spec.SortedBy fractions indices) (hf : ∀ f ∈ fractions, 0 ≤ f) (hsum0 : 0 ≤ sumOf fl fractions)
    (hle : (fractions.map roundAway).sum ≤ roundAway (sumOf fl fractions)) (hint : roundAway (sumOf fl fractions) < 2 ^ 31) (hk0 : roundAway (sumOf fl fractions) - (fractions.map roundAway).sum ≤ fractions.length) :
    ∃ r, allocate fl indices fractions = .ok r ∧ r.length = fractions.length ∧ (∀ z ∈ r, 0 ≤ z) ∧ Spec.Nearest (sumOf fl fractions) r.sum ∧
      (∀ (i : Nat) (f : Rat), fractions[i]? = some f → ∃ n, Spec.Nearest f n ∧ (r[i]? = some n ∨ r[i]? = some (n + 1))) ∧
      (∀ (i j : Nat) (f g : Rat) (n : Int), fractions[i]? = some f → fractions[j]? = some g → Spec.Nearest f n → f ≠ n - 1 / 2 → r[i]? = some (n + 1) →
        ∀ m, Spec.Nearest g m → r[j]? = some m → g - m ≤ f - n) := by
  have habs : (fractions.map fun f => roundAway |f|) = fractions.map roundAway := by
    apply List.map_congr_left
    intro f h
    rw [abs_of_nonneg (hf f h)]
  have htn := roundAway_nearest (sumOf fl fractions) hsum0
  have ht0 := roundAway_nonneg (sumOf fl fractions) hsum0
  have hr0 : ∀ z ∈ fractions.map roundAway, 0 ≤ z := by
    intro z hz
    obtain ⟨g, hg, rfl⟩ := List.mem_map.1 hz
    exact roundAway_nonneg g (hf g hg)
  have hs0 : 0 ≤ (fractions.map roundAway).sum := List.sum_nonneg hr0
  have hnear : nearSum fractions 0 = .ok (fractions.map roundAway).sum := by
    rw [nearSum_eq fractions 0 hf (by omega) (by omega)]; simp
  have hidx : ∀ (i : Nat) (f : Rat), fractions[i]? = some f → (fractions.map roundAway)[i]? = some (roundAway f) := by
    intro i f h; rw [List.getElem?_map, h]; rfl
  unfold allocate
  rw [hnear, Outcome.bind_ok, habs]
  simp only
  rw [if_neg (by unfold InInt; omega)]
  by_cases heq : (fractions.map roundAway).sum = roundAway (sumOf fl fractions)
  · rw [if_pos heq]
    refine ⟨_, rfl, by simp, hr0, heq ▸ htn, ?_, ?_⟩
    · intro i f h
      exact ⟨roundAway f, roundAway_nearest f (hf f (List.mem_of_getElem? h)), .inl (hidx i f h)⟩
    · intro i j f g n hi _ hn _ hri _ _ _
      rw [hidx i f hi] at hri
      injection hri with hri
      have := nearest_unique f _ _ hn (roundAway_nearest f (hf f (List.mem_of_getElem? hi)))
      omega
  · rw [if_neg heq, if_neg (by unfold InInt; omega)]
    have hk : ((roundAway (sumOf fl fractions) - (fractions.map roundAway).sum) % 2 ^ 64).toNat = (roundAway (sumOf fl fractions) - (fractions.map roundAway).sum).toNat := by
      rw [Int.emod_eq_of_lt (by omega) (by omega)]
    rw [hk]
    generalize hkk : (roundAway (sumOf fl fractions) - (fractions.map roundAway).sum).toNat = k
    have hlen : indices.length = fractions.length := by rw [hsort.1.length_eq, List.length_range]
    have hkn : k ≤ indices.length := by
      rw [hlen]
      omega
    obtain ⟨r', h1, h2, h3, h4⟩ := bump_ok k indices (fractions.map roundAway) (hsort.1.nodup_iff.2 List.nodup_range)
      (fun i hi => by simpa using List.mem_range.1 ((hsort.1.mem_iff).1 hi)) hkn hr0 (by omega)
    have hr' : r'.sum = roundAway (sumOf fl fractions) := by omega
    refine ⟨r', h1, by simpa using h2, ?_, hr' ▸ htn, ?_, ?_⟩
    · intro z hz
      obtain ⟨i, hi⟩ := List.getElem?_of_mem hz
      have hlt : i < (fractions.map roundAway).length := by
        rw [← h2]
        rcases Nat.lt_or_ge i r'.length with h | h
        · exact h
        · rw [List.getElem?_eq_none h] at hi; cases hi
      have hg := List.getElem?_eq_getElem hlt
      have := h4 i _ hg
      rw [hi] at this
      injection this with this
      have := hr0 _ (List.mem_of_getElem? hg)
      split at * <;> omega
    · intro i f h
      refine ⟨roundAway f, roundAway_nearest f (hf f (List.mem_of_getElem? h)), ?_⟩
      have := h4 i _ (hidx i f h)
      rw [this]
      split
      · exact .inr rfl
      · exact .inl (by simp)
    · intro i j f g n hi hj hn hne hri m hm hrj
      have e1 := h4 i _ (hidx i f hi)
      have e2 := h4 j _ (hidx j g hj)
      rw [hri] at e1; injection e1 with e1
      rw [hrj] at e2; injection e2 with e2
      have n1 := nearest_unique f _ _ hn (roundAway_nearest f (hf f (List.mem_of_getElem? hi)))
      have n2 := nearest_unique g _ _ hm (roundAway_nearest g (hf g (List.mem_of_getElem? hj)))
      have hmi : i ∈ indices.take k := by
        by_contra hc
        rw [if_neg hc] at e1; omega
      have hmj : j ∉ indices.take k := by
        intro hc
        rw [if_pos hc] at e2; omega
      have hjd : j ∈ indices.drop k := by
        have hjm : j ∈ indices := (hsort.1.mem_iff).2 (List.mem_range.2 (by
          rcases Nat.lt_or_ge j fractions.length with h | h
          · exact h
          · rw [List.getElem?_eq_none h] at hj; cases hj))
        rw [← List.take_append_drop k indices] at hjm
        rcases List.mem_append.1 hjm with h | h
        · exact absurd h hmj
        · exact h
      have hp := hsort.2
      rw [← List.take_append_drop k indices] at hp
      exact remainder_largest f g n m hn hm hne ((List.pairwise_append.1 hp).2.2 i hmi j hjd f g hi hj)

/-- **C61 (partial).** For nonnegative fractions whose rounded values sum to no more than the rounded total (and totals that fit an `int`), the result has one nonnegative integer per fraction, each the
rounded fraction or one more, and they sum to the rounded total; the additional ones go to the fractions with the largest remainders, unless to those that end in a half. Missing: the case that the rounded values sum to more, and the largest
remainders for halves: see the counterexamples. -/
theorem C61_allocate_partial (fractions : List Rat) (indices : List Nat) (hsort : Spec.SortedBy fractions indices) (hf : ∀ f ∈ fractions, 0 ≤ f)
    (hle : (fractions.map Spec.rounded).sum ≤ Spec.rounded fractions.sum) (hint : Spec.rounded fractions.sum < 2 ^ 31) :
    ∃ r, allocate id indices fractions = .ok r ∧ r.length = fractions.length ∧ (∀ z ∈ r, 0 ≤ z) ∧ Spec.Nearest fractions.sum r.sum ∧
      (∀ (i : Nat) (f : Rat), fractions[i]? = some f → ∃ n, Spec.Nearest f n ∧ (r[i]? = some n ∨ r[i]? = some (n + 1))) ∧
      (∀ (i j : Nat) (f g : Rat) (n : Int), fractions[i]? = some f → fractions[j]? = some g → Spec.Nearest f n → f ≠ n - 1 / 2 → r[i]? = some (n + 1) →
        ∀ m, Spec.Nearest g m → r[j]? = some m → g - m ≤ f - n) := by
  rw [← roundAway_rounded] at hle hint
  have hS : sumOf id fractions = fractions.sum := sumOf_id fractions
  have hsum0 : 0 ≤ fractions.sum := List.sum_nonneg hf
  have htn := roundAway_nearest fractions.sum hsum0
  have hk : roundAway fractions.sum - (fractions.map roundAway).sum ≤ fractions.length := by
    have h1 := sum_rounding fractions hf
    have h2 : ((roundAway fractions.sum : Int) : Rat) - (((fractions.map roundAway).sum : Int) : Rat) ≤ (fractions.length + 1) / 2 := by have := htn.1; linarith
    have h4 : 2 * (((roundAway fractions.sum : Int) : Rat) - (((fractions.map roundAway).sum : Int) : Rat)) ≤ fractions.length + 1 := by linarith
    have h5 : 2 * (roundAway fractions.sum - (fractions.map roundAway).sum) ≤ fractions.length + 1 := by exact_mod_cast h4
    rcases Nat.eq_zero_or_pos fractions.length with h0 | h0
    · have : fractions = [] := List.length_eq_zero_iff.1 h0
      subst this
      simp [roundAway]
      norm_num
    · omega
  have := allocate_ok id fractions indices hsort hf (by rw [hS]; exact hsum0) (by rw [hS]; exact hle) (by rw [hS]; exact hint) (by rw [hS]; exact hk)
  rw [hS] at this
  exact this

/-- **C61 (negation, halves).** The additional ones need not go to the largest remainders: of one half and three times 0.4 the first is rounded up to 1, and yet gets the additional one, because the fractions are sorted by remainders with halves
rounded to even numbers. -/
theorem C61_counterexample_half : Spec.SortedBy [1 / 2, 2 / 5, 2 / 5, 2 / 5] [0, 1, 2, 3] ∧ allocate id [0, 1, 2, 3] [1 / 2, 2 / 5, 2 / 5, 2 / 5] = .ok [2, 0, 0, 0] ∧
    Spec.Nearest (1 / 2) 1 ∧ Spec.Nearest (2 / 5) 0 ∧ (1 / 2 - (1 : Int) : Rat) < 2 / 5 - (0 : Int) := by
  refine ⟨⟨List.Perm.refl _, ?_⟩, by decide +kernel, by unfold Spec.Nearest; decide +kernel, by unfold Spec.Nearest; decide +kernel, by decide +kernel⟩
  have e1 : remainderOf (1 / 2) = 1 / 2 := by decide +kernel
  have e2 : remainderOf (2 / 5) = 2 / 5 := by decide +kernel
  simp only [List.pairwise_cons, List.mem_cons, List.not_mem_nil, or_false]
  refine ⟨?_, ?_, ?_, by simp, List.Pairwise.nil⟩
  · rintro j (rfl | rfl | rfl) f g hf hg <;> simp at hf hg <;> subst hf <;> subst hg <;> norm_num at e1 e2 ⊢ <;> rw [e1, e2] <;> norm_num
  · rintro j (rfl | rfl) f g hf hg <;> simp at hf hg <;> subst hf <;> subst hg <;> exact le_refl _
  · rintro j rfl f g hf hg
    simp at hf hg
    subst hf; subst hg; exact le_refl _

/-- Non-vacuity: three fractions of one third times four. -/
example : Spec.SortedBy [4 / 3, 4 / 3, 4 / 3] [0, 1, 2] ∧ (([4 / 3, 4 / 3, 4 / 3] : List Rat).map Spec.rounded).sum ≤ Spec.rounded ([4 / 3, 4 / 3, 4 / 3] : List Rat).sum ∧
    allocate id [0, 1, 2] [4 / 3, 4 / 3, 4 / 3] = .ok [2, 1, 1] := by
  refine ⟨⟨List.Perm.refl _, ?_⟩, by decide +kernel, by decide +kernel⟩
  simp [List.pairwise_cons]

theorem bump_long : ∀ (indices : List Nat) (k : Nat) (r : List Int), indices.length < k → bump k indices r = .ub := by
  intro indices
  induction indices with
  | nil => intro k r h; cases k with | zero => simp at h | succ k => rfl
  | cons i indices ih =>
    intro k r h
    cases k with
    | zero => simp at h
    | succ k =>
      unfold bump
      split
      · rfl
      · split
        · exact ih k _ (by simpa using h)
        · rfl

/-- **C61, negation.** Whenever the rounded values sum to more than the rounded total, the loop runs far behind the end of the indices: the number of iterations is a negative number made unsigned. With any rounding of the sum. -/
theorem C61_counterexample_too_much (fl : Rat → Rat) (fractions : List Rat) (indices : List Nat) (hsort : Spec.SortedBy fractions indices) (hlen : fractions.length < 2 ^ 63)
    (h : Spec.rounded (Spec.total fl fractions) < (fractions.map Spec.rounded).sum) : allocate fl indices fractions = .ub := by
  rw [← roundAway_rounded, show Spec.total fl fractions = sumOf fl fractions from rfl] at h
  unfold allocate
  cases hn : nearSum fractions 0 with
  | throws =>
    exfalso
    have : ∀ (fs : List Rat) (z : Int), nearSum fs z ≠ .throws := by
      intro fs
      induction fs with
      | nil => intro z h; cases h
      | cons f fs ih =>
        intro z h
        unfold nearSum at h
        split at h
        · exact ih _ h
        · cases h
    exact this _ _ hn
  | ub => rfl
  | ok near =>
    have hz := nearSum_ok _ _ _ hn
    rw [Int.zero_add] at hz
    rw [Outcome.bind_ok]
    simp only
    split
    · rfl
    · rw [if_neg (by omega)]
      split
      · rfl
      · rename_i hi
        unfold InInt at hi
        apply bump_long
        rw [hsort.1.length_eq, List.length_range]
        have : (roundAway (sumOf fl fractions) - near) % 2 ^ 64 = roundAway (sumOf fl fractions) - near + 2 ^ 64 := by
          omega
        rw [this]
        omega

/-- Two halves: both are rounded up, to a sum of two, but the total is one. -/
theorem C61_counterexample_two_halves : ∃ indices, Spec.SortedBy [1 / 2, 1 / 2] indices ∧ allocate id indices [1 / 2, 1 / 2] = .ub := by
  have hs : Spec.SortedBy [1 / 2, 1 / 2] [0, 1] := ⟨List.Perm.refl _, by simp [List.pairwise_cons]⟩
  exact ⟨[0, 1], hs, C61_counterexample_too_much id _ _ hs (by decide) (by decide +kernel)⟩

/-- **C61, negation for large numbers.** A number that rounds to more than the largest `int`, or less than the smallest, cannot be allocated: the conversion is undefined. -/
theorem C61_counterexample_range (fl : Rat → Rat) (indices : List Nat) (f : Rat) (fs : List Rat) (h : Spec.rounded f < -2 ^ 31 ∨ 2 ^ 31 ≤ Spec.rounded f) : allocate fl indices (f :: fs) = .ub := by
  rw [← roundAway_rounded] at h
  unfold allocate nearSum
  rw [if_neg (by unfold InInt; omega)]
  rfl

example : Spec.rounded (2 ^ 31 - 1 / 2) = 2 ^ 31 := by decide +kernel

/-- **C61, negation for negative numbers.** A negative whole number is allocated with the wrong sign, although it needs no rounding. -/
theorem C61_counterexample_negative (indices : List Nat) (z : Int) (h : z < 0) (hz : -2 ^ 31 ≤ z) : allocate id indices [(z : Rat)] = .ok [-z] := by
  have e : roundAway (z : Rat) = z := by
    unfold roundAway
    rw [if_neg (by push_cast; exact_mod_cast not_le.2 h)]
    have : ⌊-(z : Rat) + 1 / 2⌋ = -z := by
      rw [Int.floor_eq_iff]
      push_cast
      constructor <;> linarith
    omega
  have e' : roundAway |(z : Rat)| = -z := by
    have hz : |(z : Rat)| = ((-z : Int) : Rat) := by rw [abs_of_neg (by exact_mod_cast h)]; push_cast; rfl
    rw [hz]
    unfold roundAway
    rw [if_pos (by exact_mod_cast (by omega : (0 : Int) ≤ -z)), Int.floor_eq_iff]
    push_cast
    constructor <;> linarith
  have es : sumOf id [(z : Rat)] = z := by simp [sumOf]
  unfold allocate nearSum nearSum
  rw [e, if_pos (by unfold InInt; omega)]
  show (if ¬InInt (roundAway (sumOf id [(z : Rat)])) then Outcome.ub else _) = _
  rw [es, e, if_neg (by unfold InInt; omega), if_pos (by omega)]
  simp [e']

/-! ## C62: barycentric coordinates -/

theorem takeWhile_le (divisions : Nat) (hd : 0 < divisions) (r : Rat) (n : Nat) :
    n ∈ ((List.range divisions).takeWhile fun n : Nat => decide ((n : Rat) / divisions ≤ r)) ↔ n < divisions ∧ (n : Rat) / divisions ≤ r := by
  have hdq : (0 : Rat) < divisions := by exact_mod_cast hd
  have key : ∀ (m s : Nat), n ∈ ((List.range' s m).takeWhile fun n : Nat => decide ((n : Rat) / divisions ≤ r)) ↔ s ≤ n ∧ n < s + m ∧ (n : Rat) / divisions ≤ r := by
    intro m
    induction m with
    | zero => intro s; simp; intro h1 h2; omega
    | succ m ih =>
      intro s
      rw [List.range'_succ, List.takeWhile_cons]
      by_cases hs : (s : Rat) / divisions ≤ r
      · simp only [hs, decide_true, if_true, List.mem_cons, ih]
        constructor
        · rintro (rfl | ⟨h1, h2, h3⟩)
          · exact ⟨Nat.le_refl _, by omega, hs⟩
          · exact ⟨by omega, by omega, h3⟩
        · rintro ⟨h1, h2, h3⟩
          by_cases hns : n = s
          · exact .inl hns
          · exact .inr ⟨by omega, by omega, h3⟩
      · simp only [hs, decide_false, Bool.false_eq_true, if_false]
        constructor
        · intro h; cases h
        · rintro ⟨h1, _, h3⟩
          exfalso
          apply hs
          have h4 : (s : Rat) ≤ n := by exact_mod_cast h1
          have : (s : Rat) / divisions ≤ (n : Rat) / divisions := by
            rw [div_le_div_iff_of_pos_right hdq]; exact h4
          linarith
  rw [List.range_eq_range', key divisions 0]
  simp

/-- **C62, exactly which points.** With `d + 1` dimensions, the samples are the vectors `x, k₁/m, ..., k_d/m` with `k_i < m` (where `m` is the number of divisions), nonnegative `x`, and sum equal to the given total. -/
theorem C62_points (divisions : Nat) (hd : 0 < divisions) (d : Nat) (total : Rat) (h0 : 0 ≤ total) (v : List Rat) :
    v ∈ barycentric id divisions d total ↔
      ∃ (x : Rat) (ks : List Nat), v = x :: ks.map (fun k : Nat => (k : Rat) / divisions) ∧ ks.length = d ∧ (∀ k ∈ ks, k < divisions) ∧ 0 ≤ x ∧ v.sum = total := by
  have hdq : (0 : Rat) < divisions := by exact_mod_cast hd
  induction d generalizing total v with
  | zero =>
    simp only [barycentric, id, List.mem_singleton]
    constructor
    · rintro rfl; exact ⟨total, [], rfl, rfl, by simp, h0, by simp⟩
    · rintro ⟨x, ks, rfl, hk, _, _, hs⟩
      have : ks = [] := List.length_eq_zero_iff.1 hk
      subst this
      simp at hs; simp [hs]
  | succ d ih =>
    simp only [barycentric, id, List.mem_flatMap, List.mem_map]
    constructor
    · rintro ⟨n, hn, t, ht, rfl⟩
      rw [takeWhile_le divisions hd] at hn
      obtain ⟨x, ks, rfl, h1, h2, h3, h4⟩ := (ih (total - (n : Rat) / divisions) (by linarith [hn.2]) t).1 ht
      refine ⟨x, ks ++ [n], by simp, by simp [h1], ?_, h3, ?_⟩
      · intro k hk
        rcases List.mem_append.1 hk with h | h
        · exact h2 k h
        · rw [List.mem_singleton.1 h]; exact hn.1
      · rw [List.sum_append, h4]; simp
    · rintro ⟨x, ks, rfl, h1, h2, h3, h4⟩
      rcases List.eq_nil_or_concat ks with rfl | ⟨ks', n, rfl⟩
      · simp at h1
      · have hsum : x + (ks'.map fun k : Nat => (k : Rat) / divisions).sum + (n : Rat) / divisions = total := by
          rw [← h4]; simp [add_assoc]
        have hks : 0 ≤ (ks'.map fun k : Nat => (k : Rat) / divisions).sum := by
          apply List.sum_nonneg
          intro q hq
          obtain ⟨k, _, rfl⟩ := List.mem_map.1 hq
          positivity
        refine ⟨n, (takeWhile_le divisions hd _ n).2 ⟨h2 n (by simp), by linarith⟩, x :: ks'.map (fun k : Nat => (k : Rat) / divisions), ?_, by simp⟩
        refine (ih _ (by linarith) _).2 ⟨x, ks', rfl, by simpa using h1, fun k hk => h2 k (by simp [hk]), h3, ?_⟩
        simp only [List.sum_cons]
        linarith

/-- **C62.** For at least one dimension and one division and a nonnegative total, each sample has the requested dimension, nonnegative coordinates and the given sum, and no sample occurs twice. -/
theorem C62_simplex (dimensions divisions : Nat) (hdim : 0 < dimensions) (hd : 0 < divisions) (total : Rat) (h0 : 0 ≤ total) :
    ∃ samples, sampleBarycentric id dimensions divisions total = .ok samples ∧ samples.Nodup ∧ ∀ v ∈ samples, v.length = dimensions ∧ (∀ x ∈ v, 0 ≤ x) ∧ v.sum = total := by
  have hdq : (0 : Rat) < divisions := by exact_mod_cast hd
  obtain ⟨d, rfl⟩ : ∃ d, dimensions = d + 1 := ⟨dimensions - 1, by omega⟩
  refine ⟨_, rfl, ?_, ?_⟩
  · clear hdim h0
    induction d generalizing total with
    | zero => simp [barycentric]
    | succ d ih =>
      simp only [barycentric, id]
      rw [List.nodup_flatMap]
      constructor
      · intro n hn
        exact (ih _).map fun a b h => List.append_cancel_right h
      · have hnd : ((List.range divisions).takeWhile fun n : Nat => decide ((n : Rat) / divisions ≤ total)).Nodup :=
          List.nodup_range.sublist (List.takeWhile_sublist _)
        refine hnd.imp fun {a b} hab => ?_
        intro v hv hv'
        obtain ⟨t, _, rfl⟩ := List.mem_map.1 hv
        obtain ⟨t', _, ht'⟩ := List.mem_map.1 hv'
        have := (List.append_inj' ht' rfl).2
        injection this with this
        have h2 : (b : Rat) = a := by
          have := congrArg (fun q : Rat => q * divisions) this
          simp only [div_mul_cancel₀ _ (ne_of_gt hdq)] at this
          exact this
        exact hab (by exact_mod_cast h2.symm)
  · intro v hv
    obtain ⟨x, ks, rfl, h1, h2, h3, h4⟩ := (C62_points divisions hd d total h0 v).1 hv
    refine ⟨by simp [h1], ?_, h4⟩
    intro y hy
    rcases List.mem_cons.1 hy with rfl | hy
    · exact h3
    · obtain ⟨k, _, rfl⟩ := List.mem_map.1 hy
      positivity

/-- Non-vacuity: three dimensions, two divisions. -/
example : sampleBarycentric id 3 2 1 = .ok [[1, 0, 0], [1 / 2, 1 / 2, 0], [1 / 2, 0, 1 / 2], [0, 1 / 2, 1 / 2]] := by decide +kernel

/-- The corners other than the first are never sampled: a coordinate that is not the first is less than one. -/
theorem C62_corners_missing (divisions : Nat) (hd : 0 < divisions) (d : Nat) (v : List Rat) (hv : v ∈ barycentric id divisions d 1) : ∀ x ∈ v.tail, x < 1 := by
  have hdq : (0 : Rat) < divisions := by exact_mod_cast hd
  obtain ⟨x, ks, rfl, _, h2, _, _⟩ := (C62_points divisions hd d 1 (by norm_num) v).1 hv
  intro y hy
  obtain ⟨k, hk, rfl⟩ := List.mem_map.1 hy
  rw [div_lt_one hdq]
  exact_mod_cast h2 k hk

end Esl.Algo
