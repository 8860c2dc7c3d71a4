import Verif.Model.Walras
import Mathlib.Data.Rat.Floor
import Mathlib.Data.Int.ModEq
import Mathlib.Data.List.Forall2
import Mathlib.Data.List.Perm.Basic
import Mathlib.Algebra.BigOperators.Group.List.Basic
import Mathlib.Algebra.Order.BigOperators.Group.List
import Mathlib.Tactic.Linarith
import Mathlib.Tactic.Ring
/-! Auxiliary lemmas for `Props/Walras.lean`. -/
namespace Esl.Walras

theorem trunc_nonneg (q : Rat) (h : 0 ≤ q) : Double.trunc q = ⌊q⌋ := by
  unfold Double.trunc
  rw [Rat.floor_def']
  exact Int.tdiv_eq_ediv_of_nonneg (Rat.num_nonneg.2 h)

theorem trunc_neg (q : Rat) (h : q < 0) : Double.trunc q = ⌈q⌉ := by
  have h1 : (0 : Rat) ≤ -q := by linarith
  have h2 := trunc_nonneg (-q) h1
  have h3 : Double.trunc (-q) = - Double.trunc q := by
    unfold Double.trunc
    rw [Rat.neg_num, Rat.neg_den, Int.neg_tdiv]
  rw [h3, Int.floor_neg] at h2
  omega

theorem allocate_ok (l : List (Nat × Rat)) (err : Int) (r : List (Nat × Int) × Int) (h : allocate l err = .ok r) :
    r.1 = l.map (fun e => (e.1, Double.trunc e.2)) ∧ r.2 = err + (l.map fun e => Double.trunc e.2).sum := by
  induction l generalizing err r with
  | nil =>
    simp only [allocate, Outcome.ok.injEq] at h
    subst h; simp
  | cons e l ih =>
    obtain ⟨p, u⟩ := e
    simp only [allocate] at h
    split at h
    · rw [Outcome.bind_eq_ok] at h
      obtain ⟨r', h1, h2⟩ := h
      obtain ⟨h3, h4⟩ := ih _ _ h1
      simp only [Outcome.ok.injEq] at h2
      subst h2
      simp [h3, h4, add_assoc]
    · simp at h

theorem allocate_defined (l : List (Nat × Rat)) (err : Int)
    (h : |err| + (l.map fun e => |Double.trunc e.2|).sum < 2 ^ 63) : ∃ r, allocate l err = .ok r := by
  induction l generalizing err with
  | nil => exact ⟨_, rfl⟩
  | cons e l ih =>
    obtain ⟨p, u⟩ := e
    simp only [List.map_cons, List.sum_cons] at h
    have h0 : 0 ≤ (l.map fun e : Nat × Rat => |Double.trunc e.2|).sum := by
      apply List.sum_nonneg
      intro x hx
      obtain ⟨e, -, rfl⟩ := List.mem_map.1 hx
      exact abs_nonneg _
    have h1 := abs_add_le err (Double.trunc u)
    have hp := abs_lt.1 (show |err + Double.trunc u| < 2 ^ 63 by linarith)
    have hq := abs_lt.1 (show |Double.trunc u| < 2 ^ 63 by linarith [abs_nonneg err])
    have hc : -(2 ^ 63) ≤ Double.trunc u ∧ Double.trunc u < 2 ^ 63 ∧ -(2 ^ 63) ≤ err + Double.trunc u ∧
        err + Double.trunc u < 2 ^ 63 := ⟨hq.1.le, hq.2, hp.1.le, hp.2⟩
    obtain ⟨r, hr⟩ := ih (err + Double.trunc u) (by linarith)
    exact ⟨((p, Double.trunc u) :: r.1, r.2), by simp only [allocate]; rw [if_pos hc, hr]; rfl⟩

/-- How often index `i` of `n` comes up in `k` turns. -/
def turns (n i : Nat) : Nat → Nat
  | 0 => 0
  | k + 1 => turns n i k + if k % n = i then 1 else 0

theorem turns_eq (n i k : Nat) (h : i < n) : turns n i k = (k + n - 1 - i) / n := by
  induction k with
  | zero => simp only [turns]; rw [Nat.div_eq_of_lt]; omega
  | succ k ih =>
    have e : k + 1 + n - 1 - i = (k + n - 1 - i) + 1 := by omega
    have h2 : n ∣ (k + n - 1 - i) + 1 ↔ k % n = i := by
      rw [show (k + n - 1 - i) + 1 = k + n - i by omega]
      constructor
      · intro hd
        have h3 : (k + n) % n = i % n := ((Nat.modEq_iff_dvd' (by omega)).2 hd).symm
        rw [Nat.add_mod_right, Nat.mod_eq_of_lt h] at h3
        exact h3
      · intro hk
        apply (Nat.modEq_iff_dvd' (by omega)).1
        show i % n = (k + n) % n
        rw [Nat.add_mod_right, Nat.mod_eq_of_lt h, hk]
    rw [turns, ih, e, Nat.succ_div]
    simp only [h2]

theorem turns_le (n i k : Nat) (h : i < n) : turns n i k ≤ (k + n - 1) / n := by
  rw [turns_eq n i k h]
  exact Nat.div_le_div_right (by omega)

theorem spread_length (d : Int) (l : List (Nat × Int)) (k : Nat) : (spread d l k).length = l.length := by
  induction k with
  | zero => rfl
  | succ k ih => rw [spread, List.length_modify, ih]

theorem spread_get (d : Int) (l : List (Nat × Int)) (k i : Nat) :
    (spread d l k)[i]? = (l[i]?).map fun e => (e.1, e.2 + d * turns l.length i k) := by
  induction k with
  | zero => simp [spread, turns]
  | succ k ih =>
    rw [spread, List.getElem?_modify, ih]
    simp only [turns]
    split
    · rename_i h
      cases l[i]? <;> simp [mul_add, add_assoc]
    · cases l[i]? <;> simp

theorem sum_modify (d : Int) (l : List (Nat × Int)) (i : Nat) (h : i < l.length) :
    ((l.modify i fun e => (e.1, e.2 + d)).map (·.2)).sum = (l.map (·.2)).sum + d := by
  induction l generalizing i with
  | nil => simp at h
  | cons a l ih =>
    cases i with
    | zero => simp [List.modify_zero_cons]; ring
    | succ i =>
      rw [List.modify_succ_cons]
      simp only [List.map_cons, List.sum_cons]
      rw [ih i (by simpa using h)]
      ring

theorem spread_sum (d : Int) (l : List (Nat × Int)) (k : Nat) (h : l ≠ []) :
    ((spread d l k).map (·.2)).sum = (l.map (·.2)).sum + d * k := by
  induction k with
  | zero => simp [spread]
  | succ k ih =>
    have hl : 0 < l.length := List.length_pos_iff.2 h
    rw [spread, sum_modify, ih]
    · push_cast; ring
    · rw [spread_length]; exact Nat.mod_lt _ hl

theorem forall₂_of_get {α β : Type} (R : α → β → Prop) (l : List α) (r : List β) (hlen : l.length = r.length)
    (h : ∀ (i : Nat) (a : α) (b : β), l[i]? = some a → r[i]? = some b → R a b) : List.Forall₂ R l r := by
  induction l generalizing r with
  | nil => cases r with
    | nil => exact .nil
    | cons => simp at hlen
  | cons a l ih =>
    cases r with
    | nil => simp at hlen
    | cons b r =>
      refine .cons (h 0 a b rfl rfl) (ih r (by simpa using hlen) fun i a b h1 h2 => h (i + 1) a b (by simpa using h1) (by simpa using h2))

/-- The entries after correcting: the same participants in the same order, each amount moved by `d` times a number of turns. -/
theorem spread_forall₂ (d : Int) (l : List (Nat × Int)) (k : Nat) :
    List.Forall₂ (fun e x => x.1 = e.1 ∧ ∃ m : Nat, m ≤ (k + l.length - 1) / l.length ∧ x.2 - e.2 = d * m) l (spread d l k) := by
  apply forall₂_of_get
  · exact (spread_length d l k).symm
  · intro i a b h1 h2
    rw [spread_get, h1] at h2
    simp only [Option.map_some, Option.some.injEq] at h2
    subst h2
    refine ⟨rfl, turns l.length i k, turns_le _ _ _ ?_, by ring⟩
    exact (List.getElem?_eq_some_iff.1 h1).1

theorem forall₂_sum_dev (d : Int) (hd : d = 1 ∨ d = -1) (l r : List (Nat × Int)) (t : Nat)
    (h : List.Forall₂ (fun e x => x.1 = e.1 ∧ ∃ m : Nat, m ≤ t ∧ x.2 - e.2 = d * m) l r) :
    (List.zipWith (fun e x => |x.2 - e.2|) l r).sum = d * ((r.map (·.2)).sum - (l.map (·.2)).sum) := by
  induction h with
  | nil => simp
  | cons hx _ ih =>
    obtain ⟨-, m, -, hm⟩ := hx
    simp only [List.zipWith_cons_cons, List.sum_cons, List.map_cons, ih, hm]
    have hm' : (0 : Int) ≤ m := Int.natCast_nonneg m
    rcases hd with rfl | rfl
    · rw [one_mul, abs_of_nonneg hm']; linarith
    · rw [show (-1 : Int) * m = -m by ring, abs_neg, abs_of_nonneg hm']; linarith

theorem neg_sum_le (d : Int) (hd : d = 1 ∨ d = -1) (l : List Int) : -d * l.sum ≤ (l.map fun y => |y|).sum := by
  induction l with
  | nil => simp
  | cons y l ih =>
    simp only [List.sum_cons, List.map_cons]
    have h1 : -d * y ≤ |y| := by
      rcases hd with rfl | rfl
      · simpa using neg_le_abs y
      · simpa using le_abs_self y
    linarith [mul_add (-d) y l.sum]

theorem neg_sum_le_mem (d : Int) (hd : d = 1 ∨ d = -1) (l : List Int) (x : Int) (hx : x ∈ l) :
    -d * l.sum + d * x ≤ (l.map fun y => |y|).sum - |x| := by
  induction l with
  | nil => simp at hx
  | cons y l ih =>
    simp only [List.sum_cons, List.map_cons]
    rcases List.mem_cons.1 hx with rfl | hx
    · linarith [neg_sum_le d hd l, mul_add (-d) x l.sum]
    · have h1 : -d * y ≤ |y| := by
        rcases hd with rfl | rfl
        · simpa using neg_le_abs y
        · simpa using le_abs_self y
      linarith [mul_add (-d) y l.sum, ih hx]

/-- Correcting does not make an amount larger than all amounts together. -/
theorem spread_bound (d : Int) (hd : d = 1 ∨ d = -1) (l : List (Nat × Int)) (k : Nat) (hk : (k : Int) = -d * (l.map (·.2)).sum)
    (y : Nat × Int) (hy : y ∈ spread d l k) : |y.2| ≤ ((l.map (·.2)).map fun y => |y|).sum := by
  obtain ⟨i, hi⟩ := List.mem_iff_getElem?.1 hy
  rw [spread_get] at hi
  cases hl : l[i]? with
  | none => rw [hl] at hi; simp at hi
  | some a =>
    rw [hl] at hi
    simp only [Option.map_some, Option.some.injEq] at hi
    subst hi
    have hlt := (List.getElem?_eq_some_iff.1 hl).1
    have ht := turns_le l.length i k hlt
    have hle : (k + l.length - 1) / l.length ≤ k := by
      by_cases h0 : k = 0
      · subst h0
        rw [Nat.div_le_iff_le_mul_add_pred (by omega)]
        omega
      · rw [Nat.div_le_iff_le_mul_add_pred (by omega)]
        have : k ≤ l.length * k := Nat.le_mul_of_pos_left _ (by omega)
        omega
    have hmem : a.2 ∈ l.map (·.2) := List.mem_map.2 ⟨a, List.mem_of_getElem? hl, rfl⟩
    have h1 := neg_sum_le_mem d hd _ _ hmem
    have hS := List.single_le_sum (l := (l.map (·.2)).map fun y => |y|) (by
      intro x hx; obtain ⟨y, -, rfl⟩ := List.mem_map.1 hx; exact abs_nonneg _) |a.2| (List.mem_map.2 ⟨a.2, hmem, rfl⟩)
    rw [← hk] at h1
    have hm : ((turns l.length i k : Nat) : Int) ≤ k := by exact_mod_cast le_trans ht hle
    have hm0 : (0 : Int) ≤ (turns l.length i k : Nat) := Int.natCast_nonneg _
    generalize ((turns l.length i k : Nat) : Int) = m at hm hm0
    simp only
    rcases hd with rfl | rfl
    · rcases abs_cases a.2 with ⟨h2, h3⟩ | ⟨h2, h3⟩ <;> rw [h2] at h1 hS <;> rw [abs_le] <;> constructor <;> linarith
    · rcases abs_cases a.2 with ⟨h2, h3⟩ | ⟨h2, h3⟩ <;> rw [h2] at h1 hS <;> rw [abs_le] <;> constructor <;> linarith

theorem sum_le_dev (t y : List Int) (hl : t.length = y.length) :
    |t.sum - y.sum| ≤ (List.zipWith (fun a b => |b - a|) t y).sum := by
  induction t generalizing y with
  | nil => cases y with
    | nil => simp
    | cons => simp at hl
  | cons a t ih =>
    cases y with
    | nil => simp at hl
    | cons b y =>
      have h1 := ih y (by simpa using hl)
      simp only [List.sum_cons, List.zipWith_cons_cons]
      have h2 := abs_add_le (a - b) (t.sum - y.sum)
      rw [abs_sub_comm a b] at h2
      have h3 : a + t.sum - (b + y.sum) = (a - b) + (t.sum - y.sum) := by ring
      rw [h3]
      linarith

theorem forall₂_map_eq {α β : Type} (f : α → β) (l : List α) (s : List β) (h : List.Forall₂ (fun x b => x = f b) s l) :
    s = l.map f := by
  induction h with
  | nil => rfl
  | cons h _ ih => simp [h, ih]

/-- A permutation of the values of a function comes from a permutation of the arguments. -/
theorem perm_map_exists {α β : Type} (f : α → β) (s : List β) (l : List α) (h : s.Perm (l.map f)) :
    ∃ l' : List α, l'.Perm l ∧ s = l'.map f := by
  have h1 : List.Forall₂ (fun x b => x = f b) (l.map f) l := by
    rw [List.forall₂_map_left_iff]
    exact List.forall₂_same.2 fun _ _ => rfl
  obtain ⟨l', h2, h3⟩ := List.perm_comp_forall₂ h h1
  exact ⟨l', h3, forall₂_map_eq f l' s h2⟩

end Esl.Walras
