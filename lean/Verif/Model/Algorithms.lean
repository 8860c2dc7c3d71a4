import Verif.Model.Basic
import Mathlib.Data.Rat.Floor
/-!
Models of `esl/algorithms.hpp`.

Operations on floating-point numbers are operations on rational numbers followed by a rounding `fl`, as in `Model/Double.lean`. `integer_away_from_zero` (155-159) is not modelled: it calls a function `sign` that does not exist. `integer_towards_zero` is in `Verif.Model.Money`, `geometric_mean`, `growth_rate` and `enumerate` are in `Verif.Model.Averages`.
-/
namespace Esl.Algo

/-! ## Integer powers -/

/-- `algorithms.hpp:49-65` `nonnegative_integer_power`, for an unsigned type of `w` bits, in which products wrap around. -/
def power (w x p : Nat) : Nat :=
  if p = 0 then 1 % 2 ^ w
  else if p = 1 then x
  else
    let half := power w x (p / 2)
    if p % 2 = 0 then half * half % 2 ^ w else x * half % 2 ^ w * half % 2 ^ w
termination_by p
decreasing_by omega

/-! ## Arrays -/

/-- `algorithms.hpp:77-93` `to_array`: the elements of a container from `begin_` to before `end_`. Reading behind the end is undefined (the assertion at 85 may be off). -/
def toArray {α : Type} (begin_ end_ : Nat) (l : List α) : Outcome (List α) :=
  if l.length < end_ then .ub else .ok ((l.drop begin_).take (end_ - begin_))

/-- A loop `for(size_t i = from; i < to; ++i) result_[i - shift] = a[i - read]`. -/
def copyLoop {α : Type} (a : List α) (shift read : Nat) : List Nat → List α → Outcome (List α)
  | [], result => .ok result
  | i :: is, result =>
    match a[i - read]? with
    | none => .ub
    | some x => if i - shift < result.length then copyLoop a shift read is (result.set (i - shift) x) else .ub

/-- `algorithms.hpp:105-119` `array_concatenate`; `zero` is the value of a default element. -/
def concatenate {α : Type} (zero : α) (a b : List α) : Outcome (List α) :=
  copyLoop a 0 0 (List.range a.length) (List.replicate (a.length + b.length) zero) >>= fun result =>
  copyLoop b 0 a.length (List.range' a.length b.length) result

/-- `algorithms.hpp:130-145` `array_slice`; the static assertion holds if `end_ ≤ a.length`, and an array cannot have a negative size. -/
def slice {α : Type} (zero : α) (start_ end_ : Nat) (a : List α) : Outcome (List α) :=
  copyLoop a start_ 0 (List.range' start_ (end_ - start_)) (List.replicate (end_ - start_) zero)

/-! ## Rounding -/

/-- `std::round`: to the nearest integer, halves away from zero. -/
def roundAway (q : Rat) : Int := if 0 ≤ q then ⌊q + 1 / 2⌋ else -⌊-q + 1 / 2⌋

/-- `std::nearbyint`: to the nearest integer, halves to the even one (the default mode). -/
def nearbyint (q : Rat) : Int :=
  if q - ⌊q⌋ < 1 / 2 then ⌊q⌋ else if 1 / 2 < q - ⌊q⌋ then ⌊q⌋ + 1 else if ⌊q⌋ % 2 = 0 then ⌊q⌋ else ⌊q⌋ + 1

/-- `int`. -/
def InInt (z : Int) : Prop := -2 ^ 31 ≤ z ∧ z < 2 ^ 31

instance (z : Int) : Decidable (InInt z) := by unfold InInt; infer_instance

/-- `algorithms.hpp:207-209`: `near_`; its conversion to `int` is undefined out of range. -/
def nearSum : List Rat → Int → Outcome Int
  | [], near => .ok near
  | f :: fs, near => if InInt (near + roundAway f) then nearSum fs (near + roundAway f) else .ub

/-- `algorithms.hpp:227-229`: the loop that adds ones, with `k` iterations left. -/
def bump : Nat → List Nat → List Int → Outcome (List Int)
  | 0, _, result => .ok result
  | _ + 1, [], _ => .ub
  | k + 1, i :: indices, result =>
    match result[i]? with
    | none => .ub
    | some v => if InInt (v + 1) then bump k indices (result.set i (v + 1)) else .ub

/-- `algorithms.hpp:207` `sum_`. -/
def sumOf (fl : Rat → Rat) (fractions : List Rat) : Rat := fractions.foldl (fun sum f => fl (sum + f)) 0

/-- `algorithms.hpp:200-232` `allocate_fractions`; `indices` is what `std::sort` makes of the indices. In the comparison at 227 the number on the right becomes unsigned. `abs` is taken to be that of
floating-point numbers; the second parameter is never used. The sum of
integers at 208 is exact. -/
def allocate (fl : Rat → Rat) (indices : List Nat) (fractions : List Rat) : Outcome (List Int) :=
  nearSum fractions 0 >>= fun near =>
  let target := roundAway (sumOf fl fractions)
  if ¬InInt target then .ub
  else
  let result := fractions.map fun f => roundAway |f|
  if near = target then .ok result
  else if ¬InInt (target - near) then .ub
  else bump ((target - near) % 2 ^ 64).toNat indices result

/-- `algorithms.hpp:218-225`: the key by which the indices are sorted, the largest first. (The difference is exact.) -/
def remainderOf (f : Rat) : Rat := f - nearbyint f

/-! ## Barycentric coordinates -/

/-- `algorithms.hpp:284-307` `sample_barycentric` with `d + 1` dimensions. -/
def barycentric (fl : Rat → Rat) (divisions : Nat) : Nat → Rat → List (List Rat)
  | 0, remainder => [[remainder]]
  | d + 1, remainder =>
    ((List.range divisions).takeWhile fun n : Nat => decide (fl ((n : Rat) / fl divisions) ≤ remainder)).flatMap fun n : Nat =>
      (barycentric fl divisions d (fl (remainder - fl ((n : Rat) / fl divisions)))).map fun t => t ++ [fl ((n : Rat) / fl divisions)]

/-- `algorithms.hpp:284-307` `sample_barycentric`. Without dimensions the number of dimensions wraps around, and the recursion does not end. The `int` that counts is assumed to be large enough. -/
def sampleBarycentric (fl : Rat → Rat) (dimensions divisions : Nat) (remainder : Rat) : Outcome (List (List Rat)) :=
  match dimensions with
  | 0 => .ub
  | d + 1 => .ok (barycentric fl divisions d remainder)

end Esl.Algo
