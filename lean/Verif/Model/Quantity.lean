import Verif.Model.Basic
/-!
# Model of `esl/quantity.hpp` and of `nonnegative_integer_power` in `esl/algorithms.hpp`
A quantity is its `amount`, a `std::uint64_t`, represented by a natural number below `2^64`.
-/
namespace Esl.Quantity

/-- `divide<divisor_>` (quantity.hpp:89-109): the first `amount % d` parts get `amount / d + 1`, the
others `amount / d`. `divisor_ != 0` is a static assertion, so that `d = 0` does not compile. -/
def divide (amount d : Nat) : List Nat :=
  List.replicate (amount % d) (u64 (amount / d + 1)) ++ List.replicate (d - amount % d) (amount / d)

/-- `operator /` (quantity.hpp:262-285), with both branches: which value is filled in first depends
on `divisor >= 2 * remainder_` (computed modulo 2^64). A divisor of zero is undefined behaviour. -/
def div (amount d : Nat) : Outcome (List Nat) :=
  if d = 0 then .ub
  else
    let q := amount / d
    let r := amount % d
    if d ≥ u64 (2 * r) then
      -- vector of quotients, the first r overwritten by quotient + 1
      .ok ((List.replicate d q).mapIdx fun i x => if i < r then u64 (q + 1) else x)
    else
      -- vector of quotient + 1, those from position r on overwritten by quotient
      .ok ((List.replicate d (u64 (q + 1))).mapIdx fun i x => if r ≤ i then q else x)

/-- `operator +` (quantity.hpp:149-153): wraps. -/
def add (a b : Nat) : Nat := u64 (a + b)

/-- `operator *` (quantity.hpp:123-133): wraps. -/
def mul (a b : Nat) : Nat := u64 (a * b)

/-- `operator -` (quantity.hpp:169-175). -/
def sub (a b : Nat) : Outcome Nat := if a < b then .throws else .ok (a - b)

/-- `operator -=` (quantity.hpp:187-191): the new amount of the left operand; on an exception the
assignment does not happen. The pair is (amount afterwards, did it throw). -/
def subAssign (a b : Nat) : Nat × Bool :=
  match sub a b with
  | .ok c => (c, false)
  | _ => (a, true)

/-- prefix `operator ++` (quantity.hpp:317-321): new amount. -/
def preInc (a : Nat) : Nat := u64 (a + 1)

/-- prefix `operator --` (quantity.hpp:323-327): the code says `++amount`. -/
def preDec (a : Nat) : Nat := u64 (a + 1)

/-- postfix `operator ++` (quantity.hpp:329-332): (returned amount, new amount). -/
def postInc (a : Nat) : Nat × Nat := (a, u64 (a + 1))

/-- postfix `operator --` (quantity.hpp:334-337): (returned amount, new amount); wraps below zero. -/
def postDec (a : Nat) : Nat × Nat := (a, u64 (a + 2 ^ 64 - 1))

/-- `nonnegative_integer_power` (algorithms.hpp:48-65) for a `w`-bit unsigned type: recursion on
`p / 2`, products reduced modulo `2^w`. -/
def power (w x p : Nat) : Nat :=
  if p = 0 then 1 % 2 ^ w
  else if p = 1 then x % 2 ^ w
  else
    let half := power w x (p / 2)
    if p % 2 = 0 then (half * half) % 2 ^ w
    else ((x * half) % 2 ^ w * half) % 2 ^ w
termination_by p
decreasing_by omega

end Esl.Quantity
