/-!
Floating-point arithmetic as used by the modelled code.

Expressions on `double` are modelled as exact rational operations followed by a rounding function `fl : Rat → Rat`. `fl := id` is exact arithmetic,
`fl := binary64` is IEEE 754 round-to-nearest-even for numbers in the normal range (infinities, NaN, overflow and subnormal numbers are not modelled).
-/
namespace Esl.Double

/-- Nearest integer to the positive rational `n / d`, ties to even. -/
def nearestEven (n d : Nat) : Nat :=
  let q := n / d
  let r := n % d
  if 2 * r < d then q else if 2 * r > d then q + 1 else if q % 2 = 0 then q else q + 1

/-- `num / den` with `2^52 ≤ num / (den * 2^e) < 2^53`: the exponent `e`. -/
def exponent (num den : Nat) : Int :=
  let k : Int := (Nat.log2 num : Int) - (Nat.log2 den : Int)
  -- num / den lies in (2^(k-1), 2^(k+1))
  let ge : Bool := if 0 ≤ k then decide (den * 2 ^ k.toNat ≤ num) else decide (den ≤ num * 2 ^ (-k).toNat)
  (if ge then k else k - 1) - 52

/-- Rounding of a positive rational `num / den` to 53 binary digits. -/
def roundPos (num den : Nat) : Rat :=
  let e := exponent num den
  if 0 ≤ e then (nearestEven num (den * 2 ^ e.toNat) : Rat) * (2 ^ e.toNat : Nat)
  else (nearestEven (num * 2 ^ (-e).toNat) den : Rat) / (2 ^ (-e).toNat : Nat)

/-- IEEE 754 binary64, round to nearest, ties to even. -/
def binary64 (q : Rat) : Rat :=
  if q.num = 0 then 0
  else if 0 < q.num then roundPos q.num.toNat q.den
  else -(roundPos (-q.num).toNat q.den)

/-- `static_cast<int64_t>(double)`: truncation towards zero (out-of-range values are undefined in C++ and not modelled). -/
def trunc (q : Rat) : Int := q.num.tdiv q.den

/-- `std::round`: to the nearest integer, halves away from zero. -/
def cround (q : Rat) : Int := if 0 ≤ q.num then (2 * q.num + q.den) / (2 * q.den) else -((2 * (-q.num) + q.den) / (2 * q.den))

end Esl.Double
