import Verif.Model.Basic
/-!
# Model of `esl/economics/iso_4217.hpp`, `price.hpp`, `cash.hpp` (identifier), `markets/quote.hpp`
-/
namespace Esl.Price

/-- `iso_4217` (iso_4217.hpp:45-56): three characters (their codes) and a denominator (`uint64_t`). -/
structure Currency where
  c0 : Nat
  c1 : Nat
  c2 : Nat
  denominator : Nat
deriving DecidableEq, Repr

/-- Constructor check (iso_4217.hpp:73-85): all characters in 'A'..'Z' and a positive denominator,
otherwise an exception. -/
def Currency.make (c0 c1 c2 denominator : Nat) : Outcome Currency :=
  if ¬ (65 ≤ c0 ∧ c0 ≤ 90) then .throws
  else if ¬ (65 ≤ c1 ∧ c1 ≤ 90) then .throws
  else if ¬ (65 ≤ c2 ∧ c2 ≤ 90) then .throws
  else if denominator = 0 then .throws
  else .ok ⟨c0, c1, c2, denominator⟩

/-- `operator ==` (iso_4217.hpp:98-103). -/
def Currency.eq (a b : Currency) : Bool :=
  a.c0 == b.c0 && a.c1 == b.c1 && a.c2 == b.c2 && a.denominator == b.denominator

/-- `operator !=` (iso_4217.hpp:105-110). -/
def Currency.ne (a b : Currency) : Bool :=
  a.c0 != b.c0 || a.c1 != b.c1 || a.c2 != b.c2 || a.denominator != b.denominator

/-- `operator <` (iso_4217.hpp:113-125): the unrolled loop over the three characters. -/
def Currency.lt (a b : Currency) : Bool :=
  if a.c0 < b.c0 then true else if a.c0 > b.c0 then false
  else if a.c1 < b.c1 then true else if a.c1 > b.c1 then false
  else if a.c2 < b.c2 then true else if a.c2 > b.c2 then false
  else false

/-- `std::hash<iso_4217>` (iso_4217.hpp:183-192). For valid characters no step of the `size_t`
expression wraps. -/
def Currency.hash (a : Currency) : Nat :=
  a.c0 - 65 + 26 * a.c1 - 65 + 26 * 26 * a.c2 - 65

/-- `cash::create_identifier` (cash.hpp:46-52): digits are the type hash `t` and the currency hash. -/
def cashIdentifier (t : Nat) (a : Currency) : List Nat := [t, a.hash]

/-- `price` (price.hpp:65-69): an `int64_t` value and a currency. -/
structure P where
  value : Int
  valuation : Currency
deriving DecidableEq, Repr

/-- `operator ==` (price.hpp:129-132). -/
def P.eq (a b : P) : Bool := a.value == b.value && a.valuation.eq b.valuation

/-- `operator !=` (price.hpp:134-137). -/
def P.ne (a b : P) : Bool := a.value != b.value || a.valuation.ne b.valuation

/-- `operator <` (price.hpp:139-143) with `assert_equal_currencies` (price.hpp:38-44), which throws. -/
def P.lt (a b : P) : Outcome Bool :=
  if a.valuation.ne b.valuation then .throws else .ok (decide (a.value < b.value))

/-- `operator <=` (price.hpp:145-148). -/
def P.le (a b : P) : Outcome Bool := do
  let l ← a.lt b
  pure (l || a.eq b)

/-- `operator >` (price.hpp:150-154). -/
def P.gt (a b : P) : Outcome Bool :=
  if a.valuation.ne b.valuation then .throws else .ok (decide (a.value > b.value))

/-- `operator >=` (price.hpp:156-159). -/
def P.ge (a b : P) : Outcome Bool := do
  let l ← a.gt b
  pure (l || a.eq b)

/-- `uint64_t * price` (price.hpp:231-239): `static_cast<int64_t>(p.value * operand)` with an unsigned
product, i.e. wrapping. Used for `lot * k` in the quote comparisons. -/
def P.scaleWrap (a : P) (n : Nat) : P := ⟨wrapI64 (a.value * n), a.valuation⟩

/-- `price * integer` for an integer type other than `uint64_t` (template, price.hpp:224-229): a signed
product; overflow is undefined behaviour. Used for `(*vp) * other.lot` (`uint32_t`). -/
def P.scaleSigned (a : P) (n : Nat) : Outcome P :=
  if InI64 (a.value * n) then .ok ⟨a.value * n, a.valuation⟩ else .ub

/-- `quote` (quote.hpp:55-86): a lot size (`uint32_t`) and a price (the only variant alternative). -/
structure Quote where
  lot : Nat
  price : P
deriving DecidableEq, Repr

/-- Constructor (quote.hpp:100-107). -/
def Quote.make (p : P) (lot : Nat) : Outcome Quote :=
  if lot = 0 then .throws else .ok ⟨lot, p⟩

/-- Shared shape of the comparisons with lot check: `(lot * k) OP ((*vp) * other.lot)`. -/
def Quote.cmp (op : P → P → Outcome Bool) (a b : Quote) : Outcome Bool := do
  let r ← b.price.scaleSigned b.lot
  op (a.price.scaleWrap a.lot) r

/-- `operator ==` (quote.hpp:152-166). -/
def Quote.eq (a b : Quote) : Outcome Bool :=
  if a.lot ≠ b.lot then .throws else Quote.cmp (fun x y => .ok (x.eq y)) a b

/-- `operator !=` (quote.hpp:168-181). -/
def Quote.ne (a b : Quote) : Outcome Bool :=
  if a.lot ≠ b.lot then .throws else Quote.cmp (fun x y => .ok (x.ne y)) a b

/-- `operator <` (quote.hpp:184-197). -/
def Quote.lt (a b : Quote) : Outcome Bool :=
  if a.lot ≠ b.lot then .throws else Quote.cmp P.lt a b

/-- `operator >` (quote.hpp:199-213). -/
def Quote.gt (a b : Quote) : Outcome Bool :=
  if a.lot ≠ b.lot then .throws else Quote.cmp P.gt a b

/-- `operator <=` (quote.hpp:215-229). -/
def Quote.le (a b : Quote) : Outcome Bool :=
  if a.lot ≠ b.lot then .throws else Quote.cmp P.le a b

/-- `operator >=` (quote.hpp:231-243): there is no lot check. -/
def Quote.ge (a b : Quote) : Outcome Bool := Quote.cmp P.ge a b

end Esl.Price
