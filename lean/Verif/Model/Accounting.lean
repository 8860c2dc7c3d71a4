import Verif.Model.Price
/-!
# Model of `esl/economics/accounting/cash_flow_statement.hpp`, `accounting/standard.hpp`,
`exchange_rate.hpp` (multiplication)
-/
namespace Esl.Accounting
open Esl.Price

/-! ## Cash-flow statements -/

/-- `mutations_t` (cash_flow_statement.hpp:40): a `std::multimap` from time to price, i.e. a list
sorted by time (equal times in insertion order). Simplification: only the value of each price is
kept; the code asserts that all are in the reporting currency. -/
abbrev Mutations := List (Nat × Int)

/-- `mutations.lower_bound(t)` to the end (cash_flow_statement.hpp:66). -/
def lowerBound (t : Nat) : Mutations → Mutations
  | [] => []
  | (s, p) :: m => if s < t then lowerBound t m else (s, p) :: m

/-- The loop of `history` (cash_flow_statement.hpp:66-75) collecting transformed values. `time_interval`
is closed on the left and open on the right; the `else if` terminates early. -/
def collect (lower upper : Nat) (f : Nat → Int → Int) : Mutations → List Int
  | [] => []
  | (t, p) :: m =>
    if lower ≤ t ∧ t < upper then f t p :: collect lower upper f m
    else if t > upper ∨ t = upper then []
    else collect lower upper f m

/-- `history(interval, transform, s)` (cash_flow_statement.hpp:63-81). Simplification: the sum of
`int64_t` values is over the integers (no overflow). -/
def history (m : Mutations) (lower upper : Nat) (f : Nat → Int → Int) : Int :=
  (collect lower upper f (lowerBound lower m)).foldl (· + ·) 0

/-- `income` (cash_flow_statement.hpp:90-95). -/
def income (m : Mutations) (lower upper : Nat) : Int := history m lower upper fun _ p => max 0 p

/-- `expenses` (cash_flow_statement.hpp:97-102). -/
def expenses (m : Mutations) (lower upper : Nat) : Int := history m lower upper fun _ p => min 0 p

/-- `revenue` (cash_flow_statement.hpp:110-112) and `history(interval, s)` (83-88). -/
def revenue (m : Mutations) (lower upper : Nat) : Int := history m lower upper fun _ p => p

/-- `mutations.insert({t, p})` of a multimap: after all entries with a time not larger than `t`. -/
def insert (m : Mutations) (t : Nat) (p : Int) : Mutations :=
  match m with
  | [] => [(t, p)]
  | (s, q) :: m' => if t < s then (t, p) :: (s, q) :: m' else (s, q) :: insert m' t p

/-! ## Valuation -/

/-- Conversion of an `int64_t` to `uint64_t`. -/
def toU64 (z : Int) : Nat := (z % 2 ^ 64).toNat

/-- `exchange_rate * price` (exchange_rate.hpp:142-145): `int64_t * uint64_t` is an unsigned product, then
an unsigned division; the valuation is that of the price. -/
def convert (num den : Nat) (p : P) : P := ⟨wrapI64 ((u64 (toU64 p.value * num) / den : Nat)), p.valuation⟩

/-- The parts of `standard` (standard.hpp:55-69) used for valuation. `quote` is the mark-to-market quote
of the security in question, `rate` the exchange rate registered for the currency in question. -/
structure Standard where
  reporting : Currency
  quote : Option Quote
  rate : Option (Nat × Nat)

/-- `value(const money&, q)` (standard.hpp:71-87). -/
def valueMoney (s : Standard) (denomination : Currency) (q : Nat) : Outcome P :=
  let foreign : P := ⟨wrapI64 q, denomination⟩
  if denomination.eq s.reporting then .ok foreign
  else match s.rate with
    | none => .throws
    | some (num, den) => if den = 0 then .ub else .ok (convert num den foreign)

/-- `value(const stock&, q)` (standard.hpp:94-106): `(price.value * q.amount) / lot` in `uint64_t`
arithmetic, converted to `int64_t`. -/
def valueStock (s : Standard) (q : Nat) : Outcome P :=
  match s.quote with
  | none => .throws
  | some k =>
    if k.lot = 0 then .ub
    else .ok ⟨wrapI64 ((u64 (toU64 k.price.value * q) / k.lot : Nat)), k.price.valuation⟩

/-- `value(const loan&, q)` (standard.hpp:108-112): `-int64_t(q) * denominator` is an unsigned product. -/
def valueLoan (s : Standard) (q : Nat) : P :=
  ⟨wrapI64 (u64 (toU64 (-(wrapI64 q)) * s.reporting.denominator) : Nat), s.reporting⟩

/-- `value(const securities_lending_contract&, q)` (standard.hpp:114-128). -/
def valueLending (s : Standard) (size q : Nat) : Outcome P :=
  match s.quote with
  | none => .throws
  | some k =>
    if k.lot = 0 then .ub
    else
      let v := wrapI64 ((u64 (u64 (toU64 k.price.value * size) * q) / k.lot : Nat))
      if InI64 (0 - v) then .ok ⟨0 - v, s.reporting⟩ else .ub

end Esl.Accounting
