import Verif.Model.Basic
import Mathlib.Data.Rat.Floor
/-!
Models of companies, their share classes and dividends, and of shareholders and bondholders:
`economics/company.cpp`, `economics/finance/share_class.hpp`, `dividend.cpp`, `shareholder.cpp` and `bondholder.cpp`.

Arithmetic with floating point numbers is modelled as exact arithmetic with rational numbers.
-/
namespace Esl.Company

/-! ## Share classes -/

/-- `finance/share_class.hpp:39-96`. The preference is a floating point number; not-a-number is excluded. -/
structure ShareClass where
  rank : Nat
  votes : Nat
  preference : Rat
  dividend : Bool
  cumulative : Bool
  redeemable : Bool
  deriving DecidableEq

/-- `share_class.hpp:100-108` `operator==`. -/
def ShareClass.eq (a b : ShareClass) : Bool :=
  a.rank == b.rank && a.votes == b.votes && a.dividend == b.dividend && a.preference == b.preference && a.cumulative == b.cumulative && a.redeemable == b.redeemable

/-- `share_class.hpp:110-113` `operator<`. -/
def ShareClass.lt (a b : ShareClass) : Bool := a.rank < b.rank

/-! ## `std::map` with share classes as keys: the entries are in order, and keys of which neither is less than the other are the same. -/

abbrev Register (β : Type) := List (ShareClass × β)

/-- `register[k] = v`. The key of an existing entry stays. -/
def Register.assign {β : Type} : Register β → ShareClass → β → Register β
  | [], k, v => [(k, v)]
  | (a, x) :: m, k, v => if k.lt a then (k, v) :: (a, x) :: m else if a.lt k then (a, x) :: Register.assign m k v else (a, v) :: m

/-- `register.insert({k, v})`: nothing happens if there is an entry. -/
def Register.insert {β : Type} : Register β → ShareClass → β → Register β
  | [], k, v => [(k, v)]
  | (a, x) :: m, k, v => if k.lt a then (k, v) :: (a, x) :: m else if a.lt k then (a, x) :: Register.insert m k v else (a, x) :: m

/-- `register.find(k)`. -/
def Register.find {β : Type} : Register β → ShareClass → Option β
  | [], _ => none
  | (a, x) :: m, k => if k.lt a then none else if a.lt k then Register.find m k else some x

/-! ## Companies -/

structure Money where
  code : List Char
  denominator : Nat
  deriving DecidableEq

structure Price where
  value : Int
  valuation : Money
  deriving DecidableEq

/-- `company.cpp:43-51` `total_shares`. -/
def totalShares (outstanding : Register Nat) : Nat := outstanding.foldl (fun n e => u64 (n + e.2)) 0

/-- `algorithms.hpp:149-153` `rounding::integer_towards_zero`. -/
def truncate (q : Rat) : Int := if 0 ≤ q then ⌊q⌋ else ⌈q⌉

/-- `price.hpp:241-244` `operator double`; a currency has a positive denominator. -/
def Price.real (p : Price) : Rat := p.value / p.valuation.denominator

/-- `cash.hpp` with `money.hpp:88-94` `price(double)`: undefined if the result does not fit. -/
def cashPrice (tender : Money) (real : Rat) : Outcome Price :=
  let units := truncate (real * tender.denominator)
  if -2 ^ 63 ≤ units ∧ units < 2 ^ 63 then .ok ⟨units, tender⟩ else .ub

/-- The loop `company.cpp:72-77`. -/
def dividendLoop (tender : Money) (fraction : Rat) : Register Nat → Register (Nat × Price) → Outcome (Register (Nat × Price))
  | [], result => .ok result
  | (s, q) :: m, result =>
    if s.dividend then cashPrice tender (fraction * q) >>= fun p => dividendLoop tender fraction m (result.insert s (q, p))
    else dividendLoop tender fraction m result

/-- `company.cpp:59-80` `compute_dividend_per_share`. If there are no shares, the fraction is infinite; for a class with dividends, of which there are zero shares, the product is not a number, and its conversion
undefined. (A total that is zero because of overflow is infinite for classes with shares, with the same result.) -/
def computeDividend (outstanding : Register Nat) (tender : Money) (profit : Price) : Outcome (Register (Nat × Price)) :=
  if profit.real ≤ 0 then .ok []
  else if totalShares outstanding = 0 then (if outstanding.any fun e => e.1.dividend then .ub else .ok [])
  else dividendLoop tender (profit.real / totalShares outstanding) outstanding []

/-- `finance/dividend.cpp:47-56` `total_dividends`: the product is that of unsigned numbers, `price.hpp:231-239`; adding may overflow. The assertion that currencies are equal may be off. -/
def totalDividends (currency : Money) : Register (Nat × Price) → Outcome Price :=
  fun m => m.foldl (fun acc e => acc >>= fun total =>
    let sum := total.value + wrapI64 (e.2.2.value * e.2.1)
    if -2 ^ 63 ≤ sum ∧ sum < 2 ^ 63 then .ok ⟨sum, total.valuation⟩ else .ub) (.ok ⟨0, currency⟩)

/-- `company.cpp:31-40` `unique_shareholders`: a set, in ascending order. An identity is a number here: only its order and equality matter. -/
def setInsert (s : List Nat) (x : Nat) : List Nat :=
  match s with
  | [] => [x]
  | y :: s => if x < y then x :: y :: s else if y < x then y :: setInsert s x else y :: s

def uniqueShareholders (shareholders : List (Nat × Register Nat)) : List Nat := shareholders.foldl (fun s e => setInsert s e.1) []

/-- The dates of a policy, `dividend.hpp:40-67`. -/
structure Policy where
  announcement : Nat
  exDividend : Nat
  payable : Nat
  deriving DecidableEq

/-- `company.hpp:100-103`. -/
structure State where
  lastAnnounced : Nat := 0
  lastPayment : Nat := 0
  deriving DecidableEq

/-- An announcement: the recipient, the time of delivery and the policy. -/
structure Announcement where
  recipient : Nat
  delivery : Nat
  policy : Policy
  deriving DecidableEq

/-- `company.cpp:111-183` `act`: what `upcoming_dividend` returned is given. The next event, the state, and the messages. -/
def act (shareholders : List (Nat × Register Nat)) (st : State) (lower upper : Nat) (upcoming : Option Policy) : Nat × State × List Announcement :=
  match upcoming with
  | none => (upper, st, [])
  | some p =>
    let (next, st, sent) :=
      if lower ≥ p.announcement then
        if st.lastAnnounced < p.announcement then
          (upper, { st with lastAnnounced := p.announcement }, (uniqueShareholders shareholders).map fun s => ⟨s, lower, p⟩)
        else (upper, st, [])
      else (min p.announcement upper, st, [])
    if lower ≥ p.payable then
      (next, (if st.lastPayment < p.announcement then { st with lastPayment := p.announcement } else st), sent)
    else (min p.announcement next, st, sent)

/-! ## Shareholders -/

/-- A set of pairs of an ex-dividend date and a company, `shareholder.hpp:90-91`, in ascending order. -/
def datesInsert (s : List (Nat × Nat)) (x : Nat × Nat) : List (Nat × Nat) :=
  match s with
  | [] => [x]
  | y :: s => if x.1 < y.1 ∨ (x.1 = y.1 ∧ x.2 < y.2) then x :: y :: s else if y.1 < x.1 ∨ (y.1 = x.1 ∧ y.2 < x.2) then y :: datesInsert s x else y :: s

structure Record where
  company : Nat
  delivery : Nat
  shares : Register Nat
  deriving DecidableEq

/-- `shareholder.cpp:86-100` `submit_dividend_record`: the messages. `shares` is the map from companies to share classes; a company is there at most once. -/
def submitRecords (dates : List (Nat × Nat)) (shares : List (Nat × Register Nat)) (lower upper : Nat) : List Record :=
  dates.flatMap fun (s, c) =>
    if lower ≤ s ∧ upper ≥ s then
      match shares.find? fun e => e.1 == c with
      | some e => [⟨c, 0, e.2⟩]
      | none => []
    else []

/-- `shareholder.cpp:52-61`, the callback for announcements: the dates, and the messages. -/
def handleAnnouncement (dates : List (Nat × Nat)) (shares : List (Nat × Register Nat)) (lower upper : Nat) (exDividend company : Nat) : List (Nat × Nat) × List Record :=
  let dates := datesInsert dates (exDividend, company)
  (dates, submitRecords dates shares lower upper)

/-- `shareholder.cpp:102-124` `stock_holdings`. `stocks` gives the property of a company's share class, with the order of keys that `std::tuple` has; a class that is not there is undefined behaviour. -/
def stockHoldings (stocks : Nat → ShareClass → Option Nat) (shares : List (Nat × Register Nat)) : Outcome (List (Nat × Nat)) :=
  shares.foldl (fun acc e => acc >>= fun r =>
    e.2.foldl (fun acc s => acc >>= fun r =>
      match stocks e.1 s.1 with
      | none => .ub
      | some property =>
        match r.find? fun x => x.1 == property with
        | none => .ok (r ++ [(property, s.2)])
        | some _ => .ok (r.map fun x => if x.1 == property then (x.1, u64 (x.2 + s.2)) else x)) (.ok r)) (.ok [])

/-! ## Price memories -/

/-- Prices that an agent remembers, one per property. -/
abbrev Memory := List (Nat × Price)

def Memory.get (m : Memory) (k : Nat) : Option Price := (m.find? fun e => e.1 == k).map (·.2)

/-- `shareholder.cpp:69-78`, for one quote. -/
def Memory.learn (m : Memory) (k : Nat) (p : Price) : Memory :=
  match m.find? fun e => e.1 == k with
  | none => m ++ [(k, p)]
  | some _ => m.map fun e => if e.1 == k then (e.1, { e.2 with value := p.value }) else e

/-- `shareholder.cpp:65-80`, the callback for quote messages. -/
def shareholderQuotes (m : Memory) (proposed : List (Nat × Price)) : Memory := proposed.foldl (fun m e => m.learn e.1 e.2) m

/-- `bondholder.cpp:42-52`, the callback for quote messages: `insert`. -/
def bondholderQuotes (m : Memory) (proposed : List (Nat × Price)) : Memory :=
  proposed.foldl (fun m e => if m.any fun x => x.1 == e.1 then m else m ++ [e]) m

end Esl.Company
