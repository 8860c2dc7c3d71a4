import Verif.Model.Ticker
import Verif.Model.Price
/-!
Hash functions and equality of the types that are keys of unordered containers, and such a container: `esl/simulation/identity.hpp`, `esl/economics/markets/ticker.hpp`, `esl/economics/finance/share_class.hpp`, `esl/economics/cash.hpp` and
`esl/law/property_collection.hpp`. `boost::hash_combine` differs between versions of the library and is left open.
-/
namespace Esl.Hashing

/-! ## Hash functions -/

/-- identity.hpp:473-486 `std::hash<identity>`: the last digit, combined with the others from the last but one to the first. `combine` is `boost::hash_combine`. -/
def identityHash (combine : Nat → Nat → Nat) (digits : List Nat) : Nat :=
  match digits.reverse with
  | [] => 0
  | d :: l => l.foldl combine d

/-- ticker.hpp:110-121 `std::hash<ticker>`, on `size_t`. -/
def tickerHash (combine : Nat → Nat → Nat) (t : Ticker.Ticker) : Nat :=
  let h1 := identityHash combine t.base
  let h2 := identityHash combine t.quote
  h1 ^^^ u64 (u64 (u64 (h2 + 0x9e3779b9) + u64 (h1 <<< 6)) + h1 >>> 2)

/-- A `float`: not a number, a zero with its sign, or another number, by its representation. -/
inductive Real32 where
  | nan
  | zero (negative : Bool)
  | other (bits : Nat)
deriving DecidableEq, Repr

/-- `==` of `float`. -/
def Real32.eq : Real32 → Real32 → Bool
  | .zero _, .zero _ => true
  | .other a, .other b => a == b
  | _, _ => false

/-- `boost::hash_value(float)`: zeros have the hash 0. `h` is the hash of other numbers. -/
def Real32.hash (h : Nat → Nat) : Real32 → Nat
  | .nan => 2 ^ 64 - 3
  | .zero _ => 0
  | .other b => h b

/-- share_class.hpp:39-96, with every `float` as a preference. -/
structure Share where
  rank : Nat
  votes : Nat
  preference : Real32
  dividend : Bool
  cumulative : Bool
  redeemable : Bool
deriving DecidableEq, Repr

/-- share_class.hpp:100-108 `operator ==`. -/
def Share.eq (a b : Share) : Bool :=
  a.rank == b.rank && a.votes == b.votes && a.dividend == b.dividend && a.preference.eq b.preference && a.cumulative == b.cumulative && a.redeemable == b.redeemable

/-- share_class.hpp:131-145 `std::hash<share_class>`. -/
def Share.hash (combine : Nat → Nat → Nat) (h : Nat → Nat) (s : Share) : Nat :=
  combine (combine (combine (combine (combine (combine 0 s.rank) s.votes) s.dividend.toNat) (s.preference.hash h)) s.cumulative.toNat) s.redeemable.toNat

/-- cash.hpp:71-74 `operator ==`: the same currency (iso_4217.hpp:98-103). -/
def cashEq (a b : Price.Currency) : Bool := a.c0 == b.c0 && a.c1 == b.c1 && a.c2 == b.c2 && a.denominator == b.denominator

/-- cash.hpp:80-90 `std::hash<cash>`. -/
def cashHash (a : Price.Currency) : Nat := a.hash

/-! ## Unordered containers -/

/-- An unordered container: the entries are in the buckets that their hashes say. -/
structure Table (κ β : Type) where
  buckets : List (List (κ × β))

/-- How keys are compared and hashed. -/
structure Keys (κ : Type) where
  eq : κ → κ → Bool
  hash : κ → Nat

variable {κ β : Type}

/-- The bucket of a key. -/
def Table.bucket (K : Keys κ) (t : Table κ β) (k : κ) : Nat := K.hash k % t.buckets.length

/-- `find`: the entry in the bucket with an equal key. -/
def Table.find (K : Keys κ) (t : Table κ β) (k : κ) : Option β := (((t.buckets[t.bucket K k]?).getD []).find? fun e => K.eq e.1 k).map (·.2)

/-- A change of one bucket. -/
def Table.change (K : Keys κ) (t : Table κ β) (k : κ) (f : List (κ × β) → List (κ × β)) : Table κ β := ⟨t.buckets.modify (t.bucket K k) f⟩

/-- Operations: `emplace(k, v)`, `t[k] = v`, `erase(k)` and a change of the number of buckets, which happens by itself when the container grows. -/
inductive Operation (κ β : Type) where
  | emplace (k : κ) (v : β)
  | assign (k : κ) (v : β)
  | erase (k : κ)
  | rehash (n : Nat)

/-- All entries in `n` new buckets. -/
def Table.rehash (K : Keys κ) (t : Table κ β) (n : Nat) : Table κ β := ⟨(List.range n).map fun i => t.buckets.flatten.filter fun e => K.hash e.1 % n == i⟩

/-- One operation. -/
def Table.apply (K : Keys κ) (t : Table κ β) : Operation κ β → Table κ β
  | .emplace k v => if (t.find K k).isSome then t else t.change K k ((k, v) :: ·)
  | .assign k v => if (t.find K k).isSome then t.change K k fun l => l.map fun e => if K.eq e.1 k then (e.1, v) else e else t.change K k ((k, v) :: ·)
  | .erase k => t.change K k fun l => l.filter fun e => !K.eq e.1 k
  | .rehash n => if n = 0 then t else t.rehash K n

/-- Several operations. -/
def Table.run (K : Keys κ) (t : Table κ β) (l : List (Operation κ β)) : Table κ β := l.foldl (Table.apply K) t

/-- A new container, with one bucket. -/
def Table.empty : Table κ β := ⟨[[]]⟩

/-- property_collection.hpp:42-66: properties are compared and hashed by their identifiers. -/
def propertyKeys (combine : Nat → Nat → Nat) : Keys (List Nat) := ⟨fun a b => Identity.eq a b, identityHash combine⟩

/-- Tickers as keys. -/
def tickerKeys (combine : Nat → Nat → Nat) : Keys Ticker.Ticker := ⟨Ticker.eq, tickerHash combine⟩

/-- Share classes as keys. -/
def shareKeys (combine : Nat → Nat → Nat) (h : Nat → Nat) : Keys Share := ⟨Share.eq, Share.hash combine h⟩

/-- Cash as keys. -/
def cashKeys : Keys Price.Currency := ⟨cashEq, cashHash⟩

end Esl.Hashing
