import Verif.Model.Identity
import Verif.Model.Printing
/-!
How properties are named and inventories are written to a stream: `name()` of the properties of the library, `law/property_collection.hpp` and `economics/accounting/inventory.hpp`.
Simplification: the stream has its default format (no width is set).
-/
namespace Esl.Listing
open Price

/-- The properties of the library that have a `name()`, with what the name depends on. -/
inductive Property where
  | property (identifier : List Nat)
  | asset (identifier : List Nat)
  | money (c : Currency) (identifier : List Nat)
  | cash (c : Currency)
  | loan (identifier : List Nat)
  | security (identifier : List Nat)
  | stock (identifier : List Nat)
  | bond (identifier : List Nat)
  | lending (identifier : List Nat)
deriving DecidableEq, Repr

/-- `property::name` (law/property.cpp:40-45), `asset::name` (asset.cpp:37-40), `money::name` (money.hpp:58-63), `cash::name` (cash.hpp:64-69), `loan::name` (finance/loan.hpp:67-70),
`security::name` (finance/security.hpp:60-65), `stock::name` (finance/stock.hpp:75-80), `bond::name` (finance/bond.hpp:99-104) and `securities_lending_contract::name`
(finance/securities_lending_contract.hpp:71-76). An identifier is written to a new `std::stringstream`, whose width is zero (identity.hpp:292-310). -/
def Property.name : Property → List Char
  | .property i => ['p', 'r', 'o', 'p', 'e', 'r', 't', 'y'] ++ [' '] ++ Identity.render 0 i
  | .asset _ => ['a', 's', 's', 'e', 't']
  | .money c _ => Printing.code c ++ [' ', 'm', 'o', 'n', 'e', 'y']
  | .cash c => Printing.code c ++ [' ', 'c', 'a', 's', 'h']
  | .loan _ => ['l', 'o', 'a', 'n']
  | .security i => ['s', 'e', 'c', 'u', 'r', 'i', 't', 'y'] ++ [' '] ++ Identity.render 0 i
  | .stock i => ['s', 't', 'o', 'c', 'k'] ++ [' '] ++ Identity.render 0 i
  | .bond i => ['b', 'o', 'n', 'd'] ++ [' '] ++ Identity.render 0 i
  | .lending i => ['s', 'e', 'c', 'u', 'r', 'i', 't', 'i', 'e', 's', ' ', 'l', 'e', 'n', 'd', 'i', 'n', 'g', ' ', 'c', 'o', 'n', 't', 'r', 'a', 'c', 't', ' '] ++ Identity.render 0 i

/-- `std::dynamic_pointer_cast<economics::money>` gives a pointer (property_collection.hpp:104, 112): `cash` derives from `money`. -/
def Property.isMoney : Property → Bool
  | .money _ _ => true
  | .cash _ => true
  | _ => false

/-- property_collection.hpp:106 and 114: a name and a quantity (quantity.hpp:304-308). -/
def entry (e : Property × Nat) : List Char := e.1.name ++ [':', ' '] ++ Nat.toDigits 10 e.2

/-- property_collection.hpp:111-118: the loop over the second and later entries. Line 112 converts the pointer of the entry, but line 113 tests the pointer `m_` of the first entry. -/
def rest (firstIsMoney : Bool) : List (Property × Nat) → List Char
  | [] => []
  | e :: l => (if !firstIsMoney then [',', ' '] ++ entry e else []) ++ rest firstIsMoney l

/-- property_collection.hpp:91-122 `operator <<` of a `property_map`, over the entries in the order of iteration, and `operator <<` of the fungible inventory (inventory.hpp:261-266). -/
def print : List (Property × Nat) → List Char
  | [] => ['{', '}']
  | e :: l => ['{'] ++ (if !e.1.isMoney then entry e else []) ++ rest e.1.isMoney l ++ ['}']

/-- inventory.hpp:368-370: the loop over the items. -/
def uniqueItems : List Property → List Char
  | [] => []
  | p :: l => p.name ++ [',', ' '] ++ uniqueItems l

/-- inventory.hpp:364-373 `operator <<` of the infungible inventory. -/
def printUnique (l : List Property) : List Char := ['{', ' '] ++ uniqueItems l ++ ['}']

/-- inventory.hpp:65-79: the message of `insufficent_inventory`. -/
def shortage (before withdrawal : Nat) (name : List Char) : List Char :=
  ['i', 'n', 's', 'u', 'f', 'f', 'i', 'c', 'i', 'e', 'n', 't', ' ', 'i', 'n', 'v', 'e', 'n', 't', 'o', 'r', 'y', ' ', '('] ++ Nat.toDigits 10 before ++ [')', ' ', 'f', 'o', 'r', ' ', 'w', 'i', 't', 'h', 'd', 'r', 'a', 'w', 'a', 'l', ' ', '('] ++ Nat.toDigits 10 withdrawal ++ [')', ' ', 'o', 'f', ' '] ++ name ++ ['\n']

end Esl.Listing
