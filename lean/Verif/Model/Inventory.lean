import Verif.Model.Basic
/-!
# Model of `esl/economics/accounting/inventory.hpp` and `esl/economics/owner.hpp`

Properties are identified by their identifier (law/property_collection.hpp:42-66: hash and equality of
the maps use the identifier only); here a property is a natural number.
-/
namespace Esl.Inventory

abbrev Key := Nat

/-- `law::property_map<quantity>` and `inventory_by_fungibility<_, true>::items`: a finite map from
property to amount. Simplification: represented by its lookup function; the iteration order of the
unordered map is made explicit wherever a map is iterated, by iterating over a list. -/
abbrev Inv := Key → Option Nat

/-- The empty map. -/
def Inv.empty : Inv := fun _ => none

/-- Assign one entry. -/
def Inv.set (m : Inv) (k : Key) (v : Option Nat) : Inv := fun j => if j = k then v else m j

/-- A bundle being iterated: the entries of a map, in the (arbitrary) iteration order. -/
abbrev Bundle := List (Key × Nat)

/-- `insert_into` of the fungible inventory (inventory.hpp:227-237): add every entry of the bundle to `m`
(`quantity +=` wraps modulo 2^64). -/
def insertInto : Bundle → Inv → Inv
  | [], m => m
  | (k, v) :: b, m =>
    match m k with
    | none => insertInto b (m.set k (some v))
    | some a => insertInto b (m.set k (some (u64 (a + v))))

/-- `erase_from` of the fungible inventory (inventory.hpp:240-259). The result is the map afterwards and
whether an exception was thrown; on an exception the entries handled before remain erased. -/
def eraseFrom : Bundle → Inv → Inv × Bool
  | [], m => (m, false)
  | (k, v) :: b, m =>
    if v = 0 then eraseFrom b m
    else match m k with
      | none => (m, true)
      | some a =>
        if a < v then (m, true)
        else if a = v then eraseFrom b (m.set k none)
        else eraseFrom b (m.set k (some (a - v)))

/-- `insert(item, q)` of the fungible inventory (inventory.hpp:187-195). -/
def insertItem (m : Inv) (k : Key) (q : Nat) : Inv :=
  match m k with
  | none => m.set k (some q)
  | some a => m.set k (some (u64 (a + q)))

/-- `erase(item, q)` of the fungible inventory (inventory.hpp:204-217). For a missing item and `q = 0`
the end iterator is dereferenced. An entry that reaches zero is kept. -/
def eraseItem (m : Inv) (k : Key) (q : Nat) : Outcome Inv :=
  match m k with
  | none => if q > 0 then .throws else .ub
  | some a => if a < q then .throws else .ok (m.set k (some (a - q)))

/-- `interaction::transfer` (transfer.hpp:52-68): transferor, transferee, transferred items. -/
structure Transfer where
  transferor : Nat
  transferee : Nat
  items : Bundle
deriving DecidableEq, Repr

/-- The transfer callback of `owner<property>` (owner.hpp:68-96) for the owner with identifier `self`.
Result: inventory afterwards, exception flag. -/
def baseCallback (self : Nat) (m : Inv) (t : Transfer) : Inv × Bool :=
  if t.transferor = t.transferee then (m, false)
  else if self = t.transferor then eraseFrom t.items m
  else if self = t.transferee then (insertInto t.items m, false)
  else (m, false)

/-- Loop of the typed callback for the transferor (owner.hpp:202-219). `isT k` says whether the dynamic
cast to the property type succeeds. -/
def typedErase (isT : Key → Bool) : Bundle → Inv → Outcome Inv
  | [], m => .ok m
  | (k, q) :: b, m =>
    if isT k then
      match eraseItem m k q with
      | .ok m' => typedErase isT b m'
      | .throws => .throws
      | .ub => .ub
    else typedErase isT b m

/-- Loop of the typed callback for the transferee (owner.hpp:222-233). -/
def typedInsert (isT : Key → Bool) : Bundle → Inv → Inv
  | [], m => m
  | (k, q) :: b, m => typedInsert isT b (if isT k then insertItem m k q else m)

/-- The transfer callback of `owner<property_t_>` (owner.hpp:188-249) for a fungible property type: there
is no test for transfers to oneself. -/
def typedCallback (isT : Key → Bool) (self : Nat) (m : Inv) (t : Transfer) : Outcome Inv :=
  if self = t.transferor then typedErase isT t.items m
  else if self = t.transferee then .ok (typedInsert isT t.items m)
  else .ok m

/-- An `owner<T>` for fungible `T`: the inventory of the base class and the typed holdings. -/
structure Owner where
  inventory : Inv
  properties : Inv

/-- Processing one transfer message: both callbacks have priority 50 and run in the order typed, base
(communicator.cpp:60-76 iterates the callbacks in reverse). -/
def Owner.process (isT : Key → Bool) (self : Nat) (o : Owner) (t : Transfer) : Outcome Owner :=
  match typedCallback isT self o.properties t with
  | .ok p =>
    match baseCallback self o.inventory t with
    | (i, false) => .ok ⟨i, p⟩
    | (_, true) => .throws
  | .throws => .throws
  | .ub => .ub

/-- `take(property, amount)` (owner.hpp:252-257): the typed holdings accumulate, whereas
`inventory.insert(make_pair(..))` of `std::unordered_map` does nothing if there already is an entry. -/
def Owner.take (o : Owner) (k : Key) (q : Nat) : Owner :=
  ⟨match o.inventory k with
    | none => o.inventory.set k (some q)
    | some _ => o.inventory,
   insertItem o.properties k q⟩

end Esl.Inventory
