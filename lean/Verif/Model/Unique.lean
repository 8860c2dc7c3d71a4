import Verif.Model.Inventory
/-!
# Model of owners of unique (infungible) property: `esl/economics/owner.hpp`, `inventory_by_fungibility<_, false>` and the containers of `inventory.hpp` as a whole

An `owner<T>` for a type `T` of property that is not fungible keeps, next to the inventory of the base class, a set of the items of type `T` that it owns.
-/
namespace Esl.Unique
open Inventory

/-- `law::property_filter_set<property_t_>` (law/property_collection.hpp:124-130): which items are in the set. -/
abbrev Items := Key → Bool

/-- `insert(value)` of the infungible inventory (inventory.hpp:294-297): `std::unordered_set::insert`. -/
def insert (s : Items) (k : Key) : Items := fun j => if j = k then true else s j

/-- `erase(value)` of the infungible inventory (inventory.hpp:307-310): `std::unordered_set::erase` by key, which does nothing if there is no such item. -/
def erase (s : Items) (k : Key) : Items := fun j => if j = k then false else s j

/-- `insert(values)` of the infungible inventory (inventory.hpp:302-305): every element of the other set. Simplification: the set that is inserted is a list of its elements. -/
def insertSet (s : Items) (l : List Key) : Items := l.foldl insert s

/-- `erase(values)` of the infungible inventory (inventory.hpp:315-318): `items.erase(values.begin(), values.end())` erases a range of `items` that is given by iterators into another set, which is undefined
unless the range is empty. -/
def eraseSet (s : Items) (l : List Key) : Outcome Items := if l = [] then .ok s else .ub

/-- `insert_into` of the infungible inventory (inventory.hpp:320-330), over the items in iteration order: the map afterwards and whether `duplicate_infungible` was thrown. -/
def insertSetInto : List Key → Inv → Inv × Bool
  | [], m => (m, false)
  | k :: l, m =>
    match m k with
    | none => insertSetInto l (m.set k (some 1))
    | some _ => (m, true)

/-- Loop of the typed callback for the transferor (owner.hpp:202-219) with `filter_inserter<false, _>::erase` (owner.hpp:137-146). The quantity is only looked at by an assertion, which is not
compiled in a release build. -/
def typedErase (isT : Key → Bool) : Bundle → Items → Items
  | [], s => s
  | (k, _) :: b, s => typedErase isT b (if isT k then erase s k else s)

/-- Loop of the typed callback for the transferee (owner.hpp:222-233) with `filter_inserter<false, _>::insert` (owner.hpp:126-135). -/
def typedInsert (isT : Key → Bool) : Bundle → Items → Items
  | [], s => s
  | (k, _) :: b, s => typedInsert isT b (if isT k then insert s k else s)

/-- The transfer callback of `owner<property_t_>` (owner.hpp:195-238) for a property type that is not fungible. There is no test for transfers to oneself. -/
def typedCallback (isT : Key → Bool) (self : Nat) (s : Items) (t : Transfer) : Items :=
  if self = t.transferor then typedErase isT t.items s
  else if self = t.transferee then typedInsert isT t.items s
  else s

/-- An `owner<T>` (owner.hpp:171-186) for infungible `T`: the inventory of the base class and the set of unique items. -/
structure Owner where
  inventory : Inv
  items : Items

/-- Processing one transfer message (owner.hpp:68-102, 195-248): the typed callback, then the one of the base class (communicator.cpp:60-76 iterates the callbacks of equal priority in reverse). An exception
of the base class leaves the typed set changed; the run ends there, so that the state is not modelled. -/
def Owner.process (isT : Key → Bool) (self : Nat) (o : Owner) (t : Transfer) : Outcome Owner :=
  match baseCallback self o.inventory t with
  | (i, false) => .ok ⟨i, typedCallback isT self o.items t⟩
  | (_, true) => .throws

/-- The owners of a model and the transfers that were processed by their transferor and not yet by their transferee. -/
structure World where
  owners : Nat → Owner
  pending : List Transfer

/-- Update of one owner. -/
def World.set (w : World) (o : Nat) (x : Owner) : World := ⟨fun p => if p = o then x else w.owners p, w.pending⟩

/-- One event of a run: the transferor or the transferee processes its copy of a transfer message (owner.hpp:68-102, 195-248). -/
inductive Event
  | give (t : Transfer)
  | get (t : Transfer)
deriving DecidableEq

/-- The effect of an event (owner.hpp:68-102, 195-248). A transferee only gets a transfer that was given before and only once (each message is delivered once, C08). -/
def step (isT : Key → Bool) (w : World) : Event → Outcome World
  | .give t =>
    match (w.owners t.transferor).process isT t.transferor t with
    | .ok x => .ok ⟨(w.set t.transferor x).owners, t :: w.pending⟩
    | .throws => .throws
    | .ub => .ub
  | .get t =>
    if t ∈ w.pending then
      match (w.owners t.transferee).process isT t.transferee t with
      | .ok x => .ok ⟨(w.set t.transferee x).owners, w.pending.erase t⟩
      | .throws => .throws
      | .ub => .ub
    else .throws

/-- A run of events (owner.hpp:68-102, 195-248). -/
def run (isT : Key → Bool) (w : World) : List Event → Outcome World
  | [] => .ok w
  | e :: es =>
    match step isT w e with
    | .ok w' => run isT w' es
    | .throws => .throws
    | .ub => .ub

/-- `insert(added)` of the fungible inventory (inventory.hpp:197-202), the other inventory in its iteration order. -/
def insertAll : Bundle → Inv → Inv
  | [], m => m
  | (k, v) :: b, m => insertAll b (insertItem m k v)

/-- What happened to a call that changes its object as it goes. -/
inductive Status
  | done
  | thrown
  | undefined
deriving DecidableEq, Repr

/-- `erase(removed)` of the fungible inventory (inventory.hpp:219-224): the items that were erased before an exception stay erased. -/
def eraseAll : Bundle → Inv → Inv × Status
  | [], m => (m, .done)
  | (k, v) :: b, m =>
    match eraseItem m k v with
    | .ok m' => eraseAll b m'
    | .throws => (m, .thrown)
    | .ub => (m, .undefined)

end Esl.Unique
