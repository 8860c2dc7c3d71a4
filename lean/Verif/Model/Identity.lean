/-!
# Model of `esl/simulation/identity.hpp`, `esl/simulation/entity.hpp`, `esl/agent.cpp` (copy constructor)

An identity is its vector of digits (`std::uint64_t`). Digits are natural numbers here; the bound
`2^64` only matters for the child counter, where the wrap-around is modelled explicitly.
-/
namespace Esl.Identity

/-- `identity::digits` (identity.hpp:94-100). Simplification: the phantom type parameter is dropped,
as every comparison in the code is allowed between identities of different type parameters. -/
abbrev Ident := List Nat

/-- `operator==` (identity.hpp:202-210): `std::equal` on the digit ranges. -/
def eq : Ident → Ident → Bool
  | [], [] => true
  | [], _ :: _ => false
  | _ :: _, [] => false
  | a :: as, b :: bs => if a == b then eq as bs else false

/-- `operator!=` (identity.hpp:215-220). -/
def ne (a b : Ident) : Bool := !(eq a b)

/-- `std::lexicographical_compare` on the digit ranges, as used by identity.hpp:228-236. -/
def lexCompare : Ident → Ident → Bool
  | _, [] => false
  | [], _ :: _ => true
  | a :: as, b :: bs => if a < b then true else if b < a then false else lexCompare as bs

/-- `operator<` (identity.hpp:228-236). -/
def lt (a b : Ident) : Bool := lexCompare a b

/-- `operator<=` (identity.hpp:243-248). -/
def le (a b : Ident) : Bool := lt a b || eq a b

/-- `operator>` (identity.hpp:255-263). -/
def gt (a b : Ident) : Bool := lexCompare b a

/-- `operator>=` (identity.hpp:269-274). -/
def ge (a b : Ident) : Bool := gt a b || eq a b

/-- `stream << std::setfill('0') << std::setw(w) << digit`: decimal digits, left-padded with '0' to
width `w` (identity.hpp:300-306). -/
def renderDigit (w : Nat) (d : Nat) : List Char :=
  List.replicate (w - (Nat.toDigits 10 d).length) '0' ++ Nat.toDigits 10 d

/-- The loop over the digits after the first (identity.hpp:303-307). -/
def renderRest (w : Nat) : List Nat → List Char
  | [] => []
  | d :: ds => '-' :: (renderDigit w d ++ renderRest w ds)

/-- `operator<<` and `representation(width)` (identity.hpp:292-325); an empty identity prints
nothing. The assertion `0 ≤ width ≤ 20` is a precondition on `w`. -/
def render (w : Nat) : Ident → List Char
  | [] => []
  | d :: ds => '"' :: (renderDigit w d ++ renderRest w ds ++ ['"'])

/-- An entity: its identifier and its child counter `children_` (entity.hpp:63-105; the counter
starts at zero in every constructor that takes an identity). -/
structure Entity where
  identifier : Ident
  children : Nat
deriving DecidableEq, Repr

/-- Constructor `entity(identity)` (entity.hpp:100-105). -/
def Entity.fresh (i : Ident) : Entity := ⟨i, 0⟩

/-- `entity::create` (entity.hpp:120-128) and `identity::create` (identity.hpp:332-341): the new
identifier is the parent's digits followed by the counter, which is then incremented modulo 2^64. -/
def Entity.create (e : Entity) : Ident × Entity :=
  (e.identifier ++ [e.children], { e with children := (e.children + 1) % 2 ^ 64 })

/-- Copy constructor of `entity` (entity.hpp:144-148): copies the counter. -/
def Entity.copyEntity (e : Entity) : Entity := ⟨e.identifier, e.children⟩

/-- Copy constructor of `agent` (agent.cpp:44-50): calls `entity(o.identifier)`, so that the counter
of the copy starts at zero. -/
def Entity.copyAgent (e : Entity) : Entity := Entity.fresh e.identifier

/-- A population of entities (in order of construction) and all identifiers handed out so far. -/
structure World where
  entities : List Entity
  issued : List Ident
deriving DecidableEq, Repr

/-- One root entity with identifier `r`, nothing created yet. -/
def World.init (r : Ident) : World := ⟨[Entity.fresh r], [r]⟩

/-- Operations of a user of the library on the population: call `create` on the `i`-th entity and
construct a new entity from the result; copy the `i`-th entity with either copy constructor. -/
inductive Op where
  | create (i : Nat)
  | copyEntity (i : Nat)
  | copyAgent (i : Nat)
deriving DecidableEq, Repr

/-- Effect of one operation. Operations on an index without an entity do nothing (no such object
exists in the program). -/
def World.step (w : World) : Op → World
  | .create i =>
    match w.entities[i]? with
    | none => w
    | some e =>
      let (child, e') := e.create
      ⟨w.entities.set i e' ++ [Entity.fresh child], w.issued ++ [child]⟩
  | .copyEntity i =>
    match w.entities[i]? with
    | none => w
    | some e => { w with entities := w.entities ++ [e.copyEntity] }
  | .copyAgent i =>
    match w.entities[i]? with
    | none => w
    | some e => { w with entities := w.entities ++ [e.copyAgent] }

/-- A history of operations. -/
def World.run (w : World) (ops : List Op) : World := ops.foldl World.step w

end Esl.Identity
