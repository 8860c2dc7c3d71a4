import Verif.Model.Basic
/-!
# Model of the lists of activated and deactivated agents of `esl/computation/environment.cpp` at the level of memory

`activate` and `deactivate` append to the vector that they iterate over. By the letter of the language the loops are undefined as soon as the vector is not empty (see `Sched.activate`). This model is closer to
what a machine does: a vector has a buffer with a capacity, appending beyond the capacity moves it to a new buffer and frees the old one, and reading through a pointer into the old buffer is undefined.
-/
namespace Esl.Announce

/-- `std::vector<identity<agent>>`: its elements, and the capacity of its buffer (environment.hpp:54-70). -/
structure Vec where
  elements : List Nat
  capacity : Nat
deriving DecidableEq, Repr

/-- A vector of a new environment (environment.cpp:51-54). -/
def Vec.new : Vec := ⟨[], 0⟩

/-- `push_back`, as in `activate_agent` and `deactivate_agent` (environment.cpp:173-184): the vector afterwards and whether the buffer was replaced. `grow` gives the new capacity of a full buffer. -/
def Vec.push (grow : Nat → Nat) (v : Vec) (x : Nat) : Vec × Bool :=
  if v.elements.length < v.capacity then (⟨v.elements ++ [x], v.capacity⟩, false) else (⟨v.elements ++ [x], grow v.capacity⟩, true)

/-- Announcing agents one after another (agent_collection.cpp:40-52 calls environment.cpp:173-184). -/
def Vec.announce (grow : Nat → Nat) (v : Vec) (l : List Nat) : Vec := l.foldl (fun v x => (v.push grow x).1) v

/-- The loop of `activate` and `deactivate` (environment.cpp:63-66, 77-80): `n` elements when it started, `done` of them handled, and whether the buffer that its iterators point into still exists. Handling an
element reads it through the iterator and appends it. -/
def loop (grow : Nat → Nat) (n : Nat) : (rest : Nat) → (valid : Bool) → Vec → Outcome (Vec × Nat)
  | 0, _, v => .ok (v, n)
  | rest + 1, valid, v =>
    if valid then
      match v.push grow (v.elements.getD (n - (rest + 1)) 0) with
      | (v', moved) => loop grow n rest (!moved) v'
    else .ub

/-- `environment::activate` (environment.cpp:60-69): the vector afterwards, which `clear` leaves with its capacity, and the number of agents. -/
def activate (grow : Nat → Nat) (v : Vec) : Outcome (Vec × Nat) :=
  match loop grow v.elements.length v.elements.length true v with
  | .ok (v', n) => .ok (⟨[], v'.capacity⟩, n)
  | .throws => .throws
  | .ub => .ub

/-- `environment::deactivate` (environment.cpp:74-82): the vector is not cleared. -/
def deactivate (grow : Nat → Nat) (v : Vec) : Outcome (Vec × Nat) := loop grow v.elements.length v.elements.length true v

/-- Calling `deactivate` once in each of several steps (environment.cpp:188-198, 221-225): the vector afterwards and the numbers returned. -/
def deactivations (grow : Nat → Nat) : Nat → Vec → Outcome (Vec × List Nat)
  | 0, v => .ok (v, [])
  | k + 1, v =>
    match deactivate grow v with
    | .ok (v', n) =>
      match deactivations grow k v' with
      | .ok (w, ns) => .ok (w, n :: ns)
      | .throws => .throws
      | .ub => .ub
    | .throws => .throws
    | .ub => .ub

end Esl.Announce
