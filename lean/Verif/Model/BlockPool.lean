import Verif.Model.Basic
/-!
Model of `esl/computation/block_pool.hpp`, in the release configuration (`DEBUG` not set; the debug code does not compile).
A pointer to a block is its position, `none` is `nullptr`. `begin_` is not modelled: it is only returned by `begin()`, which is marked as
not a valid iterator. `at` (315-330) does not compile and is not modelled.
-/
namespace Esl.Pool

/-- `block_pool.hpp:83-134` `static_block_pool`, with the fields of the blocks (41-69) as functions of the position. -/
structure Pool (α : Type) where
  capacity : Nat
  data : Nat → α
  index : Nat → Nat
  next : Nat → Option Nat
  end_ : Option Nat
  round : Nat
  back : Nat
  highest : Nat
  size : Nat

/-- Assignment to a field of one block. -/
def upd {β : Type} (f : Nat → β) (i : Nat) (v : β) : Nat → β := fun j => if j = i then v else f j

/-- `block_pool.hpp:137-150` constructor: each block points to the next one. A capacity of zero writes outside the vector. `d` is the
default-constructed element. -/
def Pool.make {α : Type} (d : α) (capacity : Nat) : Outcome (Pool α) :=
  if capacity = 0 then .ub
  else .ok { capacity := capacity, data := fun _ => d, index := fun _ => 0,
             next := fun i => if i + 1 < capacity then some (i + 1) else none,
             end_ := some 0, round := 0, back := 0, highest := 0, size := 0 }

/-- `block_pool.hpp:225-235`: `back_` and `round_` after the two tests. -/
def bump (capacity back round offset : Nat) : Nat × Nat :=
  let (b, r) := if back > offset then (offset, u64 (round + 1)) else (u64 (back + 1), round)
  if b > capacity then (0, u64 (r + 1)) else (b, r)

/-- `block_pool.hpp:209-250` `emplace`: the assigned index, the block, and the pool. Reading through a null `end_` is undefined. -/
def Pool.emplace {α : Type} (p : Pool α) (e : α) : Outcome (Nat × Nat × Pool α) :=
  if p.size ≥ p.capacity then .throws
  else match p.end_ with
    | none => .ub
    | some offset =>
      let (b, r) := bump p.capacity p.back p.round offset
      let assigned := u64 (r * p.capacity + offset)
      let r' := if assigned < p.highest then u64 (r + 1) else r
      let assigned := u64 (r' * p.capacity + offset)
      .ok (assigned, offset,
        { p with data := upd p.data offset e, end_ := p.next offset, back := b, round := r',
                 highest := max p.highest (u64 (assigned + 1)), size := p.size + 1 })

/-- What the only user of the pool does with the result: `block_.second->index = block_.first`
(`static_order_book.hpp:534-545`). -/
def Pool.emplaceStored {α : Type} (p : Pool α) (e : α) : Outcome (Nat × Pool α) :=
  p.emplace e >>= fun (i, block, p) => .ok (i, { p with index := upd p.index block i })

/-- `block_pool.hpp:257-296` `erase`: the number of erased elements, and the pool. -/
def Pool.erase {α : Type} (p : Pool α) (i : Nat) : Nat × Pool α :=
  let b := i % p.capacity
  if p.index b ≠ i then (0, p)
  else
    let p := { p with next := upd p.next b p.end_, end_ := some b }
    if p.size = 0 then (0, p) else (1, { p with size := p.size - 1 })

/-- `block_pool.hpp:301-305` `operator []`. -/
def Pool.get {α : Type} (p : Pool α) (i : Nat) : α := p.data (i % p.capacity)

/-- How `operator []` is selected: by whether the pool is accessed as a constant. -/
inductive Access where
  | mutable
  | constant
deriving DecidableEq, Repr

/-- `block_pool.hpp:301-313`: the two overloads of `operator []`, evaluated with at most so many calls; `none` if these do not suffice. The overload for constant pools calls `operator []` on `this`, which is a constant pool. -/
def Pool.read {α : Type} (p : Pool α) (i : Nat) : Access → Nat → Option α
  | _, 0 => none
  | .mutable, _ + 1 => some (p.get i)
  | .constant, n + 1 => Pool.read p i .constant n

end Esl.Pool
