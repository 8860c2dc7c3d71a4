/-!
Common vocabulary of the models: outcomes of C++ code and machine arithmetic.
-/
namespace Esl

/-- The outcome of running a piece of C++ code: a value, an exception, or undefined behaviour. -/
inductive Outcome (α : Type) where
  | ok (a : α)
  | throws
  | ub
deriving DecidableEq, Repr

namespace Outcome

/-- Sequencing: exceptions and undefined behaviour propagate. -/
def bind {α β : Type} : Outcome α → (α → Outcome β) → Outcome β
  | ok a, f => f a
  | throws, _ => throws
  | ub, _ => ub

instance : Monad Outcome where
  pure := ok
  bind := bind

@[simp] theorem bind_ok {α β : Type} (a : α) (f : α → Outcome β) : (ok a >>= f) = f a := rfl
@[simp] theorem bind_throws {α β : Type} (f : α → Outcome β) : (throws >>= f) = throws := rfl
@[simp] theorem bind_ub {α β : Type} (f : α → Outcome β) : (ub >>= f) = ub := rfl
@[simp] theorem pure_eq {α : Type} (a : α) : (pure a : Outcome α) = ok a := rfl

theorem bind_eq_ok {α β : Type} {x : Outcome α} {f : α → Outcome β} {b : β} :
    (x >>= f) = ok b ↔ ∃ a, x = ok a ∧ f a = ok b := by
  cases x <;> simp

end Outcome

/-- Reduction of an integer to `std::uint64_t`. -/
def u64 (n : Nat) : Nat := n % 2 ^ 64

theorem u64_lt (n : Nat) : u64 n < 2 ^ 64 := Nat.mod_lt _ (by decide)

/-- Reduction of an integer to `std::int64_t` by wrapping (two's complement; used for conversions
`static_cast<int64_t>` of unsigned values). -/
def wrapI64 (z : Int) : Int := Int.bmod z (2 ^ 64)

/-- The range of `std::int64_t`. -/
def InI64 (z : Int) : Prop := -(2 ^ 63) ≤ z ∧ z < 2 ^ 63

instance (z : Int) : Decidable (InI64 z) := by unfold InI64; infer_instance

theorem wrapI64_of_in {z : Int} (h : InI64 z) : wrapI64 z = z := by
  unfold wrapI64 InI64 at *
  rw [Int.bmod_eq_of_le] <;> omega

theorem wrapI64_emod (z : Int) : wrapI64 (z % 2 ^ 64) = wrapI64 z := by
  unfold wrapI64
  have h := Int.emod_bmod (x := z) (n := 18446744073709551616)
  exact h

end Esl
