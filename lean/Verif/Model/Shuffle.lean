import Verif.Model.Communicator
/-!
The random order of messages with equal priority: `std::shuffle` with a generator of type `std::minstd_rand` that is made from the seed of the turn (`esl/interaction/communicator.cpp`).
-/
namespace Esl.Shuffle
open Esl.Comm

/-- `std::minstd_rand`: the modulus of the linear congruential generator. -/
def modulus : Nat := 2147483647

/-- `std::minstd_rand`: the multiplier; the increment is zero. -/
def multiplier : Nat := 48271

/-- `std::minstd_rand::operator()`: the next state, which is also the number drawn. -/
def next (state : Nat) : Nat := state * multiplier % modulus

/-- `std::minstd_rand(std::seed_seq &)`: the state of a new generator. `word` is the fourth of the four numbers that the seed generates; a remainder of zero is replaced by one. -/
def start (word : Nat) : Nat := if word % modulus = 0 then 1 else word % modulus

/-- What depends on the standard library: `word`, the fourth of four numbers that `std::seed_seq::generate` makes of the words of a seed, and `arrange`, the order into which `std::shuffle` brings `n` positions with a
generator in a given state. `std::shuffle` does not look at the elements. -/
structure Library where
  word : List Nat → Nat
  arrange : Nat → Nat → List Nat

/-- `std::shuffle` returns each element once. -/
def Library.Lawful (lib : Library) : Prop := ∀ state n, (lib.arrange state n).Perm (List.range n)

/-- communicator.cpp:128-131 for the schedule `random`: a generator is made from the seed of the turn for each group of messages with equal priority, and shuffles the group. -/
def shuffle (lib : Library) (seed : List Nat) (l : List Msg) : List Msg :=
  (lib.arrange (start (lib.word seed)) l.length).filterMap fun i => l[i]?

/-- communicator.cpp:87-140 `process_messages` with the schedule `random` and the seed of the turn. -/
def processMessages {σ : Type} (lib : Library) (seed : List Nat) (hs : Nat → Handlers σ) (step : Step) (inbox : Inbox) (r : Run σ) : Run σ × Nat :=
  Comm.processMessages hs (shuffle lib seed) step inbox r

end Esl.Shuffle
