import Verif.Model.Hashing
import Verif.Model.Scheduler
/-!
The seeds of random numbers: the `std::seed_seq` that `model::step` (`esl/simulation/model.cpp`) hands to the callbacks and to `act` of an agent.
-/
namespace Esl.Seeds

/-- The constructor of `std::seed_seq` from numbers: each is kept modulo 2^32. Two sequences are the same source of random numbers if they have the same words: `generate` changes nothing. -/
def words (l : List Nat) : List Nat := l.map (· % 2 ^ 32)

/-- model.cpp:123-126: the seed of a turn of an agent, made of the hash of its identity, the beginning of the step, the round and the sample. -/
def turnSeed (combine : Nat → Nat → Nat) (sample : Nat) (identity : List Nat) (time round : Nat) : List Nat :=
  words [Hashing.identityHash combine identity, time, round, sample]

/-- The seed of a turn in a run; `identity` are the identities of the numbered agents. -/
def seedOf (combine : Nat → Nat → Nat) (sample : Nat) (identity : Nat → List Nat) (e : Sched.Event) : List Nat := turnSeed combine sample (identity e.agent) e.time e.round

/-- The factor of `boost::hash_combine` for 64 bits, in the versions 1.56 to 1.80 of the library (`boost/container_hash/hash.hpp`, `hash_combine_impl`), used in identity.hpp:483. -/
def factor : Nat := 0xc6a4a7935bd1e995

/-- The same, what it does to the value that is combined. -/
def mixed (k : Nat) : Nat :=
  let x := u64 (k * factor)
  u64 ((x ^^^ (x >>> 47)) * factor)

/-- The same, `hash_combine` itself. -/
def combine64 (h k : Nat) : Nat := u64 (u64 ((h ^^^ mixed k) * factor) + 0xe6546b64)

end Esl.Seeds
