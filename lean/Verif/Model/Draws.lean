import Verif.Model.Seeds
import Verif.Model.Shuffle

/-!
# Random numbers from the seed of a turn

Models the class `seed` that agents in Python get (`python_module_esl.cpp`), in particular `generate`, down to the algorithm of `std::seed_seq::generate` that the C++ standard prescribes
([rand.util.seedseq]). Words are bit vectors of length 32. The attribute `size` and the text of a seed are not modelled.
-/

namespace Esl.Draws

/-- A word, `std::seed_seq::result_type`. -/
abbrev Word := BitVec 32

/-- The function T of the standard. -/
def twist (x : Word) : Word := x ^^^ (x >>> 27)

/-- The members of the algorithm that depend on the number `n` of words to generate: t, and from it p and q. -/
def gap (n : Nat) : Nat := if n ≥ 623 then 11 else if n ≥ 68 then 7 else if n ≥ 39 then 5 else if n ≥ 7 then 3 else (n - 1) / 2

/-- The word at index `i` modulo the size. -/
def at_ (b : List Word) (i : Nat) : Word := b.getD (i % b.length) 0

/-- Assignment to the word at index `i` modulo the size. -/
def put (b : List Word) (i : Nat) (x : Word) : List Word := b.set (i % b.length) x

/-- What is added in step `k` of the first phase: the number of words of the seed, its words, and then nothing; and from the second step on, the index. -/
def extra (v : List Word) (n k : Nat) : Word :=
  if k = 0 then BitVec.ofNat 32 v.length
  else if k ≤ v.length then BitVec.ofNat 32 (k % n) + v.getD (k - 1) 0
  else BitVec.ofNat 32 (k % n)

/-- A step of the first phase. -/
def stir (v : List Word) (b : List Word) (k : Nat) : List Word :=
  let n := b.length
  let p := (n - gap n) / 2
  let q := p + gap n
  let r1 := 1664525#32 * twist (at_ b k ^^^ at_ b (k + p) ^^^ at_ b (k + n - 1))
  let r2 := r1 + extra v n k
  let b := put b (k + p) (at_ b (k + p) + r1)
  let b := put b (k + q) (at_ b (k + q) + r2)
  put b k r2

/-- A step of the second phase. -/
def settle (b : List Word) (k : Nat) : List Word :=
  let n := b.length
  let p := (n - gap n) / 2
  let q := p + gap n
  let r3 := 1566083941#32 * twist (at_ b k + at_ b (k + p) + at_ b (k + n - 1))
  let r4 := r3 - BitVec.ofNat 32 (k % n)
  let b := put b (k + p) (at_ b (k + p) ^^^ r3)
  let b := put b (k + q) (at_ b (k + q) ^^^ r4)
  put b k r4

/-- `std::seed_seq::generate` for `n` words from the seed `v`. -/
def generate (v : List Word) (n : Nat) : List Word :=
  let m := max (v.length + 1) n
  let b := (List.range m).foldl (stir v) (List.replicate n 0x8b8b8b8b#32)
  ((List.range n).map (m + ·)).foldl settle b

/-- python_module_esl.cpp:1549-1553 `generate` of a seed in Python. The seed is left as it is, since `std::seed_seq::generate` is. -/
def call (v : List Word) : Word × List Word := ((generate v 1).getD 0 0, v)

/-- A number of calls of `generate`, one after the other. -/
def calls : Nat → List Word → List Word
  | 0, _ => []
  | n + 1, v => (call v).1 :: calls n (call v).2

/-- python_module_esl.cpp:55-63 `construct_seed_seq_from_list`. Numbers that are no 32-bit words are an `OverflowError` in Python. -/
def construct : List Int → Outcome (List Word)
  | [] => .ok []
  | i :: l => if 0 ≤ i ∧ i < 2 ^ 32 then construct l >>= fun v => .ok (BitVec.ofNat 32 i.toNat :: v) else .throws

/-- The seed of a turn (model.cpp:123-126, `Seeds.turnSeed`), as words. -/
def turnWords (combine : Nat → Nat → Nat) (sample : Nat) (identity : List Nat) (time round : Nat) : List Word :=
  (Seeds.turnSeed combine sample identity time round).map (BitVec.ofNat 32)

/-- The random number that `seed.generate()` gives in a turn of an agent (python_module_esl.cpp:331, 1549-1553). -/
def drawn (combine : Nat → Nat → Nat) (sample : Nat) (identity : List Nat) (time round : Nat) : Word :=
  (call (turnWords combine sample identity time round)).1

/-- The seeding of `std::minstd_rand` with a sequence (communicator.cpp:129): the last of four words, as the standard prescribes for a modulus of 31 bits. -/
def wordOf (v : List Word) : Nat := ((generate v 4).getD 3 0).toNat

end Esl.Draws
