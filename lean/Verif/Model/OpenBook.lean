import Verif.Model.Basic
/-!
A model of `esl/data/format/openbook.hpp`, on a little-endian machine. A file and a buffer are lists of bytes, numbers below 256; a `char` is its byte.
-/
namespace Esl.OpenBook

abbrev Buffer := List Nat

/-- `openbook.hpp:53` `std::swap(*s, *e)`. -/
def swapAt (b : Buffer) (s e : Nat) : Outcome Buffer :=
  match b[s]?, b[e]? with
  | some x, some y => .ok ((b.set s y).set e x)
  | _, _ => .ub

/-- `openbook.hpp:52-54`: the loop; `fuel` bounds the number of iterations. -/
def swapLoop : Nat → Nat → Nat → Buffer → Outcome Buffer
  | 0, _, _, b => .ok b
  | fuel + 1, s, e, b => if s < e then swapAt b s e >>= fun b => swapLoop fuel (s + 1) (e - 1) b else .ok b

/-- `openbook.hpp:45-58` `convert_endian_aware`: what it does to the buffer, for a type of `size` bytes (two or four). -/
def convert (b : Buffer) (position size : Nat) : Outcome Buffer := swapLoop size position (position + size - 1) b

/-- The number at the address, as a little-endian machine reads it: the value that a reference obtained at `openbook.hpp:57` has. -/
def littleEndian : List Nat → Nat
  | [] => 0
  | b :: bs => b + 256 * littleEndian bs

def read (b : Buffer) (position size : Nat) : Nat := littleEndian ((b.drop position).take size)

inductive Side
  | buy
  | sell
  deriving DecidableEq, Repr

/-- The arguments of the callback, `openbook.hpp:301-303`. The quote is a price in cents of US dollars for a lot. -/
structure Event where
  symbol : List Nat
  status : Nat
  reason : Nat
  time : Nat
  cents : Nat
  lot : Nat
  quantity : Nat
  side : Side
  deriving DecidableEq, Repr

/-- The characters that `boost::trim_right` removes (in the default locale). -/
def isSpace (c : Nat) : Bool := c = 32 || (9 ≤ c && c ≤ 13)

/-- `boost::trim_right`, used in `openbook.hpp:154`. -/
def trimRight (s : List Nat) : List Nat := (s.reverse.dropWhile isSpace).reverse

/-- `openbook.hpp:297-299`: the lot, made from a floating-point number; and `quote.hpp:100-107`, which does not accept zero. Powers of ten up to 10^22 are exact in floating-point numbers, and so is their division by
one hundred; others are out of range for a lot. -/
def lotOf (scale : Nat) : Outcome Nat :=
  if 2 ^ 32 ≤ 10 ^ scale / 100 then .ub else if 10 ^ scale / 100 = 0 then .throws else .ok (10 ^ scale / 100)

/-- `openbook.hpp:109-303`: one message. References into the buffer are read when they are used, at the end. The multiplication and addition at 295 are those of `std::uint32_t`. -/
def readMessage (b : Buffer) : Outcome (Option Event) :=
  convert b 4 2 >>= fun b =>
  if read b 4 2 ≠ 230 ∧ read b 4 2 ≠ 231 then .ok none
  else
    let symbol := trimRight ((b.drop 10).take 11)
    convert b 27 4 >>= fun b =>
    convert b 31 2 >>= fun b =>
    convert b 41 4 >>= fun b =>
    convert b 49 4 >>= fun b =>
    match b[34]?, b[40]?, b[55]?, b[57]? with
    | some status, some scale, some side, some reason =>
      let time := (read b 27 4 * 1000 % 2 ^ 32 + read b 31 2) % 2 ^ 32
      lotOf scale >>= fun lot =>
      .ok (some { symbol := symbol, status := status, reason := reason, time := time, cents := read b 41 4, lot := lot, quantity := read b 49 4, side := if side = 66 then .buy else .sell })
    | _, _, _, _ => .ub

/-- `openbook.hpp:108-316`: the loop over the messages, with `events` messages left: the calls of the callback. -/
def readLoop : Nat → List Nat → Outcome (List Event)
  | 0, _ => .ok []
  | events + 1, file =>
    readMessage (file.take 71) >>= fun e =>
    readLoop events (file.drop 71) >>= fun es =>
    .ok (e.toList ++ es)

/-- `openbook.hpp:65-317` `read_openbook`; a file that does not exist has no bytes. -/
def readOpenbook (file : List Nat) : Outcome (List Event) := readLoop (file.length / 71) file

/-- `openbook.hpp:334-347`: the callback of `parse_main_session`; `O` is 79 and `C` is 67. -/
def keep (filter : List Nat) (session : List Event) (e : Event) : List Event :=
  if e.status ≠ 79 then session
  else if e.reason ≠ 79 ∧ e.reason ≠ 67 then session
  else if filter ≠ e.symbol then session
  else session ++ [e]

/-- `openbook.hpp:324-351` `parse_main_session`. -/
def mainSession (file : List Nat) (filter : List Nat) : Outcome (List Event) :=
  readOpenbook file >>= fun events => .ok (events.foldl (keep filter) [])

end Esl.OpenBook
