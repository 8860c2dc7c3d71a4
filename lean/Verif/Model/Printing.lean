import Verif.Model.Identity
import Verif.Model.PriceArithmetic
import Verif.Model.Double
import Mathlib.Data.Nat.Log
/-!
How prices, quotes and execution reports are written to a stream: `operator <<` of `iso_4217.hpp`, `price.hpp`, `markets/quote.hpp`, `markets/order_book/execution_report.hpp`, `order.hpp` and `simulation/identity.hpp`.
-/
namespace Esl.Printing
open Double Price

/-- The parts of a `std::ostream` that the code uses: the text so far, whether `std::fixed` is set, the precision, the fill character and the width of the next formatted output. Simplification: text is aligned to the right, as by default, and the locale is the classic one. -/
structure Stream where
  text : List Char
  fixed : Bool
  precision : Nat
  fill : Char
  width : Nat
deriving DecidableEq, Repr

/-- A new `std::stringstream`. -/
def Stream.fresh : Stream := ⟨[], false, 6, ' ', 0⟩

/-- Unformatted output, `o.write(…)`. -/
def Stream.write (s : Stream) (t : List Char) : Stream := { s with text := s.text ++ t }

/-- Formatted output of a text: padded to the width, which is reset. -/
def Stream.put (s : Stream) (t : List Char) : Stream :=
  { s with text := s.text ++ List.replicate (s.width - t.length) s.fill ++ t, width := 0 }

/-- A number in fixed notation with `p` digits behind the point: the exact value of the `double`, rounded to the nearest, ties to even. -/
def fixedText (p : Nat) (q : Rat) : List Char :=
  let n := nearestEven (q.num.natAbs * 10 ^ p) q.den
  (if q < 0 then ['-'] else []) ++ Nat.toDigits 10 (n / 10 ^ p) ++
    (if p = 0 then [] else '.' :: Identity.renderDigit p (n % 10 ^ p))

/-- Removes zeros from the end. -/
def dropZeros (l : List Char) : List Char := (l.reverse.dropWhile (· == '0')).reverse

/-- The `d` digits of a number with the point behind the first `d - k` ones, without zeros at the end of the fraction, and without the point if there is no fraction. -/
def shortText (n k : Nat) : List Char :=
  let f := dropZeros (Identity.renderDigit k (n % 10 ^ k))
  Nat.toDigits 10 (n / 10 ^ k) ++ (if k = 0 ∨ f = [] then [] else '.' :: f)

/-- A number in the default notation, that of `%g`: `p` significant digits, rounded to the nearest, ties to even, with an exponent if it is less than -4 or not less than `p`. -/
def generalText (p : Nat) (q : Rat) : List Char :=
  if q = 0 then ['0'] else
  let p := max p 1
  let a := if q < 0 then -q else q
  let e : Int := if 1 ≤ a then (Nat.log 10 a.floor.natAbs : Nat) else -(Nat.clog 10 a⁻¹.ceil.natAbs : Nat)
  let m := a * (10 : Rat) ^ ((p : Int) - 1 - e)
  let n := nearestEven m.num.natAbs m.den
  let (n, e) := if n = 10 ^ p then (10 ^ (p - 1), e + 1) else (n, e)
  (if q < 0 then ['-'] else []) ++
    if -4 ≤ e ∧ e < p then
      shortText n ((p : Int) - 1 - e).toNat
    else shortText n (p - 1) ++ ['e', if e < 0 then '-' else '+'] ++ Identity.renderDigit 2 e.natAbs

/-- `o << x` for a `double`: in fixed notation after `std::fixed`, otherwise in the default one. -/
def Stream.double (s : Stream) (x : Rat) : Stream :=
  s.put (if s.fixed then fixedText s.precision x else generalText s.precision x)

/-- The three characters of a currency. -/
def code (c : Currency) : List Char := [Char.ofNat c.c0, Char.ofNat c.c1, Char.ofNat c.c2]

/-- `iso_4217.hpp:173-177` `operator <<` of a currency: unformatted output of the code. -/
def Stream.currency (s : Stream) (c : Currency) : Stream := s.write (code c)

/-- `iso_4217.hpp:127-130` conversion to a string. -/
def currencyString (c : Currency) : List Char := code c

/-- `iso_4217.hpp:132-137` `format`. -/
def format (c : Currency) (quantity : Nat) : List Char :=
  code c ++ [' '] ++ Nat.toDigits 10 quantity ++ ['/'] ++ Nat.toDigits 10 c.denominator

/-- `price.hpp:299`: `ceil(log10(double(denominator)))`, exact. -/
def digitsOf (c : Currency) : Nat := Nat.clog 10 c.denominator

/-- `price.hpp:292-310` `operator <<` of a price. The flags are saved (line 294) and restored (line 303); the precision is not one of them. -/
def Stream.price (s : Stream) (p : P) : Stream :=
  let flags := s.fixed
  let s := s.currency p.valuation
  let s := s.put ['(']
  let s := { s with fixed := true }
  let s := { s with precision := digitsOf p.valuation }
  let s := s.double (Arith.toDouble binary64 p)
  let s := s.put [')']
  { s with fixed := flags }

/-- `quote.hpp:397-406` `operator <<` of a quote. -/
def Stream.quote (s : Stream) (q : Quote) : Stream :=
  let s := s.put (Nat.toDigits 10 q.lot)
  let s := s.put ['@']
  s.price q.price

/-- `quote.hpp:408-413` `representation`. -/
def quoteText (q : Quote) : List Char := (Stream.fresh.quote q).text

/-- `identity.hpp:292-310` `operator <<` of an identity: digits with the width of the stream, filled with zeros. The fill character stays. -/
def Stream.identity (s : Stream) (i : List Nat) : Stream :=
  match i with
  | [] => s
  | _ :: _ => { s with text := s.text ++ Identity.render s.width i, fill := '0', width := 0 }

/-- `execution_report.hpp:33-70` an execution report. The state is the number of the enumerator (38-43); `sell` says whether the side is sell. -/
structure Report where
  state : Nat
  sell : Bool
  quantity : Nat
  identifier : Nat
  limit : Quote
  owner : List Nat
deriving DecidableEq, Repr

/-- `execution_report.hpp:80-95`: the constructor without arguments. The default limit is a price of zero in the currency `usd`. -/
def Report.default (usd : Currency) : Report := ⟨0, false, 0, 0, ⟨1, ⟨0, usd⟩⟩, []⟩

/-- `execution_report.hpp:97-106` the copy constructor. -/
def Report.copy (r : Report) : Report := ⟨r.state, r.sell, r.quantity, r.identifier, r.limit, r.owner⟩

/-- `execution_report.hpp:109-118` assignment. -/
def Report.assign (_ r : Report) : Report := ⟨r.state, r.sell, r.quantity, r.identifier, r.limit, r.owner⟩

/-- `execution_report.hpp:137-145` `operator ==`: left to right, until a comparison is false. -/
def Report.eq (a b : Report) : Outcome Bool :=
  if a.state = b.state ∧ a.quantity = b.quantity ∧ a.identifier = b.identifier ∧ a.sell = b.sell then do
    let l ← Quote.eq a.limit b.limit
    if l then pure (Identity.eq a.owner b.owner) else pure false
  else pure false

/-- `execution_report.hpp:150-165`: the name of a state. -/
def stateName (n : Nat) : Option (List Char) :=
  match n with
  | 0 => some ['i', 'n', 'v', 'a', 'l', 'i', 'd']
  | 1 => some ['c', 'a', 'n', 'c', 'e', 'l']
  | 2 => some ['m', 'a', 't', 'c', 'h']
  | 3 => some ['p', 'l', 'a', 'c', 'e', 'm', 'e', 'n', 't']
  | _ => none

/-- `execution_report.hpp:147-174` `operator <<` of a report. The quote with the multiplied lot (167-168) is not used. -/
def Stream.report (s : Stream) (r : Report) : Outcome Stream :=
  match stateName r.state with
  | none => .throws
  | some n =>
    let s := s.put n
    let s := s.put [' ']
    let s := s.identity r.owner
    let s := s.put [' ']
    .ok (s.quote r.limit)

/-- `execution_report.hpp:123-128` `representation`. -/
def reportText (r : Report) : Outcome (List Char) :=
  match Stream.fresh.report r with
  | .ok s => .ok s.text
  | .throws => .throws
  | .ub => .ub

/-- `order.hpp:115-120` `operator <<` of an order: nothing is written. -/
def Stream.order (s : Stream) (_ : Nat) : Stream := s

end Esl.Printing
