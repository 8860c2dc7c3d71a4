import Verif.Model.Basic
/-!
Models of the standardised codes: `esl/economics/finance/isin.hpp`, `cusip.hpp`, `sedol.hpp`, `stock.cpp` (`create_isin`), `esl/law/legal_entity.hpp` (`iso_17442`),
`esl/geography/iso_3166_1_alpha_2.hpp` and `esl/economics/markets/iso_10383.hpp`.

A `char` is its ASCII code, a number; `std::array<char, n>` and `std::string` are lists, and the functions that make arrays produce lists of the right length.
`assert`s are compiled out.
-/
namespace Esl.Codes

/-- The codes of the characters of a text. -/
def bytes (s : String) : List Nat := s.toList.map Char.toNat

/-- `'0' <= c && c <= '9'`. -/
def isDigit (c : Nat) : Bool := decide (48 ≤ c) && decide (c ≤ 57)

/-- `'A' <= c && c <= 'Z'`. -/
def isUpper (c : Nat) : Bool := decide (65 ≤ c) && decide (c ≤ 90)

/-- `'a' <= c && c <= 'z'`. -/
def isLower (c : Nat) : Bool := decide (97 ≤ c) && decide (c ≤ 122)

/-- `algorithms.hpp:77-93` `to_array<first, last>` of a text. Reading behind the end is undefined. -/
def toArray (first last : Nat) (s : List Nat) : Outcome (List Nat) :=
  if s.length < last then .ub else .ok ((s.drop first).take (last - first))

/-- `algorithms.hpp:130-145` `array_slice<first, last>`. -/
def slice (first last : Nat) (a : List Nat) : List Nat := (a.drop first).take (last - first)

/-! ## Country codes -/

/-- `iso_3166_1_alpha_2.hpp:54-59`: the constructor from an array. -/
def country (c : List Nat) : Outcome (List Nat) :=
  match c with
  | [a, b] => if isUpper a && isUpper b then .ok [a, b] else .throws
  | _ => .ub

/-- `iso_3166_1_alpha_2.hpp:64-69`: the constructor from a string. -/
def countryOfString (s : List Nat) : Outcome (List Nat) := if s.length = 2 then country s else .throws

/-- `iso_3166_1_alpha_2.hpp:107-114`: `std::hash`, on `size_t`. -/
def countryHash (c : List Nat) : Nat :=
  match c with
  | [a, b] => u64 (u64 (u64 (u64 (a + (2 ^ 64 - 65)) + 26 * b)) + (2 ^ 64 - 65))
  | _ => 0

/-! ## Market identifiers -/

/-- `iso_10383.hpp:48-58` constructor from an array. -/
def market (c : List Nat) : Outcome (List Nat) := if c.all (fun x => isUpper x || isDigit x) then .ok c else .throws

/-- `iso_10383.hpp:63-67` constructor from a string: the first four characters. A string keeps a zero behind its last character; reading further is undefined. -/
def marketOfString (s : List Nat) : Outcome (List Nat) := if s.length < 3 then .ub else market ((s ++ [0]).take 4)

/-- `iso_10383.hpp:72-75` `representation`. -/
def marketText (c : List Nat) : List Nat := c

/-! ## ISIN -/

/-- `isin.hpp:139-209` `value` (and `sedol.hpp:82-156`, which is the same). -/
def value (c : Nat) : Nat :=
  if isDigit c then c - 48 else if isLower c then c - 97 + 10 else if isUpper c then c - 65 + 10 else 0

/-- `isin.hpp:39-50` `isin`: issuer (two characters) and code (nine). -/
structure Isin where
  issuer : List Nat
  code : List Nat
deriving DecidableEq, Repr

/-- `isin.hpp:212-216` `difference`, on `uint64_t`. -/
def difference (n : Nat) : Nat := u64 (n / 5 + (2 ^ 64 - (u64 (2 * n) - u64 (2 * n) % 10)))

/-- The variables `pairs_`, `carry_` and `p` of `isin.hpp:225-230`. -/
structure Acc where
  pairs : Bool → Nat
  carry : Bool → Nat
  p : Nat

/-- `isin.hpp:240-243` (and 244-245): one decimal digit. `w` is the number of bits of `uint_fast16_t`, which depends on the platform. The entry of an array
with odd index is at `true`. -/
def Acc.add (w : Nat) (a : Acc) (d : Nat) : Acc :=
  let p := (a.p + 1) % 2 ^ w
  let i := decide (p % 2 = 1)
  { pairs := fun j => if j = i then (a.pairs j + d) % 2 ^ w else a.pairs j
    carry := fun j => if j = i then (a.carry j + difference d % 2 ^ w) % 2 ^ w else a.carry j
    p := p }

/-- `isin.hpp:235-246`: one symbol. -/
def Acc.symbol (w : Nat) (a : Acc) (c : Nat) : Acc :=
  let number := value c
  let a := if number / 10 ≠ 0 then a.add w (number / 10) else a
  a.add w (number % 10)

/-- `isin.hpp:223-254` `checksum`. -/
def Isin.checksum (w : Nat) (i : Isin) : Nat :=
  let a := (i.issuer ++ i.code).foldl (Acc.symbol w) ⟨fun _ => 0, fun _ => 0, 0⟩
  let k := decide (a.p % 2 = 1)
  let doubled := ((a.pairs k * 2) % 2 ^ w + a.carry k) % 2 ^ w
  48 + (10 - (doubled + a.pairs (!k)) % 10) % 10

/-- `isin.hpp:262-270` printing. -/
def Isin.text (w : Nat) (i : Isin) : List Nat := i.issuer ++ i.code ++ [i.checksum w]

/-- `isin.hpp:69-77` constructor from an array of eleven characters. -/
def Isin.ofArray (a : List Nat) : Outcome Isin := country (slice 0 2 a) >>= fun c => .ok ⟨c, slice 0 9 a⟩

/-- `isin.hpp:111-117` constructor from a string. -/
def Isin.ofString (s : List Nat) : Outcome Isin :=
  toArray 0 11 s >>= fun a => Isin.ofArray a >>= fun i => if s.length = 11 ∨ s.length = 12 then .ok i else .throws

/-- `isin.hpp:99-105` constructor from two strings. The arguments of the delegated constructor are evaluated first. -/
def Isin.ofStrings (issuer code : List Nat) : Outcome Isin :=
  countryOfString issuer >>= fun c => toArray 0 9 code >>= fun a => if issuer.length ≠ 2 then .throws else .ok ⟨c, a⟩

/-- `isin.hpp:85-91` constructor from a country and a string. The length that is checked is that of the member `code`, which is nine, and not that of the string. -/
def Isin.ofCountry (issuer nsin : List Nat) : Outcome Isin :=
  toArray 0 9 nsin >>= fun a => if a.length < 9 ∨ 10 < a.length then .throws else .ok ⟨issuer, a⟩

/-! ## CUSIP -/

/-- `cusip.hpp:108-189` `value`. -/
def cusipValue (c : Nat) : Nat :=
  if isDigit c then c - 48 else if isLower c then c - 97 + 10 else if isUpper c then c - 65 + 10
  else if c = 42 then 36 else if c = 64 then 37 else if c = 35 then 38 else 0

/-- `cusip.hpp:39-50` `cusip`: issuer (six characters) and code (two). -/
structure Cusip where
  issuer : List Nat
  code : List Nat
deriving DecidableEq, Repr

/-- `cusip.hpp:199-204`: the loop, from position `i`. `value_` has 8 bits or more. -/
def cusipSum : Nat → List Nat → Nat
  | _, [] => 0
  | i, c :: l =>
    let v := cusipValue c * 2 ^ (i % 2)
    v % 10 + v / 10 + cusipSum (i + 1) l

/-- `cusip.hpp:195-206` `checksum`. -/
def Cusip.checksum (c : Cusip) : Nat := 48 + (10 - cusipSum 0 (c.issuer ++ c.code) % 10) % 10

/-- `cusip.hpp:214-224` printing. -/
def Cusip.text (c : Cusip) : List Nat := c.issuer ++ c.code ++ [c.checksum]

/-- `cusip.hpp:82-89` constructor from nine characters. -/
def Cusip.ofArray9 (a : List Nat) : Outcome Cusip :=
  let c : Cusip := ⟨slice 0 6 a, slice 6 8 a⟩
  if some c.checksum ≠ a[8]? then .throws else .ok c

/-- `cusip.hpp:96-100` constructor from a string. -/
def Cusip.ofString (s : List Nat) : Outcome Cusip := toArray 0 6 s >>= fun a => toArray 6 8 s >>= fun b => .ok ⟨a, b⟩

/-- `isin.hpp:123-131`: the ISIN of a CUSIP. -/
def Isin.ofCusip (issuer : List Nat) (c : Cusip) : Isin := ⟨issuer, c.issuer ++ c.code ++ [c.checksum]⟩

/-! ## SEDOL -/

/-- `sedol.hpp:167-169`: the loop. -/
def sedolSum : List Nat → List Nat → Nat
  | c :: l, w :: ws => value c * w + sedolSum l ws
  | _, _ => 0

/-- `sedol.hpp:162-172` `checksum` of the six characters. -/
def sedolChecksum (code : List Nat) : Nat := 48 + (10 - sedolSum code [1, 3, 1, 7, 3, 9] % 10) % 10

/-- `sedol.hpp:180-187` printing. -/
def sedolText (code : List Nat) : List Nat := code ++ [sedolChecksum code]

/-- `sedol.hpp:66-74` constructor from a string. -/
def sedolOfString (s : List Nat) : Outcome (List Nat) := toArray 0 6 s

/-! ## LEI -/

/-- `legal_entity.hpp:50-73` `iso_17442`: local part (four characters) and code (twelve). -/
structure Lei where
  loc : List Nat
  code : List Nat
deriving DecidableEq, Repr

/-- Arithmetic on `uint128_t`: adding the `int` difference of two characters. -/
def addDiff (sum : Nat) (mul c zero plus : Nat) : Nat := ((((sum * mul % 2 ^ 128 : Nat) : Int) + ((c : Int) - zero + plus)) % (2 ^ 128 : Int)).toNat

/-- `legal_entity.hpp:149-152`. -/
def leiLocal (l : List Nat) : Nat := l.foldl (fun s c => addDiff s 10 c 48 0) 0

/-- `legal_entity.hpp:154-162`. -/
def leiCode (s : Nat) (l : List Nat) : Nat := l.foldl (fun s c => if isDigit c then addDiff s 10 c 48 0 else addDiff s 100 c 65 10) s

/-- `legal_entity.hpp:145-168` `checksum`: two characters. -/
def Lei.checksum (l : Lei) : List Nat :=
  let sum := leiCode (leiLocal l.loc * 100 % 2 ^ 128) l.code
  let sum := sum * 100 % 2 ^ 128
  let check := 98 - sum % 97
  [check / 10 + 48, check % 10 + 48]

/-- `legal_entity.hpp:192-200` printing. -/
def Lei.text (l : Lei) : List Nat := l.loc ++ [48, 48] ++ l.code ++ l.checksum

/-- `legal_entity.hpp:81-101` constructor from a string. Reading beyond the character behind the end is undefined. -/
def Lei.ofString (s : List Nat) : Outcome Lei := if s.length < 17 then .ub else .ok ⟨slice 0 4 (s ++ [0]), slice 6 18 (s ++ [0])⟩

/-- `legal_entity.hpp:68-69`: the default arguments `{'0'}` leave the other characters zero. -/
def Lei.default : Lei := ⟨[48, 0, 0, 0], [48, 0, 0, 0, 0, 0, 0, 0, 0, 0, 0, 0]⟩

/-- The table of `legal_entity.hpp:119-122` and `stock.cpp:35-38`. -/
def digit36 (d : Nat) : Nat := if d < 10 then 48 + d else 65 + (d - 10)

/-- `legal_entity.hpp:128-131`: `n` symbols, the lowest first. -/
def symbols : Nat → Nat → List Nat
  | 0, _ => []
  | n + 1, x => digit36 (x % 36) :: symbols n (x / 36)

/-- `legal_entity.hpp:113-134` `create`, given the hash. -/
def Lei.create (hash : Nat) (loc : List Nat) : Lei := ⟨loc, symbols 12 hash⟩

/-- `stock.cpp:33-60` `create_isin`, with the digits of the company's identity and the rank of the share class. -/
def createIsin (issuer : List Nat) (digits : List Nat) (rank : Nat) : Isin :=
  let n := match digits.getLast? with
    | some d => u64 (d * 1000)
    | none => 0
  ⟨issuer, (symbols 9 (u64 (n + rank))).reverse⟩

/-- `stock.cpp:62-72` `create_share_identifier`: the digits of the property's identity. -/
def shareIdentifier (company : List Nat) (rank : Nat) : List Nat := company ++ [rank]

end Esl.Codes
