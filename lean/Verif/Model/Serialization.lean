import Verif.Model.Basic
/-!
Models of the functions that save objects to archives and load them: `serialize`, `save` and `load` of several classes.

An archive is a list of primitive items, written at the end and read from the front. That a primitive item, a text or a sequence is read as it was written is a property of Boost and taken for granted; an archive
whose next item is of another type throws. Loading changes an object that exists already, the target.
-/
namespace Esl.Archive

/-- A primitive item of an archive. -/
inductive Item
  | int (z : Int)
  | text (s : List Char)
  deriving DecidableEq

/-- How objects of a type are saved and loaded: `load target archive` is the target afterwards and what is left of the archive. -/
structure Codec (α : Type) where
  save : α → List Item
  load : α → List Item → Outcome (α × List Item)

/-- `archive >> z` for an integer. -/
def readInt : List Item → Outcome (Int × List Item)
  | .int z :: rest => .ok (z, rest)
  | _ => .throws

/-- `archive >> s` for a string. -/
def readText : List Item → Outcome (List Char × List Item)
  | .text s :: rest => .ok (s, rest)
  | _ => .throws

/-- A natural number that the archive has as an integer; others are out of range. -/
def readNat (a : List Item) : Outcome (Nat × List Item) := readInt a >>= fun (z, rest) => if 0 ≤ z then .ok (z.toNat, rest) else .throws

/-! ## Parts of Boost -/

/-- The elements of a sequence, of which `k` are to be read. -/
def loadMany {α : Type} (c : Codec α) (blank : α) : Nat → List Item → Outcome (List α × List Item)
  | 0, a => .ok ([], a)
  | k + 1, a => c.load blank a >>= fun (x, a) => loadMany c blank k a >>= fun (xs, a) => .ok (x :: xs, a)

/-- A sequence: its length, then its elements, each loaded into a blank one. -/
def vector {α : Type} (c : Codec α) (blank : α) : Codec (List α) where
  save xs := .int xs.length :: xs.flatMap c.save
  load _ a := readNat a >>= fun (n, a) => loadMany c blank n a

def natCodec : Codec Nat := ⟨fun n => [.int n], fun _ a => readNat a⟩
def textCodec : Codec (List Char) := ⟨fun s => [.text s], fun _ a => readText a⟩

/-- `data/serialization.hpp:34-65`: the elements of a tuple, one after the other. -/
def pair {α β : Type} (c : Codec α) (d : Codec β) : Codec (α × β) where
  save p := c.save p.1 ++ d.save p.2
  load t a := c.load t.1 a >>= fun (x, a) => d.load t.2 a >>= fun (y, a) => .ok ((x, y), a)

/-! ## Simple values -/

/-- `quantity.hpp:340-345`; `identity.hpp:347-352` is `vector natCodec 0`, `interval.hpp:189-195` is `pair natCodec natCodec` for times. -/
def quantity : Codec Nat := natCodec

/-- `simulation/entity.hpp:210-217`: the identifier and the number of children. -/
def entity : Codec (List Nat × Nat) := pair (vector natCodec 0) natCodec

structure Currency where
  code : List Char
  denominator : Nat
  deriving DecidableEq

/-- `iso_4217.hpp:139-166` `save` and `load`. The assertion at 159 may be off: then a text that is too short is read behind its end. -/
def currency : Codec Currency where
  save c := [.text c.code, .int c.denominator]
  load _ a := readText a >>= fun (code, a) => if code.length < 3 then .ub else readNat a >>= fun (d, a) => .ok (⟨code.take 3, d⟩, a)

/-- `iso_3166_1_alpha_2.hpp:95-101`: the array of two characters. -/
def country : Codec (List Char) := textCodec

/-- `law/jurisdiction.hpp:60-68`. -/
def jurisdiction : Codec (List Char × Currency) := pair country currency

/-- `law/legal_entity.hpp:178-186` (the two arrays), `natural_person.hpp:49-54`, `government.hpp:43-48`: the three kinds of legal persons. -/
inductive Person
  | entity (local_ code : List Char)
  | natural (nationality : List Char)
  | government (title : List Char)
  deriving DecidableEq

/-- `law/legal_person.hpp:102-143` `save` and `load`. An index above two changes nothing. -/
def person : Codec Person where
  save
    | .entity l c => [.int 0, .text l, .text c]
    | .natural n => [.int 1, .text n]
    | .government t => [.int 2, .text t]
  load target a := readNat a >>= fun (index, a) =>
    if index = 0 then readText a >>= fun (l, a) => readText a >>= fun (c, a) => .ok (.entity l c, a)
    else if index = 1 then readText a >>= fun (n, a) => .ok (.natural n, a)
    else if index = 2 then readText a >>= fun (t, a) => .ok (.government t, a)
    else .ok (target, a)

/-! ## Rational numbers -/

/-- `boost::rational`: a numerator and a denominator. -/
structure Ratio where
  num : Int
  den : Int
  deriving DecidableEq

/-- The invariant of `boost::rational`: in lowest terms with a positive denominator. -/
def Ratio.Valid (r : Ratio) : Prop := 0 < r.den ∧ Int.gcd r.num r.den = 1

/-- The constructor of `boost::rational` for `std::int64_t`: it brings to lowest terms, and throws for a denominator of zero. (Numbers of 32 bits are passed to it, so that nothing overflows.) -/
def Ratio.make (n d : Int) : Outcome Ratio :=
  if d = 0 then .throws
  else
    let g : Int := Int.gcd n d
    if d < 0 then .ok ⟨-(n / g), -(d / g)⟩ else .ok ⟨n / g, d / g⟩

/-- A 64-bit number converted to `int`. -/
def toInt32 (z : Int) : Int := Int.bmod z (2 ^ 32)

/-- `mathematics/rational.hpp:40-58` `save` and `load`, for `boost::rational<std::int64_t>`. -/
def rational : Codec Ratio where
  save r := [.int (toInt32 r.num), .int (toInt32 r.den)]
  load _ a := readInt a >>= fun (n, a) => readInt a >>= fun (d, a) => Ratio.make n d >>= fun r => .ok (r, a)

/-- `interest_rate.hpp:69-78`: the rate (`rate.hpp:144-152`) and the duration. -/
def interestRate : Codec (Ratio × Nat) := pair rational natCodec

/-! ## Prices and quotes -/

structure Price where
  value : Int
  valuation : Currency
  deriving DecidableEq

/-- `price.hpp:337-343`: the text. -/
def Price.text (p : Price) : List Char := p.valuation.code ++ [' '] ++ (toString p.value).toList ++ ['/'] ++ (toString p.valuation.denominator).toList

/-- `price.hpp:329-346` `serialize`, which is used for both. When loading, the local variable `res_` is read, and not used. -/
def price : Codec Price where
  save p := [.text p.text]
  load target a := readText a >>= fun (_, a) => .ok (target, a)

structure Quote where
  lot : Nat
  price : Price
  deriving DecidableEq

/-- `markets/quote.hpp:345-389` `save` and `load`. The variant has one alternative, the price, whose index is zero; for this index nothing is loaded. For index one, `type.emplace<price>`. -/
def quote : Codec Quote where
  save q := [.int q.lot, .int 0] ++ price.save q.price
  load target a := readNat a >>= fun (lot, a) => readNat a >>= fun (index, a) =>
    if index = 0 then .ok ({ target with lot := lot }, a)
    else if index = 1 then price.load ⟨0, ⟨['U', 'S', 'D'], 100⟩⟩ a >>= fun (p, a) => .ok (⟨lot, p⟩, a)
    else .ok ({ target with lot := lot }, a)

/-! ## Messages -/

structure Header where
  type : Nat
  sender : List Nat
  recipient : List Nat
  sent : Nat
  received : Nat
  deriving DecidableEq

/-- `interaction/header.hpp:154-163`. -/
def header : Codec Header where
  save h := [.int h.type] ++ (vector natCodec 0).save h.sender ++ (vector natCodec 0).save h.recipient ++ [.int h.sent, .int h.received]
  load _ a := readNat a >>= fun (type, a) => (vector natCodec 0).load [] a >>= fun (sender, a) => (vector natCodec 0).load [] a >>= fun (recipient, a) =>
    readNat a >>= fun (sent, a) => readNat a >>= fun (received, a) => .ok (⟨type, sender, recipient, sent, received⟩, a)

/-- `interaction/message.hpp:71-87`: a message with contents that a derived class saves. At 76 there is an expression for the header that is not given to the archive; the type code and the marker contain nothing. -/
def message {β : Type} (contents : Codec β) : Codec (Header × β) where
  save m := contents.save m.2
  load target a := contents.load target.2 a >>= fun (x, a) => .ok ((target.1, x), a)

/-! ## Producers -/

/-- `data/producer.hpp:69-98` `save` and `load`: the names of the outputs; `readPointer` is what reading a pointer to an output does to the archive. What is read is not stored. -/
def saveProducer (outputs : List (List Char)) : List Item := .int outputs.length :: outputs.flatMap fun n => [.text n, .text n]

def loadEntries (readPointer : List Item → Outcome (List Item)) : Nat → List Item → Outcome (List Item)
  | 0, a => .ok a
  | k + 1, a => readText a >>= fun (_, a) => readPointer a >>= fun a => loadEntries readPointer k a

def loadProducer (readPointer : List Item → Outcome (List Item)) (target : List (List Char)) (a : List Item) : Outcome (List (List Char) × List Item) :=
  readNat a >>= fun (size, a) => loadEntries readPointer size a >>= fun a => .ok (target, a)

/-! ## Parameters -/

/-- A constant parameter, `parameter.hpp:48-72`, of one of the types that `parametrization` uses. On the usual platforms `time_point` and `std::uint64_t` are one type. -/
structure Parametrization where
  values : List (String × Nat)

/-- `parametrization.hpp:49-65`, the constructor. -/
def Parametrization.make (sample start stop verbosity threads : Nat) : Parametrization :=
  let _ := threads
  ⟨[("sample", sample), ("start", start), ("end", stop), ("verbosity", verbosity), ("threads", verbosity)]⟩

/-- `parametrization.hpp:73-86` `get<std::uint64_t>`. -/
def Parametrization.get (p : Parametrization) (name : String) : Outcome Nat :=
  match p.values.find? fun x => x.1 == name with
  | none => .throws
  | some x => .ok x.2

end Esl.Archive
