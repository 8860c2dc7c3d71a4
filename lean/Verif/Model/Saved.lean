import Verif.Model.Serialization
import Verif.Model.Company
/-!
Models of the functions that save and load shareholders, share classes and the timing of agents: `finance/shareholder.hpp:100-106`, `finance/share_class.hpp:115-127`, `computation/timing.hpp:54-68`, and of pointers to prices, `price.hpp:352-375`.
-/
namespace Esl.Saved
open Esl.Archive Esl.Company

/-- A truth value in an archive is zero or one. -/
def flag : Codec Bool where
  save b := [.int (if b then 1 else 0)]
  load _ a := readNat a >>= fun (n, a) => .ok (n != 0, a)

/-- A floating point number. Archives of Boost write as many digits as identify it; here they have the numerator and the denominator. -/
def real : Codec Rat where
  save q := [.int q.num, .int q.den]
  load _ a := readInt a >>= fun (n, a) => readNat a >>= fun (d, a) => .ok (mkRat n d, a)

/-- `share_class.hpp:115-127`. -/
def shareClass : Codec ShareClass where
  save s := [.int s.rank, .int s.votes] ++ real.save s.preference ++ flag.save s.dividend ++ flag.save s.cumulative ++ flag.save s.redeemable
  load t a := readNat a >>= fun (rank, a) => readNat a >>= fun (votes, a) => real.load t.preference a >>= fun (preference, a) => flag.load t.dividend a >>= fun (dividend, a) =>
    flag.load t.cumulative a >>= fun (cumulative, a) => flag.load t.redeemable a >>= fun (redeemable, a) => .ok (⟨rank, votes, preference, dividend, cumulative, redeemable⟩, a)

/-- Boost saves maps and sets as their sizes and elements; loading clears the target and inserts what is read, element by element. -/
def container {α : Type} (c : Codec α) (blank : α) (insert : List α → α → List α) : Codec (List α) where
  save := (vector c blank).save
  load t a := (vector c blank).load t a >>= fun (xs, a) => .ok (xs.foldl insert [], a)

/-- The default share class, `share_class.hpp:80-87`. -/
def blankClass : ShareClass := ⟨0, 1, 0, true, false, false⟩

/-- `std::map<share_class, std::uint64_t>`. -/
def register : Codec (Register Nat) := container (pair shareClass natCodec) (blankClass, 0) fun m e => Register.insert m e.1 e.2

/-- Insertion into `std::map<identity<company>, …>`; identities are numbers here. -/
def insertCompany (m : List (Nat × Register Nat)) (e : Nat × Register Nat) : List (Nat × Register Nat) :=
  match m with
  | [] => [e]
  | x :: m => if e.1 < x.1 then e :: x :: m else if x.1 < e.1 then x :: insertCompany m e else x :: m

/-- `shareholder.hpp:82-84`, `share_holdings`. -/
def shares : Codec (List (Nat × Register Nat)) := container (pair natCodec register) (0, []) insertCompany

/-- `shareholder.hpp:90-91`, the set of ex-dividend dates with companies. -/
def dates : Codec (List (Nat × Nat)) := container (pair natCodec natCodec) (0, 0) datesInsert

/-- `shareholder.hpp:61-91`, the members of a shareholder. -/
structure Holder where
  stocks : Nat → ShareClass → Option Nat
  prices : Memory
  shares : List (Nat × Register Nat)
  dates : List (Nat × Nat)

/-- A shareholder that was just constructed, `shareholder.hpp:93`. -/
def Holder.fresh : Holder := ⟨fun _ _ => none, [], [], []⟩

/-- `shareholder.hpp:100-106` `serialize`: the shares and the dates. -/
def holder : Codec Holder where
  save h := shares.save h.shares ++ dates.save h.dates
  load t a := shares.load t.shares a >>= fun (s, a) => dates.load t.dates a >>= fun (d, a) => .ok ({ t with shares := s, dates := d }, a)

/-- `timing.hpp:50-53`: milliseconds of messaging and of acting. -/
structure Timing where
  messaging : Int
  acting : Int
  deriving DecidableEq

/-- `timing.hpp:54-68` `serialize`: there are expressions for both members that are not given to the archive. -/
def timing : Codec Timing := ⟨fun _ => [], fun t a => .ok (t, a)⟩

/-- A pointer to a price. Nothing is saved for construction, since `save_construct_data` is commented out (`price.hpp:352-361`), so that the text of `serialize` is what is in the archive. Loading constructs the price first (`price.hpp:363-375`)
from a value and a currency, and then calls `serialize`. -/
def pricePointer : Codec Archive.Price where
  save := Archive.price.save
  load _ a := readInt a >>= fun (value, a) => currency.load ⟨['X', 'X', 'X'], 100⟩ a >>= fun (code, a) => Archive.price.load ⟨value, code⟩ a

end Esl.Saved
