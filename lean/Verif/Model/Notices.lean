import Verif.Model.Serialization
import Verif.Model.Company
/-!
How announcements of dividends and records of shareholders are saved in archives, as they are when they are sent to another process: `economics/finance/dividend.hpp` and `share_class.hpp`.
-/
namespace Esl.Notices
open Esl.Archive Esl.Company

/-- `archive & flag`. -/
def flag : Codec Bool where
  save b := [.int (if b then 1 else 0)]
  load _ a := readInt a >>= fun (z, a) => .ok (z == 1, a)

/-- `archive & number` for a floating point number, which archives give back. It is two items here, as archives are modelled without floating point numbers. -/
def real : Codec Rat where
  save q := [.int q.num, .int q.den]
  load _ a := readInt a >>= fun (n, a) => readNat a >>= fun (d, a) => .ok (mkRat n d, a)

/-- `finance/share_class.hpp:115-127` `serialize`. -/
def shareClass : Codec ShareClass where
  save s := natCodec.save s.rank ++ (natCodec.save s.votes ++ (real.save s.preference ++ (flag.save s.dividend ++ (flag.save s.cumulative ++ flag.save s.redeemable))))
  load t a := natCodec.load t.rank a >>= fun (rank, a) => natCodec.load t.votes a >>= fun (votes, a) => real.load t.preference a >>= fun (preference, a) =>
    flag.load t.dividend a >>= fun (dividend, a) => flag.load t.cumulative a >>= fun (cumulative, a) => flag.load t.redeemable a >>= fun (redeemable, a) =>
    .ok (⟨rank, votes, preference, dividend, cumulative, redeemable⟩, a)

/-- `finance/share_class.hpp:81-96`, the constructor without arguments. -/
def blankClass : ShareClass := ⟨0, 1, 0, true, false, false⟩

/-- Reads `k` entries, and inserts them. -/
def loadEntries {β : Type} (c : Codec β) (blank : β) : Nat → Register β → List Item → Outcome (Register β × List Item)
  | 0, m, a => .ok (m, a)
  | k + 1, m, a => shareClass.load blankClass a >>= fun (s, a) => c.load blank a >>= fun (x, a) => loadEntries c blank k (m.insert s x) a

/-- `archive & map` in Boost: the number of entries, and the entries. When loading, the map is emptied; each entry is read into a new one, and inserted. -/
def registerCodec {β : Type} (c : Codec β) (blank : β) : Codec (Register β) where
  save m := .int m.length :: m.flatMap fun e => shareClass.save e.1 ++ c.save e.2
  load _ a := readNat a >>= fun (n, a) => loadEntries c blank n [] a

/-- `price.hpp:76-82` and `iso_4217.hpp:73-84`, the constructors without arguments. -/
def blankPrice : Archive.Price := ⟨0, ⟨['X', 'X', 'X'], 100⟩⟩

/-- `finance/dividend.hpp:40-67`. The number of shares and the dividend of each class. -/
structure DividendPolicy where
  announcement : Nat
  exDividend : Nat
  period : Nat × Nat
  payable : Nat
  tender : Currency
  perShare : Register (Nat × Archive.Price)
  deriving DecidableEq

/-- The number of shares and the dividend, as a tuple: `data/serialization.hpp:34-65`. -/
def share : Codec (Nat × Archive.Price) := pair natCodec price

/-- `finance/dividend.hpp:86-96` `serialize`. -/
def policy : Codec DividendPolicy where
  save p := natCodec.save p.announcement ++ (natCodec.save p.exDividend ++ ((pair natCodec natCodec).save p.period ++ (natCodec.save p.payable ++
    (currency.save p.tender ++ (registerCodec share (0, blankPrice)).save p.perShare))))
  load t a := natCodec.load t.announcement a >>= fun (announcement, a) => natCodec.load t.exDividend a >>= fun (exDividend, a) =>
    (pair natCodec natCodec).load t.period a >>= fun (period, a) => natCodec.load t.payable a >>= fun (payable, a) =>
    currency.load t.tender a >>= fun (tender, a) => (registerCodec share (0, blankPrice)).load t.perShare a >>= fun (perShare, a) =>
    .ok (⟨announcement, exDividend, period, payable, tender, perShare⟩, a)

/-- `finance/dividend.hpp:69-78`, the constructor without arguments. -/
def blankPolicy : DividendPolicy := ⟨0, 0, (0, 0), 0, ⟨['U', 'S', 'D'], 100⟩, []⟩

/-- `finance/dividend.hpp:122-133` `dividend_announcement_message::serialize`: the expression for the message at 126-131 is not given to the archive. -/
def announcement : Codec (Header × DividendPolicy) where
  save m := policy.save m.2
  load t a := policy.load t.2 a >>= fun (p, a) => .ok ((t.1, p), a)

/-- `finance/dividend.hpp:171-183` `dividend_record::serialize`: the expression for the message at 175-180 is not given to the archive. -/
def record : Codec (Header × Register Nat) where
  save m := (registerCodec natCodec 0).save m.2
  load t a := (registerCodec natCodec 0).load t.2 a >>= fun (s, a) => .ok ((t.1, s), a)

/-- `finance/dividend.hpp:112-120` and 152-168: the header of a message that is constructed without arguments, as one is before it is loaded. -/
def blankHeader (code : Nat) : Header := ⟨code, [], [], 0, 0⟩

/-- An amount in the model of companies. -/
def amount (p : Archive.Price) : Company.Price := ⟨p.value, ⟨p.valuation.code, p.valuation.denominator⟩⟩

/-- `finance/dividend.cpp:47-56` `total_dividends` of a policy. -/
def total (p : DividendPolicy) : Outcome Company.Price :=
  totalDividends ⟨p.tender.code, p.tender.denominator⟩ (p.perShare.map fun e => (e.1, e.2.1, amount e.2.2))

/-- `finance/shareholder.cpp:52-61`: what a shareholder does with an announcement; `number` gives each identity its place in the order of identities. The company is taken to be the sender (56-58). -/
def onAnnouncement (number : List Nat → Nat) (dates : List (Nat × Nat)) (shares : List (Nat × Register Nat)) (lower upper : Nat) (m : Header × DividendPolicy) : List (Nat × Nat) × List Record :=
  handleAnnouncement dates shares lower upper m.2.exDividend (number m.1.sender)

end Esl.Notices
