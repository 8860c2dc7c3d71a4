import Verif.Model.Scheduler
import Verif.Model.Company
/-!
# Companies and shareholders that take part in a simulation

Puts `company::act` and the callback of shareholders (`Model/Company.lean`) into agents that the scheduler (`Model/Scheduler.lean`) runs.
-/
namespace Esl.Dividends
open Esl.Comm Esl.Sched Esl.Company

/-- The state of an agent that is a `company` or a `shareholder`, or both (a company is a shareholder, company.hpp:58-62): `last_announced_` and `last_payment_` (company.hpp:101-103), `shareholders` (company.hpp:75-77), `ex_dividend_dates` and
`shares` (shareholder.hpp:81-91), and in `rest` everything else. An agent that is not a company does not use the first two. -/
structure Member (τ : Type) where
  st : State
  shareholders : List (Nat × Register Nat)
  dates : List (Nat × Nat)
  shares : List (Nat × Register Nat)
  rest : τ

/-- `library_message_code<0x0F00>()` (dividend.hpp:106-108), with the mask of header.hpp:46-57. -/
def announceCode : Nat := 0x8000000000000F00

/-- `library_message_code<0x0F01>()` (dividend.hpp:141-143). -/
def recordCode : Nat := 0x8000000000000F01

/-- What the derived message types add to the header, as numbers (dividend.hpp:110, 149): how policies and records are written, and how policies are read. Of a policy only the dates are modelled. -/
structure Contents where
  policy : Policy → Nat
  policyOf : Nat → Policy
  record : Register Nat → Nat

/-- `company.cpp:130-132` with `communicator.hpp:190-202` `create_message`: the announcement in the outbox. The time of sending is the default, zero (dividend.hpp:112-120). -/
def announce (c : Contents) (self : Nat) (a : Announcement) : Msg := ⟨announceCode, self, a.recipient, 0, a.delivery, c.policy a.policy⟩

/-- `company.cpp:111-183` `act`. `upcoming` is what `upcoming_dividend` (company.hpp:122-123), which models override, returns; it may change the rest of the state. -/
def companyAct {τ : Type} (c : Contents) (self : Nat) (upcoming : Member τ → Step → Option Policy × τ) (s : Member τ) (step : Step) : Member τ × List Msg × Nat :=
  let u := upcoming s step
  let r := act s.shareholders s.st step.lower step.upper u.1
  ({ s with st := r.2.1, rest := u.2 }, r.2.2.map (announce c self), r.1)

/-- `shareholder.cpp:94-95` with `create_message`: the record in the outbox. -/
def submit (c : Contents) (self : Nat) (r : Record) : Msg := ⟨recordCode, self, r.company, 0, r.delivery, c.record r.shares⟩

/-- The callback for announcements that a shareholder registers, with priority 0 (`shareholder.cpp:52-63`). It returns the end of the step (line 99). -/
def shareholderEntry {τ : Type} (c : Contents) (self : Nat) : Comm.Entry (Member τ) where
  line := 63
  function := fun s m step =>
    let r := handleAnnouncement s.dates s.shares step.lower step.upper (c.policyOf m.payload).exDividend m.sender
    ({ s with dates := r.1 }, r.2.map (submit c self), step.upper)

end Esl.Dividends
