import Verif.Model.Scheduler
import Verif.Model.Inventory
/-!
# Owners that take part in a simulation

Puts the transfer callback of `esl/economics/owner.hpp` (`Model/Inventory.lean`) into the agents that the scheduler (`Model/Scheduler.lean`) runs.
-/
namespace Esl.Holders
open Esl.Comm Esl.Sched Esl.Inventory

/-- The state of an agent that is an `owner<property>` (owner.hpp:58-62): the inventory, and in `rest` everything else, such as the holdings by type. `failed` is set once a callback of the agent has thrown
an exception: nothing catches it in the job of the agent (`model.cpp:114-190`), so that the run ends. Simplification: the modelled run goes on with the mark, and statements are about runs without marks. -/
structure Holder (τ : Type) where
  inventory : Inv
  failed : Bool
  rest : τ

/-- The code of `interaction::transfer` (transfer.hpp:52-53): `library_message_code<0x2>()`, with the mask of header.hpp:46-57. -/
def transferCode : Nat := 0x8000000000000002

/-- The callback that `owner<property>` registers (owner.hpp:68-102). `decode` gives the contents of a transfer message; the payload of the model stands for them (header.hpp:73-107, transfer.hpp:55-68). -/
def transferEntry {τ : Type} (decode : Nat → Transfer) (self : Nat) : Entry (Holder τ) where
  line := 99
  function := fun s m step =>
    match baseCallback self s.inventory (decode m.payload) with
    | (inventory, thrown) => ({ s with inventory := inventory, failed := s.failed || thrown }, [], step.upper)

end Esl.Holders
