import Verif.Model.Clearing
import Verif.Model.Holders
/-!
# The messages by which a Walrasian market settles a clearing

Puts the bundles of `Model/Clearing.lean` into the transfer messages that `Model/Holders.lean` handles.
-/
namespace Esl.Auction
open Esl.Walras Esl.Clearing Esl.Inventory

/-- inventory.hpp:383-385, price_setter.cpp:399: the contents of a bundle, as they are iterated. `code` gives the identifiers of money, assets and lending contracts; `listing` is any order of items, those that a bundle lacks are skipped. -/
def bundle (code : Item → Nat) (listing : List Item) (b : Bag) : Bundle := listing.filterMap fun k => (b k).map fun q => (code k, q)

/-- price_setter.cpp:525-545: the transfers that `clear_market` sends, each with its recipient. Both the bundle that the market gives to a participant and the one it takes from it are sent to the participant, and to nobody else. `ps` are the
participants in any order; those without a bundle are skipped. -/
def shipments (setter : Nat) (code : Item → Nat) (listing : List Item) (ps : List Nat) (c : Cleared) : List (Nat × Transfer) :=
  (ps.filterMap fun p => (c.sent p).map fun b => (p, ⟨setter, p, bundle code listing b⟩)) ++
  (ps.filterMap fun p => (c.received p).map fun b => (p, ⟨p, setter, bundle code listing b⟩))

end Esl.Auction
