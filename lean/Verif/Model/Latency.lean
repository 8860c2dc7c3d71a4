import Verif.Model.Draws
import Verif.Model.Messages
import Verif.Model.Exchange

/-!
# Random latencies in the turns of an exchange

Puts `shifted_gamma_latency` (`esl/interaction/communication.hpp`) into the turns of an exchange (`Model/Exchange.lean`), with the seed that the exchange is handed in a turn (`Model/Draws.lean`). Latencies are rational
numbers before they are cut, as in `Model/Messages.lean`.
-/

namespace Esl.Latency
open Esl.Exchange

/-- communication.hpp:97-106 `shifted_gamma_latency::sample`. The generator is a new `std::mt19937` each time, the state of which consists of the 624 words that the seed generates. `gamma` is the number that
`std::gamma_distribution` with the scale one makes of that state (with the shape of the latency model). Neither the sender nor the recipient is used. -/
def sample (gamma : List Draws.Word → Rat) (rate shift : Rat) (_sender _recipient : Nat) (seed : List Draws.Word) : Outcome Nat :=
  Messages.toDuration (Messages.gammaLatency rate shift (gamma (Draws.generate seed 624)))

/-- A turn of the exchange with the identity `self` at time `t`: it handles the messages `es`, all with the same seed (communicator.cpp:66, 134; centralized_exchange.hpp:366-369, 397-401). Simplified: that a sample is
undefined is found before the messages are handled, even if none is sent. -/
def turn (gamma : List Draws.Word → Rat) (rate shift : Rat) (self : Nat) (seed : List Draws.Word) (x : Exchange) (t : Nat) (es : List Event) : Outcome (Exchange × List Out) :=
  sample gamma rate shift self self seed >>= fun _ =>
    runEvents (fun _ recipient => match sample gamma rate shift self recipient seed with
      | .ok d => d
      | _ => 0) x (es.map fun e => (t, e))

end Esl.Latency
