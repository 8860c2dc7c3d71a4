import Verif.Model.Text
/-!
A model of `esl/data/producer.hpp`, `esl/data/output.hpp`, `esl/data/output_base.hpp` and `esl/data/stream.hpp`.

Outputs are objects on a heap, of which programs hold shared pointers, which are indices here. Streams are numbered; of each, all text written to it is known. Names, times and values are given as the text that is
printed for them.
-/
namespace Esl.Out
open Esl.Text

/-- `output_base.hpp:46-70` and `output.hpp:58-60`: an output. -/
structure Output where
  name : Str
  streams : List Nat
  buffered : Bool
  values : List (Str × List Str)

/-- The heap, the outputs of a producer (`producer.hpp:44`) and the streams. -/
structure State where
  heap : List Output
  outputs : List (Str × Nat)
  written : Nat → Str

def State.init : State := ⟨[], [], fun _ => []⟩

/-- `producer.hpp:59-67` `create_output`: makes an output (`output.hpp:67-74`: not buffered) and returns it, which is the last one of the heap. `insert` does nothing if there is one with the name. -/
def State.create (p : State) (name : Str) : State × Nat :=
  let outputs := if p.outputs.any (·.1 == name) then p.outputs else p.outputs ++ [(name, p.heap.length)]
  ({ p with heap := p.heap ++ [⟨name, [], false, []⟩], outputs := outputs }, p.heap.length)

/-- `producer.hpp:46-53` `add_output_stream`; an exception changes nothing. -/
def State.add (p : State) (name : Str) (stream : Nat) : Outcome State :=
  match p.outputs.find? (·.1 == name) with
  | none => .throws
  | some (_, i) => .ok { p with heap := p.heap.modify i fun o => { o with streams := o.streams ++ [stream] } }

/-- What `operator<<` prints for a tuple of a time and a value, and the line end, `output_base.hpp:78`. -/
def line (t v : Str) : Str := printTuple t [v] ++ ['\n']

/-- `output_base.hpp:74-80` `write`: the loop over the streams. -/
def write (t v : Str) : List Nat → (Nat → Str) → Nat → Str
  | [], w => w
  | s :: streams, w => write t v streams fun r => if r = s then w r ++ line t v else w r

/-- `output.hpp:86`: the fold over the values. -/
def writeAll (t : Str) (streams : List Nat) : List Str → (Nat → Str) → Nat → Str
  | [], w => w
  | v :: vs, w => writeAll t streams vs (write t v streams w)

/-- `output.hpp:81-88` `put`, on an output of the heap. -/
def State.put (p : State) (i : Nat) (t : Str) (vs : List Str) : State :=
  match p.heap[i]? with
  | none => p
  | some o =>
    let heap := p.heap.set i { o with values := o.values ++ [(t, vs)] }
    if o.buffered then { p with heap := heap } else { p with heap := heap, written := writeAll t o.streams vs p.written }

/-- The calls a program makes. -/
inductive Call
  | create (name : Str)
  | add (name : Str) (stream : Nat)
  | put (output : Nat) (t : Str) (vs : List Str)
  deriving DecidableEq

/-- A call; when it throws, the program goes on with what there was before. -/
def State.call (p : State) : Call → State
  | .create name => (p.create name).1
  | .add name s => match p.add name s with | .ok p' => p' | _ => p
  | .put i t vs => p.put i t vs

def run (h : List Call) : State := h.foldl State.call .init

end Esl.Out
