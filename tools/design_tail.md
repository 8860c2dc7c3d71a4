* The kernel of Lean 4.33.0, and the axioms `propext`, `Classical.choice` and `Quot.sound`. There are no own axioms, no `sorry`, no `native_decide` and no `bv_decide`; `decide +kernel` is evaluated by the kernel.
* Mathlib is used for lemmas (order, lists, rational and real numbers); its proofs are checked by the same kernel.
* The correspondence between `/repo/esl` and the model is by reading: every definition cites the lines it models, and its comment says what is simplified. It is not checked by a machine.
* The meaning of the C++ standard library and of Boost containers, as used by the definitions: sorted and unordered maps, multimaps (equal keys in order of insertion), `std::shuffle` permutes, `std::sort` sorts, archives give back primitive
  values, texts and sequences, `dynamic_cast` follows the class hierarchy, virtual bases are initialised by the most derived class.
* MPI delivers what is sent, in order between two processes, and collective operations combine the contributions of all processes. GSL solvers are oracles that may return any number or fail; Adept computes derivatives.
* The width of the types: 64 bits for `std::size_t` and times, `int` of 32 bits.
* The tables of countries and currencies of the standards in `Spec/Iso.lean` were written from general knowledge of ISO 3166 and ISO 4217, because there is no network.

Not modelled at all: performance, memory consumption and allocation failure; the C++ memory model below the level of mutex-protected operations; rounding of floating point numbers, other than as in section 2; the text of exceptions and of log messages; files and the
console; compile-time mechanisms (templates that do not compile are noted where they matter).

The Python module is modelled as its text says. That it compiles was not checked, and there is a reason for doubt: `centralized_exchange` cannot be copied because of `output_orders`, and its class in Python
(`python_module_esl.cpp:2128`) is not marked as such. The properties about Python hold for the module as it is when this is repaired.

Archives of whole agents are not modelled. `locked_` and `schedule` of a communicator are bit-fields (`communicator.hpp:152,160`), which the expressions that would save them (303, 304) cannot refer to, so that `communicator::serialize` does not
compile for any archive. The properties about migration (C101, C102) speak of agents that are sent as they are; callbacks would have to be registered again on the receiving process.
