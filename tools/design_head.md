# Formal model of INET-Complexity/ESL in Lean 4

This file is written by `tools/design.py` from `tools/design_head.md`, `tools/design_tail.md`, `properties.jsonl`, `MANIFEST.json`, the citations in the model and what Lean reports about axioms.

## 1. Layout

* `lean/Verif/Model/*.lean`  executable model, one module per area of `/repo/esl`. Every definition cites file and lines.
* `lean/Verif/Spec/*.lean`   small independent specifications (what the English property means), not using model helpers. Further specifications are definitions named `Spec.…` at the top of the module of theorems.
* `lean/Verif/Lemmas/*.lean` helper lemmas.
* `lean/Verif/Props/*.lean`  the property theorems, named `C<nn>_...`, with `example`s beside them that show the hypotheses are met.
* `seeded/LOG.jsonl`         wrong programs that were tried against the theorems; `tools/mutate.py` runs them.
* `tools/`                   scripts that write `MANIFEST.json`, this file, and the table of names.

## 2. Conventions

* Functions of the model are total and computable where the code is; loops are structural recursions or have explicit fuel that is shown to suffice.
* A call ends in one of three ways, `Outcome.ok`, `Outcome.throws` and `Outcome.ub`. Undefined behaviour (null pointers, reads outside of a container, signed overflow, iterators invalidated in a loop, locking a mutex twice) is a
  distinct outcome and never a default value.
* Unsigned arithmetic is `Nat` with an explicit `% 2^w`, signed arithmetic is `Int` with an explicit wrap or a range condition where overflow matters.
* Floating point is modelled by rational numbers, for the logarithm by real numbers; the comment of each definition says so. Where rounding matters (Python, StaticBook, Walras), a rounding function is applied after each operation: exact, or binary64
  to nearest-even in the normal range (`Model/Double.lean`). Infinities, NaN, overflow and subnormal numbers are not modelled.
* Random choices (shuffles, random numbers, seeds), the order of iteration over unordered containers, the results of the numerical solvers and the programs of agents are arguments; theorems quantify over all of them.
* Threads are interleavings of atomic steps between operations on mutexes and condition variables; theorems quantify over all interleavings.
* Where the code violates the property a user would expect, the full statement is kept in `properties.jsonl`, its negation is proved (`C<nn>_counterexample...`), in general where possible and with a concrete witness otherwise, and the
  true part is proved as `C<nn>_..._partial`. A property with such a theorem has the status `partial`, even if everything that can be proved is proved.

