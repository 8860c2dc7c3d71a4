# Formal model of INET-Complexity/ESL in Lean 4

This file is written by `tools/design.py` from `tools/design_head.md`, `tools/design_tail.md`, `properties.jsonl`, `MANIFEST.json`, the citations in the model and what Lean reports about axioms.

## 1. Layout

* `lean/Verif/Model/*.lean`  executable model, one module per area of `/repo/esl`. Every definition cites file and lines.
* `lean/Verif/Spec/*.lean`   small independent specifications (what the English property means), not using model helpers. Further specifications are definitions named `Spec.…` at the top of the module of theorems.
* `lean/Verif/Lemmas/*.lean` helper lemmas.
* `lean/Verif/Props/*.lean`  the property theorems, named `C<nn>_...`, with `example`s beside them that show the hypotheses are met.
* `seeded/LOG.jsonl`         wrong programs that were tried against the theorems; `tools/mutate.py` runs them.
* `tools/`                   scripts that write `MANIFEST.json`, this file, and the table of names.

## 2. Conventions

* Functions of the model are total and computable where the code is; loops are structural recursions or have explicit fuel that is shown to suffice.
* A call ends in one of three ways, `Outcome.ok`, `Outcome.throws` and `Outcome.ub`. Undefined behaviour (null pointers, reads outside of a container, signed overflow, iterators invalidated in a loop, locking a mutex twice) is a
  distinct outcome and never a default value.
* Unsigned arithmetic is `Nat` with an explicit `% 2^w`, signed arithmetic is `Int` with an explicit wrap or a range condition where overflow matters.
* Floating point is modelled by rational numbers, for the logarithm by real numbers; the comment of each definition says so. Where rounding matters (Python, StaticBook, Walras), a rounding function is applied after each operation: exact, or binary64
  to nearest-even in the normal range (`Model/Double.lean`). Infinities, NaN, overflow and subnormal numbers are not modelled.
* Random choices (shuffles, random numbers, seeds), the order of iteration over unordered containers, the results of the numerical solvers and the programs of agents are arguments; theorems quantify over all of them.
* Threads are interleavings of atomic steps between operations on mutexes and condition variables; theorems quantify over all interleavings.
* Where the code violates the property a user would expect, the full statement is kept in `properties.jsonl`, its negation is proved (`C<nn>_counterexample...`), in general where possible and with a concrete witness otherwise, and the
  true part is proved as `C<nn>_..._partial`. A property with such a theorem has the status `partial`, even if everything that can be proved is proved.


## 3. Properties: what is modelled, how it is proved, what holds

The exact theorem names are in `MANIFEST.json`. "Method" says how the theorems are proved; "result" says what is proved and what the code violates.

**C01 Identity order is a strict total order** (proved). Theorems: `Props/Identity` (2). Method: list induction; invariant over all creation histories; injectivity of decimal printing. Result: Lexicographic order for all identities.

**C02 Created identifiers are globally unique** (proved). Theorems: `Props/Identity` (2). Method: list induction; invariant over all creation histories; injectivity of decimal printing. Result: All creation histories shorter than 2^64.

**C03 Copying an agent does not make identifiers repeat** (partial). Theorems: `Props/Identity` (3). Method: list induction; invariant over all creation histories; injectivity of decimal printing. Result: False of the code for agent copies (counter restarts at 0); counterexample proved; creation by copies is the missing part.

**C04 Printed identities are unambiguous** (proved). Theorems: `Props/Identity` (1). Method: list induction; invariant over all creation histories; injectivity of decimal printing. Result: Injective for all widths.

**C05 Splitting a quantity loses nothing** (proved). Theorems: `Props/Quantity` (1). Method: integer arithmetic modulo 2^64. Result: Both branches of operator/ and divide.

**C06 Quantity subtraction never wraps** (partial). Theorems: `Props/Quantity` (3). Method: integer arithmetic modulo 2^64. Result: Prefix decrement increments and postfix decrement of zero wraps in the code; negations proved.

**C07 Integer power is exact modulo the word size** (proved). Theorems: `Props/Quantity` (2). Method: integer arithmetic modulo 2^64. Result: All word sizes.

**C08 Price comparison is a total order within a currency** (proved). Theorems: `Props/Price` (2). Method: case analysis on currencies and variants; integer order. Result: All pairs of prices: integer order in one currency, refusal otherwise.

**C09 Quotes compare by price per unit** (partial). Theorems: `Props/Price` (5). Method: case analysis on currencies and variants; integer order. Result: Proved for equal positive lots and products below 2^63; >= does not check lots and large products wrap, negations proved.

**C10 Cash-flow statements add up** (proved). Theorems: `Props/Accounting` (3). Method: list induction over recorded cash flows; modular arithmetic for conversions. Result: All recorded histories and intervals.

**C11 Long and short positions in a security value to opposite amounts** (partial). Theorems: `Props/Accounting` (6). Method: list induction over recorded cash flows; modular arithmetic for conversions. Result: Long+short cancel for all quantities; valuation formula for non-negative quotes; negative quotes with lot>1 are wrong in the code, negation proved.

**C12 Inventory removal is exact or refused** (partial). Theorems: `Props/Inventory` (5). Method: list induction over bundles; conservation invariant over transfer histories. Result: Exact removal or refusal for all bundles and orders; a refused removal is not atomic in the code, negation proved.

**C13 Transfers conserve property** (proved). Theorems: `Props/Inventory` (3). Method: list induction over bundles; conservation invariant over transfer histories. Result: All transfer histories delivered once to each side.

**C14 Typed holdings agree with the inventory** (partial). Theorems: `Props/Inventory` (3). Method: list induction over bundles; conservation invariant over transfer histories. Result: All histories without self-transfers and repeated take; both break agreement in the code, negations proved.

**C15 Every due message is handled exactly once** (proved). Theorems: `Props/Communicator` (2). Method: permutation and sortedness lemmas over the priority multimaps, for any shuffle. Result: All message queues, handlers and steps: every due message is handed to each matching callback once and no message early.

**C16 Message priority is respected** (proved). Theorems: `Props/Communicator` (1). Method: permutation and sortedness lemmas over the priority multimaps, for any shuffle. Result: All registration histories: callbacks of higher priority run first.

**C17 In-order scheduling is first come first served** (partial). Theorems: `Props/Communicator` (2). Method: permutation and sortedness lemmas over the priority multimaps, for any shuffle. Result: False of the code: messages with the same delivery time are handled last-in first-out. The true reversed order is proved for all queues and the negation with a witness.

**C18 Simulation time only moves forward** (proved). Theorems: `Props/Parallel`, `Props/Scheduler` (3). Method: Runs with several threads are runs with one thread (C23), to which the theorems on whole runs apply.; invariants over rounds and runs for arbitrary agent programs. Result: All agent programs: a completed step moves strictly forward and a run visits strictly increasing times; also with any number of threads.

**C19 No requested wake-up is skipped** (proved). Theorems: `Props/Parallel`, `Props/Scheduler` (4). Method: Runs with several threads are runs with one thread (C23), to which the theorems on whole runs apply.; invariants over rounds and runs for arbitrary agent programs. Result: Next event is the minimum over all wake-up times (with any number of threads), no wake-up is skipped and an agent due acts.

**C20 Messages are processed at their delivery time** (partial). Theorems: `Props/Immediate`, `Props/Scheduler` (3). Method: induction over the rounds of a run with the times of what happened before; a message for the current time keeps its recipient due; invariants over rounds and runs for arbitrary agent programs. Result: Proved for runs in which every acting agent asks to be woken no later than its pending messages (Attentive); otherwise the agent's own request overwrites the wake-up for the message, negation proved. Messages for the time at which they are sent are processed at this time whatever the agents ask for (C20_immediate).

**C21 Messages dated in the past do not stall the simulation** (partial). Theorems: `Props/Immediate`, `Props/Scheduler` (4). Method: induction over the rounds of a run with the times of what happened before; a message for the current time keeps its recipient due; invariants over rounds and runs for arbitrary agent programs. Result: False of the code: a step never completes once a wake-up is overdue, and one message dated in the past causes that; negations proved. A round completes the step when all requests and messages lie in the future. In general: no run in which a message is dated before its sending completes (C21_counterexample_dated_past).

**C22 Message exchange conserves messages** (proved). Theorems: `Props/Scheduler` (3). Method: invariants over rounds and runs for arbitrary agent programs. Result: All worlds: every sent message ends in exactly one inbox or the step stops with an exception for an unknown recipient.

**C23 Results do not depend on the number of threads** (proved). Theorems: `Props/Parallel`, `Props/Threads` (4). Method: Runs with several threads are runs with one thread (C23), to which the theorems on whole runs apply.; commutation of jobs on disjoint state; all interleavings reduce to the sequential run. Result: All programs, populations, thread counts and interleavings of the jobs' atomic parts; agents share no memory in the model, as the code requires.

**C24 The threads parameter sets the number of worker threads** (partial). Theorems: `Props/Threads` (3). Method: commutation of jobs on disjoint state; all interleavings reduce to the sequential run. Result: False of the code: the constructor stores verbosity as threads; negation proved for all arguments.

**C25 The order book is never crossed** (proved). Theorems: `Props/OrderBook` (2). Method: invariants by induction over histories of inserts and cancels, on sorted queues. Result: All histories of inserts and cancels, without bounds; prices as integers of one currency and lot.

**C26 Matching conserves quantity** (proved). Theorems: `Props/OrderBook` (2). Method: invariants by induction over histories of inserts and cancels, on sorted queues. Result: All reachable books and all incoming orders.

**C27 Price-time priority** (proved). Theorems: `Props/OrderBook` (1). Method: invariants by induction over histories of inserts and cancels, on sorted queues. Result: All reachable books and all incoming orders.

**C28 No execution is worse than the limit** (proved). Theorems: `Props/OrderBook` (1). Method: invariants by induction over histories of inserts and cancels, on sorted queues. Result: All reachable books and all incoming orders.

**C29 Cancelling removes exactly that order** (partial). Theorems: `Props/OrderBook` (4). Method: invariants by induction over histories of inserts and cancels, on sorted queues. Result: Removal of exactly the order and the single report are proved for all histories; orders() keeps listing cancelled orders in the code, negation proved.

**C30 Resting orders have unique identifiers** (proved). Theorems: `Props/OrderBook` (1). Method: invariants by induction over histories of inserts and cancels, on sorted queues. Result: All histories with fewer than 2^64-1 inserts.

**C31 Order lifetimes are honoured** (partial). Theorems: `Props/OrderBook`, `Props/StaticBook` (6). Method: invariants by induction over histories of inserts and cancels, on sorted queues; simulation relation between the static book and the reference book over all histories. Result: The binary tree book ignores the lifetime: immediate-or-cancel remainders rest and fill-or-kill orders fill partly, negations proved; orders whose quantity is available are filled completely and do not rest. For the static book: immediate-or-cancel orders never rest and their quantity is accounted for after every careful history (C31_static_immediate_or_cancel); fill-or-kill orders can be executed in part and rest (counterexample), proved is that they are cancelled as a whole when nothing crosses.

**C32 The block pool never hands out an occupied slot** (partial). Theorems: `Props/BlockPool` (3). Method: invariant over all histories of insertions and erasures, with the chain of free blocks and the rounds of their indices explicit. Result: All histories of a pool that follow the discipline of its caller (store the returned index, erase only live indices) and make fewer than 2^64/capacity rounds; without storing the index two live elements can share a slot, negation proved. Reading through a constant reference never ends (counterexample).

**C33 Erasing twice is harmless** (partial). Theorems: `Props/BlockPool` (3). Method: invariant over all histories of insertions and erasures, with the chain of free blocks and the rounds of their indices explicit. Result: False of the code: erasing twice, or erasing an index that was never handed out, corrupts the free list; negations proved. Holds for an index whose slot was reused.

**C34 Static order book price encoding is invertible** (partial). Theorems: `Props/StaticCoding`, `Props/StaticDouble` (7). Method: exact rational arithmetic for the encoding of limits; error bounds for every floating-point operation of the encoding and decoding of limits. Result: Proved in exact arithmetic for lots that are a multiple k>=2 of the denominator (and the lower half for k=1), all ranges and limits below the maximum. With the rounding of double, the same lots and k*upper <= 2^40: every limit below the maximum has an existing level, levels are strictly increasing, decoding gives the limit or the one a unit below. The maximum, k=1 in the upper half, smaller lots and the rounding of double break the exact round trip; negations proved.

**C35 The static order book matches like the reference book** (partial). Theorems: `Props/StaticBook` (5). Method: simulation relation between the static book and the reference book over all histories. Result: Refinement: for every sequence of good-until-cancelled orders at faithfully represented prices the static book gives the reports, resting orders in sequence and best prices of the reference book up to an order-preserving renaming of identifiers, or throws only when more orders would rest than the capacity; never undefined behaviour. Partial because prices on the first level and prices that are not represented faithfully (C34) break it; counterexamples show crossed books, sell orders executed against sell orders and undefined behaviour.

**C36 Cancelling keeps the best prices correct** (partial). Theorems: `Props/StaticBook` (2). Method: simulation relation between the static book and the reference book over all histories. Result: Proved for all histories of insertions (any lifetime) and cancellations in which no cancellation takes the last order at a best price; false otherwise (counterexample).

**C37 Every execution report reaches its owner once** (partial). Theorems: `Props/Exchange` (6). Method: induction over event histories, using the order book theorems. Result: For every history each report is sent once, in order, to its owner, except those still waiting in the book; none wait right after an order. Fails for cancellations: their report is not sent until the next order for the symbol, and then with that order's details.

**C38 Logging on registers a participant** (partial). Theorems: `Props/Exchange` (5). Method: induction over event histories, using the order book theorems. Result: Fails: from a new exchange no history ever registers anybody (proved in general), because the constructor creates an empty entry and logon uses emplace; a second participant is never registered either. Logging out, and logging on for a ticker without an entry, work.

**C39 Grid sampling enumerates every combination once** (partial). Theorems: `Props/Grid`, `Props/Sampler` (4). Method: a permutation of the index range and the digits of a mixed radix; monotonicity and relative error of IEEE roundings; integer range analysis; mixed radix bijection, permutation invariants for any random choices. Result: For every rounding of floating point numbers, the samples are all combinations of the computed values, each once (C39_combinations_partial), for densities of at least one whose product fits 32 bits; over rational numbers these are the equidistant values, and distinct (C39_grid_partial). Violated otherwise: density one gives NaN, and two densities of 65536 give no samples (counterexample).

**C40 Latin hypercube samples use each value once** (partial). Theorems: `Props/Grid`, `Props/Hypercube`, `Props/Sampler` (6). Method: a permutation of the index range and the digits of a mixed radix; monotonicity and relative error of IEEE roundings; integer range analysis; an invariant of the tables over the list of parameters, with the number of times that each was met; columns of samples as permutations and counts; mixed radix bijection, permutation invariants for any random choices. Result: For every outcome of std::shuffle, assumed to permute. For every rounding, each computed value is used once (C40_values); over rational numbers these are the equidistant values (C40_latin_partial). Density one gives NaN (counterexample). C40_distinct derives the samples of distinct parameters from the loop of the code. A parameter that is listed twice may take a value in two samples and another in none (C40_counterexample_repeated), though none more often than it is listed (C40_repeated_partial).

**C41 Improved hypercube samples are permutations** (partial). Theorems: `Props/Sampler` (3). Method: mixed radix bijection, permutation invariants for any random choices. Result: For all random numbers within the ranges of the distributions and every way the distances may compare, if the number of candidate points fits 32 bits or there are at most two samples. Otherwise the function writes beyond the end of a vector (C41_counterexample_overflow: always, for three or more samples); with a duplication of zero it reads a candidate that does not exist (C41_counterexample_duplication).

**C42 ISIN check digits are correct** (proved). Theorems: `Props/Codes` (4). Method: modular arithmetic (Luhn, CUSIP, SEDOL, modulo 97), list induction. Result: For every size of uint_fast16_t between 16 and 64 bits: the checksum is the unique digit passing Luhn's test; single digit errors and transpositions (exactly except 0 and 9) are detected. Lower case letters count as the upper case ones (C42_lower_case).

**C43 Parsing a printed ISIN gives it back** (partial). Theorems: `Props/Codes` (8). Method: modular arithmetic (Luhn, CUSIP, SEDOL, modulo 97), list induction. Result: Violated: the constructor from a complete text keeps the first nine characters, country included, as the code, and does not verify the check digit (counterexamples for all codes starting with a digit); the constructor from a country and a text checks the length of the wrong thing and rejects nothing (counterexample). Proved: exactly which texts are rejected, the constructor from two strings round-trips, printing is injective.

**C44 CUSIP check digits are correct** (proved). Theorems: `Props/Codes` (5). Method: modular arithmetic (Luhn, CUSIP, SEDOL, modulo 97), list induction. Result: Full alphabet with *, @ and #. The nine-symbol constructor accepts exactly the correct check digit. The constructor from a string does not verify the digit (not claimed).

**C45 SEDOL check digits are correct** (partial). Theorems: `Props/Codes` (4). Method: modular arithmetic (Luhn, CUSIP, SEDOL, modulo 97), list induction. Result: Check digit proved. A change is detected exactly if the values differ modulo ten, so that A to 0 goes unnoticed, and the string constructor does not verify the check digit (counterexample).

**C46 LEI check digits satisfy ISO 17442** (partial). Theorems: `Props/Codes` (5). Method: modular arithmetic (Luhn, CUSIP, SEDOL, modulo 97), list induction. Result: Proved for numerical local parts: congruent to 1 modulo 97 without overflow of uint128_t, detection of changes at every place, round trip. Violated for letters in the local part and for the default-constructed LEI (counterexample).

**C47 Generated ISIN and LEI codes do not collide** (proved). Theorems: `Props/Codes` (5). Method: modular arithmetic (Luhn, CUSIP, SEDOL, modulo 97), list induction. Result: Collision-free for last digits below 36^9/1000 and 8-bit ranks; codes collide outside that range (C47_range_needed). LEI codes collide exactly if the hashes agree modulo 36^12. Beyond the claim: identities of shares are different for different companies and ranks (C47_share_identity), but equal to those of properties that the company creates (C47_share_is_child).

**C48 Currency ordering, equality and cash identity agree** (partial). Theorems: `Props/Price` (4). Method: case analysis on currencies and variants; integer order. Result: Equal denominators; currencies with equal code and different denominators break the order, negation proved.

**C49 Interval emptiness agrees with membership** (partial). Theorems: `Props/Interval` (13). Method: case analysis over the four kinds of intervals. Result: Holds for half-open intervals; empty()/singleton() swap open and closed for symmetric intervals, negations proved: over integers, and over dense types (rational numbers), where open intervals with two different bounds have elements. degenerate() is right for half-open intervals and wrong for closed ones (C49_degenerate_partial, C49_counterexample_degenerate).

**C50 The blocking queue is first in first out and loses nothing** (proved). Theorems: `Props/BlockingQueue` (9). Method: transition system of threads; invariants over all interleavings of any number of threads, with the order of entering and leaving recorded. Result: Any number of threads, every interleaving of lock, condition, body, unlock and notify steps, with spurious wake-ups and failures of try_to_lock. Threads may also call empty() and size() (C169).

**C51 A closed queue accepts no elements** (partial). Theorems: `Props/BlockingQueue` (3). Method: transition system of threads; invariants over all interleavings of any number of threads, with the order of entering and leaving recorded. Result: First half false of the code: push and try_push never look at the closed flag (negation proved). Second half proved: a closed queue is drained without waiting.

**C52 The thread pool runs every task exactly once before it is destroyed** (partial). Theorems: `Props/ThreadPool` (8). Method: transition system of workers, queue and destructor; invariant over all interleavings. Result: At least one thread; queue operations are single steps (C50 covers their inside; C172 has both in one model); tasks end, do not throw, and nobody enqueues once the destructor has begun (C172: tasks may). Violated for zero threads: no queues exist and the workers access them (counterexample).

**C53 Dividends never exceed the profit** (partial). Theorems: `Props/Company`, `Props/Payout` (11). Method: induction over histories of announcements, prices and holdings; exact rational arithmetic; relative error of a chain of IEEE roundings, as a relation closed under rounding, products and quotients; sums over classes; evaluation by the kernel for the counterexamples. Result: All share structures. Over exact arithmetic: exact parts, at most the profit, remainder less than a unit per class. In IEEE arithmetic, for profits of at most 2^49 units: at most the profit, each part within one unit of the exact one (C53_binary64_partial). Violated in IEEE arithmetic for larger profits, which dividends can exceed, and by parts of a cent too few; also violated for the total that a policy reports, which is the sum of dividends times shares if that fits (C53_total_partial) and undefined otherwise, and when the number of shares overflows (counterexamples).

**C54 A company never asks to be woken in the past** (partial). Theorems: `Props/Company` (5). Method: induction over histories of announcements, prices and holdings; exact rational arithmetic. Result: All histories of steps: exact description of announcements, each made once to each shareholder. Wake-ups violated between announcement and payment; a date of zero is never announced (counterexamples).

**C55 Share classes that differ are accounted separately** (partial). Theorems: `Props/Company` (4). Method: induction over histories of announcements, prices and holdings; exact rational arithmetic. Result: All histories of assignments; violated for classes of equal rank (counterexample).

**C56 Walrasian transfers balance** (proved). Theorems: `Props/Walras` (6). Method: list induction over participants and properties, for any sort order and any solver result. Result: compute_transfers for any demands and any sort order: amounts sum to zero, each participant gets one amount, total deviation from the rounded demands is minimal (equal to the size of the imbalance). Doubles are rationals; truncation as in C++.

**C57 Netting preserves net flows** (partial). Theorems: `Props/Walras` (4). Method: list induction over participants and properties, for any sort order and any solver result. Result: Net error of netting characterised exactly; equality when the larger side is sent/received first as stated. Counterexample: a property present in only one bundle, and one in the clearing itself.

**C58 Buyers receive what they pay for** (partial). Theorems: `Props/Walras` (4). Method: list induction over participants and properties, for any sort order and any solver result. Result: Exact flows for every clearing (delivered, charged, shorted, covered). Counterexample: a participant that buys two properties is sent only one, because the asset bag is replaced.

**C59 Clearing prices respect the circuit breaker and stay positive** (partial). Theorems: `Props/Tatonnement`, `Props/Walras` (11). Method: induction over the loops around the solver, which is an oracle; rational arithmetic; list induction over participants and properties, for any sort order and any solver result. Result: Circuit breaker: proved for root finding for every solver trace; the other three methods ignore it (counterexamples, one with the default methods and a negative multiplier). No worse than the start: proved for one property with monotone excess demand, in general up to the bounds; counterexamples for a non-monotone demand and for the derivative-free root finder. Nonnegative multipliers keep prices positive (any sign-preserving rounding); negative ones make negative prices. All outcomes of applying a solution are described (C59_applied).

**C60 A market without orders does not stall the simulation** (partial). Theorems: `Props/Walras` (2). Method: list induction over participants and properties, for any sort order and any solver result. Result: Counterexample theorem in general form: in the scheduler model, any simulation with a price setter that gets no orders never completes the step, whatever the others do. Partial: with at least one order the setter wakes up one step later.

**C61 Rounded allocations sum to the rounded total** (partial). Theorems: `Props/Algorithms`, `Props/Simplex` (8). Method: induction over the loops; list algebra; rational arithmetic; error of a running IEEE sum and of repeated differences, by induction; monotonicity of rounding; evaluation by the kernel for the counterexamples. Result: Holds if the rounded values sum to no more than the rounded total: over exact arithmetic (C61_allocate_partial), and in IEEE arithmetic up to roundings of the total (C61_binary64_partial). Otherwise the loop runs out of bounds, for every rounding (counterexamples); in IEEE arithmetic the result may not sum to the nearest integer of the exact total (C61_counterexample_sum). Fractions that end in a half can get the additional one although they were rounded up (C61_counterexample_half). Totals beyond int and negative fractions: counterexamples.

**C62 Barycentric samples are points of the simplex** (partial). Theorems: `Props/Algorithms`, `Props/Simplex` (6). Method: induction over the loops; list algebra; rational arithmetic; error of a running IEEE sum and of repeated differences, by induction; monotonicity of rounding; evaluation by the kernel for the counterexamples. Result: Exactly over rational numbers (C62_points, C62_simplex). In IEEE arithmetic dimension, signs and distinctness hold and the sum is the total up to one rounding per coordinate (C62_binary64_partial); the sum need not be exact, and points are missing (counterexamples).

**C63 Delimiter-separated records can be read back** (partial). Theorems: `Props/Text` (5). Method: list induction over what is printed and split. Result: Proved for fields without separators, newlines or quotes; violated for a field with a comma, and the escaping used has no reader (counterexamples).

**C64 Printed containers show all elements** (partial). Theorems: `Props/Text` (7). Method: list induction over what is printed and split. Result: Vectors, arrays, tuples and maps of all lengths; violated for queues of three or more elements, of which only the first half is shown (counterexample). Printing of sets and lists does not compile and is not modelled.

**C65 OpenBook fields are decoded big-endian and times do not wrap** (partial). Theorems: `Props/OpenBook` (3). Method: byte arithmetic; induction over the stream of messages. Result: All byte strings of the length of a message; violated for times of 2^32 microseconds (71.6 minutes) and later, which wrap (counterexample).

**C66 Saving and loading gives values back** (partial). Theorems: `Props/Saved`, `Props/Serialization` (15). Method: Containers are shown to be given back by induction over ascending elements; what is not written stays the state of the target, for all targets.; round-trip laws of codecs, compositional. Result: Proved for sequences, tuples, identities, entities, currencies, jurisdictions, legal persons and share classes; for rational numbers exactly when both parts fit int. Violated for larger rational numbers, all prices, all quotes, all producers and all timings of agents (counterexamples); what is saved of a price would suffice (C66_price_saved_partial). Boost's own archives are taken for granted.

**C67 Market-maker quotes never cross** (partial). Theorems: `Props/MarketMaker`, `Props/MarketMakerDouble` (8). Method: real arithmetic with the logarithm; The same function with every operation rounded to binary64 and an arbitrary logarithm that is zero for one and not negative from there on; order is preserved because rounding is monotone.. Result: Over real numbers with the real logarithm: quotes never cross for a nonnegative spread, the inventory shifts quotes in the right direction, exact rounding bounds for gamma > 0 and k > 0. Violated for gamma = 0, which the documentation allows (counterexample). In IEEE arithmetic with any logarithm that is not negative from one on: the bid is below the ask (C67_binary64), both are rounded outwards (C67_binary64_rounding), and a larger inventory moves no quote up (C67_binary64_inventory); but the spread vanishes for a risk aversion below 2^-54 times the arrival rate (C67_counterexample_little_aversion).

**C68 Library message codes do not collide** (partial). Theorems: `Props/MessageCode` (3). Method: bit arithmetic. Result: All offsets below the mask; the offset equal to the mask is accepted and collides with offset 0, negation proved.

**C69 A named output delivers to its streams** (partial). Theorems: `Props/Output` (5). Method: induction over histories of puts and added streams. Result: All histories: each stream gets each value put after it was added exactly once, in order. Violated when an output is created twice under one name (counterexample).

**C70 Price memory holds the latest quote** (partial). Theorems: `Props/Company` (3). Method: induction over histories of announcements, prices and holdings; exact rational arithmetic. Result: All sequences of quote messages; violated for bondholders, who keep the first price, and for a change of currency (counterexamples).

**C71 Deactivated agents do not hold back time** (partial). Theorems: `Props/Scheduler` (2). Method: invariants over rounds and runs for arbitrary agent programs. Result: False of the code: deactivation leaves the wake-up entry, so no step from that time on completes; negation proved. Proved: completed steps never pass the stale wake-up.

**C72 Callbacks can only be registered before the simulation** (proved). Theorems: `Props/Communicator` (2). Method: permutation and sortedness lemmas over the priority multimaps, for any shuffle. Result: All registration histories.

**C73 Accounting values are stated in the reporting currency** (partial). Theorems: `Props/Accounting` (4). Method: list induction over recorded cash flows; modular arithmetic for conversions. Result: Converted amounts carry the foreign currency label in the code, negation proved for every conversion. Apart from that they are right, rounded down, if products stay below 2^63 (C73_converted_amount_partial); larger products wrap around (C73_counterexample_overflow).

**C74 Bookkeeping of newly created agents before a step is well defined** (partial). Theorems: `Props/Announcements`, `Props/Scheduler` (5). Method: induction over the rounds of a loop on a vector whose buffer may be replaced, for every growth policy that at most doubles the buffer, and induction over steps; invariants over rounds and runs for arbitrary agent programs. Result: Violated: the code appends to the vector it iterates over, which the language leaves undefined for every list that is not empty. At the level of memory the loop reads a freed buffer exactly if the buffer has no room for twice as many agents less one, which is the case in every new environment with two or more agents (for any growth policy that at most doubles the buffer). Proved: the exact condition, and the result for the other lists.

**C75 Cancelling removes exactly one order** (partial). Theorems: `Props/StaticBook` (3). Method: simulation relation between the static book and the reference book over all histories. Result: Cancelling a resting order removes exactly it, for all careful histories; cancelling an executed order is reported again and corrupts the free list (counterexamples).

**C76 Country codes are validated and hashed without collisions** (proved). Theorems: `Props/Codes` (2). Method: modular arithmetic (Luhn, CUSIP, SEDOL, modulo 97), list induction. Result: Acceptance and injectivity of std::hash on size_t of 64 bits.

**C77 Market identifiers are validated and printed unchanged** (partial). Theorems: `Props/Codes` (3). Method: modular arithmetic (Luhn, CUSIP, SEDOL, modulo 97), list induction. Result: Texts of four characters are handled as stated; longer texts are cut and accepted and shorter ones than three are read beyond their end (counterexample).

**C78 Integer powers are exact modulo the width of the type** (proved). Theorems: `Props/Algorithms` (2). Method: induction over the loops; list algebra; rational arithmetic. Result: Unsigned types of every width.

**C79 Slicing and concatenating arrays are inverse** (proved). Theorems: `Props/Algorithms` (3). Method: induction over the loops; list algebra; rational arithmetic. Result: All element types, lengths and cuts.

**C80 Reading an OpenBook file gives the wanted messages, in order** (proved). Theorems: `Props/OpenBook` (1). Method: byte arithmetic; induction over the stream of messages. Result: All files with valid scale codes and all symbols; what other scale codes do is C81.

**C81 OpenBook prices are exact** (partial). Theorems: `Props/OpenBook` (2). Method: byte arithmetic; induction over the stream of messages. Result: Scales 2 to 11; violated for smaller scales, which throw, and larger ones, for which the lot does not fit (counterexample).

**C82 Messages keep their sender, recipient and times when saved and loaded** (partial). Theorems: `Props/Serialization` (3). Method: round-trip laws of codecs, compositional. Result: Violated for every message type: the header is never saved. Proved for contents, and for headers by themselves.

**C83 A parametrization gives the parameters it was made with** (partial). Theorems: `Props/Serialization` (3). Method: round-trip laws of codecs, compositional. Result: Violated for threads, which is given the verbosity; proved for the others.

**C84 A shareholder claims each dividend once** (partial). Theorems: `Props/Company` (4). Method: induction over histories of announcements, prices and holdings; exact rational arithmetic. Result: Exact description of the records for all histories of announcements; violated for later ex-dividend dates and several announcements in a step (counterexamples).

**C85 Stock holdings add up** (proved). Theorems: `Props/Company` (2). Method: induction over histories of announcements, prices and holdings; exact rational arithmetic. Result: All holdings.

**C86 A participant trades at most what it asked for, on the side it asked for** (partial). Theorems: `Props/Walras` (3). Method: list induction over participants and properties, for any sort order and any solver result. Result: Partial: exact characterisation when the rounded demands already balance; counterexamples: a participant with zero demand is made to trade, and one on the wrong side.

**C87 Everyone trades at the clearing price** (partial). Theorems: `Props/Walras`, `Props/WalrasRounded` (6). Method: list induction over participants and properties, for any sort order and any solver result; sums of the flows of C58 with bounded rounding of each payment. Result: Proved for any number of properties and any positions, before netting: with lots that divide the prices, cash received and sent differ by exactly the change of the price of the units that close short positions, so they balance if and only if these are worth the same at the old prices; with any lots and any rounding of payments by at most e, up to 2e per participant and property. Negations: units that close short positions are charged at the old price; payments cut off in lots make the market lose money in proportion to the number of buyers.

**C88 Every market date is quoted once** (proved). Theorems: `Props/Walras` (2). Method: list induction over participants and properties, for any sort order and any solver result. Result: All histories from the initial state; no assumption on the order of times.

**C89 Every order sent for this step takes part in the clearing once** (partial). Theorems: `Props/Walras` (4). Method: list induction over participants and properties, for any sort order and any solver result. Result: Exact characterisation of the cleared orders for all inboxes; partial statement when no order is stale. Counterexamples: one stale order suppresses all later ones; an order that is not due yet is cleared early.

**C90 The formulations of the clearing problem agree** (partial). Theorems: `Props/Tatonnement` (6). Method: induction over the loops around the solver, which is an oracle; rational arithmetic. Result: Root value and sum of squares characterised exactly for exact arithmetic. Counterexamples: traded property that no order mentions is undefined behaviour; orders for an untraded property make the formulations differ.

**C91 Reported clearing quotes clear the market** (partial). Theorems: `Props/Tatonnement` (6). Method: induction over the loops around the solver, which is an oracle; rational arithmetic. Result: Several properties strictly within the circuit breaker, and derivative-free minimization: proved for all traces. Minimization: up to a vanishing gradient. Counterexamples: one property, where the solver is stopped after one successful step (general theorem), minimization at a stationary point, derivative-free root finder that gave up.

**C92 Solution methods are tried in order until one succeeds** (partial). Theorems: `Props/Tatonnement` (3). Method: induction over the loops around the solver, which is an oracle; rational arithmetic. Result: Fallback order proved for all lists. Counterexample, general: methods after the derivative-free root finder are never tried, which includes the last of the default methods.

**C93 Impact market prices respond to orders** (partial). Theorems: `Props/Impact` (4). Method: list induction over orders and properties; the scheduler for the stalls. Result: General negations: all quotes in all histories have the initial prices; volumes of two and more count for nothing because volume and side are swapped. Partial: balanced orders.

**C94 Impact market quotes only what it lists, once per date** (partial). Theorems: `Props/Impact` (3). Method: list induction over orders and properties; the scheduler for the stalls. Result: Partial: all histories in which orders are for listed properties. Counterexamples: an order for an unlisted property lists it at price zero; the same quotes are sent twice.

**C95 An impact market without orders does not stall the simulation** (partial). Theorems: `Props/Impact` (3). Method: list induction over orders and properties; the scheduler for the stalls. Result: General negation in the scheduler model from time 2 on; partial: time advances when there are fresh orders.

**C96 Market data requests are honoured** (partial). Theorems: `Props/Exchange` (9). Method: induction over event histories, using the order book theorems. Result: Stream requests are ignored until somebody asked for a snapshot (proved in general), snapshots repeat for ever or never come, cancelling without a subscription is undefined behaviour. Streams after a snapshot, cancelling, absence of unrequested data and currency of the quotes are proved for all histories. Cancellations change the best quotes without any market data (C96_counterexample_cancellations).

**C97 Each trade is published once** (partial). Theorems: `Props/Exchange` (3). Method: induction over event histories, using the order book theorems. Result: Fails when the order changes the best bid or ask: then the stream shows the trade once per report (general theorem). Proved when the best quotes stay, without self-trade or waiting reports.

**C98 Instruments do not affect each other** (proved). Theorems: `Props/Exchange` (3). Method: induction over event histories, using the order book theorems. Result: Proved for all histories of the exchange (book contents) and of the matching engine (including reports).

**C99 Distributed activation: every process knows where every agent lives** (proved). Theorems: `Props/Distributed` (2). Method: invariants over histories of collective operations; migration as a transition system with termination and absence of deadlock. Result: Proved for any history. MPI transport and serialization are assumed faithful.

**C100 Distributed deactivation is announced to all processes** (partial). Theorems: `Props/Distributed` (5). Method: invariants over histories of collective operations; migration as a transition system with termination and absence of deadlock. Result: False in general: the collective operation is given one element per deactivated agent instead of one per process, so it is undefined unless the numbers are equal, in particular when nothing was deactivated; each process learns of one agent per process; the list is never cleared. Proved what holds when the numbers are equal.

**C101 All processes agree on the same migrations** (proved). Theorems: `Props/Distributed` (2). Method: invariants over histories of collective operations; migration as a transition system with termination and absence of deadlock. Result: Proved for proposals to existing processes; others are undefined behaviour.

**C102 Migration moves each agent exactly once and never blocks** (partial). Theorems: `Props/Distributed` (5). Method: invariants over histories of collective operations; migration as a transition system with termination and absence of deadlock. Result: Proved for orderly migrations (between different processes, each agent once, from where it is) as a transition system with and without buffering: bounded, never stuck, agents end where they should, address books right. False for migrations to the own process (agent lost) and of absent agents (target waits forever).

**C103 Messages reach agents on other processes** (partial). Theorems: `Props/Distributed` (4). Method: invariants over histories of collective operations; migration as a transition system with termination and absence of deadlock. Result: False: messages to other processes are copied and dropped, the reported number is always zero, unknown recipients are undefined behaviour on process zero. Proved that messages within a process are delivered exactly once.

**C104 A distributed run goes on until no process has events left** (partial). Theorems: `Props/Distributed` (2). Method: invariants over histories of collective operations; migration as a transition system with termination and absence of deadlock. Result: False: after the first step the run reaches the deactivation, which is undefined (C100). Proved when it ends.

**C105 Looking up an agent does not change the collection** (partial). Theorems: `Props/Distributed` (2). Method: invariants over histories of collective operations; migration as a transition system with termination and absence of deadlock. Result: False for unknown identities: a null pointer is inserted and later dereferenced. Proved for histories that look up active agents.

**C106 Each call of environment::step progresses the model** (partial). Theorems: `Props/Distributed` (2). Method: invariants over histories of collective operations; migration as a transition system with termination and absence of deadlock. Result: False: the model's time is never changed, so that every call starts at the start of the simulation; from the second call nothing happens. Proved what the first call does. Pending activations are left out (undefined behaviour by C74).

**C107 Tickers are totally ordered, print unambiguously and work as keys** (proved). Theorems: `Props/Ticker` (3). Method: lexicographic order; unambiguous printing; maps by insertion histories. Result: Order, text and sorted maps, for all tickers and histories. The hash of tickers is not modelled (it depends on boost::hash_combine).

**C108 Every country has its own name** (partial). Theorems: `Props/Iso`, `Props/Names` (6). Method: independent tables of the standards; every row is compared by the kernel; the tables of the source as functions; distinctness of keys and names checked by the kernel over the whole table. Result: Names follow the table for all codes, are distinct, and contain the keyword of the country in Spec/Iso.lean. Violated for Andorra and India: these constants have no name (C108_counterexample_unnamed).

**C109 Every currency has its own code, hash and name** (proved). Theorems: `Props/Names` (5). Method: the tables of the source as functions; distinctness of keys and names checked by the kernel over the whole table. Result: Proved for all codes. USN and XXX have no name of their own and print their code.

**C110 A log keeps exactly what its filter lets through, tagged with its severity** (partial). Theorems: `Props/Log` (5). Method: list induction; all schedules of threads that lock the mutex. Result: Proved for the log's buffer and severities known when compiling. Violated on the console in development builds (messages below the filter are shown) and for get(severity), which writes no severity. Messages of dynamic severity are filtered likewise (C110_dynamic_filtered).

**C111 Threads can log at the same time** (partial). Theorems: `Props/Log` (4). Method: list induction; all schedules of threads that lock the mutex. Result: Proved for single insertions: each value is contiguous, in order, nothing lost, and the holder of the mutex can always finish. Violated for lines of several insertions, and channel::endl locks the mutex twice.

**C112 The location of a message is relative to the library** (partial). Theorems: `Props/Log` (4). Method: list induction; all schedules of threads that lock the mutex. Result: Proved for the last occurrence of the text esl/ and for paths without it. Violated for directories whose name merely ends in esl.

**C113 Containers are dictionaries in Python** (partial). Theorems: `Props/Python` (4). Method: dictionary laws over multimaps; case analysis over Python objects. Result: Proved for maps, and for inboxes at times with exactly one message. Violated for inboxes: assignment to a time without messages does nothing, and for a time with several messages it replaces all of them.

**C114 Python logs at the severity that is asked for** (partial). Theorems: `Props/Python` (4). Method: dictionary laws over multimaps; case analysis over Python objects. Result: Proved for strings logged as trace or notice. Violated for warnings and errors, which are logged as notices (and so vanish from release builds), and for objects other than strings, whose text is read after it was destroyed.

**C115 Codes read in Python are the codes of the objects** (partial). Theorems: `Props/Python` (8). Method: dictionary laws over multimaps; case analysis over Python objects. Result: Proved for countries, legal entities and for codes of nine characters. Violated for currencies (only two of three letters, so USD and USN agree; and printing one raises an exception) and for shorter codes of securities (undefined behaviour).

**C116 Agents written in Python can send messages** (partial). Theorems: `Props/Python` (3). Method: dictionary laws over multimaps; case analysis over Python objects. Result: Violated for agents in general: inbox and outbox are copies, and send_message does nothing. Proved for appending to the outbox of a communicator.

**C117 Parameters can be read in Python** (partial). Theorems: `Props/Python` (2). Method: dictionary laws over multimaps; case analysis over Python objects. Result: Proved for floating point and integer parameters. Violated for prices, which can be set and not read.

**C118 Python code that returns no time goes on at the end of the step** (proved). Theorems: `Props/Python` (1). Method: dictionary laws over multimaps; case analysis over Python objects. Result: Proved for all returned objects; a returned integer outside of uint64 raises an exception.

**C119 Orders written in Python keep their demand and supply** (partial). Theorems: `Props/Python` (3). Method: dictionary laws over multimaps; case analysis over Python objects. Result: Supply proved; demand proved for entries that are numbers for properties. Violated for others: they are dropped without an exception.

**C120 The price of a quote is its price** (partial). Theorems: `Props/Python` (2). Method: dictionary laws over multimaps; case analysis over Python objects. Result: Proved for prices. Violated for exchange rates: a null pointer is read.

**C121 Currencies are divided as ISO 4217 says** (partial). Theorems: `Props/Iso` (2). Method: independent tables of the standards; every row is compared by the kernel. Result: Proved for all currency constants but three. Violated for TND (100, should be 1000), CLF (100, should be 10000) and UYI (100, should be 1). The standard is written down in Spec/Iso.lean.

**C122 Every country has a jurisdiction with its currency** (partial). Theorems: `Props/Iso` (2). Method: independent tables of the standards; every row is compared by the kernel. Result: Proved for every jurisdiction constant, against the table of shared currencies in Spec/Iso.lean. Violated for five countries, which have no jurisdiction: AQ, FK, GS, PS, TW.

**C123 Objects have the identifier they are constructed with** (partial). Theorems: `Props/Construction` (10). Method: case analysis over the class hierarchy; induction over chains of derived classes. Result: Proved for stocks, bonds, money, assets and twelve classes of agents, and for classes of users whose constructor names the virtual base. Violated by security, owner<T> and debtor, whose objects always have the empty identifier, and by classes of users that pass the identifier to their direct base only.

**C124 Contracts between different parties are different properties that know their parties** (partial). Theorems: `Props/Construction` (7). Method: case analysis over the class hierarchy; induction over chains of derived classes. Result: Proved: loans and lending contracts know their parties; bonds with different identifiers are held side by side. Violated: all loans share the empty identifier, so an inventory holds at most one; lending contracts on one security share an identifier whoever the parties are; a bond drops its issuer.

**C125 Messages are created as asked and name their sender** (partial). Theorems: `Props/Messages` (7). Method: case analysis over constructors; composition of round trips; rational arithmetic. Result: Proved: recipient, delivery time, code, contents and queueing for all arguments; the sender for all messages of the library but one kind. Violated: create_message does not set the sender or the time of sending, so that without constructor arguments the sender is empty and the time zero; transfers by which a Walrasian market takes property name the participant as sender; all messages of the library except those of the exchange are sent at time zero.

**C126 Messages keep their contents when saved and loaded** (partial). Theorems: `Props/Messages` (5). Method: case analysis over constructors; composition of round trips; rational arithmetic. Result: Proved for transfers and for quote messages without quotes. Violated for all orders (nothing is saved) and for every quote message with a quote (loading always throws).

**C127 An order that answers a quote goes to the market that quoted** (proved). Theorems: `Props/Messages` (2). Method: case analysis over constructors; composition of round trips; rational arithmetic. Result: Proved for all quotes.

**C128 Messages take the latency between their sender and their recipient** (partial). Theorems: `Props/Messages` (6). Method: case analysis over constructors; composition of round trips; rational arithmetic. Result: Proved for market data and for reports to the sender of the order, and the lower bound by the shift. Violated: the counterparty's report takes the latency of the sender of the order; the rate of shifted_gamma_latency is used as scale, so that the documented latency holds for the rate one only. Random numbers are arguments and real numbers are rational. Latencies of minus one or less, and those that no duration can hold, are undefined (C128_counterexample_undefined).

**C129 The balance sheet states the value of the assets** (partial). Theorems: `Props/Messages` (2). Method: case analysis over constructors; composition of round trips; rational arithmetic. Result: Violated: the assets are always zero.

**C130 Arithmetic on prices is arithmetic on amounts** (partial). Theorems: `Props/PriceArithmetic` (8). Method: integer range analysis; error bounds of IEEE rounding proved for all rationals, then chained through the operations. Result: Sums, differences, negation, integer multiples (in range) and products and quotients with numbers are proved; the property fails for products and quotients of prices (in smallest units), for adding numbers (in smallest units), for different currencies when assertions are off, and at the limits of the range. Assertions are modelled as compiled out.

**C131 Prices survive a conversion to a number and back** (partial). Theorems: `Props/PriceArithmetic` (7). Method: integer range analysis; error bounds of IEEE rounding proved for all rationals, then chained through the operations. Result: With IEEE double arithmetic: the result is the same or one smallest unit nearer to zero (up to 2^51 units), exact for amounts that are floating-point numbers (whole amounts, halves, quarters) and in undivided currencies, and the order is preserved; 29 cents become 28, and the losses of repeated conversions add up.

**C132 Arithmetic on quotes is arithmetic on the price of one item** (partial). Theorems: `Props/PriceArithmetic` (6). Method: integer range analysis; error bounds of IEEE rounding proved for all rationals, then chained through the operations. Result: Sums and differences are proved, and the way there and back with a lot of one; for any other lot it always fails, since the price per item is taken for the price of the lot. Products and quotients are of numbers of subunits per lot, so that they are wrong by the factor of the lot times the subunits.

**C133 Rates denote the numbers they are made from** (partial). Theorems: `Props/PriceArithmetic` (9). Method: integer range analysis; error bounds of IEEE rounding proved for all rationals, then chained through the operations. Result: Within one step of the precision, apart from rounding; inflation is exact for a positive first price; exchange rates are exact. It fails for decimal numbers such as 0.0003, for prices in different currencies, and for the precision of exchange rates, which is that of the lowest terms. Exchange rates from numbers are within one step of the rate they are made like (C133_similar_partial); undefined from 2^64 steps on (C133_counterexample_large).

**C134 A clearing settles what was ordered at the quotes it announces, or changes nothing** (partial). Theorems: `Props/Clearing` (6). Method: composition of the lemmas on quotes, transfers, settlement and netting; exact rational inequalities for the budget. Result: Proved for all markets, rounding functions and sorts: an unsolved clearing changes nothing; a solved one assigns units that balance and are close to the demands, and participants with one trade exchange exactly what follows. Missing: participants that trade several properties (C57, C58). Negations: a price rounded up to one smallest unit makes a buyer pay more than it offered; orders without any demand, for untraded properties or with a zero multiplier have undefined behaviour.

**C135 A unique item has one owner** (partial). Theorems: `Props/Unique` (6). Method: invariant (held plus in transit) over all histories of giving and receiving; the agreement of sets and inventories by induction with it. Result: Conservation at every moment and one owner are proved for every history. The set of unique items agrees with the inventory if transfers are between different owners and move one piece; it does not for transfers of the amount zero (release build) or to oneself. Giving more of an item than one has ends the run with an exception (C135_refused).

**C136 Inventories are added, removed and collected as a whole** (partial). Theorems: `Props/Unique` (9). Method: invariant (held plus in transit) over all histories of giving and receiving; the agreement of sets and inventories by induction with it. Result: Insertion, there-and-back and the set operations are proved. A refused removal has removed earlier items; removing nothing of an item without an entry dereferences the end iterator; erasing a set of unique items uses iterators of another container.

**C137 Quantities and floating-point numbers compare and combine exactly** (partial). Theorems: `Props/QuantityNumber` (14). Method: monotonicity of IEEE rounding, proved for all rationals; exactness below 2^53 and a rounding tie above it. Result: Comparisons are sound for every amount and exact if the amount or the number is at most 2^53. Above, different quantities equal the same number; != with a fraction is inconsistent with ==; products truncate the factor first; dividing by 1.0 changes large amounts.

**C138 A deleted agent is accounted for once** (partial). Theorems: `Props/Announcements` (5). Method: induction over the rounds of a loop on a vector whose buffer may be replaced, for every growth policy that at most doubles the buffer, and induction over steps. Result: Violated: the list of deleted agents is doubled instead of emptied, so each agent is counted 2^i times in step i, and in a new environment the second step at the latest reads freed memory. Proved: the exact condition on the capacity under which a step is well defined, the number it returns, and the case without deleted agents.

**C139 Property is conserved over a whole simulation** (partial). Theorems: `Props/Holders`, `Props/Parallel` (6). Method: three ledgers (congruence modulo 2^64, an upper bound, outstanding obligations) as invariants of every job, exchange of messages, round and step of a run, composed with the transfer callback; Runs with several threads are runs with one thread (C23), to which the theorems on whole runs apply.. Result: Proved for all completed runs with amounts that fit into 64 bits, exactly, and modulo 2^64 without that assumption, with any number of threads. Violated if the transferee is not an owner (the message is dropped and the property with it) and if an amount wraps around; both are shown by a run.

**C140 Every message of a simulation is accounted for** (proved). Theorems: `Props/Ledger`, `Props/Parallel` (4). Method: invariant over all jobs, exchanges, rounds and steps of a run: counts of every message, order of inboxes, calls made; Runs with several threads are runs with one thread (C23), to which the theorems on whole runs apply.. Result: Proved as an invariant of all rounds of all steps, with any number of threads; what was handled and sent is read from the log of the run with one thread, which ends in the same state (C23).

**C141 Means, growth rates and enumerated loops** (partial). Theorems: `Props/Averages` (19). Method: induction over the loops; real logarithms and exponentials. Result: Proved over exact real arithmetic for double elements: the mean, its bounds, order and unit, and enumerate. With any arithmetic whose operations have a bounded relative error within the range of the type, and an absolute one near zero, the computed mean is bounded around the exact one as long as the sum of the logarithms does not overflow (C141_rounding_partial). False for integer element types (C141_counterexample_integer: any sequence of ones and twos has mean 1) and for growth_rate (C141_counterexample_growth: the change is spread over one period too many, for every series that changed). Non-positive elements are not modelled. With zeros the mean is right (C141_zero_partial), and so is the growth rate of a series that ends with zero (C141_loss_partial); negative numbers and zeros before the end give NaN or infinity (C141_counterexample_negative, C141_counterexample_interim, C141_counterexample_beginning).

**C142 Printed prices, quotes and execution reports identify what they describe** (partial). Theorems: `Props/Printing` (15). Method: error bound of IEEE rounding against half a digit; unique splitting of texts at separators. Result: Proved for amounts below 2^52 minor units in currencies with a power of ten of minor units: the text is the exact amount and identifies price, quote, and state, owner and limit of a report. False: amounts above 2^53 share texts (C142_counterexample_large); printing a price changes the precision of the stream and printing an identity its fill character; a width splits currency and amount; reports do not show side, quantity or identifier; comparing reports with different lot sizes throws. double is IEEE binary64 with exact decimal output; log10 of the denominator is exact.

**C143 Objects shared between Python and C++ live as long as they are used** (partial). Theorems: `Props/Sharing` (6). Method: invariant over all programs: the counts of each control block equal the variables and deleters that hold it; induction along chains of conversions in both directions. Result: Counts never go wrong, held pointers point to one existing object, no object is deleted twice (C143_valid); conversions keep the object (C143_same_object, C143_stable); exactly which objects exist (C143_alive). Partial because the deleter made by to_std keeps its pointer until the control block is destroyed: a weak pointer to such a result keeps the object (C143_counterexample_weak).

**C144 A clearing model made in Python has the quotes and orders it is given** (partial). Theorems: `Props/Bindings` (9). Method: induction over dictionaries, lists and programs; case analysis on Python objects. Result: True for well-formed dictionaries and lists. False: other entries are dropped silently, None is undefined behaviour, a failed assignment loses the old orders, appending has no effect, and an unsolved market looks like an empty one.

**C145 Agents and companies written in Python take part in the simulation** (partial). Theorems: `Props/Bindings` (6). Method: induction over dictionaries, lists and programs; case analysis on Python objects. Result: Activation, deactivation, seeds and companies that define dividends are right. False: agents cannot be created (the result is None and activating it is undefined behaviour), local_agents() raises an exception as soon as there is an agent, and a company whose class does not define upcoming_dividend fails in every step.

**C146 A Walrasian market conserves positions and money over a whole simulation** (partial). Theorems: `Props/Auction` (7). Method: the settlement of one clearing (C134) summed over participants, then a ledger with integer coefficients as an invariant of every job, exchange of messages, round and step of a run; what each job sends weighs nothing together. Result: Proved for clearings in which every participant demands at most one property per clearing (also for several properties traded by different participants, with short positions), over runs of any length, exactly and modulo 2^64 with transfers in transit. Money is conserved if moreover nobody closes a short position. Both restrictions are needed: a participant that buys two properties loses one of them (C146_counterexample_two), and closing a short position at the old price creates money (C146_counterexample_money).

**C147 An exchange accounts for every unit that is ordered from it** (proved). Theorems: `Props/Venue` (6). Method: a balance of units as an invariant of the matching loop and of every operation of a book; summed over the messages that a callback of an exchange handles; then a ledger over all agents and all messages on their way as an invariant of every job, exchange of messages, round and step of a run, where sending an order creates units and reporting consumes them. Result: Proved for a book over all histories, for an exchange over all sequences of messages, and for whole simulations in which any other agents take part (they send no execution reports in the name of the exchange), by a ledger of units over all agents and messages. The statements about exchanges are about runs in which the exchange has not thrown: an order for a symbol without a book throws an exception, which ends the run. Reports of cancellations wait in the book until the next order for the symbol, which is why they appear as a separate term.

**C148 An order book compares quotes as prices, and refuses what it cannot compare without any effect** (partial). Theorems: `Props/QuotedBook` (9). Method: refinement: every operation on a book with quotes that are quoted alike is the operation on the book with integers, by induction over the matching loop and the history; an invariant (one currency and lot on both sides) for histories with several currencies. Result: Proved for all histories with one lot size and limits whose product with the lot fits into 64 bits: the book with quotes refines the book with integers (so that C25 to C31 and C147 carry over), all resting orders are in one currency, and orders in another currency are refused without effect. Limits that do not fit can rest, but then cancelling and matching them is undefined (C148_counterexample_overflow). With different lot sizes the claim fails: operator>= does not check lots, so that an order can be refused after a part of it was executed, and its remainder is lost (C148_counterexample_lots); quotes are not compared per unit (C148_counterexample_units); and cancelling an order again throws once the book trades in another currency (C148_counterexample_cancel).

**C149 Agents can be created and deleted during a simulation** (partial). Theorems: `Props/Population` (15). Method: worlds reached by rounds as an inductive relation; every round of a history is taken apart into who acts, what is created, deleted and sent; invariants for wake-ups and for messages between agents that stay; refinement to the fixed population. Result: Proved for every run that completes: time (C149_time), new agents act in the next round unless a message was sent to them first (C149_created_acts_partial), deleted agents are gone (C149_deleted_gone), only known agents act, agents stay until deleted, wake-ups are honoured, messages between agents that stay are processed on time if agents are attentive (C149_delivered_partial, as in C20), and refinement to the fixed population (C149_static). The full claim fails: in the environment of the library a creation is undefined behaviour at the next step (C149_counterexample_activation); a new agent may never act (idle) or be postponed by a message (postponed); an agent deleted earlier in a round still acts in it and its messages are lost (silenced); a message to an agent deleted in the same round ends the run (unreachable); the wake-up of a deleted agent keeps the simulation from completing (never_completes, deleted_blocks).

**C150 Announced dividends reach the shareholders while the simulation goes on** (partial). Theorems: `Props/Dividends` (4). Method: an invariant of the state of one agent and the log, kept by each of its jobs and by the actions of others; the last action before a date, and the wake-ups of C19, show that the company acts on the date; messages dated in the past (C21) show that runs do not complete. Result: Proved for every completed run: announcements are made in order and never twice, and are processed at the time of sending (C150_once); the company acts on the announcement date and announces to every registered shareholder (C150_announced_partial). The full claim fails: no run completes if the dividend is payable after its announcement date, because the company then asks to be woken on the past announcement date (C150_counterexample_payable), nor if a shareholder that has shares gets an announcement with an ex-dividend date before the end, because its record is dated at time zero (C150_counterexample_record).

**C151 Samples lie in the intervals of their parameters and reach the bounds** (partial). Theorems: `Props/Grid` (9). Method: a permutation of the index range and the digits of a mixed radix; monotonicity and relative error of IEEE roundings; integer range analysis. Result: In IEEE arithmetic, for all representable bounds and densities of at least two: never below the lower bound, which is the first value, ascending, and within a few roundings of equidistant values (C151_values_partial, C151_samples_partial); exact, with both bounds, if bounds and steps are moderate multiples of a power of two, such as integers (C151_exact_partial). The full claim fails: values above the upper bound, an upper bound that is not reached, and values that coincide (counterexamples). For integer parameters: always in the interval, but the upper bound is reached only if the division leaves no remainder (C151_integers_partial), a density of one is undefined, and exchanged bounds give values far outside of the interval (C151_counterexample_exchanged).

**C152 Printed inventories show what they contain** (partial). Theorems: `Props/Listing` (10). Method: The names of the properties and the operators that write inventories to a stream are functions to lists of characters. The names are compared pair by pair; the contents are read back from the text by splitting it at the first colon or comma and at the first character that is not a digit.. Result: An inventory whose first entry, in the order of iteration, is money is printed as `{}`, whatever else is in it (C152_counterexample_money), so that what is printed depends on the order (C152_counterexample_order). An inventory whose first entry is not money is printed with all entries (C152_listed_partial), and the text then determines the contents as far as the names do (C152_contents_partial). Which names coincide is characterised exactly (C152_names_partial): assets, loans (C152_counterexample_loans, _assets), and money in currencies with the same code; all other names show the identifier. Unique property (C152_unique, C152_unique_items) and the message of a refused withdrawal (C152_shortage) are as claimed.

**C153 Classes written in Python extend the classes of the library** (partial). Theorems: `Props/Overrides` (6). Method: Python classes are tables from methods to bodies, which are lists of statements; virtual calls, the wrappers and the functions of the library that call them are an interpreter with a recursion limit for Python and a number of steps for the simulation. Runs are followed by induction over the steps, recursion by induction over the limit.. Result: The functions that are bound in Python are virtual member functions, so that calling the method of the base class ends up in the same Python method: a method with `super().m(...)` never returns (C153_counterexample_inherited). Definitions of `activate_agent`, `deactivate_agent` and of `act` in a company are ignored (C153_counterexample_ignored), and `activate`, `deactivate` and `send_messages` must return a number (C153_counterexample_nothing). For methods without such calls, the sequence of all calls of a run, of any length, is as claimed (C153_run_partial), and so is each call with its result (C153_call_partial).

**C154 Messages can be handled by functions written in Python** (partial). Theorems: `Props/Callbacks` (5). Method: Variables are slots that exist or exist no more; a handle is the number of a slot. That no sequence of actions revives a slot is an induction over the sequence.. Result: The function is captured by reference to a parameter, so that every use of the handle is undefined behaviour (C154_counterexample_handle), and `callback` always raises an exception (C154_counterexample_callback). While the variable exists the function is called as claimed (C154_handle_partial), and handles do not affect each other (C154_different_partial). A variable holds its function until it is destroyed (C154_kept_partial).

**C155 Keys are found in unordered containers** (partial). Theorems: `Props/Hashing` (6). Method: An unordered container is a list of buckets with an arbitrary hash function; the invariant is that every entry is in the bucket of its hash, and looking up a key is shown to agree with a dictionary by induction over the operations, including changes of the number of buckets.. Result: Proved for containers in general (C155_container) and for identities (C155_identity), tickers (C155_ticker) and cash (C155_cash). A share class whose preference is not a number is not equal to itself, so that it is never found (C155_counterexample_nan); all other share classes are as claimed (C155_share_partial). `boost::hash_combine` is left open; that `boost::hash_value` of a zero does not depend on its sign is part of the model.

**C156 Solvers are given the derivatives of the excess demand** (partial). Theorems: `Props/Solvers` (7). Method: Model of what tatonnement.cpp passes between Adept and GSL: excess demands are multivariate polynomials, derivatives are formal ones (Mathlib), the storage orders of the two libraries are assumptions; and of the memory and error handler events of each solution method, run by a checker with undefined behaviour as an outcome. Proved by list indexing, by induction over the steps of Newton's method, and by induction over the list of methods and over calls.. Result: False of the code: the matrix is transposed, since Adept stores matrices by columns and GSL by rows (general counterexample for every asymmetric cross effect; for a family of markets Newton steps with this matrix double all excess demands for ever, where the right matrix clears them in one step). Proved: the matrix is right exactly if the cross effects are symmetric, for demands that depend on their own multiplier only, for one property, and the gradient for the minimizer. The storage orders of the two libraries and the exactness of Adept are assumptions.

**C157 Computing clearing quotes uses memory correctly and leaves the error handler as it was** (partial). Theorems: `Props/Solvers` (5). Method: Model of what tatonnement.cpp passes between Adept and GSL: excess demands are multivariate polynomials, derivatives are formal ones (Mathlib), the storage orders of the two libraries are assumptions; and of the memory and error handler events of each solution method, run by a checker with undefined behaviour as an outcome. Proved by list indexing, by induction over the steps of Newton's method, and by induction over the list of methods and over calls.. Result: False of the code in two ways: a successful root search for one property leaves the handler that ignores errors installed, for ever; derivative_free_minimization reads step sizes that are never written. Proved for all other lists of methods and for the default methods (memory), and for several properties, without root finding or without result (handler).

**C158 Zero-truncated Poisson numbers have the zero-truncated Poisson distribution** (partial). Theorems: `Props/Poisson` (5). Method: Model of the inversion loop of the zero-truncated Poisson distribution over the real numbers (Mathlib). The loop is shown to return the first k whose partial sum, of a series given in closed form, is at least the uniform random number; the partial sums are compared with the distribution function by induction and by bounds on the exponential function.. Result: False of the code: the probabilities are updated with k instead of k + 1, so that all numbers from two on have wrong probabilities (for every mean some random number gives two instead of three; with a mean of at most one nothing above two is ever drawn). Proved: at least one, one has the right probability, nothing is larger than it should be. Real arithmetic is exact. All members of the class are private, so a program cannot use it as it is.

**C159 Improved hypercube sampling selects well-spaced points** (partial). Theorems: `Props/Distance` (4). Method: Model of get_best_distance with 32-bit squares and real square roots and powers (Mathlib). The two nested loops for minima are specified by induction, and 32-bit squares are shown to be exact for differences below 65536.. Result: False of the code: squared differences are computed on 32 bits, so that points 65536 apart coincide and a far candidate is preferred (counterexamples). Proved for up to 65536 samples, with exact real arithmetic; and that the function is an instance of the arbitrary choice for which C41 is proved.

**C160 A dividend that is announced to another process is the dividend that is received** (partial). Theorems: `Props/Notices` (5). Method: Codecs for share classes, maps and policies, composed of those of C66; induction over the entries of a map, with the exact contents that are loaded; then the callback of C84 on the loaded message.. Result: False of the code: prices are not loaded and headers are not saved, so that every announcement arrives with dividends of zero and without a sender, and the shareholder sends no record to the company (counterexamples, for all policies and holdings). Proved: exactly which parts arrive.

**C161 The Python module can be imported** (partial). Theorems: `Props/Attributes` (2). Method: Definitions of classes executed against a registry, by induction over the definitions; resolution of methods in two levels of classes; an invariant over all Python programs.. Result: False of the code: centralized_exchange names the class market as a base, which no module defines, and messages name header, which is defined later, so that the import raises an exception (counterexample, with the exact condition on other modules). Proved for all modules: the import succeeds exactly if bases are defined first. The claims on other parts of the Python interface are about the module without this failure.

**C162 The best prices of an order book can be read in Python** (partial). Theorems: `Props/Attributes` (2). Method: Definitions of classes executed against a registry, by induction over the definitions; resolution of methods in two levels of classes; an invariant over all Python programs.. Result: Proved for all books but the one with trees, whose class has methods of its own that return a type Python does not know: they raise an exception in every state (counterexample).

**C163 Shares that Python code issues are shares of the company** (partial). Theorems: `Props/Attributes` (3). Method: Definitions of classes executed against a registry, by induction over the definitions; resolution of methods in two levels of classes; an invariant over all Python programs.. Result: False of the code: attributes are copies, so that no Python program can give a company shares or shareholders, and no company created in Python announces a dividend (counterexample for all programs). Proved that the shares can be read.

**C164 Parameters set in Python are the parameters of the model** (partial). Theorems: `Props/Experiment` (8). Method: Cases over the types of Python values; induction over programs that set parameters, with the last value set as specification.. Result: Proved that numbers can be read back, and that models have the values that were set as unsigned numpy numbers. False of the code for Python integers, which become signed parameters, and make the constructor of a model throw, whatever their values; and simple_experiment fails for samples with more than 32 bits (counterexamples). Names that were never added, and prices, raise an exception when read (C164_absent).

**C165 Orders are what they are made of** (partial). Theorems: `Props/Orders` (9). Method: Arithmetic of fixed width; cases over the members of orders; induction over lists of orders and histories of an exchange, with the conservation theorem of the order book.. Result: Proved for quantities below 2^32 and orders with the same lot. False of the code for larger quantities, which Python orders silently reduce, so that less is executed or rests than was asked for after any history of the book; and for different lots, for which comparing orders raises an exception (counterexamples).

**C166 Positions on an exchange state what was traded** (partial). Theorems: `Props/Orders` (5). Method: Arithmetic of fixed width; cases over the members of orders; induction over lists of orders and histories of an exchange, with the conservation theorem of the order book.. Result: Proved for liquidity and printing, and for warnings if supplied and bought units add up to less than 2^64; for larger numbers the sum wraps (counterexample). False of the code for trades: no order changes a position (counterexample).

**C167 Values of the library can be keys in Python** (partial). Theorems: `Props/Values` (5). Method: Objects with addresses and dictionaries with stored hashes, by induction over all programs of assignments; a table of all attributes against the registry of classes, decided by the kernel and lifted to all registries.. Result: Proved for identities that are not changed. False of the code for all other classes: tickers, prices, quotes and others compare by value but hash by address, so that an equal object is never found; currencies and others compare by address; and the digits of an identity can be changed while it is a key (counterexamples). That boost::python classes keep the hash of object is part of the model of Python.

**C168 Attributes can be read in Python** (partial). Theorems: `Props/Values` (2). Method: Objects with addresses and dictionaries with stored hashes, by induction over all programs of assignments; a table of all attributes against the registry of classes, decided by the kernel and lifted to all registries.. Result: Proved for all attributes but sixteen, which raise an exception because the module defines no class for their types (counterexample).

**C169 What size() and empty() of the blocking queue tell can be relied on** (partial). Theorems: `Props/QueueSize` (4). Method: invariants over all interleavings of the blocking queue; a thread that reads holds the mutex. Result: Proved for any number of threads and every interleaving: the answer is true when it is returned (size modulo 2^32), and it lasts until as many elements as promised have been taken by any threads. Negations: with two consumers, one that found the queue not empty can wait forever; size() of a queue with 2^32 elements is 0.

**C170 The order log of an exchange records what happened, once and on time** (partial). Theorems: `Props/OrderLog` (8). Method: a filter on the loop over reports related to the messages of the exchange; an invariant on who owns the orders in the books; sums over the matching loop. Result: Proved for all histories: the log has no effect on the exchange; at each event it is exactly the execution reports to the sender of the order that are not rejections; entries are on time; if everybody sends their own orders and nobody is on both sides of a symbol, all units ordered are recorded exactly once. Negations: orders sent for others are never logged, an agent that trades with itself is logged twice, cancellations are logged with the time of the next order or never.

**C171 Reported clearing quotes clear the market also in rounded arithmetic** (partial). Theorems: `Props/TatonnementRounded` (10). Method: The tatonnement again, with every addition and square rounded by an abstract function of bounded error. A sum is a fold; its error is bounded by induction on the list. The solver loops are treated as in C91. A separate theorem shows that the model without rounding is that of C91.. Result: Proved for every rounding with bounded relative and absolute error, for root finding with several properties, one property, and both minimizers, with corollaries for doubles; without rounding the model is that of C91. Negation: orders among much larger ones are not noticed, and the result depends on the order of participants. Not covered: overflow to infinity.

**C172 Tasks that tasks pass to the thread pool are run exactly once** (partial). Theorems: `Props/WorkerPool` (9). Method: Transition system with one step per lock, access, unlock and notification of every thread; a relation of moves, invariants on it, counting of tasks, a measure that every step decreases.. Result: At least one thread and at most 2^31. Every task is accounted for at all times, everything ends, the destructor returns, nothing is undefined. Executed exactly once: if no std::try_to_lock fails on a free mutex, or with one thread, or if no task is passed after the destructor begins. Violated otherwise: with two threads a task passed by a task while the destructor waits can be lost when try_to_lock fails for no reason, which the C++ standard allows (counterexample). Tasks throw nothing.

**C173 A task may wait for the future of another task on the same pool** (partial). Theorems: `Props/WorkerPool` (2). Method: Transition system with one step per lock, access, unlock and notification of every thread; a relation of moves, invariants on it, counting of tasks, a measure that every step decreases.. Result: Violated: once the tasks of all threads wait for tasks that have not been executed, no task is ever executed and the destructor never returns (counterexample, in general); one thread and one such task suffice (counterexample). True part: C172_destructor_returns, C172_idle_pool: if nobody waits in vain when nothing moves any more, the destructor returns and all tasks were executed.

**C174 Money created from a number of units is that number of units** (partial). Theorems: `Props/Money` (8). Method: Rounding of rational numbers to doubles and to integers; the results on prices of C133 and on roundings.. Result: Proved in IEEE arithmetic for denominators up to 2^53 and numbers below 2^62 smallest units: less than one smallest unit off, apart from the rounding of the product; exact for whole numbers of smallest units up to 2^53. Violated for decimal numbers (0.29 dollars are 28 cents), for negative amounts (undefined) and for quantities of 2^63 smallest units or more (negative prices). integer_away_from_zero does not compile when used (no function sign) and is not modelled; infinities and NaNs are not modelled.

**C175 Market data of a simulation never show a crossed market** (proved). Theorems: `Props/Feed` (2). Method: an invariant of the scheduler that every message in a queue satisfies, with an invariant of the order book (`Lemmas/FairBook`) that does not mention identifiers. Result: All runs of the model of the scheduler; nobody else sends market data in the name of the exchange. Prices as integers of one currency and lot.

**C176 Countries, currencies and jurisdictions of the library are constants in Python** (partial). Theorems: `Props/Constants` (4). Method: tables of the assignments, induction over the list that a later assignment of a name replaces an earlier one, and kernel evaluation that the finite tables agree. Result: Currencies and jurisdictions are complete and right. The country Andorra (AD) is missing (C176_counterexample_missing); the other countries are right. The names in the Python module are taken from the source as tables.

**C177 Each turn of an agent gets a random seed of its own** (partial). Theorems: `Props/Seeds` (6). Method: induction over the rounds of a step and the steps of a run that turns are different; arithmetic modulo 2^32 for the words of the seed. Result: One turn for each agent, round and step is proved for every run. The seed keeps the lowest 32 bits of the hash, time, round and sample: seeds are different before the time 2^32 if the agents are told apart by those bits of their hashes (C177_seeds_partial), as children of one parent are (C177_siblings, for the `hash_combine` of Boost 1.56-1.80). They repeat after 2^32 units of time, for numbers of agents that differ by 2^32 and for such samples (counterexamples).

**C178 Messages of equal priority are handled in a random order** (partial). Theorems: `Props/Shuffle` (4). Method: the messages handled at a priority are the shuffled group, by induction over the groups; counting of orders and states of the generator, arithmetic of the generator modulo a number prime to its multiplier. Result: Each message is handled once, for any shuffle and seed (C178_random_partial). The generator is made anew from the same seed for each priority, so that equal numbers of messages are brought into the same order (C178_counterexample_groups), and it has fewer than 2^31 states, so that from 13 messages on there are orders that no seed gives (C178_counterexample_orders). The generator never gets stuck (C178_generator_partial). Stated for agents with one callback for each kind of message.

**C179 Orders that the modeller enters at an exchange count as if they were sent** (partial). Theorems: `Props/DirectOrders` (6). Method: each act refines an operation of the book of its symbol, by induction over histories of messages and direct orders; case analysis of the loop over reports for what is sent. Result: The books are the same (C179_books_partial), and unknown symbols are exceptions either way (C179_unknown_symbol_partial). But no directly entered order makes the exchange send anything (C179_counterexample_silent); the report goes out with the next message with an order for the symbol, and names that order (C179_counterexample_wrong_order); a best price that it made is not announced (C179_counterexample_data, C179_counterexample_stream).

**C180 Random numbers that an agent draws in Python are new** (partial). Theorems: `Props/Draws` (8). Method: the algorithm of std::seed_seq for one word is a fold of bijections of 32-bit words; an involution and multiplications by odd numbers; injectivity by induction over the words, transferred to the turns of every run. Result: Seeds that differ in one word give different numbers (C180_one_word_partial), so that an agent draws different numbers at different times, in different rounds or different samples (C180_turns_partial), siblings draw different numbers in the same round (C180_siblings_partial), and an agent draws different numbers in all first rounds of a run (C180_run_partial). But all calls in a turn give the same number (C180_counterexample_calls), and turns that differ in two respects can coincide: for each number drawn there is such a turn (C180_counterexample_rounds, C180_counterexample_agents). Seeds made from lists keep their numbers (C180_construct). The algorithm is that of the C++ standard, also for several words; the model was compared with the implementation in GCC.

**C181 Each message has a random latency of its own** (partial). Theorems: `Props/Latency` (3). Method: the latency of a turn does not depend on the recipient; arrival times by induction over the messages that the exchange handles in a turn; bounds in rational numbers. Result: The delay is at least the shift (C181_at_least_shift_partial). But a new generator with the seed of the turn is made for each sample, so that all messages of a turn arrive at the same time (C181_counterexample_same), and neither sender nor recipient matters (C181_counterexample_pairs). The gamma distribution of the standard library is an argument, latencies are rational numbers until they are cut.

**C182 What the Python module defines can be called** (partial). Theorems: `Props/Calls` (3). Method: the types of objects that a program can have are in a set that all calls preserve, by induction over programs, and kernel evaluation over the table of functions; an invariant over all programs with dividends. Result: Types of arguments and results only. Proved for all but 12 methods and constructors, 9 assignments and the 16 attributes of C168, which no program can use (C182_counterexample): among them quantities cannot be split, no property can be valued by an accounting standard, and a request for market data cannot name instruments.

**C183 Dividends per share that are set in Python are those of the policy** (partial). Theorems: `Props/Calls` (3). Method: the types of objects that a program can have are in a set that all calls preserve, by induction over programs, and kernel evaluation over the table of functions; an invariant over all programs with dividends. Result: No Python object is converted to the entries of the map: setting one raises an exception (C183_counterexample_set), and all policies that programs can make pay nothing (C183_counterexample). A policy has what it is given (C183_policy_partial).

**C184 Shareholders that are saved and loaded keep what they know** (partial). Theorems: `Props/Saved` (4). Method: Containers are shown to be given back by induction over ascending elements; what is not written stays the state of the target, for all targets.. Result: The shares and dates come back whatever the target was (C184_records_partial). The stocks and prices are never written: they stay those of the target (C184_counterexample, C184_restored_partial), and a shareholder with shares that is loaded into a new one has undefined stock holdings (C184_counterexample_holdings).

**C185 The library and the Python package have the same version** (partial). Theorems: `Props/Version` (6). Method: The parser is run symbolically on the text of a file with arbitrary decimal numerals (lemmas on splitting and stripping), and compared with the literals of C++.. Result: Proved for all numbers below 2^32 in decimal notation and the order of the repository (C185_agree_partial), with different texts for different versions (C185_distinct). Violated for lines in another order (C185_counterexample_order), numbers with a leading zero, which are octal in C++ only (C185_counterexample_zero), and comments that mention a constant, with which the import fails (C185_counterexample_comment).

**C186 An exchange handles every order that is quoted** (partial). Theorems: `Props/QuotedExchange` (3). Method: Refinement of the exchange over integers by the exchange over quotes, event by event; crossed market data excluded by the invariant of the books over integers.. Result: Proved for orders for a symbol that are quoted alike and fit into 64 bits: the exchange over quotes refines the exchange over integers. Negation: an order in another currency than the orders that rest is an exception in the callback of the exchange, so that any agent can end the simulation.

**C187 Whatever the quotes, every unit of every order is accounted for** (proved). Theorems: `Props/QuotedUnits` (5). Method: Accounting identity for each operation of the quoted book, for every outcome, by induction over the matching loop; then induction over histories of the book and of the exchange.. Result: No assumption about quotes. At an exchange an exception ends the history, so that the theorem is about histories without one. Units that are lost when a book throws are in C148_counterexample_lots.

**C188 Each side of a book holds comparable quotes, best first** (proved). Theorems: `Props/QuotedSides` (2). Method: Invariant of both sides (keys are limits, pairwise comparable, sorted) by induction over histories with exceptions; each execution is traced to an entry that passed the comparison.. Result: Quotes are for a positive number of units, and price times lot fits into 64 bits. Nothing is assumed about which quotes are mixed.

**C189 No order is executed at a quote worse than its limit** (partial). Theorems: `Props/QuotedSides` (4). Method: Invariant of both sides (keys are limits, pairwise comparable, sorted) by induction over histories with exceptions; each execution is traced to an entry that passed the comparison.. Result: True of orders to sell (C189_sell) and of orders to buy against orders for the same number of units (C189_buy_partial). False otherwise: the operator >= does not compare lots, and multiplies prices by lots where it should divide, so that an order to buy is executed at any multiple of its limit (C189_counterexample_buy).

**C190 No order to buy rests at or above the price of an order to sell, with any quotes** (partial). Theorems: `Props/QuotedCrossing` (3). Method: Invariant (sides sorted and alike, positive quantities, products of bids below products of asks, one currency) by induction over histories with exceptions; all comparisons of an order with one side throw, or none.. Result: Currencies are proved in full, prices for offers for the same number of units (C190_uncrossed_partial). False for different numbers of units, since products of price and lot are compared (C190_counterexample_lots).

**C191 An order that ends with an exception leaves the book as it was** (partial). Theorems: `Props/QuotedCrossing` (4). Method: Invariant (sides sorted and alike, positive quantities, products of bids below products of asks, one currency) by induction over histories with exceptions; all comparisons of an order with one side throw, or none.. Result: Proved if the order is alike to those on its own side. Otherwise the order may have been executed in part before its remainder cannot be placed (C191_counterexample_executed); the remainder is lost. In particular an exception never comes in the middle of the matching loop.

**C192 What an exchange reports and publishes is consistent with the limits, for any quotes** (partial). Theorems: `Props/QuotedData` (5). Method: Invariant of the quoted books lifted to the exchange, event by event; every message is traced to a report of the insertion that caused it.. Result: Proved for orders to sell; for orders to buy and market data if the quotes are for the same number of units. Currencies agree in all cases. False for different numbers of units (C192_counterexample_data, C192_counterexample_buy), which nothing in the exchange refuses. An exception ends the history, as in C186.

**C193 Cancelling removes exactly that order, whatever the quotes** (proved). Theorems: `Props/QuotedPriority` (3). Method: Invariants (identifiers distinct and remembered with their keys; equal prices in the order of identifiers) by induction over histories with exceptions; executions are a prefix of the opposite side, all but the last in full.. Result: For all histories with any mixture of quotes; C193_unknown holds for every book.

**C194 Better and earlier orders are executed first, whatever the quotes** (proved). Theorems: `Props/QuotedPriority` (2). Method: Invariants (identifiers distinct and remembered with their keys; equal prices in the order of identifiers) by induction over histories with exceptions; executions are a prefix of the opposite side, all but the last in full.. Result: Also if the insertion ends with an exception. Extends the priority of C27 from integer limits to quotes.

**C195 Objects can be identified by each of their types** (partial). Theorems: `Props/Identifiable` (6). Method: case analysis on the classes of the library (a finite table), and list membership for chains of classes of any length that users derive from them. Result: Holds from the beginning of the constructor of the class in question, if classes name themselves. std::bad_cast is never thrown: a pointer is cast, so that the conversion is undefined during the construction of bases (C195_counterexample_construction) and for other arguments (C195_counterexample_argument).

## 4. Disagreements between the code and the properties

Each line is a theorem that shows the code violating a property in section 3, with its comment in the source.

* `Esl.Identity.C03_counterexample`: **C03 (negation).** Copying an agent makes identifiers repeat: whenever an agent that has already created a child (and no more than 2^64-1 of them) is copied with the agent copy constructor, the first identifier created by the copy is the first identifier created by the original.
* `Esl.Quantity.C06_counterexample_predecrement`: **C06 (negation).** Prefix decrement never decrements: it increases every amount below the maximum.
* `Esl.Quantity.C06_counterexample_postdecrement`: **C06 (negation).** Postfix decrement of zero wraps to the maximum instead of throwing.
* `Esl.Price.C09_counterexample_ge_lots`: **C09 (negation).** `>=` answers although the lots differ.
* `Esl.Price.C09_counterexample_wrap`: **C09 (negation).** With a large value the product wraps around and the order is inverted: the larger price is reported to be smaller.
* `Esl.Price.C09_counterexample_overflow`: **C09 (negation).** With a large value on the right-hand side the comparison is undefined.
* `Esl.Accounting.C11_counterexample_negative_price`: **C11 (negation).** A holding quoted at -1 per lot of two shares is valued at 2^63-1 instead of 0.
* `Esl.Inventory.C12_counterexample_not_atomic`: **C12 (negation).** A refused removal may have removed some of the items already.
* `Esl.Inventory.C14_counterexample_take`: **C14 (negation).** Taking the same property twice makes the typed holdings and the inventory differ.
* `Esl.Inventory.C14_counterexample_self_transfer`: **C14 (negation).** Processing a transfer to oneself removes the items from the typed holdings but not from the inventory.
* `Esl.Comm.C17_counterexample_last_first`: **C17 (negation).** Two messages delivered at the same time, with the same priority, are handled last first by the in-order schedule.
* `Esl.Sched.C20_counterexample_lost_wakeup`: **C20 (negation).** The message of `forgetful` for time 5 is never processed, although the run to time 10 completes: the agent is woken at time 0 and 3 only.
* `Esl.Sched.C21_counterexample_dated_past`: **C21 (negation, in general).** Whatever the agents do: no run in which a message is sent that is dated before the time of sending completes.
* `Esl.Sched.C21_counterexample_overdue`: **C21 (negation, in general).** Whatever the agents do: if at the start of a step some agent's wake-up time lies before the current time, which is what a message dated in the past leads to (see `C21_counterexample_late_message`), the step never completes.
* `Esl.Sched.C21_counterexample_late_message`: **C21 (negation).** A step in which an agent sends a single message dated in the past does not end: the loop keeps going for any number of rounds, without an exception.
* `Esl.Threads.C24_counterexample_threads_ignored`: **C24, negation.** The number of worker threads is not the parameter: for every requested number, the model uses the verbosity (at least one).
* `Esl.Threads.C24_counterexample_eight`: So eight requested threads with no verbosity are one thread, and changing the request changes nothing.
* `Esl.Book.C29_counterexample_orders`: **C29, negation.** After cancelling, the identifier is still in the list of active orders: one order is placed and cancelled.
* `Esl.Book.C29_counterexample_never_removed`: Cancelling never removes an identifier from the list, whatever the book.
* `Esl.Book.C31_counterexample_rests`: **C31, negation.** An immediate-or-cancel order that finds no counterpart rests on the book.
* `Esl.Book.C31_counterexample_partial_fill`: **C31, negation.** A fill-or-kill order for 5 is executed for 3, and the remaining 2 rest on the book.
* `Esl.Static.C31_counterexample_static_fill_or_kill`: **C31, negation, static book.** A fill-or-kill order for 30 is executed for 10, and the remaining 20 rest.
* `Esl.Pool.C32_counterexample_constant`: **C32, negation.** No element of a pool can be read through a constant reference: the call never ends, whatever the pool and the index, whereas one call suffices otherwise.
* `Esl.Pool.C32_counterexample_unstored`: **C32, negation.** The pool does not store the indices itself: with `emplace` alone, the second element has the index 1, but erasing 1 erases nothing, so that the pool of capacity 2 stays full and the next `emplace` fails.
* `Esl.Pool.C33_counterexample_double_erase`: **C33, negation.** Erasing an element twice, while another one is live, puts its block into the list of free blocks twice and counts two erased elements, and two later insertions get the same block.
* `Esl.Pool.C33_counterexample_never_inserted`: **C33, negation.** Erasing index 0 of a pool that never had an element reports that nothing was erased, but the next two insertions get the same block.
* `Esl.Static.C34_counterexample_maximum`: **C34, negation.** The maximum is a valid limit, but its level does not exist, in every configuration; so inserting an order at the maximum throws.
* `Esl.Static.C34_counterexample_upper_half`: **C34, negation.** With one level per unit, every limit in the upper half of the range is decoded as the next higher price.
* `Esl.Static.C34_counterexample_small_lot`: **C34, negation.** When the lot is smaller than the denominator several prices share a level: with lot 1 and denominator 100, the limit 110 is decoded as 100.
* `Esl.Static.C34_counterexample_rounding`: **C34, negation.** With the rounding of `double`, in the configuration of the library's tests (prices from 0.01 to 10.00 dollar, 100 levels per cent), a limit of 29 cents is decoded as 28 cents.
* `Esl.Static.C35_counterexample_lowest_sell`: **C35, negation.** After a sell order at the lowest valid price both best prices are that price: the book is crossed.
* `Esl.Static.C35_counterexample_sell_matches_sell`: **C35, negation.** A second sell order at the lowest valid price is executed against the first sell order.
* `Esl.Static.C35_counterexample_lowest_buy`: **C35, negation.** Executing all buy orders at the lowest valid price leaves the best bid in front of the first level, and asking for the best bid is undefined behaviour.
* `Esl.Static.C35_counterexample_upper_half`: **C35, negation.** With one level for each unit, a sell and a buy order with the same limit in the upper half of the range are not executed; both rest, and both best prices are higher than the limit of both orders.
* `Esl.Static.C36_counterexample_cancel_best`: **C36, negation.** When the only order at the best bid is cancelled, `bid()` is empty although a buy order rests at a lower price.
* `Esl.Exchange.C37_counterexample_cancel`: C37 fails for cancellations: handling one sends nothing, in any state.
* `Esl.Exchange.C37_counterexample_waiting`: Agent 2's order for symbol 8 is cancelled, and the report is never sent when no order for symbol 8 follows.
* `Esl.Exchange.C37_counterexample_wrong_order`: When a later order for the symbol does come, the report of the cancellation goes out with the details of that unrelated order.
* `Esl.Exchange.C38_counterexample_nobody`: C38 fails: in a newly made exchange nobody is ever registered, whatever the history. The constructor makes an empty entry for each traded ticker, and logging on does not change an entry that is present.
* `Esl.Exchange.C38_counterexample_second`: Nor does a second participant get registered when somebody else is.
* `Esl.Sampler.C39_counterexample`: **C39 is violated** by a density of one, for which the only value is not a number, and by two densities of 65536, whose product is zero on 32 bits: there are no samples.
* `Esl.Hypercube.C40_counterexample_repeated`: C40 fails for a parameter that is listed twice, for any density of at least two: there are shuffles for which its first value is in two samples, so that another is in none.
* `Esl.Sampler.C40_counterexample`: **C40 is violated** by a density of one, for which the value is not a number.
* `Esl.Sampler.C41_counterexample_overflow`: **C41, negation.** If there are three or more samples and the number of candidate points does not fit 32 bits then the function writes beyond the end of a vector, for all random numbers.
* `Esl.Sampler.C41_counterexample_duplication`: **C41, negation.** With a duplication of zero, three or more samples are undefined, for all random numbers: there are no candidates, and the first is read.
* `Esl.Codes.C43_counterexample_round_trip`: **C43 is violated.** No ISIN whose code starts with a digit, as almost all do, is given back by parsing its printed form.
* `Esl.Codes.C43_counterexample_malformed`: **C43 is violated.** A text with a wrong check digit is accepted, and a text with fewer than eleven characters is read beyond its end.
* `Esl.Codes.C43_counterexample_length`: **C43 is violated.** The constructor from a country and a string never rejects a string: one that is too long is cut, one that is too short is read beyond its end.
* `Esl.Codes.C45_counterexample`: **C45 is violated.** Replacing the letter A by the digit 0 is not detected, and a SEDOL with a wrong check digit is accepted.
* `Esl.Codes.C46_counterexample`: **C46 is violated** for local parts with letters, which the standard allows, and for the LEI made without arguments: the number is not congruent to 1 modulo 97.
* `Esl.Price.C48_counterexample`: **C48 (negation).** Two currencies with the same code but different denominators differ under `==`, but are equivalent under `<` and give cash the same property identifier.
* `Esl.Interval.C49_counterexample_closed`: **C49 (negation).** The closed interval [l,l] contains `l` but is reported empty.
* `Esl.Interval.C49_counterexample_open`: **C49 (negation).** The open interval (l,l) contains nothing but is reported to be nonempty, and to have exactly one element.
* `Esl.Interval.C49_counterexample_two`: **C49 (negation).** The closed interval [l,l+1] contains two values but is reported empty.
* `Esl.Interval.C49_counterexample_dense`: **C49 (negation, floating point).** The closed interval `[l, l]` contains `l` only, but is called empty and not a singleton; the open one contains nothing, but is called a singleton and not empty.
* `Esl.Interval.C49_counterexample_degenerate`: **C49 (negation, degenerate).** The closed interval `[l, l + 1]` has two elements, but is called degenerate.
* `Esl.BQueue.C51_counterexample_push_ignores_closed`: **C51, negation.** In every state of every queue in which a thread can push without waiting, a `push` is accepted, closed or not: the member that `close` sets is never read by `push`.
* `Esl.BQueue.C51_counterexample_closed_queue_accepts`: **C51, negation.** After `close` has returned, `push` and `try_push` put elements into the queue, and `pop` returns them.
* `Esl.TPool.C52_counterexample_zero_threads`: **C52, negation for zero threads.** The constructor accepts zero and means to use the number of processors instead, but then has no queues: the first step of every worker that gets to its queue is undefined, and so is the first step of every call.
* `Esl.Company.C53_counterexample_policy`: **C53, negation.** The dividend that is computed is the amount for the whole class, but a dividend policy multiplies it by the number of shares: for a company with a single class, of two or more shares, that pays out a positive profit, the total that its policy reports is more than the profit, namely as many times the profit as there are shares.
* `Esl.Company.C53_counterexample_total`: **C53 (negation).** If two classes have dividends that fit, but their sum does not, the total is undefined.
* `Esl.Company.C53_counterexample_overflow`: **C53, negation.** If the number of shares overflows, dividends exceed the profit: one cent becomes more than `2^62` cents, for each of two classes.
* `Esl.Payout.C53_counterexample_cent`: **C53, negation.** In floating point numbers, a profit can be paid only in part although it is due to a single class: of one dollar, 49 shares get 99 cents.
* `Esl.Payout.C53_counterexample_exceeds`: **C53, negation.** In floating point numbers, dividends can exceed the profit: the whole of the profit is due to a single class of 625 shares, which gets a cent more.
* `Esl.Company.C54_counterexample_wake`: **C54, wake-ups, negation.** Between the announcement of a dividend and the day on which it is payable, the company asks to be woken at the announcement date, which is not in the future.
* `Esl.Company.C54_counterexample_announcement`: **C54, negation.** A dividend with the announcement date zero, the first moment of a simulation and the default, is never announced; nor is one with a date before that of a dividend that was announced already.
* `Esl.Company.C55_counterexample_rank`: **C55, negation.** Classes that differ share an entry when they have the same rank: recording any of them overwrites the other, so that shares are lost from the total.
* `Esl.Walras.C57_counterexample`: **C57 (negation).** The market owes 100 to a participant that owes it 60. After netting, it sends 40 and still collects 60, so the participant pays 20 instead of receiving 40.
* `Esl.Walras.C57_counterexample_clearing`: **C57 and C58 (negation), together.** After netting, the first participant has handed over ten units worth 100 and paid 60, and is sent 40.
* `Esl.Walras.C58_counterexample`: **C58 (negation).** The first participant sells ten units of property 1 and buys ten units of property 2, for which 60 are charged. The market never sends it property 2.
* `Esl.Tat.C59_counterexample_minimization`: **C59 (negation).** Supply of 1 unit, demand of 101 - x at multiplier x. The minimizer reaches 100, which is reported although the circuit breaker is 11.
* `Esl.Tat.C59_counterexample_derivative_free`: **C59 (negation).** The same for the two methods without derivatives.
* `Esl.Tat.C59_counterexample_default`: **C59 (negation).** With the default methods: root finding breaks down, minimization then reports a negative multiplier.
* `Esl.Tat.C59_counterexample_worse`: **C59 (negation).** The best quote is outside the circuit breaker, and the bound that is reported instead is worse than the starting quote.
* `Esl.Tat.C59_counterexample_derivative_free_worse`: **C59 (negation).** The derivative-free root finder compares with the sum of the starting multipliers instead of the excess demand there: it reports a multiplier of 3, with excess demand 9/10, although the excess demand at the starting quote was 1/10.
* `Esl.Walras.C59_counterexample_negative`: **C59 (negation).** A negative multiplier, which the unclamped methods may return, makes a price negative.
* `Esl.Walras.C60_counterexample_stall`: **C60 (negation, in general).** Take any simulation with a price setter (agent `i`) whose inbox contains no orders whenever it acts, and any step at whose time the price setter is due or has not acted yet. The step never completes, whatever the other agents do.
* `Esl.Algo.C61_counterexample_half`: **C61 (negation, halves).** The additional ones need not go to the largest remainders: of one half and three times 0.4 the first is rounded up to 1, and yet gets the additional one, because the fractions are sorted by remainders with halves rounded to even numbers.
* `Esl.Algo.C61_counterexample_too_much`: **C61, negation.** Whenever the rounded values sum to more than the rounded total, the loop runs far behind the end of the indices: the number of iterations is a negative number made unsigned. With any rounding of the sum.
* `Esl.Algo.C61_counterexample_two_halves`: Two halves: both are rounded up, to a sum of two, but the total is one.
* `Esl.Algo.C61_counterexample_range`: **C61, negation for large numbers.** A number that rounds to more than the largest `int`, or less than the smallest, cannot be allocated: the conversion is undefined.
* `Esl.Algo.C61_counterexample_negative`: **C61, negation for negative numbers.** A negative whole number is allocated with the wrong sign, although it needs no rounding.
* `Esl.Simplex.C61_counterexample_sum`: **C61, negation.** In floating point numbers the result need not sum to the rounded total: ten times 0.05 is more than one half, but computed to be less, and nothing is allocated.
* `Esl.Simplex.C62_counterexample_sum`: **C62, negation.** In floating point numbers the coordinates need not sum to the total: 0.9, 0.1 and 0 sum to a number that is not 1.
* `Esl.Simplex.C62_counterexample_missing`: **C62, negation.** In floating point numbers the samples are not symmetric: with 0.1 as the last coordinate 0.9 is sampled before it, but with 0.9 as the last coordinate 0.1 is not sampled before it; nothing but 0 is.
* `Esl.Text.C63_counterexample_comma`: **C63, negation: commas.** A row of one field with a comma and a row of two fields are written in the same way, so that no reader can recover the fields.
* `Esl.Text.C63_counterexample_no_reader`: **C63, negation: no reader exists.** There is no function that recovers every row from what is written.
* `Esl.Text.C63_counterexample_newline`: **C63, negation: newlines.** One record with a newline in it and two records are written in the same way.
* `Esl.Text.C64_counterexample_queue`: **C64, negation.** Whatever the elements, the last element of a queue with at least three is not printed.
* `Esl.OpenBook.C65_counterexample_time`: **C65, negation.** Whenever a message is decoded whose time is 4 294 968 milliseconds after midnight or later, that is an hour and twelve minutes, its time is wrong.
* `Esl.Saved.C66_counterexample_timing`: **C66, timings, negation.** No timing is given back: nothing is written, and the object that is loaded into stays what it was.
* `Esl.Saved.C66_counterexample_price_pointer`: **C66, pointers to prices, negation.** No price that is saved through a pointer can be loaded: what was written for it is not what its construction reads.
* `Esl.Archive.C66_counterexample_rational`: **C66, rational numbers, negation.** An interest rate with a numerator of `2^32 + 1` becomes another rate, one whose denominator is `2^32` cannot be loaded.
* `Esl.Archive.C66_counterexample_price`: **C66, prices, negation.** Loading a price never changes it: for every saved price, the object keeps the value that it had. Hence a price is given back only if it is loaded into an equal one.
* `Esl.Archive.C66_counterexample_quote`: **C66, quotes, negation.** Loading a quote takes over the lot but keeps the old price, and leaves the text of the saved price in the archive; so that the next number cannot be loaded.
* `Esl.Archive.C66_counterexample_producer`: **C66, producers, negation.** A producer that is loaded keeps the outputs that it had, whatever was saved: loading a producer with outputs into a new one gives none.
* `Esl.Maker.C67_counterexample_risk_neutral`: **C67, negation.** With `gamma = 0`, which the documentation describes as risk neutrality, the spread is infinity times zero, and there are no quotes.
* `Esl.Maker.C67_counterexample_little_aversion`: **C67, negation.** In IEEE arithmetic the quotes of a market maker with little risk aversion are not half the optimal spread away from the mid price: at the end of the session they are one cent below and above 100 dollars, whatever the arrival rate is, while half the optimal spread is at least `1 / (2 k)`.
* `Esl.MessageCode.C68_counterexample_mask`: **C68, negation.** The offset equal to the mask is accepted and has the same code as the offset zero.
* `Esl.Out.C69_counterexample_second_output`: **C69, negation.** If an output is created with a name that is in use, what is put into it never reaches any stream, whatever streams are added under the name later.
* `Esl.Company.C70_counterexample_currency`: **C70, shareholders, negation.** If a property is quoted in another currency, the number of the new price is combined with the old currency.
* `Esl.Company.C70_counterexample_bondholder`: **C70, bondholders, negation.** For every sequence of quote messages, a bondholder has the price that was quoted *first*, and never learns another.
* `Esl.Sched.C71_counterexample_deactivated`: **C71 (negation, in general).** Whatever the agents do: once an agent was deactivated, no step at or after its last wake-up time completes.
* `Esl.Accounting.C73_counterexample`: **C73 (negation).** Whenever a foreign amount is converted, the result is labelled with the foreign currency rather than with the reporting currency.
* `Esl.Accounting.C73_counterexample_overflow`: **C73 (negation, overflow).** At a rate of `2 ^ 62 / 5`, seven units are worth `2 ^ 62 * 7 / 5`, but are converted to `2 ^ 62 * 3 / 5`.
* `Esl.Announce.C74_counterexample_freed`: **C74 (negation, at the level of memory).** Announce any two or more agents to a new environment, then process them: however the vector grows, as long as it at most doubles, this reads memory that was freed.
* `Esl.Sched.C74_counterexample_activate`: **C74 (negation).** Before every step the environment processes the list of newly created agents; with at least one new agent this is undefined behaviour.
* `Esl.Static.C75_counterexample_executed`: **C75, negation.** Cancelling an order that was executed completely is reported as cancelled to its owner, with quantity 0.
* `Esl.Static.C75_counterexample_lost_orders`: **C75, negation.** After that, the block of the executed order is free twice, and orders that were placed disappear: of five orders placed at 6 only the last one is found.
* `Esl.Codes.C77_counterexample_length`: **C77 is violated** for texts of other lengths: a longer text is accepted and cut, and a text of fewer than three characters is read beyond its end. A text of three characters is rejected.
* `Esl.OpenBook.C81_counterexample_scale`: **C81, negation.** An update with a price of at most one digit after the decimal point, such as a price in whole dollars, is not decoded: the function throws, and so does every reading of a file that contains such a message (before any of undefined behaviour).
* `Esl.Archive.C82_counterexample_header`: **C82, negation.** For every class of messages: a message that is loaded has the sender, recipient and times of the object that it is loaded into, not those of the message that was saved, and the archive depends only on the contents.
* `Esl.Archive.C83_counterexample_threads`: **C83, negation.** The number of threads is not used: with one unit of verbosity there is one thread, whatever was asked for.
* `Esl.Company.C84_counterexample_later`: **C84, negation.** If the ex-dividend date is after the step in which the dividend is announced, the shareholder sends no record, then or in answer to any other announcement for a step before that date; records are sent only in answer to announcements.
* `Esl.Company.C84_counterexample_twice`: **C84, negation.** If two companies announce dividends in a step in which their ex-dividend dates lie, the first of them gets two records of the same shares.
* `Esl.Walras.C86_counterexample_forced_trade`: **C86 (negation).** The demands of four participants sum to zero, and the first demands nothing. Whatever the sort does, the first participant buys one unit.
* `Esl.Walras.C86_counterexample_wrong_side`: **C86 (negation).** The demands of five participants sum to zero, and the first wants to buy half a unit. Whatever the sort does, the first participant sells one unit.
* `Esl.Walras.C87_counterexample`: **C87 (negation).** The price rises from 10 to 20, and five units change hands. The seller is paid 100, but the buyer, who closes a short position, is charged 50: the old price.
* `Esl.Walras.C87_counterexample_lots`: **C87 (negation), without any short position.** One participant sells `2 n` units at three per two units to `2 n` participants who buy one each. Each buyer pays one, so the market receives `2 n`, but it sends `3 n`: whatever it charges too little grows with the number of participants.
* `Esl.Walras.C89_counterexample_stale`: **C89 (negation).** Participant 2 sent its order one step before it was due, participant 3 sent its order now. The market is not cleared.
* `Esl.Walras.C89_counterexample_early`: **C89 (negation).** An order that is due at time 8 is cleared at time 5.
* `Esl.Tat.C90_counterexample_unmentioned`: **C90 (negation).** A traded property that nobody's order mentions: evaluating the root-finding formulation is undefined behaviour.
* `Esl.Tat.C90_counterexample_untraded`: **C90 (negation).** One participant has no demand for the traded property 1 and wants property 2, which is not traded: the quotes are a root, but not a minimum of zero.
* `Esl.Tat.C91_counterexample_one_step`: **C91 (negation).** One property, with excess demand 999 at the starting quote. The solver makes one successful step and has not converged; the quote is reported as a solution although there is still an excess demand of 990, and 15 iterations are left.
* `Esl.Tat.C91_counterexample_stops`: **C91 (negation, in general).** For one property, the univariate solver is stopped by its first successful step: the quotes reported are those after one step.
* `Esl.Tat.C91_counterexample_others`: **C91 (negation).** A minimum at which the market does not clear, and a derivative-free root finder that gives up in the first step: both are reported as clearing quotes.
* `Esl.Tat.C92_counterexample_unreachable`: **C92 (negation).** The derivative-free root finder always reports a result, so the methods listed after it are never tried; the default list has one.
* `Esl.Impact.C93_counterexample_constant`: **C93 (negation, in general).** Whatever orders are sent and whatever the impact function is, all quotes in all histories have the initial prices: the prices of the traded properties never change.
* `Esl.Impact.C93_counterexample_volume`: **C93 (negation).** Whatever is ordered, in portions of two units or more: the multiplier of each traded property is that for a net demand of zero. Already one order to buy 1000 units, for which the net demand is 1000, leaves the price as it is.
* `Esl.Impact.C93_counterexample_sides`: **C93 (negation).** At a price of 50 and an impact equal to the demand, selling one unit gives a price of 49, selling nothing a price of 51, and buying one unit leaves the price as it is.
* `Esl.Impact.C94_counterexample_unlisted`: **C94 (negation).** An order for property 8, which the market does not trade, lists it: everyone is then quoted a price of zero for it.
* `Esl.Impact.C94_counterexample_twice`: **C94 (negation).** In its first two activations the market sends the same quotes twice.
* `Esl.Impact.C95_counterexample_stall`: **C95 (negation, in general).** From time 2 on, a simulation with an impact function market that receives no orders never completes the step, whatever the other agents do.
* `Esl.Impact.C95_counterexample_stale`: **C95 (negation).** One stale order holds time back as well, however many orders there are for this step: the market is activated again at the same time.
* `Esl.Exchange.C96_counterexample_streams_ignored`: C96 fails: as long as nobody asks for a snapshot, nobody gets any market data, however many streams are requested.
* `Esl.Exchange.C96_counterexample_snapshot_repeats`: C96 fails: one snapshot, requested at time 1, is answered at every later change of the best quotes (here two).
* `Esl.Exchange.C96_counterexample_snapshot_never`: C96 fails: a snapshot requested at time zero is not answered by any order before the last representable time point.
* `Esl.Exchange.C96_counterexample_cancel_unsubscribed`: C96 fails: cancelling a subscription that was not made, for an instrument somebody else follows, is undefined behaviour.
* `Esl.Exchange.C96_counterexample_cancellations`: C96 fails for cancellations: cancelling an order sends nobody anything, whatever it does to the best quotes. A stream shows the quotes as they were until the next order that trades or changes them.
* `Esl.Exchange.C97_counterexample_all_reports`: C97 fails: whenever an order changes the best bid or ask, each of its trades appears in the stream once for every report of a match, so twice.
* `Esl.Exchange.C97_counterexample_twice`: Agent 5 sees the single trade of 5 units at 100 twice.
* `Esl.Mpi.C100_counterexample_count`: **C100 (counterexample).** Unless every process has deactivated exactly as many agents as there are processes, the operation that announces deactivations is undefined.
* `Esl.Mpi.C100_counterexample_idle`: In particular when nothing was deactivated.
* `Esl.Mpi.C100_counterexample_remembered`: **C100 (counterexample).** An agent that is not the `i`-th to be deactivated anywhere is not forgotten by process `i`.
* `Esl.Mpi.C100_counterexample_again`: **C100 (counterexample).** When it succeeds, deactivations are announced again at the next synchronization, which is then undefined.
* `Esl.Mpi.C102_counterexample_self`: **C102 (counterexample).** An agent that is to migrate to the process it is on is lost: it is sent to the process, which never receives it.
* `Esl.Mpi.C102_counterexample_absent`: **C102 (counterexample).** If the agent is not on the process it is to leave, the target waits forever.
* `Esl.Mpi.C103_counterexample_lost`: **C103 (counterexample).** A message to an agent on another process is lost: afterwards it is in no inbox of any process and in no outbox, unless it was in an inbox before or there was another copy.
* `Esl.Mpi.C103_counterexample_count`: **C103 (counterexample).** The function reports that no messages were sent, whatever was sent, so that `model::step` does not look for earlier events.
* `Esl.Mpi.C103_counterexample_unknown`: **C103 (counterexample).** A message to an agent whose process is not known is undefined behaviour on process zero, if the agent is not there.
* `Esl.Mpi.C104_counterexample_undefined`: **C104 (counterexample).** A distributed run that has any event after the first step, and in which not all processes deactivated as many agents as there are processes, is undefined.
* `Esl.Mpi.C105_counterexample_unknown`: **C105 (counterexample).** Looking up an agent that is not there adds a null pointer, which is dereferenced the next time all agents are visited.
* `Esl.Mpi.C106_counterexample_stuck`: **C106 (counterexample).** However often `environment::step` is called, the model does not get beyond its start: the first call does what happens at the start of the simulation, and every further call changes nothing.
* `Esl.Names.C108_counterexample_unnamed`: **C108 is violated** for Andorra and India: they are country constants, but the name is not theirs: it is the text for unknown codes.
* `Esl.Log.C110_counterexample_console`: **C110 is violated** on the console: in a development build, every message below the filter is shown there all the same, and without severity and location.
* `Esl.Log.C110_counterexample_dynamic`: **C110 is violated** for a severity that is known only at run time: the message is kept without its severity.
* `Esl.Log.C111_counterexample_lines`: **C111 is violated** for lines: two threads that each insert a text and a line break can leave their texts on one line.
* `Esl.Log.C111_counterexample_endl`: **C111 is violated** for the library's own line break: a thread that inserts `channel::endl` has undefined behaviour (it waits for itself), whatever else happens.
* `Esl.Log.C112_counterexample_directory`: **C112 is violated** for a directory with a name that ends in `esl`: the location within the library loses that directory.
* `Esl.Python.C113_counterexample_missing`: **C113 is violated** by inboxes: `inbox[k] = m` for a time without messages has no effect, so `m` is not in the inbox after.
* `Esl.Python.C113_counterexample_several`: **C113 is violated** by inboxes: for a time with several messages, the assignment makes all of them the same message; the others are lost.
* `Esl.Python.C114_counterexample_release`: **C114 is violated** for warnings and errors: in a release build, where the log keeps exactly those, what is logged from Python is never kept, at any severity.
* `Esl.Python.C114_counterexample_severity`: **C114 is violated** in a development build: an error is shown as a notice.
* `Esl.Python.C114_counterexample_object`: **C114 is violated** for objects that are not strings: the text is read after it has been destroyed.
* `Esl.Python.C115_counterexample_isin`: **C115 is violated** for shorter codes of securities: reading outside the string.
* `Esl.Python.C115_counterexample_currency`: **C115 is violated** for currencies: the code is never the three letters of the currency, and is the same for all currencies of a country.
* `Esl.Python.C115_counterexample_currencies`: Among them the US dollar and the US dollar (next day), both of which the library defines, and the Swiss franc and the WIR franc.
* `Esl.Python.C115_counterexample_print`: **C115 is violated** for printing: no currency can be printed in Python, nor shown in any other way that uses its text.
* `Esl.Python.C116_counterexample_agent`: **C116 is violated**: whatever an agent written in Python does with `inbox` and `outbox`, in any order and any number of times, its messages are as before: it can neither send a message, nor remove one.
* `Esl.Python.C116_counterexample_send`: **C116 is violated**: `send_message` has no effect on communicators either.
* `Esl.Python.C117_counterexample_price`: **C117 is violated** for prices, which Python can set as parameters: they cannot be read.
* `Esl.Python.C119_counterexample_dropped`: **C119 is violated**: entries that are not understood, such as a demand given as a text, are dropped without an error; the order demands nothing.
* `Esl.Python.C120_counterexample_rate`: **C120 is violated**: reading the price of a quote that is an exchange rate has undefined behaviour, instead of an exception. Quotes with a price are the only ones for which it has not.
* `Esl.Names.C121_counterexample_units`: **C121 is violated**: amounts of these currencies are rounded to hundredths.
* `Esl.Names.C122_counterexample_missing`: **C122 is violated**: exactly five countries have no jurisdiction: Antarctica, the Falkland Islands, South Georgia, Palestine and Taiwan.
* `Esl.Construction.C123_counterexample_security`: C123 fails for `security`: whatever identifier it is constructed with, it has the empty identifier.
* `Esl.Construction.C123_counterexample_owner`: C123 fails for an owner of one type of property and for a debtor: they have the empty identifier.
* `Esl.Construction.C123_counterexample_user`: C123 fails for classes of the user that pass the identifier to their direct base only, which itself passes it on correctly: all agents of such a class have the empty identifier.
* `Esl.Construction.C124_counterexample_issuer`: C124 fails for the issuer of bonds: it is not recorded, bonds by different issuers are the same.
* `Esl.Construction.C124_counterexample_loans`: C124 fails for loans: any two loans are the same property.
* `Esl.Construction.C124_counterexample_lending`: C124 fails for lending contracts: those on the same security are the same property, whoever lends and borrows.
* `Esl.Construction.C124_counterexample_inventory`: C124: as a consequence an agent cannot hold two loans: if its inventory has one, adding another one has no effect.
* `Esl.Messages.C125_counterexample_sender`: C125 fails without such arguments: no agent that has an identifier is the sender of the message it creates, and the message is sent at time zero.
* `Esl.Messages.C125_counterexample_take`: C125 fails for the transfers by which a market takes property: the sender is the participant they are sent to.
* `Esl.Messages.C125_counterexample_sent`: C125 fails for the time: only the exchange sets the time at which its messages are sent; all other messages of the library are sent at time zero.
* `Esl.Messages.C126_counterexample_orders`: C126 fails for all orders: to a market with Walrasian clearing, with a price impact function, and to an exchange (single, as a list, and cancellation). For every saved message, whatever it is loaded into, the contents that are loaded do not depend on those that were saved.
* `Esl.Messages.C126_counterexample_no_order`: C126: in particular no order is given back.
* `Esl.Messages.C126_counterexample_quotes`: C126 fails for quotes: no message that proposes a quote can be loaded. The price is left in the archive where the next item is expected.
* `Esl.Messages.C128_counterexample_rate`: C128 fails for any other rate: no random number gives the documented latency, because the rate is used as scale. Higher rates mean longer waiting.
* `Esl.Messages.C128_counterexample_undefined`: C128 fails for negative shifts: a latency of minus one or less is undefined behaviour, not zero or an exception. So it is for latencies that no duration can hold.
* `Esl.Exchange.C128_counterexample_counterparty`: C128 fails for the other party of a trade: the report for the owner of the order in the book arrives after the latency between the exchange and the sender of the incoming order.
* `Esl.Messages.C129_counterexample_assets`: C129 fails for every owner that owns anything of value: its balance sheet says that it has no assets.
* `Esl.Arith.C130_counterexample_product`: **C130, negation for products.** The product of two prices other than zero in a currency that is divided never is the product of the amounts: it is too large by the number of smallest units in a whole one.
* `Esl.Arith.C130_counterexample_quotient`: **C130, negation for quotients.** Any price divided by itself is one smallest unit, which is not an amount of one in a currency that is divided.
* `Esl.Arith.C130_counterexample_number`: **C130, negation for adding and subtracting a number.** Adding or subtracting a whole number adds or subtracts that many smallest units, not whole units, although a price is made from a number, and converted to one, in whole units.
* `Esl.Arith.C130_counterexample_currencies`: **C130, negation for currencies.** Without assertions, prices in different currencies are added, subtracted, multiplied and divided as if they were in the currency of the first; comparing them throws.
* `Esl.Arith.C130_counterexample_limits`: **C130, negation at the limits.** The sum of the largest price and any positive one, the negation of the smallest, dividing it by minus one smallest unit, and dividing by zero are undefined.
* `Esl.Arith.C131_counterexample`: **C131, negation.** A price of 29 cents converted to a number and back is 28 cents. The largest price is not defined on the way back.
* `Esl.Arith.C131_counterexample_drift`: **C131, negation.** The losses add up: 58 cents are 57 cents after one conversion to a number and back, and 56 cents after two.
* `Esl.Arith.C132_counterexample_product`: **C132, negation, products.** The product of two quotes in a currency with subunits, or with lots of more than one item, is not the product of the prices of one item: it is too large by the factor of the lot times the subunits.
* `Esl.Arith.C132_counterexample_quotient`: **C132, negation, quotients.** The quotient of two quotes is a quote whose price is the ratio of the two prices, rounded towards zero, in subunits of the currency and for a whole lot; so that a quote divided by itself is not one, but one subunit for a lot.
* `Esl.Arith.C132_counterexample_lot`: **C132, negation for other lots.** A positive quote with a lot of two or more, converted to a number and made a quote like it again, always is a lower quote: the number is the price of one item, but it becomes the price of the lot.
* `Esl.Arith.C133_counterexample_number`: **C133, negation for decimal numbers.** The rate made from the number nearest to 0.0003, with the default precision of 10000, is 0.0002.
* `Esl.Arith.C133_counterexample_currency`: **C133, negation for inflation.** The inflation rate between prices in different currencies is computed as if they were in the same.
* `Esl.Arith.C133_counterexample_precision`: **C133, negation for the precision of exchange rates.** An exchange rate made like another is said to have the same precision, but the precision is that of the other in lowest terms: however fine the steps of a rate of one, every number below one that is made a rate like it is zero.
* `Esl.Arith.C133_counterexample_large`: **C133, negation for large exchange rates.** A number of at least `2 ^ 64` steps of the other rate has no exchange rate: the conversion to an unsigned number is undefined.
* `Esl.Clearing.C134_counterexample_budget`: **C134 (negation).** The price is one cent, and halves. The smallest price is one cent, so that a participant that demands units for ten cents is charged twenty.
* `Esl.Clearing.C134_counterexample_silent`: **C134 (negation).** If the solver finds multipliers, and no order expresses any demand, the behaviour is undefined: the volume of the first property is written to the output, whether or not there is one.
* `Esl.Clearing.C134_counterexample_order`: **C134 (negation).** An order that demands a property that is not traded makes the behaviour of every clearing undefined, and so does an order for a property whose multiplier is zero.
* `Esl.Unique.C135_counterexample_nothing`: **C135, negation for the amount nothing.** Transferring the amount zero of a unique item takes it out of the set of the transferor and puts it into the set of the transferee, although neither inventory changes for it.
* `Esl.Unique.C135_counterexample_self`: **C135, negation for transfers to oneself.** Transferring a unique item to oneself takes it out of the set of unique items, while the inventory keeps it.
* `Esl.Unique.C136_counterexample_not_atomic`: **C136, negation for refused removals.** If the first item can be removed and the second cannot, the removal throws after it has removed the first.
* `Esl.Unique.C136_counterexample_nothing`: **C136, negation for removing nothing.** Removing an inventory that lists an item with the amount zero, from one that has no entry for it, is undefined.
* `Esl.Unique.C136_counterexample_erase_set`: **C136, negation for erasing sets.** Erasing a set of items from an inventory of unique property is undefined for every set that is not empty.
* `Esl.Unique.C136_counterexample_duplicate`: **C136, negation for adding unique items.** The items before one that is already in the inventory have been added when the call throws; even an entry with the amount zero, which is what remains of a unique item that was given away by the owner's typed holdings, counts as a duplicate.
* `Esl.QNum.C137_counterexample_equal`: **C137, negation for equality.** Every odd quantity between 2^53 and 2^54 is equal to a number that another quantity is equal to, and its conversion to a number is the conversion of another quantity.
* `Esl.QNum.C137_counterexample_unequal`: **C137, negation for inequality.** A quantity and a number strictly between it and the next one are neither equal nor unequal.
* `Esl.QNum.C137_counterexample_negative`: **C137, negation for negative numbers.** Asking whether a quantity differs from minus one or less, from infinity or from what is not a number is undefined, although asking whether it is equal is not. So are the product and the sum.
* `Esl.QNum.C137_counterexample_product`: **C137, negation for products and sums.** Multiplying by a number from one whole number to the next multiplies by the whole number; so multiplying by any number below one gives nothing, and adding such a number adds nothing.
* `Esl.QNum.C137_counterexample_divide_by_one`: **C137, negation for dividing by one.** Dividing an odd quantity between 2^53 and 2^54 by the number one changes it.
* `Esl.QNum.C137_counterexample_limits`: **C137, negation at the limits.** Dividing the largest quantity by the number one is undefined; so is dividing anything by zero, whole or not.
* `Esl.QNum.C137_counterexample_negative_divisor`: **C137, negation for negative divisors.** Dividing by a negative whole number gives nothing for every quantity below 2^63, rather than an exception.
* `Esl.Announce.C138_counterexample_twice`: **C138 (negation).** Whenever processing the deleted agents is well defined, every one of them is in the list twice as often afterwards: none is ever done with.
* `Esl.Announce.C138_counterexample_growth`: **C138 (negation, over time).** As long as the steps are well defined, step `i` counts every agent deleted before the first step `2 ^ i` times.
* `Esl.Announce.C138_counterexample_freed`: **C138 (negation, at the level of memory).** Delete any number of agents in a new environment: at the latest the second step reads memory that was freed, however the vector grows as long as it at most doubles.
* `Esl.Holders.C139_counterexample_no_owner`: **C139 (negation).** A transfer to an agent that is not an owner destroys what is transferred, without an exception: the message has no callback and is dropped.
* `Esl.Holders.C139_counterexample_wrap`: **C139 (negation, large amounts).** If the recipient holds almost `2 ^ 64` units, the amount wraps around and `2 ^ 64` units are lost, without an exception.
* `Esl.Averages.C141_counterexample_integer`: Sequences of an integer type lose the fractions of the logarithms: the mean of any sequence of ones and twos is reported as one, also when all elements are two.
* `Esl.Averages.C141_counterexample_two`: The same elements as `double` have the mean two.
* `Esl.Averages.C141_counterexample_empty`: For an empty range there is no mean: with integers the program divides by zero, which is undefined, and the other means and the growth rate are not defined either.
* `Esl.Averages.C141_counterexample_growth`: The function never returns the growth rate of a series that has changed: it spreads the change over one period too many. A growing series is reported to grow more slowly, and a shrinking one to shrink more slowly.
* `Esl.Averages.C141_counterexample_negative`: **C141 is violated** by negative numbers: the mean of numbers one of which is negative is not a number, even if they have a mean, for example if there are two and they are equal.
* `Esl.Averages.C141_counterexample_interim`: **C141 is violated** by a series that is zero in between, at whatever time: its growth rate is not a number, although the first and the last element have a growth rate.
* `Esl.Averages.C141_counterexample_beginning`: **C141 is violated** by a series that begins with zero and is positive from then on: its growth rate is infinite.
* `Esl.Printing.C142_counterexample_large`: **C142, negation for large amounts.** For every odd amount between 2^53 and 2^54 minor units there is another amount with the same text, in every currency.
* `Esl.Printing.C142_counterexample_precision`: **C142, negation for the stream.** Printing a price changes the precision of the stream: numbers printed afterwards have as many digits as the currency of that price, behind the point in fixed notation and in all in the default notation.
* `Esl.Printing.C142_counterexample_width`: **C142, negation for columns.** With a width set, the padding goes between the currency and the amount.
* `Esl.Printing.C142_counterexample_fill`: **C142, negation for padding.** Printing an identity leaves the fill character zero: a number printed in a column afterwards is padded with zeros.
* `Esl.Printing.C142_counterexample_report`: **C142, negation for reports.** The text of a report does not show which side, how much and which order it is about.
* `Esl.Printing.C142_counterexample_equality`: **C142, negation for equality.** Two reports that agree in state, side, quantity and order cannot be compared when the limits have different lot sizes: the comparison throws.
* `Esl.Printing.C142_counterexample_order`: **C142, negation for orders.** An order is printed as nothing at all.
* `Esl.Sharing.C143_counterexample_weak`: A weak pointer made from a result of `to_std` keeps the object alive, also when no shared pointer is left. If it is the only pointer left, `lock` fails: the object exists but cannot be reached.
* `Esl.Bindings.C144_counterexample_dropped`: Entries that are no quotes for properties disappear without an error, and of two properties with the same identity only the first is used: whenever a market is made, it has the first quote that the dictionary states for a property.
* `Esl.Bindings.C144_counterexample_none`: A quote for `None` is undefined behaviour, whatever else is in the dictionary.
* `Esl.Bindings.C144_counterexample_failure`: An assignment that fails does not leave the orders as they were: it leaves those before the element that could not be converted.
* `Esl.Bindings.C144_counterexample_null`: `None` in the list is accepted, and then the clearing is undefined behaviour.
* `Esl.Bindings.C144_counterexample_append`: Appending to the list of orders and deleting from it have no effect: programs without assignments leave the orders as they are.
* `Esl.Bindings.C144_counterexample_unsolved`: A failure looks like the solution of a market without properties.
* `Esl.Bindings.C145_counterexample_company`: A company whose class does not define dividends can never act: every step fails, where the same company in C++ goes on until the end of the step.
* `Esl.Bindings.C145_counterexample_create`: Creating an agent in Python creates nothing: the collection stays as it is and there is no agent to activate. Activating the result is undefined behaviour.
* `Esl.Bindings.C145_counterexample_local_agents`: Python cannot see the agents of a model: once the collection has any, `local_agents()` raises an exception, unless another module has defined a class for identities of agents.
* `Esl.Auction.C146_counterexample_two`: **C146 (negation).** A participant that buys two properties pays for both and gets one of them; the units of the other that are sold vanish. The market settles one clearing, and after it ten units of property 8 are missing.
* `Esl.Auction.C146_counterexample_money`: **C146 (negation, money).** The price rises from one to two dollars. A participant that closes a short position pays the old price, and the seller gets the new one: money appears. The market settles one clearing, and after it there are 500 cents more.
* `Esl.QBook.C148_counterexample_lots`: **C148 (negation).** With different lots, an order can be refused after a part of it has been executed: of `n + k` units `n` are sold, and the other `k` neither rest nor are reported.
* `Esl.QBook.C148_counterexample_units`: **C148 (negation).** With different lots, quotes are not compared per unit: an order to buy at 10.00 per unit does not match an order to sell 10 units at 2.00, which is 0.20 per unit. Both rest, and the book is crossed.
* `Esl.QBook.C148_counterexample_cancel`: **C148 (negation).** Cancelling an order that was cancelled before is harmless (C29), but throws if the orders that rest by then are in another currency: the book still knows the limit of the cancelled order.
* `Esl.QBook.C148_counterexample_overflow`: **C148 (negation).** A limit that does not fit into 64 bits when multiplied by its lot is accepted in an empty book, where it is compared with nothing; but then cancelling the order is undefined, and so is every order on the other side.
* `Esl.Population.C149_counterexample_activation`: **C149 (negation, in general).** Whatever agents do: in the environment of the library, if an agent is created in a step and the simulation goes on after it, the run is undefined behaviour (see C74).
* `Esl.Population.C149_counterexample_idle`: **C149 (negation).** An agent that is created does not act at all if no other agent wants to be woken before the end: `wake_up_times` has no entry for it when the next event is determined.
* `Esl.Population.C149_counterexample_postponed`: **C149 (negation).** An agent to which a message is sent in the round in which it is created does not act in the next round, but only at the delivery.
* `Esl.Population.C149_counterexample_silenced`: **C149 (negation).** An agent that is deleted in a round by an agent that acts before it still acts in this round, and what it sends is lost: the run completes, and agent 2 is never sent the message of agent 1.
* `Esl.Population.C149_counterexample_unreachable`: **C149 (negation).** A message to an agent that is deleted in the round in which the message is sent ends the whole run with an exception.
* `Esl.Population.C149_counterexample_never_completes`: **C149 (negation).** A simulation in which an agent is deleted that asked to be woken before the end never completes, however long it runs.
* `Esl.Population.C149_counterexample_deleted_blocks`: **C149 (negation, in general).** Whatever agents do: in a run that completes, an agent that is deleted for good had asked for no wake-up before the end when it acted last. So every other run with a deletion goes on forever, or fails.
* `Esl.Dividends.C150_counterexample_payable`: **C150, negation.** If the dividend is payable after the date of its announcement, as dividends are, the simulation never gets past that date: no run completes, whatever else the agents do.
* `Esl.Dividends.C150_counterexample_record`: **C150, negation.** If a shareholder has shares of the company and the ex-dividend date lies between the announcement and the end of the simulation, the simulation never gets past the announcement date: the shareholder answers with a record that is dated at time zero, and no run completes, whatever else the agents do.
* `Esl.Grid.C151_counterexample_above`: **C151, negation.** A sample can be above the upper bound: twelve values between 0 and 0.8.
* `Esl.Grid.C151_counterexample_below`: **C151, negation.** The upper bound need not be sampled: none of fifty values between 0 and 1 is 1.
* `Esl.Grid.C151_counterexample_narrow`: **C151, negation.** Different values can coincide, if few numbers can be represented in the interval: the second and the first.
* `Esl.Grid.C151_counterexample_integers`: **C151, negation.** For integers a density of one is undefined, and so is a distance that is not an `int`, for all bounds.
* `Esl.Grid.C151_counterexample_exchanged`: **C151, negation.** With the bounds exchanged, which is no problem for floating point numbers, integers are far outside of the interval, because the difference is divided as an unsigned number.
* `Esl.Listing.C152_counterexample_loans`: **C152**: loans have the same name, whichever parties they are between.
* `Esl.Listing.C152_counterexample_assets`: **C152**: assets have the same name.
* `Esl.Listing.C152_counterexample_money`: **C152**: an inventory of which the first entry is money is printed as if it were empty, whatever it contains.
* `Esl.Listing.C152_counterexample_order`: **C152**: an inventory with money and other property is printed as if it were empty or with all its entries, depending on the order of iteration.
* `Esl.Overrides.C153_counterexample_inherited`: **C153 is violated**: a method of a Python class cannot call the method that it replaces. The call is a virtual call, which ends up in the same Python method, again and again, whatever the recursion limit: a method with such a call, wherever it is and whatever else the classes do, never returns. If it does only things of its own before, it raises an exception.
* `Esl.Overrides.C153_counterexample_ignored`: **C153 is violated**: the methods `activate_agent` and `deactivate_agent` of an environment and the method `act` of a company that a Python class defines are not called by the library.
* `Esl.Overrides.C153_counterexample_nothing`: **C153 is violated**: `activate`, `deactivate` and `send_messages` must return a number, although nothing uses the numbers of agents: a method that returns nothing raises an exception, and so does the run of the simulation.
* `Esl.Callbacks.C154_counterexample_handle`: **C154 is violated**: the handle of a Python function refers to a variable of `make_callback_handle`, which exists no more when the handle is returned. Whatever happens in the meantime, using the handle is undefined behaviour, for every function and every message.
* `Esl.Callbacks.C154_counterexample_callback`: **C154 is violated**: `esl.interaction.callback` raises an exception for all arguments, because `callback_t` has no constructor with arguments.
* `Esl.Hashing.C155_counterexample_nan`: **C155 is violated** for share classes whose preference is not a number: whatever is in the container and whatever is done with the key, it is not found.
* `Esl.Solvers.C156_counterexample_transposed`: **C156 (negation).** Wherever a cross effect is not symmetric, the solver is given a wrong derivative, in both places.
* `Esl.Solvers.C156_counterexample_diverges`: **C156 (negation).** For such demands a step of Newton's method with the required matrix clears the market, whatever the starting point. With the matrix that the solver is given it doubles all excess demands, at every step.
* `Esl.Solvers.C157_counterexample_handler`: **C157 (negation).** Whenever root finding with derivatives succeeds for a single property, the program's error handler has been replaced by the one that ignores all errors, and it stays replaced, whatever is computed afterwards.
* `Esl.Solvers.C157_counterexample_steps`: **C157 (negation).** If `derivative_free_minimization` is reached, its step sizes are read although nothing has written them: the behaviour is undefined.
* `Esl.Poisson.C158_counterexample`: **C158 (negation).** For every mean there are random numbers for which two is drawn instead of three.
* `Esl.Poisson.C158_counterexample_two`: **C158 (negation).** With a mean of at most one nothing larger than two is ever drawn.
* `Esl.Distance.C159_counterexample_coincide`: **C159 (negation).** Points that are a multiple of 65536 apart in every dimension are taken to coincide.
* `Esl.Distance.C159_counterexample_far`: **C159 (negation).** For all numbers of samples from 65538 on, of the candidates 65538 and 401, at distances 65537 and 400 from the selected point 1, the first is returned, although the ideal spacing is 1.
* `Esl.Notices.C160_counterexample_amount`: **C160 fails for amounts:** every policy with a dividend that is not zero differs from what is received, and whatever was announced, the total of the dividends is zero for the shareholder.
* `Esl.Notices.C160_counterexample_sender`: **C160 fails for senders:** a shareholder who owns shares of the company, and receives the announcement in a step that contains the ex-dividend date, answers it with a record of these shares. If the announcement came from another process, so that it was saved, and loaded into a new message, there is no record for any company. This is so for all companies (which have an identity that is not empty), holdings and policies, if the shareholder did not know of other dates.
* `Esl.Attributes.C161_counterexample`: **C161 fails:** the library cannot be imported, whatever other modules were imported before, unless these define the classes of markets and of headers. (The library installs no other module.)
* `Esl.Attributes.C162_counterexample_tree`: **C162 fails for the order book with trees:** after all insertions and cancellations, whether there are orders or not, to ask for either of the best prices raises an exception.
* `Esl.Attributes.C163_counterexample`: **C163 fails:** there is no Python program that gives a company shares or shareholders. After any statements the company that the program created has no shares and no shareholders, it pays no dividends from any profit, and it announces none of the dividends that are scheduled.
* `Esl.Attributes.C163_counterexample_item`: **C163 fails:** in particular an assignment to an item of the attribute succeeds, and is lost: it can be read from that object, and not from the attribute.
* `Esl.Experiment.C164_counterexample_int`: **C164 fails for Python's own integers:** if the value that was set last for any of the parameters of a model is an integer (or anything else but an unsigned `numpy` number), then no model can be constructed, whatever the other parameters are, and whatever the integer is.
* `Esl.Experiment.C164_counterexample_sample`: **C164 fails for large samples:** a model with a sample that has more than 32 bits can be constructed, and `simple_experiment` fails.
* `Esl.Orders.C165_counterexample_quantity`: **C165 fails for larger quantities:** a quantity from `2 ^ 32` up to `2 ^ 64` is accepted, and the order is for another, smaller quantity; it is an order for nothing if the quantity is a multiple of `2 ^ 32`. Assigning the same quantity to the attribute of an order raises an exception.
* `Esl.Orders.C165_counterexample_book`: **C165 fails in a book:** after any history of a book, what is executed for such an order and what rests of it is less than the quantity that was asked for.
* `Esl.Orders.C165_counterexample_equal`: **C165, equality fails for other lots:** comparing two orders that agree in their lifetime, side, symbol and owner raises an exception if the lots differ. If they differ in one of these, the orders are different, whatever the lots are.
* `Esl.Orders.C165_counterexample_contains`: **C165 fails for lists with several lots:** an order that is in the list is not found, but an exception is raised, if an order by the same owner with another lot comes first.
* `Esl.Orders.C166_counterexample_warned`: **C166 fails for large numbers:** if the sum does not fit 64 bits, then all trades clear, and the exchange warns if more was sold than is left of the sum.
* `Esl.Orders.C166_counterexample_trades`: **C166 fails for trades:** whatever orders an exchange handles, and whatever is executed, positions stay as they are.
* `Esl.Values.C167_counterexample_hash`: The classes that define no `__hash__`, such as tickers, prices and quotes: an object is never found in a dictionary unless it is itself one of the objects that were entered, whatever keys are equal to it.
* `Esl.Values.C167_counterexample_ticker`: An instance: two tickers that compare equal are two keys.
* `Esl.Values.C167_counterexample_currency`: Currencies do not compare by value at all: the currency of a price is not equal to the currency of the same price.
* `Esl.Values.C167_counterexample_digits`: The digits of an identity can be changed although the attribute is read only; a dictionary then has an entry that neither the object that was entered nor one with the digits of that time finds.
* `Esl.Values.C168_counterexample`: To read one of those raises an exception, whatever its value, unless another module has defined a class for its type.
* `Esl.BQueue.C169_counterexample_race`: **C169 (negation).** A consumer that has found the queue not to be empty can wait forever: with two threads, for every element, there is a history in which `empty` returned `false` to the first thread, which then begins `pop` and waits, and nothing more can happen.
* `Esl.BQueue.C169_counterexample_wrap`: **C169 (negation).** `size` is an `unsigned int`: for every number of elements there is a queue that one thread can fill, of which `size` tells the number modulo 2^32 and `empty` the truth; with 2^32 elements, zero and `false`.
* `Esl.OrderLog.C170_counterexample_brokers`: C170 fails for orders sent for somebody else: if no sender of an order owns any of the orders, nothing is ever logged.
* `Esl.OrderLog.C170_counterexample_self`: C170 fails for an agent that trades with itself: its execution is logged twice, so that the log records more units than were ordered.
* `Esl.OrderLog.C170_counterexample_cancel`: C170 fails for cancellations: none is logged when it is handled.
* `Esl.OrderLog.C170_counterexample_late`: A cancellation is logged, if ever, with the time of the next order for the symbol, and only if that order is sent by the owner of the order that was cancelled.
* `Esl.TatFl.C171_counterexample_absorbed`: **C171 (negation).** Among orders of more than 2^53, small ones are not noticed: two properties, an excess demand of two for the first at every quote, and quotes that are reported to clear the market.
* `Esl.TatFl.C171_counterexample_order`: **C171 (negation).** Whether quotes are reported to clear the market depends on the order of the participants.
* `Esl.Workers.C172_counterexample_lost`: **C172, negation.** A task that a task passes to the pool may never be executed, although the destructor returns: with two threads, if `std::try_to_lock` fails on a free mutex, which the C++ standard allows.
* `Esl.Workers.C173_counterexample_deadlock`: **C173, negation in general.** Once the tasks of all threads of the pool wait for tasks that have not been executed, no task is ever executed any more, whatever happens, and the destructor never returns.
* `Esl.Workers.C173_counterexample_own_task`: **C173, negation.** It takes one thread and one task that passes another task to the pool and waits for its result.
* `Esl.Money.C174_counterexample_cents`: **C174 (negation, decimal numbers).** 0.29 dollars, as a floating-point number, are 28 cents.
* `Esl.Money.C174_counterexample_debt`: **C174 (negation, negative amounts).** A debt of at least one smallest unit, as an amount, is undefined.
* `Esl.Money.C174_counterexample_quantity`: **C174 (negation, large quantities).** A quantity of `2 ^ 63` smallest units or more is a negative price.
* `Esl.Constants.C176_counterexample_missing`: **C176 is violated**: Andorra is a country of the library, and the country of one of its jurisdictions, but not one in Python.
* `Esl.Seeds.C177_counterexample_time`: **C177 is violated** at later times: an agent has the same seed again after 2^32 units of time, in the same round.
* `Esl.Seeds.C177_counterexample_numbers`: **C177 is violated** for agents whose numbers differ by a multiple of 2^32: they have the same seeds in all turns. So have samples whose numbers do.
* `Esl.Shuffle.C178_counterexample_groups`: **C178 (negation).** The generator is made anew from the same seed for each priority: if as many messages are handled at the priority `p` as at the priority `q`, then the orders are the same. The message that comes first among those of `p` has the place among them that the message that comes first among those of `q` has, and so on.
* `Esl.Shuffle.C178_counterexample_orders`: **C178 (negation).** Not all orders are possible. When 13 or more messages of one priority are due, there is an order in which they are handled with no seed at all, whatever the standard library: the generator has fewer than 2^31 states.
* `Esl.DirectOrders.C179_counterexample_silent`: C179 fails: no order that is entered directly makes the exchange send a message, in any state. There is a report for its owner when it is for at least one unit, which is left in the book.
* `Esl.DirectOrders.C179_counterexample_wrong_order`: C179 fails: when a message with another order for the symbol follows, the owner of the order that was entered directly is told about it then, in a message that names the other order.
* `Esl.DirectOrders.C179_counterexample_data`: C179 fails: subscribers to market data get nothing when an order is entered directly, and nothing when a message with an order follows that changes no best price and does not match: a best price that the first order made is not announced.
* `Esl.DirectOrders.C179_counterexample_stream`: Agent 5 streams symbol 7. The best ask of 100 that is entered directly is not announced, nor when agent 2 sends an order at 105. Sent in messages, it is announced.
* `Esl.Draws.C180_counterexample_calls`: C180 fails: all calls of `generate` in a turn give the same number.
* `Esl.Draws.C180_counterexample_rounds`: C180 fails for turns that differ in two respects: whatever number is drawn in a turn, the same agent draws it in any other round at some time.
* `Esl.Draws.C180_counterexample_agents`: C180 fails for two agents at different times: whatever number an agent draws, any other agent draws it in the same round of some step.
* `Esl.Latency.C181_counterexample_same`: C181 fails: all messages that an exchange with a shifted gamma latency sends in a turn arrive at the same time, whoever they are for and whatever order they are about. The latency is drawn once for each turn, in effect.
* `Esl.Latency.C181_counterexample_pairs`: C181 fails: the latency does not depend on who sends to whom.
* `Esl.Calls.C182_counterexample`: **C182 fails** for the methods, the constructors and the attributes of the lists: no program can call them with success. Whatever calls it has made before, there is an exception.
* `Esl.Calls.C182_counterexample_listed`: All entries of the lists are defined by the module.
* `Esl.Calls.C183_counterexample_set`: **C183 fails:** setting the dividend for a share class raises an exception.
* `Esl.Calls.C183_counterexample`: **C183 fails:** whatever a program does, all dividend policies that it can make pay nothing: there is no dividend for any share class, and the total is zero.
* `Esl.Saved.C184_counterexample`: **C184, negation.** A shareholder that is loaded has the stocks and prices of the object that it is loaded into, whatever the one that was saved had; two shareholders that differ in nothing else cannot be told apart.
* `Esl.Saved.C184_counterexample_holdings`: **C184, negation, stock holdings.** A shareholder that holds any shares and that is loaded into one that was just constructed has undefined stock holdings, although the same function gave each of its stocks with its amount before.
* `Esl.Version.C185_counterexample_order`: **C185, negation, order.** Python takes the numbers in the order of the lines, and C++ by their names: with the first two lines exchanged the package has another version than the library, unless the numbers are equal.
* `Esl.Version.C185_counterexample_zero`: **C185, negation, zeros.** A number that is written with a leading zero is octal in C++ and decimal in Python: with 010 as the major version, the library has 8 and the package 10, whatever the other numbers are.
* `Esl.Version.C185_counterexample_comment`: **C185, negation, comments.** A comment in front that mentions one of the constants and has no equals sign does not change the library, and Python cannot read the version any more, so that the import raises an exception.
* `Esl.QExchange.C186_counterexample_currency`: **C186 (negation).** Any agent can end the simulation: after every history of an exchange in which orders are quoted alike, if an order for a symbol rests, then an order of any agent for this symbol, on any side, of any positive quantity and at any price, in another currency, is an exception in the exchange.
* `Esl.QSides.C189_counterexample_buy`: **C189 (negation).** An order to buy can cost any number of times its limit: an order that offers `v` for `k` units is executed against an order that asks `v` for one unit, `k` times the price per unit.
* `Esl.QCrossing.C190_counterexample_lots`: **C190 (negation).** With different numbers of units offers can face each other although they should be executed: an offer to buy one unit for `v` and an offer to sell `k` units for less than `k * v` both rest.
* `Esl.QCrossing.C191_counterexample_executed`: **C191 (negation).** An order that ends with an exception can change the book: any number `n` of its units is executed before.
* `Esl.QData.C192_counterexample_data`: **C192 (negation), market data.** An exchange publishes that one unit can be sold for 2000, and that ten units can be bought for 300.
* `Esl.QData.C192_counterexample_buy`: **C192 (negation), orders to buy.** Agent 2 offers 1000 for ten units, and is told that they bought one unit for 5000.
* `Esl.Identifiable.C195_counterexample_construction`: **C195, negation, construction.** If the names of the classes differ, a conversion to the type of a derived class is undefined as long as the constructor of one of its bases runs, or their destructors: for every class that can be converted to its own type.
* `Esl.Identifiable.C195_counterexample_argument`: **C195, negation, arguments.** Nothing checks that the argument of `identifiable_as` is the class: with a class that the object is not derived from, the compiler offers the conversion, and it is undefined for every object.

## 5. Trusted base

* The kernel of Lean 4.33.0, and the axioms `propext`, `Classical.choice` and `Quot.sound`. There are no own axioms, no `sorry`, no `native_decide` and no `bv_decide`; `decide +kernel` is evaluated by the kernel.
* Mathlib is used for lemmas (order, lists, rational and real numbers); its proofs are checked by the same kernel.
* The correspondence between `/repo/esl` and the model is by reading: every definition cites the lines it models, and its comment says what is simplified. It is not checked by a machine.
* The meaning of the C++ standard library and of Boost containers, as used by the definitions: sorted and unordered maps, multimaps (equal keys in order of insertion), `std::shuffle` permutes, `std::sort` sorts, archives give back primitive
  values, texts and sequences, `dynamic_cast` follows the class hierarchy, virtual bases are initialised by the most derived class.
* MPI delivers what is sent, in order between two processes, and collective operations combine the contributions of all processes. GSL solvers are oracles that may return any number or fail; Adept computes derivatives.
* The width of the types: 64 bits for `std::size_t` and times, `int` of 32 bits.
* The tables of countries and currencies of the standards in `Spec/Iso.lean` were written from general knowledge of ISO 3166 and ISO 4217, because there is no network.

Not modelled at all: performance, memory consumption and allocation failure; the C++ memory model below the level of mutex-protected operations; rounding of floating point numbers, other than as in section 2; the text of exceptions and of log messages; files and the
console; compile-time mechanisms (templates that do not compile are noted where they matter).

The Python module is modelled as its text says. That it compiles was not checked, and there is a reason for doubt: `centralized_exchange` cannot be copied because of `output_orders`, and its class in Python
(`python_module_esl.cpp:2128`) is not marked as such. The properties about Python hold for the module as it is when this is repaired.

Archives of whole agents are not modelled. `locked_` and `schedule` of a communicator are bit-fields (`communicator.hpp:152,160`), which the expressions that would save them (303, 304) cannot refer to, so that `communicator::serialize` does not
compile for any archive. The properties about migration (C101, C102) speak of agents that are sent as they are; callbacks would have to be registered again on the receiving process.


### Axioms that the property theorems depend on, as reported by `#print axioms`

* none (65 theorems): `Esl.Archive.C82_contents_partial`, `Esl.Archive.C83_counterexample_threads`, `Esl.Archive.C83_parameters_partial`, `Esl.Arith.C133_counterexample_currency`, `Esl.Attributes.C162_best_partial`, `Esl.Attributes.C162_counterexample_tree`, `Esl.Bindings.C144_counterexample_unsolved`, `Esl.Bindings.C145_company_partial`, `Esl.Bindings.C145_counterexample_company`, `Esl.Bindings.C145_counterexample_create`, `Esl.Book.C29_counterexample_never_removed`, `Esl.Book.C29_counterexample_orders`, `Esl.Book.C31_counterexample_partial_fill`, `Esl.Book.C31_counterexample_rests`, `Esl.Codes.C47_share_is_child`, `Esl.Construction.C123_counterexample_owner`, `Esl.Construction.C123_counterexample_security`, `Esl.Construction.C123_plain`, `Esl.Construction.C124_counterexample_issuer`, `Esl.Construction.C124_counterexample_lending`, `Esl.Construction.C124_counterexample_loans`, `Esl.Construction.C124_lending_parties`, `Esl.DirectOrders.C179_counterexample_stream`, `Esl.Exchange.C37_counterexample_cancel`, `Esl.Identifiable.C195_never_throws`, `Esl.Identity.C01_child_after_parent`, `Esl.Inventory.C12_counterexample_not_atomic`, `Esl.Log.C110_main`, `Esl.Log.C112_suffix`, `Esl.Messages.C125_counterexample_sender`, `Esl.Messages.C125_counterexample_take`, `Esl.Messages.C125_library_partial`, `Esl.Messages.C125_nobody`, `Esl.Messages.C125_sender_partial`, `Esl.Messages.C126_counterexample_orders`, `Esl.Messages.C127_market`, `Esl.Messages.C127_reply`, `Esl.Orders.C165_assign`, `Esl.Pool.C32_counterexample_constant`, `Esl.Pool.C32_counterexample_unstored`, `Esl.Pool.C33_counterexample_double_erase`, `Esl.Pool.C33_counterexample_never_inserted`, `Esl.Price.C09_counterexample_ge_lots`, `Esl.Price.C09_counterexample_overflow`, `Esl.Price.C09_counterexample_wrap`, `Esl.Printing.C142_copy`, `Esl.Printing.C142_counterexample_equality`, `Esl.Printing.C142_counterexample_fill`, `Esl.Printing.C142_counterexample_order`, `Esl.Python.C114_counterexample_object`, `Esl.Python.C116_counterexample_agent`, `Esl.Python.C116_counterexample_send`, `Esl.Python.C120_price_partial`, `Esl.Quantity.C06_counterexample_postdecrement`, `Esl.Sched.C74_activate_partial`, `Esl.Text.C63_counterexample_comma`, `Esl.Text.C63_counterexample_newline`, `Esl.Text.C63_counterexample_no_reader`, `Esl.Threads.C24_counterexample_eight`, `Esl.Threads.C24_counterexample_threads_ignored`, `Esl.Unique.C136_counterexample_erase_set`, `Esl.Walras.C58_counterexample`, `Esl.Walras.C60_advances_partial`, `Esl.Walras.C89_counterexample_early`, `Esl.Walras.C89_counterexample_stale`
* `propext` (98 theorems): `Esl.Accounting.C11_counterexample_negative_price`, `Esl.Accounting.C11_refused_without_quote`, `Esl.Accounting.C73_counterexample`, `Esl.Accounting.C73_counterexample_overflow`, `Esl.Announce.C138_none_partial`, `Esl.Archive.C66_counterexample_rational`, `Esl.Archive.C66_entity`, `Esl.Archive.C66_person`, `Esl.Archive.C66_sequence`, `Esl.Archive.C66_tuple`, `Esl.Attributes.C163_counterexample_item`, `Esl.Attributes.C163_read_partial`, `Esl.BQueue.C51_counterexample_closed_queue_accepts`, `Esl.Bindings.C144_counterexample_append`, `Esl.Bindings.C144_counterexample_failure`, `Esl.Bindings.C144_counterexample_none`, `Esl.Callbacks.C154_counterexample_callback`, `Esl.Callbacks.C154_handle_partial`, `Esl.Calls.C183_policy_partial`, `Esl.Codes.C43_print_injective_partial`, `Esl.Codes.C47_share_identity`, `Esl.Construction.C123_agent_partial`, `Esl.Construction.C123_counterexample_user`, `Esl.Construction.C123_property_injective`, `Esl.Construction.C123_property_partial`, `Esl.Construction.C123_tagged`, `Esl.Construction.C123_user_partial`, `Esl.Construction.C123_virtual`, `Esl.Construction.C124_parties_partial`, `Esl.DirectOrders.C179_unknown_symbol_partial`, `Esl.Exchange.C37_counterexample_wrong_order`, `Esl.Exchange.C37_unknown_symbol`, `Esl.Exchange.C96_counterexample_snapshot_repeats`, `Esl.Exchange.C97_counterexample_twice`, `Esl.Grid.C151_counterexample_integers`, `Esl.Identity.C03_agent_copy_restarts`, `Esl.Identity.C03_counterexample`, `Esl.Interval.C49_contains`, `Esl.Interval.C49_contains_dense`, `Esl.Inventory.C13_uninvolved`, `Esl.Inventory.C14_counterexample_self_transfer`, `Esl.Inventory.C14_counterexample_take`, `Esl.Listing.C152_counterexample_assets`, `Esl.Listing.C152_counterexample_loans`, `Esl.Listing.C152_counterexample_money`, `Esl.Listing.C152_listed_partial`, `Esl.Listing.C152_unique_items`, `Esl.Log.C110_counterexample_console`, `Esl.Log.C110_dynamic_filtered`, `Esl.Log.C110_kept`, `Esl.Log.C111_counterexample_endl`, `Esl.Log.C111_counterexample_lines`, `Esl.MessageCode.C68_counterexample_mask`, `Esl.MessageCode.C68_library_classes`, `Esl.Messages.C125_counterexample_sent`, `Esl.Messages.C125_created_partial`, `Esl.Messages.C126_transfer_partial`, `Esl.Messages.C129_empty_partial`, `Esl.Mpi.C102_counterexample_absent`, `Esl.Names.C109_constants`, `Esl.OrderLog.C170_counterexample_cancel`, `Esl.Orders.C165_cancel`, `Esl.Orders.C166_warned_partial`, `Esl.Overrides.C153_counterexample_ignored`, `Esl.Price.C09_different_lots_partial`, `Esl.Price.C48_counterexample`, `Esl.Python.C114_counterexample_release`, `Esl.Python.C114_counterexample_severity`, `Esl.Python.C114_low_partial`, `Esl.Python.C115_counterexample_currency`, `Esl.Python.C115_counterexample_isin`, `Esl.Python.C115_counterexample_print`, `Esl.Python.C115_country`, `Esl.Python.C115_isin_partial`, `Esl.Python.C115_print_country`, `Esl.Python.C116_communicator_partial`, `Esl.Python.C117_counterexample_price`, `Esl.Python.C118_time`, `Esl.Python.C119_counterexample_dropped`, `Esl.QBook.C148_cancel`, `Esl.QData.C192_counterexample_buy`, `Esl.QData.C192_counterexample_data`, `Esl.QPriority.C193_unknown`, `Esl.Quantity.C06_counterexample_predecrement`, `Esl.Sched.C21_counterexample_late_message`, `Esl.Sched.C74_counterexample_activate`, `Esl.Seeds.C177_counterexample_numbers`, `Esl.Seeds.C177_counterexample_time`, `Esl.Seeds.C177_samples_partial`, `Esl.Text.C63_render`, `Esl.Text.C64_tuple`, `Esl.Text.C64_vector`, `Esl.Unique.C136_counterexample_duplicate`, `Esl.Unique.C136_counterexample_nothing`, `Esl.Walras.C57_counterexample`, `Esl.Walras.C57_counterexample_clearing`, `Esl.Walras.C87_counterexample`, `Esl.Workers.C172_counterexample_lost`
* `Quot.sound`, `propext` (156 theorems): `Esl.Accounting.C11_long_short_cancel`, `Esl.Accounting.C11_stock_value_unit_lot_partial`, `Esl.Algo.C78_power`, `Esl.Algo.C78_power_exact`, `Esl.Algo.C79_slice`, `Esl.Announce.C138_counterexample_twice`, `Esl.Announce.C138_room_partial`, `Esl.Announce.C74_counterexample_freed`, `Esl.Announce.C74_one_partial`, `Esl.Announce.C74_room_partial`, `Esl.Archive.C66_counterexample_producer`, `Esl.Archive.C66_jurisdiction`, `Esl.Archive.C82_counterexample_header`, `Esl.Archive.C82_header`, `Esl.Arith.C130_counterexample_currencies`, `Esl.Arith.C130_counterexample_limits`, `Esl.Attributes.C161_order_partial`, `Esl.BQueue.C169_counterexample_race`, `Esl.BQueue.C169_counterexample_wrap`, `Esl.BQueue.C50_terminates`, `Esl.BQueue.C51_counterexample_push_ignores_closed`, `Esl.BQueue.C51_drain_partial`, `Esl.Bindings.C144_market_partial`, `Esl.Bindings.C144_solution_partial`, `Esl.Bindings.C145_counterexample_local_agents`, `Esl.Book.C25_best_prices`, `Esl.Book.C25_uncrossed`, `Esl.Callbacks.C154_counterexample_handle`, `Esl.Callbacks.C154_different_partial`, `Esl.Callbacks.C154_kept_partial`, `Esl.Calls.C182_counterexample_listed`, `Esl.Codes.C42_lower_case`, `Esl.Codes.C43_counterexample_round_trip`, `Esl.Codes.C43_country_and_string_partial`, `Esl.Codes.C43_round_trip_partial`, `Esl.Codes.C43_two_strings_partial`, `Esl.Codes.C45_round_trip`, `Esl.Codes.C46_round_trip`, `Esl.Codes.C76_accepts`, `Esl.Codes.C77_length_partial`, `Esl.Codes.C77_round_trip`, `Esl.Comm.C17_counterexample_last_first`, `Esl.Comm.C72_locked`, `Esl.Company.C54_counterexample_wake`, `Esl.Company.C55_ascending`, `Esl.Company.C55_equal`, `Esl.Company.C85_unknown`, `Esl.Construction.C124_bonds_partial`, `Esl.Construction.C124_counterexample_inventory`, `Esl.Distance.C159_counterexample_coincide`, `Esl.Draws.C180_construct`, `Esl.Draws.C180_counterexample_agents`, `Esl.Draws.C180_counterexample_calls`, `Esl.Draws.C180_counterexample_rounds`, `Esl.Draws.C180_one_word_partial`, `Esl.Draws.C180_siblings_partial`, `Esl.Draws.C180_turns_partial`, `Esl.Exchange.C128_counterexample_counterparty`, `Esl.Exchange.C37_counterexample_waiting`, `Esl.Grid.C151_integers_partial`, `Esl.Hashing.C155_cash`, `Esl.Hashing.C155_counterexample_nan`, `Esl.Hashing.C155_identity`, `Esl.Hashing.C155_share_partial`, `Esl.Hashing.C155_ticker`, `Esl.Holders.C139_counterexample_no_owner`, `Esl.Holders.C139_counterexample_wrap`, `Esl.Identifiable.C195_compare`, `Esl.Identifiable.C195_counterexample_argument`, `Esl.Identifiable.C195_identifier_partial`, `Esl.Identifiable.C195_library`, `Esl.Identity.C02_every_create_issues`, `Esl.Interval.C49_counterexample_open`, `Esl.Inventory.C12_insertion`, `Esl.Inventory.C12_order_irrelevant_partial`, `Esl.Inventory.C12_removal_partial`, `Esl.Inventory.C12_round_trip`, `Esl.Inventory.C14_agreement_partial`, `Esl.Log.C110_counterexample_dynamic`, `Esl.Log.C111_progress`, `Esl.Log.C112_name`, `Esl.Log.C112_root_partial`, `Esl.Messages.C129_counterexample_assets`, `Esl.Money.C174_counterexample_quantity`, `Esl.Money.C174_quantity_partial`, `Esl.Mpi.C100_counterexample_again`, `Esl.Mpi.C100_counterexample_count`, `Esl.Mpi.C101_no_such_process`, `Esl.Mpi.C103_counterexample_unknown`, `Esl.Mpi.C104_ends_partial`, `Esl.Mpi.C105_counterexample_unknown`, `Esl.Names.C109_accepts`, `Esl.OrderLog.C170_entries`, `Esl.OrderLog.C170_messages`, `Esl.OrderLog.C170_transparent`, `Esl.Orders.C165_contains_partial`, `Esl.Orders.C165_counterexample_contains`, `Esl.Orders.C165_counterexample_equal`, `Esl.Orders.C165_counterexample_quantity`, `Esl.Orders.C165_equal_partial`, `Esl.Orders.C166_counterexample_trades`, `Esl.Overrides.C153_call_partial`, `Esl.Overrides.C153_counterexample_inherited`, `Esl.Overrides.C153_counterexample_nothing`, `Esl.Overrides.C153_run_partial`, `Esl.Overrides.C153_step_partial`, `Esl.Population.C149_counterexample_activation`, `Esl.Population.C149_counterexample_idle`, `Esl.Population.C149_counterexample_never_completes`, `Esl.Population.C149_counterexample_postponed`, `Esl.Population.C149_counterexample_silenced`, `Esl.Population.C149_counterexample_unreachable`, `Esl.Population.C149_static`, `Esl.Price.C08_different_currency`, `Esl.Printing.C142_equality_partial`, `Esl.Python.C113_counterexample_several`, `Esl.Python.C113_inbox_partial`, `Esl.Python.C115_entity`, `Esl.Python.C120_counterexample_rate`, `Esl.QBook.C148_counterexample_lots`, `Esl.QBook.C148_counterexample_units`, `Esl.QCrossing.C191_counterexample_executed`, `Esl.QNum.C137_counterexample_negative_divisor`, `Esl.QSides.C189_limits`, `Esl.Quantity.C06_subtraction_partial`, `Esl.Quantity.C07_power`, `Esl.Quantity.C07_power_exact`, `Esl.Saved.C66_counterexample_timing`, `Esl.Sched.C20_counterexample_lost_wakeup`, `Esl.Seeds.C177_siblings`, `Esl.Shuffle.C178_generator_partial`, `Esl.TPool.C52_counterexample_zero_threads`, `Esl.Text.C63_plain_records_partial`, `Esl.Text.C64_array`, `Esl.Text.C64_counterexample_queue`, `Esl.Text.C64_map`, `Esl.Text.C64_queue_partial`, `Esl.Text.C64_queue_prefix`, `Esl.Unique.C135_counterexample_nothing`, `Esl.Unique.C135_counterexample_self`, `Esl.Unique.C135_refused`, `Esl.Unique.C136_counterexample_not_atomic`, `Esl.Unique.C136_erase_partial`, `Esl.Unique.C136_insert`, `Esl.Unique.C136_round_trip`, `Esl.Unique.C136_sets`, `Esl.Unique.C136_unique_partial`, `Esl.Values.C167_counterexample_currency`, `Esl.Values.C167_counterexample_hash`, `Esl.Values.C168_counterexample`, `Esl.Values.C168_read_partial`, `Esl.Version.C185_lines`, `Esl.Walras.C56_every_property`, `Esl.Walras.C88_dates_increase`, `Esl.Walras.C88_everyone`, `Esl.Workers.C173_counterexample_own_task`
* `Classical.choice`, `Quot.sound`, `propext` (608 theorems): `Esl.Accounting.C10_additive`, `Esl.Accounting.C10_income_expenses`, `Esl.Accounting.C10_statement_is_sum`, `Esl.Accounting.C11_defined`, `Esl.Accounting.C11_stock_value_partial`, `Esl.Accounting.C73_converted_amount_partial`, `Esl.Accounting.C73_reporting_currency_partial`, `Esl.Algo.C61_allocate_partial`, `Esl.Algo.C61_counterexample_half`, `Esl.Algo.C61_counterexample_negative`, `Esl.Algo.C61_counterexample_range`, `Esl.Algo.C61_counterexample_too_much`, `Esl.Algo.C61_counterexample_two_halves`, `Esl.Algo.C62_corners_missing`, `Esl.Algo.C62_points`, `Esl.Algo.C62_simplex`, `Esl.Algo.C79_concatenate`, `Esl.Algo.C79_cut_and_join`, `Esl.Announce.C138_counterexample_freed`, `Esl.Announce.C138_counterexample_growth`, `Esl.Archive.C66_counterexample_price`, `Esl.Archive.C66_counterexample_quote`, `Esl.Archive.C66_interest_rate_partial`, `Esl.Archive.C66_price_saved_partial`, `Esl.Archive.C66_rational_partial`, `Esl.Archive.C83_missing`, `Esl.Arith.C130_amounts_partial`, `Esl.Arith.C130_counterexample_number`, `Esl.Arith.C130_counterexample_product`, `Esl.Arith.C130_counterexample_quotient`, `Esl.Arith.C130_laws_partial`, `Esl.Arith.C130_number_partial`, `Esl.Arith.C131_counterexample`, `Esl.Arith.C131_counterexample_drift`, `Esl.Arith.C131_order_partial`, `Esl.Arith.C131_representable_partial`, `Esl.Arith.C131_round_trip_partial`, `Esl.Arith.C131_undivided_partial`, `Esl.Arith.C131_whole_partial`, `Esl.Arith.C132_counterexample_lot`, `Esl.Arith.C132_counterexample_product`, `Esl.Arith.C132_counterexample_quotient`, `Esl.Arith.C132_numbers_partial`, `Esl.Arith.C132_round_trip_partial`, `Esl.Arith.C132_sums_partial`, `Esl.Arith.C133_counterexample_large`, `Esl.Arith.C133_counterexample_number`, `Esl.Arith.C133_counterexample_precision`, `Esl.Arith.C133_exchange_rate`, `Esl.Arith.C133_inflation_partial`, `Esl.Arith.C133_number_partial`, `Esl.Arith.C133_similar_partial`, `Esl.Arith.C133_to_number_partial`, `Esl.Attributes.C161_counterexample`, `Esl.Attributes.C163_counterexample`, `Esl.Auction.C146_cash_partial`, `Esl.Auction.C146_clearing_partial`, `Esl.Auction.C146_counterexample_money`, `Esl.Auction.C146_counterexample_two`, `Esl.Auction.C146_in_transit_partial`, `Esl.Auction.C146_money_partial`, `Esl.Auction.C146_positions_partial`, `Esl.Averages.C141_between_partial`, `Esl.Averages.C141_constant_partial`, `Esl.Averages.C141_counterexample_beginning`, `Esl.Averages.C141_counterexample_empty`, `Esl.Averages.C141_counterexample_growth`, `Esl.Averages.C141_counterexample_integer`, `Esl.Averages.C141_counterexample_interim`, `Esl.Averages.C141_counterexample_negative`, `Esl.Averages.C141_counterexample_two`, `Esl.Averages.C141_enumerate`, `Esl.Averages.C141_growth_partial`, `Esl.Averages.C141_loss_partial`, `Esl.Averages.C141_mean_partial`, `Esl.Averages.C141_order_partial`, `Esl.Averages.C141_positive_growth_partial`, `Esl.Averages.C141_positive_partial`, `Esl.Averages.C141_rounding_partial`, `Esl.Averages.C141_unit_partial`, `Esl.Averages.C141_zero_partial`, `Esl.BQueue.C169_lasts_partial`, `Esl.BQueue.C169_moment`, `Esl.BQueue.C50_at_most_once`, `Esl.BQueue.C50_close_releases`, `Esl.BQueue.C50_conserved`, `Esl.BQueue.C50_fifo`, `Esl.BQueue.C50_only_pushed`, `Esl.BQueue.C50_order_in_time`, `Esl.BQueue.C50_pop_result`, `Esl.BQueue.C50_released`, `Esl.Bindings.C144_counterexample_dropped`, `Esl.Bindings.C144_counterexample_null`, `Esl.Bindings.C144_orders_partial`, `Esl.Bindings.C145_activate_partial`, `Esl.Bindings.C145_seed`, `Esl.Book.C26_conserves`, `Esl.Book.C26_others_unchanged`, `Esl.Book.C27_priority`, `Esl.Book.C28_limits`, `Esl.Book.C29_cancel_partial`, `Esl.Book.C29_listed_partial`, `Esl.Book.C30_unique`, `Esl.Book.C31_filled_partial`, `Esl.Calls.C182_counterexample`, `Esl.Calls.C182_usable_partial`, `Esl.Calls.C183_counterexample`, `Esl.Calls.C183_counterexample_set`, `Esl.Clearing.C134_budget_partial`, `Esl.Clearing.C134_counterexample_budget`, `Esl.Clearing.C134_counterexample_order`, `Esl.Clearing.C134_counterexample_silent`, `Esl.Clearing.C134_settled_partial`, `Esl.Clearing.C134_unsolved`, `Esl.Codes.C42_checksum_valid`, `Esl.Codes.C42_detects_digit`, `Esl.Codes.C42_detects_transposition`, `Esl.Codes.C43_counterexample_length`, `Esl.Codes.C43_counterexample_malformed`, `Esl.Codes.C43_rejects_partial`, `Esl.Codes.C44_accepts_exactly`, `Esl.Codes.C44_checksum_valid`, `Esl.Codes.C44_detects_digit`, `Esl.Codes.C44_isin_of_cusip`, `Esl.Codes.C44_round_trip`, `Esl.Codes.C45_checksum_valid`, `Esl.Codes.C45_counterexample`, `Esl.Codes.C45_detects_partial`, `Esl.Codes.C46_checksums_differ_partial`, `Esl.Codes.C46_congruent_one_partial`, `Esl.Codes.C46_counterexample`, `Esl.Codes.C46_detects_partial`, `Esl.Codes.C47_isin`, `Esl.Codes.C47_lei`, `Esl.Codes.C47_range_needed`, `Esl.Codes.C76_hash_injective`, `Esl.Codes.C77_counterexample_length`, `Esl.Comm.C15_exactly_once`, `Esl.Comm.C15_not_early`, `Esl.Comm.C16_priority`, `Esl.Comm.C17_in_order_reversed_partial`, `Esl.Comm.C72_registered`, `Esl.Company.C53_at_most_partial`, `Esl.Company.C53_counterexample_overflow`, `Esl.Company.C53_counterexample_policy`, `Esl.Company.C53_counterexample_total`, `Esl.Company.C53_no_profit`, `Esl.Company.C53_parts`, `Esl.Company.C53_total_partial`, `Esl.Company.C54_announcements`, `Esl.Company.C54_counterexample_announcement`, `Esl.Company.C54_once`, `Esl.Company.C54_wake_partial`, `Esl.Company.C55_counterexample_rank`, `Esl.Company.C55_register_partial`, `Esl.Company.C70_counterexample_bondholder`, `Esl.Company.C70_counterexample_currency`, `Esl.Company.C70_shareholder_partial`, `Esl.Company.C84_counterexample_later`, `Esl.Company.C84_counterexample_twice`, `Esl.Company.C84_first_partial`, `Esl.Company.C84_records`, `Esl.Company.C85_stock_holdings`, `Esl.Constants.C176_counterexample_missing`, `Esl.Constants.C176_countries_partial`, `Esl.Constants.C176_currencies`, `Esl.Constants.C176_jurisdictions`, `Esl.DirectOrders.C179_books_partial`, `Esl.DirectOrders.C179_counterexample_data`, `Esl.DirectOrders.C179_counterexample_silent`, `Esl.DirectOrders.C179_counterexample_wrong_order`, `Esl.Distance.C159_best_partial`, `Esl.Distance.C159_counterexample_far`, `Esl.Distance.C159_refines`, `Esl.Dividends.C150_announced_partial`, `Esl.Dividends.C150_counterexample_payable`, `Esl.Dividends.C150_counterexample_record`, `Esl.Dividends.C150_once`, `Esl.Draws.C180_run_partial`, `Esl.Exchange.C128_exchange_partial`, `Esl.Exchange.C37_after_order_partial`, `Esl.Exchange.C37_reports_partial`, `Esl.Exchange.C38_counterexample_nobody`, `Esl.Exchange.C38_counterexample_second`, `Esl.Exchange.C38_logon_partial`, `Esl.Exchange.C38_logout_others`, `Esl.Exchange.C38_logout_partial`, `Esl.Exchange.C96_cancel_partial`, `Esl.Exchange.C96_counterexample_cancel_unsubscribed`, `Esl.Exchange.C96_counterexample_cancellations`, `Esl.Exchange.C96_counterexample_snapshot_never`, `Esl.Exchange.C96_counterexample_streams_ignored`, `Esl.Exchange.C96_current`, `Esl.Exchange.C96_stream_partial`, `Esl.Exchange.C96_unrequested`, `Esl.Exchange.C97_counterexample_all_reports`, `Esl.Exchange.C97_once_partial`, `Esl.Exchange.C98_engine`, `Esl.Exchange.C98_engine_present`, `Esl.Exchange.C98_exchange`, `Esl.Experiment.C164_absent`, `Esl.Experiment.C164_counterexample_int`, `Esl.Experiment.C164_counterexample_sample`, `Esl.Experiment.C164_fits_partial`, `Esl.Experiment.C164_numpy_partial`, `Esl.Experiment.C164_read_back_partial`, `Esl.Experiment.C164_refused`, `Esl.Experiment.C164_seed_partial`, `Esl.Feed.C175_message`, `Esl.Feed.C175_simulation`, `Esl.Grid.C151_counterexample_above`, `Esl.Grid.C151_counterexample_below`, `Esl.Grid.C151_counterexample_exchanged`, `Esl.Grid.C151_counterexample_narrow`, `Esl.Grid.C151_exact_partial`, `Esl.Grid.C151_samples_partial`, `Esl.Grid.C151_values_partial`, `Esl.Grid.C39_combinations_partial`, `Esl.Grid.C40_values`, `Esl.Hashing.C155_container`, `Esl.Holders.C139_conserved_partial`, `Esl.Holders.C139_in_transit_partial`, `Esl.Holders.C139_modular`, `Esl.Hypercube.C40_counterexample_repeated`, `Esl.Hypercube.C40_distinct`, `Esl.Hypercube.C40_repeated_partial`, `Esl.Identifiable.C195_counterexample_construction`, `Esl.Identity.C01_order`, `Esl.Identity.C02_unique_identifiers`, `Esl.Identity.C03_copies_without_creation_partial`, `Esl.Identity.C04_render_injective`, `Esl.Impact.C93_balanced_partial`, `Esl.Impact.C93_counterexample_constant`, `Esl.Impact.C93_counterexample_sides`, `Esl.Impact.C93_counterexample_volume`, `Esl.Impact.C94_counterexample_twice`, `Esl.Impact.C94_counterexample_unlisted`, `Esl.Impact.C94_listed_partial`, `Esl.Impact.C95_advances_partial`, `Esl.Impact.C95_counterexample_stale`, `Esl.Impact.C95_counterexample_stall`, `Esl.Interval.C49_counterexample_closed`, `Esl.Interval.C49_counterexample_degenerate`, `Esl.Interval.C49_counterexample_dense`, `Esl.Interval.C49_counterexample_two`, `Esl.Interval.C49_degenerate_partial`, `Esl.Interval.C49_empty_swaps_flags`, `Esl.Interval.C49_half_open_dense_partial`, `Esl.Interval.C49_half_open_partial`, `Esl.Interval.C49_singleton_swaps_flags`, `Esl.Interval.C49_swaps_flags_dense`, `Esl.Inventory.C13_conservation`, `Esl.Inventory.C13_refused_iff`, `Esl.Latency.C181_at_least_shift_partial`, `Esl.Latency.C181_counterexample_pairs`, `Esl.Latency.C181_counterexample_same`, `Esl.Ledger.C140_accounted`, `Esl.Ledger.C140_handled`, `Esl.Ledger.C140_waiting`, `Esl.Listing.C152_contents_partial`, `Esl.Listing.C152_counterexample_order`, `Esl.Listing.C152_names_partial`, `Esl.Listing.C152_shortage`, `Esl.Listing.C152_unique`, `Esl.Log.C111_pieces`, `Esl.Log.C112_counterexample_directory`, `Esl.Maker.C67_bid_below_ask_partial`, `Esl.Maker.C67_binary64`, `Esl.Maker.C67_binary64_inventory`, `Esl.Maker.C67_binary64_rounding`, `Esl.Maker.C67_counterexample_little_aversion`, `Esl.Maker.C67_counterexample_risk_neutral`, `Esl.Maker.C67_inventory`, `Esl.Maker.C67_never_crossed`, `Esl.MessageCode.C68_codes_partial`, `Esl.Messages.C126_counterexample_no_order`, `Esl.Messages.C126_counterexample_quotes`, `Esl.Messages.C126_no_quotes_partial`, `Esl.Messages.C128_at_least_shift_partial`, `Esl.Messages.C128_counterexample_rate`, `Esl.Messages.C128_counterexample_undefined`, `Esl.Messages.C128_rate_one_partial`, `Esl.Money.C174_amount_partial`, `Esl.Money.C174_counterexample_cents`, `Esl.Money.C174_counterexample_debt`, `Esl.Money.C174_exact_partial`, `Esl.Money.C174_rounding`, `Esl.Money.C174_rule`, `Esl.Mpi.C100_counterexample_idle`, `Esl.Mpi.C100_counterexample_remembered`, `Esl.Mpi.C100_forgotten_partial`, `Esl.Mpi.C101_agree`, `Esl.Mpi.C102_addresses_partial`, `Esl.Mpi.C102_counterexample_self`, `Esl.Mpi.C102_migrate_partial`, `Esl.Mpi.C102_unbuffered_partial`, `Esl.Mpi.C103_counterexample_count`, `Esl.Mpi.C103_counterexample_lost`, `Esl.Mpi.C103_local_partial`, `Esl.Mpi.C104_counterexample_undefined`, `Esl.Mpi.C105_lookup_partial`, `Esl.Mpi.C106_counterexample_stuck`, `Esl.Mpi.C106_first_partial`, `Esl.Mpi.C99_activate`, `Esl.Mpi.C99_history`, `Esl.Names.C108_counterexample_unnamed`, `Esl.Names.C108_distinct`, `Esl.Names.C108_iso_complete`, `Esl.Names.C108_iso_partial`, `Esl.Names.C108_lookup`, `Esl.Names.C108_named_partial`, `Esl.Names.C109_distinct`, `Esl.Names.C109_hash`, `Esl.Names.C109_lookup`, `Esl.Names.C121_counterexample_units`, `Esl.Names.C121_units_partial`, `Esl.Names.C122_counterexample_missing`, `Esl.Names.C122_jurisdictions_partial`, `Esl.Notices.C160_announcement_partial`, `Esl.Notices.C160_class`, `Esl.Notices.C160_counterexample_amount`, `Esl.Notices.C160_counterexample_sender`, `Esl.Notices.C160_record_partial`, `Esl.OpenBook.C65_counterexample_time`, `Esl.OpenBook.C65_field`, `Esl.OpenBook.C65_message_partial`, `Esl.OpenBook.C80_main_session`, `Esl.OpenBook.C81_counterexample_scale`, `Esl.OpenBook.C81_price_partial`, `Esl.OrderLog.C170_accounts_partial`, `Esl.OrderLog.C170_counterexample_brokers`, `Esl.OrderLog.C170_counterexample_late`, `Esl.OrderLog.C170_counterexample_self`, `Esl.Orders.C165_counterexample_book`, `Esl.Orders.C165_create_partial`, `Esl.Orders.C166_counterexample_warned`, `Esl.Orders.C166_liquidity`, `Esl.Orders.C166_print`, `Esl.Out.C69_add`, `Esl.Out.C69_counterexample_second_output`, `Esl.Out.C69_once`, `Esl.Out.C69_streams_partial`, `Esl.Out.C69_values`, `Esl.Payout.C53_binary64_no_profit`, `Esl.Payout.C53_binary64_partial`, `Esl.Payout.C53_counterexample_cent`, `Esl.Payout.C53_counterexample_exceeds`, `Esl.Poisson.C158_at_most_partial`, `Esl.Poisson.C158_counterexample`, `Esl.Poisson.C158_counterexample_two`, `Esl.Poisson.C158_one_partial`, `Esl.Poisson.C158_positive`, `Esl.Pool.C32_slots_partial`, `Esl.Pool.C33_reused_partial`, `Esl.Population.C149_acts_known`, `Esl.Population.C149_counterexample_deleted_blocks`, `Esl.Population.C149_created_acts_partial`, `Esl.Population.C149_deleted_gone`, `Esl.Population.C149_delivered_partial`, `Esl.Population.C149_stays`, `Esl.Population.C149_time`, `Esl.Population.C149_wakeups`, `Esl.Price.C08_same_currency`, `Esl.Price.C09_equal_lots_partial`, `Esl.Price.C48_constructor`, `Esl.Price.C48_same_denominator_partial`, `Esl.Price.C48_strict_order`, `Esl.Printing.C142_counterexample_large`, `Esl.Printing.C142_counterexample_precision`, `Esl.Printing.C142_counterexample_report`, `Esl.Printing.C142_counterexample_width`, `Esl.Printing.C142_currencies`, `Esl.Printing.C142_format`, `Esl.Printing.C142_identifies_partial`, `Esl.Printing.C142_price_partial`, `Esl.Printing.C142_quote_partial`, `Esl.Printing.C142_report_partial`, `Esl.Python.C113_counterexample_missing`, `Esl.Python.C113_map`, `Esl.Python.C115_counterexample_currencies`, `Esl.Python.C117_read_partial`, `Esl.Python.C119_demand_partial`, `Esl.Python.C119_supply`, `Esl.QBook.C148_accepted_partial`, `Esl.QBook.C148_alike_partial`, `Esl.QBook.C148_counterexample_cancel`, `Esl.QBook.C148_counterexample_overflow`, `Esl.QBook.C148_one_currency_partial`, `Esl.QBook.C148_refused_partial`, `Esl.QCrossing.C190_counterexample_lots`, `Esl.QCrossing.C190_currency`, `Esl.QCrossing.C190_uncrossed_partial`, `Esl.QCrossing.C191_defined`, `Esl.QCrossing.C191_positive`, `Esl.QCrossing.C191_unchanged_partial`, `Esl.QData.C192_buy_partial`, `Esl.QData.C192_data_partial`, `Esl.QData.C192_sell`, `Esl.QExchange.C186_alike_partial`, `Esl.QExchange.C186_counterexample_currency`, `Esl.QExchange.C186_data_partial`, `Esl.QNum.C137_conversion_partial`, `Esl.QNum.C137_counterexample_divide_by_one`, `Esl.QNum.C137_counterexample_equal`, `Esl.QNum.C137_counterexample_limits`, `Esl.QNum.C137_counterexample_negative`, `Esl.QNum.C137_counterexample_product`, `Esl.QNum.C137_counterexample_unequal`, `Esl.QNum.C137_division_partial`, `Esl.QNum.C137_exact_partial`, `Esl.QNum.C137_exactly_one`, `Esl.QNum.C137_sound`, `Esl.QNum.C137_unequal_partial`, `Esl.QNum.C137_whole_product`, `Esl.QPriority.C193_cancel`, `Esl.QPriority.C193_unique`, `Esl.QPriority.C194_later`, `Esl.QPriority.C194_priority`, `Esl.QSides.C188_comparable`, `Esl.QSides.C188_sides`, `Esl.QSides.C189_buy_partial`, `Esl.QSides.C189_counterexample_buy`, `Esl.QSides.C189_sell`, `Esl.QUnits.C187_book`, `Esl.QUnits.C187_book_smooth`, `Esl.QUnits.C187_exchange`, `Esl.QUnits.C187_exchange_sides`, `Esl.QUnits.C187_sides`, `Esl.Quantity.C05_split`, `Esl.Sampler.C39_bounds`, `Esl.Sampler.C39_counterexample`, `Esl.Sampler.C39_grid_partial`, `Esl.Sampler.C40_counterexample`, `Esl.Sampler.C40_latin_partial`, `Esl.Sampler.C41_counterexample_duplication`, `Esl.Sampler.C41_counterexample_overflow`, `Esl.Sampler.C41_permutations_partial`, `Esl.Saved.C184_counterexample`, `Esl.Saved.C184_counterexample_holdings`, `Esl.Saved.C184_records_partial`, `Esl.Saved.C184_restored_partial`, `Esl.Saved.C66_counterexample_price_pointer`, `Esl.Saved.C66_share_class`, `Esl.Sched.C18_run`, `Esl.Sched.C18_step_forward`, `Esl.Sched.C19_acts_when_due`, `Esl.Sched.C19_minimum`, `Esl.Sched.C19_no_wakeup_skipped`, `Esl.Sched.C20_immediate`, `Esl.Sched.C20_on_time_partial`, `Esl.Sched.C21_counterexample_dated_past`, `Esl.Sched.C21_counterexample_overdue`, `Esl.Sched.C21_terminates_partial`, `Esl.Sched.C22_conservation`, `Esl.Sched.C22_total`, `Esl.Sched.C22_unknown_recipient`, `Esl.Sched.C71_bounded_partial`, `Esl.Sched.C71_counterexample_deactivated`, `Esl.Seeds.C177_seeds_partial`, `Esl.Seeds.C177_turns`, `Esl.Sharing.C143_alive`, `Esl.Sharing.C143_counterexample_weak`, `Esl.Sharing.C143_deleted_partial`, `Esl.Sharing.C143_same_object`, `Esl.Sharing.C143_stable`, `Esl.Sharing.C143_valid`, `Esl.Shuffle.C178_counterexample_groups`, `Esl.Shuffle.C178_counterexample_orders`, `Esl.Shuffle.C178_random_partial`, `Esl.Simplex.C61_binary64_partial`, `Esl.Simplex.C61_counterexample_sum`, `Esl.Simplex.C62_binary64_partial`, `Esl.Simplex.C62_counterexample_missing`, `Esl.Simplex.C62_counterexample_sum`, `Esl.Solvers.C156_counterexample_diverges`, `Esl.Solvers.C156_counterexample_transposed`, `Esl.Solvers.C156_gradient`, `Esl.Solvers.C156_layout`, `Esl.Solvers.C156_one`, `Esl.Solvers.C156_separable_partial`, `Esl.Solvers.C156_symmetric_partial`, `Esl.Solvers.C157_counterexample_handler`, `Esl.Solvers.C157_counterexample_steps`, `Esl.Solvers.C157_default`, `Esl.Solvers.C157_handler_partial`, `Esl.Solvers.C157_memory_partial`, `Esl.Static.C31_counterexample_static_fill_or_kill`, `Esl.Static.C31_static_fill_or_kill_partial`, `Esl.Static.C31_static_immediate_or_cancel`, `Esl.Static.C34_binary64_partial`, `Esl.Static.C34_counterexample_maximum`, `Esl.Static.C34_counterexample_rounding`, `Esl.Static.C34_counterexample_small_lot`, `Esl.Static.C34_counterexample_upper_half`, `Esl.Static.C34_lower_half_partial`, `Esl.Static.C34_round_trip_partial`, `Esl.Static.C35_counterexample_lowest_buy`, `Esl.Static.C35_counterexample_lowest_sell`, `Esl.Static.C35_counterexample_sell_matches_sell`, `Esl.Static.C35_counterexample_upper_half`, `Esl.Static.C35_matches_partial`, `Esl.Static.C36_best_prices_partial`, `Esl.Static.C36_counterexample_cancel_best`, `Esl.Static.C75_cancel_resting_partial`, `Esl.Static.C75_counterexample_executed`, `Esl.Static.C75_counterexample_lost_orders`, `Esl.TPool.C52_accounted`, `Esl.TPool.C52_defined`, `Esl.TPool.C52_destructor_returns`, `Esl.TPool.C52_exactly_once`, `Esl.TPool.C52_history`, `Esl.TPool.C52_idle_pool`, `Esl.TPool.C52_terminates`, `Esl.Tat.C59_breaker_partial`, `Esl.Tat.C59_counterexample_default`, `Esl.Tat.C59_counterexample_derivative_free`, `Esl.Tat.C59_counterexample_derivative_free_worse`, `Esl.Tat.C59_counterexample_minimization`, `Esl.Tat.C59_counterexample_worse`, `Esl.Tat.C59_no_worse_or_bound`, `Esl.Tat.C59_no_worse_partial`, `Esl.Tat.C90_agree_partial`, `Esl.Tat.C90_counterexample_unmentioned`, `Esl.Tat.C90_counterexample_untraded`, `Esl.Tat.C90_minimum_value`, `Esl.Tat.C90_root_value`, `Esl.Tat.C90_sum_of_squares`, `Esl.Tat.C91_counterexample_one_step`, `Esl.Tat.C91_counterexample_others`, `Esl.Tat.C91_counterexample_stops`, `Esl.Tat.C91_derivative_free_minimization`, `Esl.Tat.C91_minimization_partial`, `Esl.Tat.C91_several_partial`, `Esl.Tat.C92_counterexample_unreachable`, `Esl.Tat.C92_fallback`, `Esl.Tat.C92_no_methods`, `Esl.TatFl.C171_counterexample_absorbed`, `Esl.TatFl.C171_counterexample_order`, `Esl.TatFl.C171_derivative_free_minimization`, `Esl.TatFl.C171_exact`, `Esl.TatFl.C171_minimization_double`, `Esl.TatFl.C171_minimization_partial`, `Esl.TatFl.C171_no_worse_partial`, `Esl.TatFl.C171_several_double_partial`, `Esl.TatFl.C171_several_partial`, `Esl.TatFl.C171_values`, `Esl.Threads.C139_threads_partial`, `Esl.Threads.C140_threads`, `Esl.Threads.C18_threads`, `Esl.Threads.C19_threads`, `Esl.Threads.C23_any_two`, `Esl.Threads.C23_completed`, `Esl.Threads.C23_independence`, `Esl.Threads.C23_tasks`, `Esl.Threads.C24_at_least_one_partial`, `Esl.Ticker.C107_map`, `Esl.Ticker.C107_order`, `Esl.Ticker.C107_text`, `Esl.Unique.C135_conserved`, `Esl.Unique.C135_one_owner`, `Esl.Unique.C135_sets_partial`, `Esl.Values.C167_counterexample_digits`, `Esl.Values.C167_counterexample_ticker`, `Esl.Values.C167_lookup_partial`, `Esl.Venue.C147_book`, `Esl.Venue.C147_exchange`, `Esl.Venue.C147_exchange_sides`, `Esl.Venue.C147_sides`, `Esl.Venue.C147_simulation`, `Esl.Venue.C147_simulation_sides`, `Esl.Version.C185_agree_partial`, `Esl.Version.C185_counterexample_comment`, `Esl.Version.C185_counterexample_order`, `Esl.Version.C185_counterexample_zero`, `Esl.Version.C185_distinct`, `Esl.Walras.C56_balanced`, `Esl.Walras.C56_cleared`, `Esl.Walras.C56_defined`, `Esl.Walras.C56_market`, `Esl.Walras.C56_minimal`, `Esl.Walras.C57_net_error`, `Esl.Walras.C57_netting_partial`, `Esl.Walras.C58_delivered`, `Esl.Walras.C58_flows_partial`, `Esl.Walras.C58_single_partial`, `Esl.Walras.C59_applied`, `Esl.Walras.C59_counterexample_negative`, `Esl.Walras.C59_positive`, `Esl.Walras.C60_counterexample_stall`, `Esl.Walras.C86_counterexample_forced_trade`, `Esl.Walras.C86_counterexample_wrong_side`, `Esl.Walras.C86_exact_partial`, `Esl.Walras.C87_balanced_iff_partial`, `Esl.Walras.C87_cash_partial`, `Esl.Walras.C87_counterexample_lots`, `Esl.Walras.C87_difference_partial`, `Esl.Walras.C87_rounded_partial`, `Esl.Walras.C89_cleared_orders`, `Esl.Walras.C89_fresh_partial`, `Esl.Workers.C172_accounted`, `Esl.Workers.C172_before_partial`, `Esl.Workers.C172_defined`, `Esl.Workers.C172_destructor_returns`, `Esl.Workers.C172_exactly_once_partial`, `Esl.Workers.C172_idle_pool`, `Esl.Workers.C172_one_thread_partial`, `Esl.Workers.C172_terminates`, `Esl.Workers.C173_counterexample_deadlock`

## 6. Which files are modelled

| file | model modules that cite it |
|---|---|
| `esl/agent.cpp` | Construction, Identity, Overrides |
| `esl/agent.hpp` | Construction, Identifiable, Scheduler |
| `esl/algorithms.hpp` | Algorithms, Averages, Codes, Company, Money, Quantity |
| `esl/computation/block_pool.hpp` | BlockPool |
| `esl/computation/blocking_queue.hpp` | BlockingQueue, WorkerPool |
| `esl/computation/distributed/mpi_environment.cpp` | Distributed, Sharing |
| `esl/computation/distributed/mpi_environment.hpp` | Distributed |
| `esl/computation/distributed/protocol.hpp` | Distributed |
| `esl/computation/environment.cpp` | Announcements, Communicator, Distributed, Overrides, Population, Scheduler, Threads |
| `esl/computation/environment.hpp` | Announcements, Distributed, Population |
| `esl/computation/thread_pool.hpp` | ThreadPool, WorkerPool |
| `esl/computation/timing.hpp` | Saved |
| `esl/data/channel.hpp` | Log |
| `esl/data/format/delimiter_separated_values.hpp` | Text |
| `esl/data/format/openbook.hpp` | OpenBook |
| `esl/data/log.hpp` | Log |
| `esl/data/null_ostream.hpp` | Log |
| `esl/data/output.hpp` | Output |
| `esl/data/output_base.hpp` | Output |
| `esl/data/producer.hpp` | Output, Serialization |
| `esl/data/representation.hpp` | Text |
| `esl/data/serialization.hpp` | Notices, Serialization |
| `esl/data/severity.hpp` | Log |
| `esl/data/stream.hpp` | Output |
| `esl/economics/accounting/balance_sheet.hpp` | Messages |
| `esl/economics/accounting/cash_flow_statement.hpp` | Accounting |
| `esl/economics/accounting/inventory.hpp` | Auction, Inventory, Listing, Unique, Walras |
| `esl/economics/accounting/standard.hpp` | Accounting |
| `esl/economics/asset.cpp` | Construction, Listing |
| `esl/economics/asset.hpp` | Construction |
| `esl/economics/cash.hpp` | Company, Construction, Hashing, Listing, Price |
| `esl/economics/commodity.hpp` | Construction |
| `esl/economics/company.cpp` | Attributes, Bindings, Company, Construction, Dividends, Messages, Payout |
| `esl/economics/company.hpp` | Attributes, Company, Construction, Dividends, Identifiable |
| `esl/economics/currencies.hpp` | Constants, Names |
| `esl/economics/exchange_rate.hpp` | Accounting, PriceArithmetic |
| `esl/economics/finance/bond.hpp` | Construction, Identifiable, Listing |
| `esl/economics/finance/bondholder.cpp` | Company, Construction |
| `esl/economics/finance/bondholder.hpp` | Construction, Identifiable |
| `esl/economics/finance/cusip.hpp` | Codes |
| `esl/economics/finance/debtor.hpp` | Construction |
| `esl/economics/finance/dividend.cpp` | Company, Notices |
| `esl/economics/finance/dividend.hpp` | Company, Dividends, MessageCode, Notices |
| `esl/economics/finance/isin.hpp` | Codes |
| `esl/economics/finance/loan.hpp` | Construction, Listing |
| `esl/economics/finance/securities_lending_contract.hpp` | Construction, Listing, Walras |
| `esl/economics/finance/security.hpp` | Construction, Listing |
| `esl/economics/finance/sedol.hpp` | Codes |
| `esl/economics/finance/share_class.hpp` | Company, Hashing, Notices, Saved |
| `esl/economics/finance/shareholder.cpp` | Company, Construction, Dividends, Messages, Notices |
| `esl/economics/finance/shareholder.hpp` | Company, Construction, Dividends, Identifiable, Saved |
| `esl/economics/finance/stock.cpp` | Codes, Construction |
| `esl/economics/finance/stock.hpp` | Construction, Listing |
| `esl/economics/interest_rate.hpp` | PriceArithmetic, Serialization |
| `esl/economics/iso_4217.hpp` | Hashing, Names, Notices, Price, Printing, Serialization |
| `esl/economics/markets/cancel_order_message.hpp` | Messages, Venue |
| `esl/economics/markets/centralized_exchange.hpp` | Construction, DirectOrders, Exchange, Identifiable, Latency, Messages, OrderLog, Orders, QuotedExchange, Ticker, Venue |
| `esl/economics/markets/differentiable_demand_supply_function.hpp` | Clearing, Messages |
| `esl/economics/markets/execution_report_message.hpp` | Messages, Venue |
| `esl/economics/markets/impact_function/market.cpp` | Construction, Impact, Messages |
| `esl/economics/markets/impact_function/market.hpp` | Construction, Impact |
| `esl/economics/markets/impact_function/order.hpp` | Impact, Messages |
| `esl/economics/markets/impact_function/quote.hpp` | Messages |
| `esl/economics/markets/iso_10383.hpp` | Codes |
| `esl/economics/markets/logon_message.hpp` | Messages, Venue |
| `esl/economics/markets/logout_message.hpp` | Messages, Venue |
| `esl/economics/markets/market.hpp` | Construction, Exchange, Identifiable, QuotedExchange, Walras |
| `esl/economics/markets/market_data_message.hpp` | Messages, Venue |
| `esl/economics/markets/market_data_request_message.hpp` | Exchange, Messages, Venue |
| `esl/economics/markets/new_order_list_message.hpp` | Messages |
| `esl/economics/markets/new_order_single_message.hpp` | Messages, Venue |
| `esl/economics/markets/order_book/avellaneda_stoikov.hpp` | MarketMaker |
| `esl/economics/markets/order_book/basic_book.hpp` | OrderBook, QuotedBook |
| `esl/economics/markets/order_book/binary_tree_order_book.hpp` | OrderBook, QuotedBook, QuotedExchange |
| `esl/economics/markets/order_book/execution_report.hpp` | OrderBook, Printing, QuotedBook |
| `esl/economics/markets/order_book/matching_engine.hpp` | Exchange, OrderBook |
| `esl/economics/markets/order_book/order.hpp` | OrderBook, Orders, Printing, QuotedBook |
| `esl/economics/markets/order_book/static_order_book.hpp` | BlockPool, StaticBook |
| `esl/economics/markets/order_message.hpp` | Messages |
| `esl/economics/markets/order_status_request_message.hpp` | Messages |
| `esl/economics/markets/order_status_response_message.hpp` | Messages |
| `esl/economics/markets/position_request_message.hpp` | Messages |
| `esl/economics/markets/quote.hpp` | Clearing, Impact, OpenBook, Price, PriceArithmetic, Printing, Python, Serialization, StaticBook, Walras |
| `esl/economics/markets/quote_message.hpp` | Messages |
| `esl/economics/markets/replace_order_message.hpp` | Messages |
| `esl/economics/markets/ticker.hpp` | Hashing, Ticker |
| `esl/economics/markets/walras/differentiable_order_message.hpp` | Clearing, Messages, Tatonnement |
| `esl/economics/markets/walras/order_message.hpp` | Messages |
| `esl/economics/markets/walras/price_setter.cpp` | Auction, Clearing, Construction, Messages, Walras |
| `esl/economics/markets/walras/price_setter.hpp` | Construction, Walras |
| `esl/economics/markets/walras/quote_message.hpp` | Messages |
| `esl/economics/markets/walras/tatonnement.cpp` | Bindings, Solvers, Tatonnement, TatonnementRounded |
| `esl/economics/markets/walras/tatonnement.hpp` | Clearing, Tatonnement |
| `esl/economics/money.hpp` | Company, Construction, Listing, Money, Payout, Walras |
| `esl/economics/owner.hpp` | Construction, Holders, Identifiable, Inventory, Unique |
| `esl/economics/price.hpp` | Clearing, Company, MarketMaker, Notices, Payout, Price, PriceArithmetic, Printing, Saved, Serialization, StaticBook |
| `esl/economics/rate.hpp` | PriceArithmetic, Serialization |
| `esl/geography/countries.hpp` | Constants, Names |
| `esl/geography/iso_3166_1_alpha_2.hpp` | Codes, Serialization |
| `esl/interaction/communication.hpp` | Latency, Messages |
| `esl/interaction/communicator.cpp` | Communicator, Draws, Inventory, Latency, Shuffle, Unique |
| `esl/interaction/communicator.hpp` | Callbacks, Communicator, Dividends, Messages, Scheduler, Venue |
| `esl/interaction/header.hpp` | Communicator, Dividends, Holders, MessageCode, Messages, Serialization, Venue |
| `esl/interaction/message.hpp` | Messages, Serialization |
| `esl/interaction/transfer.hpp` | Holders, Inventory, MessageCode, Messages |
| `esl/law/contract.hpp` | Construction |
| `esl/law/government.hpp` | Serialization |
| `esl/law/jurisdiction.hpp` | Jurisdictions, Serialization |
| `esl/law/jurisdictions.hpp` | Constants, Jurisdictions |
| `esl/law/legal_entity.hpp` | Codes, Serialization |
| `esl/law/legal_person.hpp` | Construction, Serialization |
| `esl/law/natural_person.hpp` | Serialization |
| `esl/law/organization.hpp` | Construction |
| `esl/law/property.cpp` | Construction, Listing |
| `esl/law/property.hpp` | Construction, Identifiable |
| `esl/law/property_collection.hpp` | Construction, Hashing, Inventory, Listing, Unique |
| `esl/mathematics/interval.hpp` | Communicator, Interval, Serialization |
| `esl/mathematics/rational.hpp` | Serialization |
| `esl/mathematics/zero_truncated_poisson_distribution.hpp` | Poisson |
| `esl/python_module_esl.cpp` | Attributes, Bindings, Callbacks, Calls, Constants, Construction, Draws, Experiment, MessageCode, Orders, Overrides, Python, Sharing, Values |
| `esl/quantity.hpp` | Listing, Quantity, QuantityNumber, Serialization |
| `esl/simulation/agent_collection.cpp` | Announcements, Distributed, Population, Scheduler |
| `esl/simulation/agent_collection.hpp` | Bindings, Communicator, Distributed, Population |
| `esl/simulation/entity.hpp` | Identifiable, Identity, Serialization |
| `esl/simulation/identifiable_as.hpp` | Identifiable |
| `esl/simulation/identity.hpp` | Hashing, Identity, Listing, Printing, Seeds, Serialization, Ticker |
| `esl/simulation/model.cpp` | Draws, Experiment, Holders, Overrides, Population, Scheduler, Seeds, Threads, Venue |
| `esl/simulation/model.hpp` | Scheduler |
| `esl/simulation/parameter/parameter.hpp` | Sampler, Serialization |
| `esl/simulation/parameter/parametrization.hpp` | Experiment, Serialization, Threads |
| `esl/simulation/parameter/sampler.hpp` | Distance, Grid, Hypercube, Sampler |
| `esl/simulation/time.hpp` | Communicator |
| `esl/version.cpp` | Version |
| `esl/version.hpp` | Version |

Not modelled, with code:

| file | reason |
|---|---|
| `esl/computation/type_code.hpp` | no state, the code itself is in MessageCode |
| `esl/computation/type_marker.hpp` | compile-time marker without state |
| `esl/data/channel.cpp` | definition of the static mutex; see Log |
| `esl/data/file.cpp` | opens a file of the operating system; not used by the library |
| `esl/data/file.hpp` | opens a file of the operating system; not used by the library |
| `esl/data/filesystem.hpp` | alias for a namespace of the standard library |
| `esl/data/format/numpy.hpp` | declaration without members |
| `esl/data/format/xml.hpp` | declaration without members |
| `esl/data/null_streambuf.hpp` | discards characters; the log that uses it is in Log |
| `esl/data/output_base.cpp` | constructors that store their arguments; streams are in Output |
| `esl/data/terminal.hpp` | a stream for the console |
| `esl/economics/accounting/standard.cpp` | constructor: stores the currency, and the rate 1/1 for it |
| `esl/economics/commodity_money.hpp` | cannot be compiled: includes `physical_money.hpp` |
| `esl/economics/currency.hpp` | class without members |
| `esl/economics/fungibility.hpp` | two constants, which no function reads; the bases fungible and infungible select the kind of inventory, see Inventory |
| `esl/economics/markets/demand_supply_function.hpp` | abstract function; orders are arbitrary functions in Walras and Tatonnement |
| `esl/economics/markets/execution_message.hpp` | a field, not used by the library |
| `esl/economics/markets/indication.hpp` | an enumeration; the number is archived in Messages |
| `esl/economics/markets/python_module_markets.hpp` | a class that is not used |
| `esl/economics/physical_money.hpp` | cannot be compiled: includes `esl/economics/tangible.hpp`, which does not exist |
| `esl/economics/tangibility.hpp` | two classes without functions |
| `esl/exception.hpp` | stores the message |
| `esl/geography/country.cpp` | a class with a private constructor that nothing can use |
| `esl/geography/country.hpp` | a class with a private constructor that nothing can use |
| `esl/geography/location.hpp` | class without members |
| `esl/interaction/header.cpp` | two functions that are only used in code that is commented out |
| `esl/invalid_parameters.hpp` | stores the message |
| `esl/mathematics/variable.hpp` | alias for the type of the Adept library, and the conversion to a number |
| `esl/simulation/python_module_simulation.hpp` | functions without effect |
| `esl/simulation/world.cpp` | the root entity with the empty identity; histories in Identity start from any root |
| `esl/simulation/world.hpp` | the root entity with the empty identity; histories in Identity start from any root |

Without code (includes, exports for serialization or comments only): `esl/algorithms.cpp`, `esl/computation/allocator.cpp`, `esl/computation/allocator.hpp`, `esl/computation/block_pool.cpp`, `esl/computation/blocking_queue.cpp`, `esl/computation/distributed/protocol.cpp`, `esl/computation/python_module_computation.hpp`, `esl/computation/thread_pool.cpp`, `esl/computation/timing.cpp`, `esl/data/format/delimiter_separated_values.cpp`, `esl/data/format/numpy.cpp`, `esl/data/format/xml.cpp`, `esl/data/log.cpp`, `esl/data/output.cpp`, `esl/data/producer.cpp`, `esl/data/representation.cpp`, `esl/data/severity.cpp`, `esl/data/stream.cpp`, `esl/data/terminal.cpp`, `esl/economics/accounting/balance_sheet.cpp`, `esl/economics/accounting/cash_flow_statement.cpp`, `esl/economics/accounting/inventory.cpp`, `esl/economics/cash.cpp`, `esl/economics/currencies.cpp`, `esl/economics/currency.cpp`, `esl/economics/exchange_rate.cpp`, `esl/economics/finance/bond.cpp`, `esl/economics/finance/cusip.cpp`, `esl/economics/finance/debtor.cpp`, `esl/economics/finance/isin.cpp`, `esl/economics/finance/loan.cpp`, `esl/economics/finance/python_module_finance.cpp`, `esl/economics/finance/python_module_finance.hpp`, `esl/economics/finance/securities_lending_contract.cpp`, `esl/economics/finance/security.cpp`, `esl/economics/finance/share_class.cpp`, `esl/economics/interest_rate.cpp`, `esl/economics/iso_4217.cpp`, `esl/economics/markets/centralized_exchange.cpp`, `esl/economics/markets/differentiable_demand_supply_function.cpp`, `esl/economics/markets/impact_function/order.cpp`, `esl/economics/markets/impact_function/quote.cpp`, `esl/economics/markets/indication.cpp`, `esl/economics/markets/market.cpp`, `esl/economics/markets/order_book/basic_book.cpp`, `esl/economics/markets/order_book/binary_tree_order_book.cpp`, `esl/economics/markets/order_book/execution_report.cpp`, `esl/economics/markets/order_book/matching_engine.cpp`, `esl/economics/markets/order_book/order.cpp`, `esl/economics/markets/order_book/python_module_order_book.cpp`, `esl/economics/markets/order_book/python_module_order_book.hpp`, `esl/economics/markets/order_book/static_order_book.cpp`, `esl/economics/markets/order_message.cpp`, `esl/economics/markets/python_module_markets.cpp`, `esl/economics/markets/quote.cpp`, `esl/economics/markets/quote_message.cpp`, `esl/economics/markets/ticker.cpp`, `esl/economics/markets/walras/differentiable_order_message.cpp`, `esl/economics/markets/walras/python_module_walras.cpp`, `esl/economics/markets/walras/python_module_walras.hpp`, `esl/economics/money.cpp`, `esl/economics/owner.cpp`, `esl/economics/price.cpp`, `esl/economics/python_module_economics.cpp`, `esl/economics/python_module_economics.hpp`, `esl/economics/rate.cpp`, `esl/exception.cpp`, `esl/geography/countries.cpp`, `esl/geography/iso_3166_1_alpha_2.cpp`, `esl/geography/location.cpp`, `esl/geography/python_module_geography.cpp`, `esl/geography/python_module_geography.hpp`, `esl/interaction/communication.cpp`, `esl/interaction/message.cpp`, `esl/interaction/python_module_interaction.cpp`, `esl/interaction/python_module_interaction.hpp`, `esl/interaction/transfer.cpp`, `esl/invalid_parameters.cpp`, `esl/law/contract.cpp`, `esl/law/government.cpp`, `esl/law/jurisdiction.cpp`, `esl/law/jurisdictions.cpp`, `esl/law/legal_entity.cpp`, `esl/law/legal_person.cpp`, `esl/law/natural_person.cpp`, `esl/law/organization.cpp`, `esl/law/property_collection.cpp`, `esl/law/python_module_law.cpp`, `esl/law/python_module_law.hpp`, `esl/mathematics/interval.cpp`, `esl/mathematics/rational.cpp`, `esl/mathematics/variable.cpp`, `esl/mathematics/zero_truncated_poisson_distribution.cpp`, `esl/python_module_esl.hpp`, `esl/quantity.cpp`, `esl/simulation/entity.cpp`, `esl/simulation/identity.cpp`, `esl/simulation/parameter/parameter.cpp`, `esl/simulation/parameter/parametrization.cpp`, `esl/simulation/parameter/python_module_parameter.hpp`, `esl/simulation/python_module_simulation.cpp`, `esl/simulation/time.cpp`.
