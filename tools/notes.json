{
 "C01": {
  "note": "Lexicographic order for all identities."
 },
 "C02": {
  "note": "All creation histories shorter than 2^64."
 },
 "C03": {
  "note": "False of the code for agent copies (counter restarts at 0); counterexample proved; creation by copies is the missing part."
 },
 "C04": {
  "note": "Injective for all widths."
 },
 "C05": {
  "note": "Both branches of operator/ and divide."
 },
 "C06": {
  "note": "Prefix decrement increments and postfix decrement of zero wraps in the code; negations proved."
 },
 "C07": {
  "note": "All word sizes."
 },
 "C49": {
  "note": "Holds for half-open intervals; empty()/singleton() swap open and closed for symmetric intervals, negations proved: over integers, and over dense types (rational numbers), where open intervals with two different bounds have elements. degenerate() is right for half-open intervals and wrong for closed ones (C49_degenerate_partial, C49_counterexample_degenerate)."
 },
 "C08": {
  "note": "All pairs of prices: integer order in one currency, refusal otherwise."
 },
 "C09": {
  "note": "Proved for equal positive lots and products below 2^63; >= does not check lots and large products wrap, negations proved."
 },
 "C10": {
  "note": "All recorded histories and intervals."
 },
 "C11": {
  "note": "Long+short cancel for all quantities; valuation formula for non-negative quotes; negative quotes with lot>1 are wrong in the code, negation proved."
 },
 "C12": {
  "note": "Exact removal or refusal for all bundles and orders; a refused removal is not atomic in the code, negation proved."
 },
 "C13": {
  "note": "All transfer histories delivered once to each side."
 },
 "C14": {
  "note": "All histories without self-transfers and repeated take; both break agreement in the code, negations proved."
 },
 "C48": {
  "note": "Equal denominators; currencies with equal code and different denominators break the order, negation proved."
 },
 "C73": {
  "note": "Converted amounts carry the foreign currency label in the code, negation proved for every conversion. Apart from that they are right, rounded down, if products stay below 2^63 (C73_converted_amount_partial); larger products wrap around (C73_counterexample_overflow)."
 },
 "C15": {
  "note": "All message queues, handlers and steps: every due message is handed to each matching callback once and no message early."
 },
 "C16": {
  "note": "All registration histories: callbacks of higher priority run first."
 },
 "C17": {
  "note": "False of the code: messages with the same delivery time are handled last-in first-out. The true reversed order is proved for all queues and the negation with a witness."
 },
 "C18": {
  "note": "All agent programs: a completed step moves strictly forward and a run visits strictly increasing times; also with any number of threads."
 },
 "C19": {
  "note": "Next event is the minimum over all wake-up times (with any number of threads), no wake-up is skipped and an agent due acts."
 },
 "C20": {
  "note": "Proved for runs in which every acting agent asks to be woken no later than its pending messages (Attentive); otherwise the agent's own request overwrites the wake-up for the message, negation proved. Messages for the time at which they are sent are processed at this time whatever the agents ask for (C20_immediate)."
 },
 "C21": {
  "note": "False of the code: a step never completes once a wake-up is overdue, and one message dated in the past causes that; negations proved. A round completes the step when all requests and messages lie in the future. In general: no run in which a message is dated before its sending completes (C21_counterexample_dated_past)."
 },
 "C22": {
  "note": "All worlds: every sent message ends in exactly one inbox or the step stops with an exception for an unknown recipient."
 },
 "C71": {
  "note": "False of the code: deactivation leaves the wake-up entry, so no step from that time on completes; negation proved. Proved: completed steps never pass the stale wake-up."
 },
 "C72": {
  "note": "All registration histories."
 },
 "C74": {
  "note": "Violated: the code appends to the vector it iterates over, which the language leaves undefined for every list that is not empty. At the level of memory the loop reads a freed buffer exactly if the buffer has no room for twice as many agents less one, which is the case in every new environment with two or more agents (for any growth policy that at most doubles the buffer). Proved: the exact condition, and the result for the other lists."
 },
 "C23": {
  "note": "All programs, populations, thread counts and interleavings of the jobs' atomic parts; agents share no memory in the model, as the code requires."
 },
 "C24": {
  "note": "False of the code: the constructor stores verbosity as threads; negation proved for all arguments."
 },
 "C25": {
  "note": "All histories of inserts and cancels, without bounds; prices as integers of one currency and lot."
 },
 "C26": {
  "note": "All reachable books and all incoming orders."
 },
 "C27": {
  "note": "All reachable books and all incoming orders."
 },
 "C28": {
  "note": "All reachable books and all incoming orders."
 },
 "C29": {
  "note": "Removal of exactly the order and the single report are proved for all histories; orders() keeps listing cancelled orders in the code, negation proved."
 },
 "C30": {
  "note": "All histories with fewer than 2^64-1 inserts."
 },
 "C31": {
  "note": "The binary tree book ignores the lifetime: immediate-or-cancel remainders rest and fill-or-kill orders fill partly, negations proved; orders whose quantity is available are filled completely and do not rest. For the static book: immediate-or-cancel orders never rest and their quantity is accounted for after every careful history (C31_static_immediate_or_cancel); fill-or-kill orders can be executed in part and rest (counterexample), proved is that they are cancelled as a whole when nothing crosses."
 },
 "C68": {
  "note": "All offsets below the mask; the offset equal to the mask is accepted and collides with offset 0, negation proved."
 },
 "C32": {
  "note": "All histories of a pool that follow the discipline of its caller (store the returned index, erase only live indices) and make fewer than 2^64/capacity rounds; without storing the index two live elements can share a slot, negation proved. Reading through a constant reference never ends (counterexample)."
 },
 "C33": {
  "note": "False of the code: erasing twice, or erasing an index that was never handed out, corrupts the free list; negations proved. Holds for an index whose slot was reused."
 },
 "C34": {
  "note": "Proved in exact arithmetic for lots that are a multiple k>=2 of the denominator (and the lower half for k=1), all ranges and limits below the maximum. With the rounding of double, the same lots and k*upper <= 2^40: every limit below the maximum has an existing level, levels are strictly increasing, decoding gives the limit or the one a unit below. The maximum, k=1 in the upper half, smaller lots and the rounding of double break the exact round trip; negations proved."
 },
 "C35": {
  "note": "Refinement: for every sequence of good-until-cancelled orders at faithfully represented prices the static book gives the reports, resting orders in sequence and best prices of the reference book up to an order-preserving renaming of identifiers, or throws only when more orders would rest than the capacity; never undefined behaviour. Partial because prices on the first level and prices that are not represented faithfully (C34) break it; counterexamples show crossed books, sell orders executed against sell orders and undefined behaviour."
 },
 "C36": {
  "note": "Proved for all histories of insertions (any lifetime) and cancellations in which no cancellation takes the last order at a best price; false otherwise (counterexample)."
 },
 "C75": {
  "note": "Cancelling a resting order removes exactly it, for all careful histories; cancelling an executed order is reported again and corrupts the free list (counterexamples)."
 },
 "C42": {
  "note": "For every size of uint_fast16_t between 16 and 64 bits: the checksum is the unique digit passing Luhn's test; single digit errors and transpositions (exactly except 0 and 9) are detected. Lower case letters count as the upper case ones (C42_lower_case)."
 },
 "C43": {
  "note": "Violated: the constructor from a complete text keeps the first nine characters, country included, as the code, and does not verify the check digit (counterexamples for all codes starting with a digit); the constructor from a country and a text checks the length of the wrong thing and rejects nothing (counterexample). Proved: exactly which texts are rejected, the constructor from two strings round-trips, printing is injective."
 },
 "C44": {
  "note": "Full alphabet with *, @ and #. The nine-symbol constructor accepts exactly the correct check digit. The constructor from a string does not verify the digit (not claimed)."
 },
 "C45": {
  "note": "Check digit proved. A change is detected exactly if the values differ modulo ten, so that A to 0 goes unnoticed, and the string constructor does not verify the check digit (counterexample)."
 },
 "C46": {
  "note": "Proved for numerical local parts: congruent to 1 modulo 97 without overflow of uint128_t, detection of changes at every place, round trip. Violated for letters in the local part and for the default-constructed LEI (counterexample)."
 },
 "C47": {
  "note": "Collision-free for last digits below 36^9/1000 and 8-bit ranks; codes collide outside that range (C47_range_needed). LEI codes collide exactly if the hashes agree modulo 36^12. Beyond the claim: identities of shares are different for different companies and ranks (C47_share_identity), but equal to those of properties that the company creates (C47_share_is_child)."
 },
 "C76": {
  "note": "Acceptance and injectivity of std::hash on size_t of 64 bits."
 },
 "C77": {
  "note": "Texts of four characters are handled as stated; longer texts are cut and accepted and shorter ones than three are read beyond their end (counterexample)."
 },
 "C39": {
  "note": "For every rounding of floating point numbers, the samples are all combinations of the computed values, each once (C39_combinations_partial), for densities of at least one whose product fits 32 bits; over rational numbers these are the equidistant values, and distinct (C39_grid_partial). Violated otherwise: density one gives NaN, and two densities of 65536 give no samples (counterexample)."
 },
 "C40": {
  "note": "For every outcome of std::shuffle, assumed to permute. For every rounding, each computed value is used once (C40_values); over rational numbers these are the equidistant values (C40_latin_partial). Density one gives NaN (counterexample). C40_distinct derives the samples of distinct parameters from the loop of the code. A parameter that is listed twice may take a value in two samples and another in none (C40_counterexample_repeated), though none more often than it is listed (C40_repeated_partial)."
 },
 "C41": {
  "note": "For all random numbers within the ranges of the distributions and every way the distances may compare, if the number of candidate points fits 32 bits or there are at most two samples. Otherwise the function writes beyond the end of a vector (C41_counterexample_overflow: always, for three or more samples); with a duplication of zero it reads a candidate that does not exist (C41_counterexample_duplication)."
 },
 "C50": {
  "note": "Any number of threads, every interleaving of lock, condition, body, unlock and notify steps, with spurious wake-ups and failures of try_to_lock. Threads may also call empty() and size() (C169)."
 },
 "C51": {
  "note": "First half false of the code: push and try_push never look at the closed flag (negation proved). Second half proved: a closed queue is drained without waiting."
 },
 "C52": {
  "note": "At least one thread; queue operations are single steps (C50 covers their inside; C172 has both in one model); tasks end, do not throw, and nobody enqueues once the destructor has begun (C172: tasks may). Violated for zero threads: no queues exist and the workers access them (counterexample)."
 },
 "C61": {
  "note": "Holds if the rounded values sum to no more than the rounded total: over exact arithmetic (C61_allocate_partial), and in IEEE arithmetic up to roundings of the total (C61_binary64_partial). Otherwise the loop runs out of bounds, for every rounding (counterexamples); in IEEE arithmetic the result may not sum to the nearest integer of the exact total (C61_counterexample_sum). Fractions that end in a half can get the additional one although they were rounded up (C61_counterexample_half). Totals beyond int and negative fractions: counterexamples."
 },
 "C62": {
  "note": "Exactly over rational numbers (C62_points, C62_simplex). In IEEE arithmetic dimension, signs and distinctness hold and the sum is the total up to one rounding per coordinate (C62_binary64_partial); the sum need not be exact, and points are missing (counterexamples)."
 },
 "C67": {
  "note": "Over real numbers with the real logarithm: quotes never cross for a nonnegative spread, the inventory shifts quotes in the right direction, exact rounding bounds for gamma > 0 and k > 0. Violated for gamma = 0, which the documentation allows (counterexample). In IEEE arithmetic with any logarithm that is not negative from one on: the bid is below the ask (C67_binary64), both are rounded outwards (C67_binary64_rounding), and a larger inventory moves no quote up (C67_binary64_inventory); but the spread vanishes for a risk aversion below 2^-54 times the arrival rate (C67_counterexample_little_aversion)."
 },
 "C78": {
  "note": "Unsigned types of every width."
 },
 "C79": {
  "note": "All element types, lengths and cuts."
 },
 "C63": {
  "note": "Proved for fields without separators, newlines or quotes; violated for a field with a comma, and the escaping used has no reader (counterexamples)."
 },
 "C64": {
  "note": "Vectors, arrays, tuples and maps of all lengths; violated for queues of three or more elements, of which only the first half is shown (counterexample). Printing of sets and lists does not compile and is not modelled."
 },
 "C65": {
  "note": "All byte strings of the length of a message; violated for times of 2^32 microseconds (71.6 minutes) and later, which wrap (counterexample)."
 },
 "C69": {
  "note": "All histories: each stream gets each value put after it was added exactly once, in order. Violated when an output is created twice under one name (counterexample)."
 },
 "C80": {
  "note": "All files with valid scale codes and all symbols; what other scale codes do is C81."
 },
 "C81": {
  "note": "Scales 2 to 11; violated for smaller scales, which throw, and larger ones, for which the lot does not fit (counterexample)."
 },
 "C66": {
  "note": "Proved for sequences, tuples, identities, entities, currencies, jurisdictions, legal persons and share classes; for rational numbers exactly when both parts fit int. Violated for larger rational numbers, all prices, all quotes, all producers and all timings of agents (counterexamples); what is saved of a price would suffice (C66_price_saved_partial). Boost's own archives are taken for granted."
 },
 "C82": {
  "note": "Violated for every message type: the header is never saved. Proved for contents, and for headers by themselves."
 },
 "C83": {
  "note": "Violated for threads, which is given the verbosity; proved for the others."
 },
 "C53": {
  "note": "All share structures. Over exact arithmetic: exact parts, at most the profit, remainder less than a unit per class. In IEEE arithmetic, for profits of at most 2^49 units: at most the profit, each part within one unit of the exact one (C53_binary64_partial). Violated in IEEE arithmetic for larger profits, which dividends can exceed, and by parts of a cent too few; also violated for the total that a policy reports, which is the sum of dividends times shares if that fits (C53_total_partial) and undefined otherwise, and when the number of shares overflows (counterexamples)."
 },
 "C54": {
  "note": "All histories of steps: exact description of announcements, each made once to each shareholder. Wake-ups violated between announcement and payment; a date of zero is never announced (counterexamples)."
 },
 "C55": {
  "note": "All histories of assignments; violated for classes of equal rank (counterexample)."
 },
 "C70": {
  "note": "All sequences of quote messages; violated for bondholders, who keep the first price, and for a change of currency (counterexamples)."
 },
 "C84": {
  "note": "Exact description of the records for all histories of announcements; violated for later ex-dividend dates and several announcements in a step (counterexamples)."
 },
 "C85": {
  "note": "All holdings."
 },
 "C56": {
  "note": "compute_transfers for any demands and any sort order: amounts sum to zero, each participant gets one amount, total deviation from the rounded demands is minimal (equal to the size of the imbalance). Doubles are rationals; truncation as in C++."
 },
 "C57": {
  "note": "Net error of netting characterised exactly; equality when the larger side is sent/received first as stated. Counterexample: a property present in only one bundle, and one in the clearing itself."
 },
 "C58": {
  "note": "Exact flows for every clearing (delivered, charged, shorted, covered). Counterexample: a participant that buys two properties is sent only one, because the asset bag is replaced."
 },
 "C59": {
  "note": "Circuit breaker: proved for root finding for every solver trace; the other three methods ignore it (counterexamples, one with the default methods and a negative multiplier). No worse than the start: proved for one property with monotone excess demand, in general up to the bounds; counterexamples for a non-monotone demand and for the derivative-free root finder. Nonnegative multipliers keep prices positive (any sign-preserving rounding); negative ones make negative prices. All outcomes of applying a solution are described (C59_applied)."
 },
 "C60": {
  "note": "Counterexample theorem in general form: in the scheduler model, any simulation with a price setter that gets no orders never completes the step, whatever the others do. Partial: with at least one order the setter wakes up one step later."
 },
 "C86": {
  "note": "Partial: exact characterisation when the rounded demands already balance; counterexamples: a participant with zero demand is made to trade, and one on the wrong side."
 },
 "C87": {
  "note": "Proved for any number of properties and any positions, before netting: with lots that divide the prices, cash received and sent differ by exactly the change of the price of the units that close short positions, so they balance if and only if these are worth the same at the old prices; with any lots and any rounding of payments by at most e, up to 2e per participant and property. Negations: units that close short positions are charged at the old price; payments cut off in lots make the market lose money in proportion to the number of buyers."
 },
 "C88": {
  "note": "All histories from the initial state; no assumption on the order of times."
 },
 "C89": {
  "note": "Exact characterisation of the cleared orders for all inboxes; partial statement when no order is stale. Counterexamples: one stale order suppresses all later ones; an order that is not due yet is cleared early."
 },
 "C90": {
  "note": "Root value and sum of squares characterised exactly for exact arithmetic. Counterexamples: traded property that no order mentions is undefined behaviour; orders for an untraded property make the formulations differ."
 },
 "C91": {
  "note": "Several properties strictly within the circuit breaker, and derivative-free minimization: proved for all traces. Minimization: up to a vanishing gradient. Counterexamples: one property, where the solver is stopped after one successful step (general theorem), minimization at a stationary point, derivative-free root finder that gave up."
 },
 "C92": {
  "note": "Fallback order proved for all lists. Counterexample, general: methods after the derivative-free root finder are never tried, which includes the last of the default methods."
 },
 "C93": {
  "note": "General negations: all quotes in all histories have the initial prices; volumes of two and more count for nothing because volume and side are swapped. Partial: balanced orders."
 },
 "C94": {
  "note": "Partial: all histories in which orders are for listed properties. Counterexamples: an order for an unlisted property lists it at price zero; the same quotes are sent twice."
 },
 "C95": {
  "note": "General negation in the scheduler model from time 2 on; partial: time advances when there are fresh orders."
 },
 "C37": {
  "note": "For every history each report is sent once, in order, to its owner, except those still waiting in the book; none wait right after an order. Fails for cancellations: their report is not sent until the next order for the symbol, and then with that order's details."
 },
 "C38": {
  "note": "Fails: from a new exchange no history ever registers anybody (proved in general), because the constructor creates an empty entry and logon uses emplace; a second participant is never registered either. Logging out, and logging on for a ticker without an entry, work."
 },
 "C96": {
  "note": "Stream requests are ignored until somebody asked for a snapshot (proved in general), snapshots repeat for ever or never come, cancelling without a subscription is undefined behaviour. Streams after a snapshot, cancelling, absence of unrequested data and currency of the quotes are proved for all histories. Cancellations change the best quotes without any market data (C96_counterexample_cancellations)."
 },
 "C97": {
  "note": "Fails when the order changes the best bid or ask: then the stream shows the trade once per report (general theorem). Proved when the best quotes stay, without self-trade or waiting reports."
 },
 "C98": {
  "note": "Proved for all histories of the exchange (book contents) and of the matching engine (including reports)."
 },
 "C99": {
  "note": "Proved for any history. MPI transport and serialization are assumed faithful."
 },
 "C100": {
  "note": "False in general: the collective operation is given one element per deactivated agent instead of one per process, so it is undefined unless the numbers are equal, in particular when nothing was deactivated; each process learns of one agent per process; the list is never cleared. Proved what holds when the numbers are equal."
 },
 "C101": {
  "note": "Proved for proposals to existing processes; others are undefined behaviour."
 },
 "C102": {
  "note": "Proved for orderly migrations (between different processes, each agent once, from where it is) as a transition system with and without buffering: bounded, never stuck, agents end where they should, address books right. False for migrations to the own process (agent lost) and of absent agents (target waits forever)."
 },
 "C103": {
  "note": "False: messages to other processes are copied and dropped, the reported number is always zero, unknown recipients are undefined behaviour on process zero. Proved that messages within a process are delivered exactly once."
 },
 "C104": {
  "note": "False: after the first step the run reaches the deactivation, which is undefined (C100). Proved when it ends."
 },
 "C105": {
  "note": "False for unknown identities: a null pointer is inserted and later dereferenced. Proved for histories that look up active agents."
 },
 "C106": {
  "note": "False: the model's time is never changed, so that every call starts at the start of the simulation; from the second call nothing happens. Proved what the first call does. Pending activations are left out (undefined behaviour by C74)."
 },
 "C107": {
  "note": "Order, text and sorted maps, for all tickers and histories. The hash of tickers is not modelled (it depends on boost::hash_combine)."
 },
 "C108": {
  "note": "Names follow the table for all codes, are distinct, and contain the keyword of the country in Spec/Iso.lean. Violated for Andorra and India: these constants have no name (C108_counterexample_unnamed)."
 },
 "C109": {
  "note": "Proved for all codes. USN and XXX have no name of their own and print their code."
 },
 "C110": {
  "note": "Proved for the log's buffer and severities known when compiling. Violated on the console in development builds (messages below the filter are shown) and for get(severity), which writes no severity. Messages of dynamic severity are filtered likewise (C110_dynamic_filtered)."
 },
 "C111": {
  "note": "Proved for single insertions: each value is contiguous, in order, nothing lost, and the holder of the mutex can always finish. Violated for lines of several insertions, and channel::endl locks the mutex twice."
 },
 "C112": {
  "note": "Proved for the last occurrence of the text esl/ and for paths without it. Violated for directories whose name merely ends in esl."
 },
 "C113": {
  "note": "Proved for maps, and for inboxes at times with exactly one message. Violated for inboxes: assignment to a time without messages does nothing, and for a time with several messages it replaces all of them."
 },
 "C114": {
  "note": "Proved for strings logged as trace or notice. Violated for warnings and errors, which are logged as notices (and so vanish from release builds), and for objects other than strings, whose text is read after it was destroyed."
 },
 "C115": {
  "note": "Proved for countries, legal entities and for codes of nine characters. Violated for currencies (only two of three letters, so USD and USN agree; and printing one raises an exception) and for shorter codes of securities (undefined behaviour)."
 },
 "C116": {
  "note": "Violated for agents in general: inbox and outbox are copies, and send_message does nothing. Proved for appending to the outbox of a communicator."
 },
 "C117": {
  "note": "Proved for floating point and integer parameters. Violated for prices, which can be set and not read."
 },
 "C118": {
  "note": "Proved for all returned objects; a returned integer outside of uint64 raises an exception."
 },
 "C119": {
  "note": "Supply proved; demand proved for entries that are numbers for properties. Violated for others: they are dropped without an exception."
 },
 "C120": {
  "note": "Proved for prices. Violated for exchange rates: a null pointer is read."
 },
 "C121": {
  "note": "Proved for all currency constants but three. Violated for TND (100, should be 1000), CLF (100, should be 10000) and UYI (100, should be 1). The standard is written down in Spec/Iso.lean."
 },
 "C122": {
  "note": "Proved for every jurisdiction constant, against the table of shared currencies in Spec/Iso.lean. Violated for five countries, which have no jurisdiction: AQ, FK, GS, PS, TW."
 },
 "C123": {
  "note": "Proved for stocks, bonds, money, assets and twelve classes of agents, and for classes of users whose constructor names the virtual base. Violated by security, owner<T> and debtor, whose objects always have the empty identifier, and by classes of users that pass the identifier to their direct base only."
 },
 "C124": {
  "note": "Proved: loans and lending contracts know their parties; bonds with different identifiers are held side by side. Violated: all loans share the empty identifier, so an inventory holds at most one; lending contracts on one security share an identifier whoever the parties are; a bond drops its issuer."
 },
 "C125": {
  "note": "Proved: recipient, delivery time, code, contents and queueing for all arguments; the sender for all messages of the library but one kind. Violated: create_message does not set the sender or the time of sending, so that without constructor arguments the sender is empty and the time zero; transfers by which a Walrasian market takes property name the participant as sender; all messages of the library except those of the exchange are sent at time zero."
 },
 "C126": {
  "note": "Proved for transfers and for quote messages without quotes. Violated for all orders (nothing is saved) and for every quote message with a quote (loading always throws)."
 },
 "C127": {
  "note": "Proved for all quotes."
 },
 "C128": {
  "note": "Proved for market data and for reports to the sender of the order, and the lower bound by the shift. Violated: the counterparty's report takes the latency of the sender of the order; the rate of shifted_gamma_latency is used as scale, so that the documented latency holds for the rate one only. Random numbers are arguments and real numbers are rational. Latencies of minus one or less, and those that no duration can hold, are undefined (C128_counterexample_undefined)."
 },
 "C129": {
  "note": "Violated: the assets are always zero."
 },
 "C130": {
  "note": "Sums, differences, negation, integer multiples (in range) and products and quotients with numbers are proved; the property fails for products and quotients of prices (in smallest units), for adding numbers (in smallest units), for different currencies when assertions are off, and at the limits of the range. Assertions are modelled as compiled out."
 },
 "C131": {
  "note": "With IEEE double arithmetic: the result is the same or one smallest unit nearer to zero (up to 2^51 units), exact for amounts that are floating-point numbers (whole amounts, halves, quarters) and in undivided currencies, and the order is preserved; 29 cents become 28, and the losses of repeated conversions add up."
 },
 "C132": {
  "note": "Sums and differences are proved, and the way there and back with a lot of one; for any other lot it always fails, since the price per item is taken for the price of the lot. Products and quotients are of numbers of subunits per lot, so that they are wrong by the factor of the lot times the subunits."
 },
 "C133": {
  "note": "Within one step of the precision, apart from rounding; inflation is exact for a positive first price; exchange rates are exact. It fails for decimal numbers such as 0.0003, for prices in different currencies, and for the precision of exchange rates, which is that of the lowest terms. Exchange rates from numbers are within one step of the rate they are made like (C133_similar_partial); undefined from 2^64 steps on (C133_counterexample_large)."
 },
 "C134": {
  "note": "Proved for all markets, rounding functions and sorts: an unsolved clearing changes nothing; a solved one assigns units that balance and are close to the demands, and participants with one trade exchange exactly what follows. Missing: participants that trade several properties (C57, C58). Negations: a price rounded up to one smallest unit makes a buyer pay more than it offered; orders without any demand, for untraded properties or with a zero multiplier have undefined behaviour."
 },
 "C135": {
  "note": "Conservation at every moment and one owner are proved for every history. The set of unique items agrees with the inventory if transfers are between different owners and move one piece; it does not for transfers of the amount zero (release build) or to oneself. Giving more of an item than one has ends the run with an exception (C135_refused)."
 },
 "C136": {
  "note": "Insertion, there-and-back and the set operations are proved. A refused removal has removed earlier items; removing nothing of an item without an entry dereferences the end iterator; erasing a set of unique items uses iterators of another container."
 },
 "C137": {
  "note": "Comparisons are sound for every amount and exact if the amount or the number is at most 2^53. Above, different quantities equal the same number; != with a fraction is inconsistent with ==; products truncate the factor first; dividing by 1.0 changes large amounts."
 },
 "C138": {
  "note": "Violated: the list of deleted agents is doubled instead of emptied, so each agent is counted 2^i times in step i, and in a new environment the second step at the latest reads freed memory. Proved: the exact condition on the capacity under which a step is well defined, the number it returns, and the case without deleted agents."
 },
 "C139": {
  "note": "Proved for all completed runs with amounts that fit into 64 bits, exactly, and modulo 2^64 without that assumption, with any number of threads. Violated if the transferee is not an owner (the message is dropped and the property with it) and if an amount wraps around; both are shown by a run."
 },
 "C140": {
  "note": "Proved as an invariant of all rounds of all steps, with any number of threads; what was handled and sent is read from the log of the run with one thread, which ends in the same state (C23)."
 },
 "C141": {
  "note": "Proved over exact real arithmetic for double elements: the mean, its bounds, order and unit, and enumerate. With any arithmetic whose operations have a bounded relative error within the range of the type, and an absolute one near zero, the computed mean is bounded around the exact one as long as the sum of the logarithms does not overflow (C141_rounding_partial). False for integer element types (C141_counterexample_integer: any sequence of ones and twos has mean 1) and for growth_rate (C141_counterexample_growth: the change is spread over one period too many, for every series that changed). Non-positive elements are not modelled. With zeros the mean is right (C141_zero_partial), and so is the growth rate of a series that ends with zero (C141_loss_partial); negative numbers and zeros before the end give NaN or infinity (C141_counterexample_negative, C141_counterexample_interim, C141_counterexample_beginning)."
 },
 "C142": {
  "note": "Proved for amounts below 2^52 minor units in currencies with a power of ten of minor units: the text is the exact amount and identifies price, quote, and state, owner and limit of a report. False: amounts above 2^53 share texts (C142_counterexample_large); printing a price changes the precision of the stream and printing an identity its fill character; a width splits currency and amount; reports do not show side, quantity or identifier; comparing reports with different lot sizes throws. double is IEEE binary64 with exact decimal output; log10 of the denominator is exact."
 },
 "C143": {
  "note": "Counts never go wrong, held pointers point to one existing object, no object is deleted twice (C143_valid); conversions keep the object (C143_same_object, C143_stable); exactly which objects exist (C143_alive). Partial because the deleter made by to_std keeps its pointer until the control block is destroyed: a weak pointer to such a result keeps the object (C143_counterexample_weak)."
 },
 "C144": {
  "note": "True for well-formed dictionaries and lists. False: other entries are dropped silently, None is undefined behaviour, a failed assignment loses the old orders, appending has no effect, and an unsolved market looks like an empty one."
 },
 "C145": {
  "note": "Activation, deactivation, seeds and companies that define dividends are right. False: agents cannot be created (the result is None and activating it is undefined behaviour), local_agents() raises an exception as soon as there is an agent, and a company whose class does not define upcoming_dividend fails in every step."
 },
 "C146": {
  "note": "Proved for clearings in which every participant demands at most one property per clearing (also for several properties traded by different participants, with short positions), over runs of any length, exactly and modulo 2^64 with transfers in transit. Money is conserved if moreover nobody closes a short position. Both restrictions are needed: a participant that buys two properties loses one of them (C146_counterexample_two), and closing a short position at the old price creates money (C146_counterexample_money)."
 },
 "C147": {
  "note": "Proved for a book over all histories, for an exchange over all sequences of messages, and for whole simulations in which any other agents take part (they send no execution reports in the name of the exchange), by a ledger of units over all agents and messages. The statements about exchanges are about runs in which the exchange has not thrown: an order for a symbol without a book throws an exception, which ends the run. Reports of cancellations wait in the book until the next order for the symbol, which is why they appear as a separate term."
 },
 "C148": {
  "note": "Proved for all histories with one lot size and limits whose product with the lot fits into 64 bits: the book with quotes refines the book with integers (so that C25 to C31 and C147 carry over), all resting orders are in one currency, and orders in another currency are refused without effect. Limits that do not fit can rest, but then cancelling and matching them is undefined (C148_counterexample_overflow). With different lot sizes the claim fails: operator>= does not check lots, so that an order can be refused after a part of it was executed, and its remainder is lost (C148_counterexample_lots); quotes are not compared per unit (C148_counterexample_units); and cancelling an order again throws once the book trades in another currency (C148_counterexample_cancel)."
 },
 "C149": {
  "note": "Proved for every run that completes: time (C149_time), new agents act in the next round unless a message was sent to them first (C149_created_acts_partial), deleted agents are gone (C149_deleted_gone), only known agents act, agents stay until deleted, wake-ups are honoured, messages between agents that stay are processed on time if agents are attentive (C149_delivered_partial, as in C20), and refinement to the fixed population (C149_static). The full claim fails: in the environment of the library a creation is undefined behaviour at the next step (C149_counterexample_activation); a new agent may never act (idle) or be postponed by a message (postponed); an agent deleted earlier in a round still acts in it and its messages are lost (silenced); a message to an agent deleted in the same round ends the run (unreachable); the wake-up of a deleted agent keeps the simulation from completing (never_completes, deleted_blocks)."
 },
 "C150": {
  "note": "Proved for every completed run: announcements are made in order and never twice, and are processed at the time of sending (C150_once); the company acts on the announcement date and announces to every registered shareholder (C150_announced_partial). The full claim fails: no run completes if the dividend is payable after its announcement date, because the company then asks to be woken on the past announcement date (C150_counterexample_payable), nor if a shareholder that has shares gets an announcement with an ex-dividend date before the end, because its record is dated at time zero (C150_counterexample_record)."
 },
 "C151": {
  "note": "In IEEE arithmetic, for all representable bounds and densities of at least two: never below the lower bound, which is the first value, ascending, and within a few roundings of equidistant values (C151_values_partial, C151_samples_partial); exact, with both bounds, if bounds and steps are moderate multiples of a power of two, such as integers (C151_exact_partial). The full claim fails: values above the upper bound, an upper bound that is not reached, and values that coincide (counterexamples). For integer parameters: always in the interval, but the upper bound is reached only if the division leaves no remainder (C151_integers_partial), a density of one is undefined, and exchanged bounds give values far outside of the interval (C151_counterexample_exchanged)."
 },
 "C152": {
  "note": "An inventory whose first entry, in the order of iteration, is money is printed as `{}`, whatever else is in it (C152_counterexample_money), so that what is printed depends on the order (C152_counterexample_order). An inventory whose first entry is not money is printed with all entries (C152_listed_partial), and the text then determines the contents as far as the names do (C152_contents_partial). Which names coincide is characterised exactly (C152_names_partial): assets, loans (C152_counterexample_loans, _assets), and money in currencies with the same code; all other names show the identifier. Unique property (C152_unique, C152_unique_items) and the message of a refused withdrawal (C152_shortage) are as claimed."
 },
 "C153": {
  "note": "The functions that are bound in Python are virtual member functions, so that calling the method of the base class ends up in the same Python method: a method with `super().m(...)` never returns (C153_counterexample_inherited). Definitions of `activate_agent`, `deactivate_agent` and of `act` in a company are ignored (C153_counterexample_ignored), and `activate`, `deactivate` and `send_messages` must return a number (C153_counterexample_nothing). For methods without such calls, the sequence of all calls of a run, of any length, is as claimed (C153_run_partial), and so is each call with its result (C153_call_partial)."
 },
 "C154": {
  "note": "The function is captured by reference to a parameter, so that every use of the handle is undefined behaviour (C154_counterexample_handle), and `callback` always raises an exception (C154_counterexample_callback). While the variable exists the function is called as claimed (C154_handle_partial), and handles do not affect each other (C154_different_partial). A variable holds its function until it is destroyed (C154_kept_partial)."
 },
 "C155": {
  "note": "Proved for containers in general (C155_container) and for identities (C155_identity), tickers (C155_ticker) and cash (C155_cash). A share class whose preference is not a number is not equal to itself, so that it is never found (C155_counterexample_nan); all other share classes are as claimed (C155_share_partial). `boost::hash_combine` is left open; that `boost::hash_value` of a zero does not depend on its sign is part of the model."
 },
 "C156": {
  "note": "False of the code: the matrix is transposed, since Adept stores matrices by columns and GSL by rows (general counterexample for every asymmetric cross effect; for a family of markets Newton steps with this matrix double all excess demands for ever, where the right matrix clears them in one step). Proved: the matrix is right exactly if the cross effects are symmetric, for demands that depend on their own multiplier only, for one property, and the gradient for the minimizer. The storage orders of the two libraries and the exactness of Adept are assumptions."
 },
 "C157": {
  "note": "False of the code in two ways: a successful root search for one property leaves the handler that ignores errors installed, for ever; derivative_free_minimization reads step sizes that are never written. Proved for all other lists of methods and for the default methods (memory), and for several properties, without root finding or without result (handler)."
 },
 "C158": {
  "note": "False of the code: the probabilities are updated with k instead of k + 1, so that all numbers from two on have wrong probabilities (for every mean some random number gives two instead of three; with a mean of at most one nothing above two is ever drawn). Proved: at least one, one has the right probability, nothing is larger than it should be. Real arithmetic is exact. All members of the class are private, so a program cannot use it as it is."
 },
 "C159": {
  "note": "False of the code: squared differences are computed on 32 bits, so that points 65536 apart coincide and a far candidate is preferred (counterexamples). Proved for up to 65536 samples, with exact real arithmetic; and that the function is an instance of the arbitrary choice for which C41 is proved."
 },
 "C160": {
  "note": "False of the code: prices are not loaded and headers are not saved, so that every announcement arrives with dividends of zero and without a sender, and the shareholder sends no record to the company (counterexamples, for all policies and holdings). Proved: exactly which parts arrive."
 },
 "C161": {
  "note": "False of the code: centralized_exchange names the class market as a base, which no module defines, and messages name header, which is defined later, so that the import raises an exception (counterexample, with the exact condition on other modules). Proved for all modules: the import succeeds exactly if bases are defined first. The claims on other parts of the Python interface are about the module without this failure."
 },
 "C162": {
  "note": "Proved for all books but the one with trees, whose class has methods of its own that return a type Python does not know: they raise an exception in every state (counterexample)."
 },
 "C163": {
  "note": "False of the code: attributes are copies, so that no Python program can give a company shares or shareholders, and no company created in Python announces a dividend (counterexample for all programs). Proved that the shares can be read."
 },
 "C164": {
  "note": "Proved that numbers can be read back, and that models have the values that were set as unsigned numpy numbers. False of the code for Python integers, which become signed parameters, and make the constructor of a model throw, whatever their values; and simple_experiment fails for samples with more than 32 bits (counterexamples). Names that were never added, and prices, raise an exception when read (C164_absent)."
 },
 "C165": {
  "note": "Proved for quantities below 2^32 and orders with the same lot. False of the code for larger quantities, which Python orders silently reduce, so that less is executed or rests than was asked for after any history of the book; and for different lots, for which comparing orders raises an exception (counterexamples)."
 },
 "C166": {
  "note": "Proved for liquidity and printing, and for warnings if supplied and bought units add up to less than 2^64; for larger numbers the sum wraps (counterexample). False of the code for trades: no order changes a position (counterexample)."
 },
 "C167": {
  "note": "Proved for identities that are not changed. False of the code for all other classes: tickers, prices, quotes and others compare by value but hash by address, so that an equal object is never found; currencies and others compare by address; and the digits of an identity can be changed while it is a key (counterexamples). That boost::python classes keep the hash of object is part of the model of Python."
 },
 "C168": {
  "note": "Proved for all attributes but sixteen, which raise an exception because the module defines no class for their types (counterexample)."
 },
 "C169": {
  "note": "Proved for any number of threads and every interleaving: the answer is true when it is returned (size modulo 2^32), and it lasts until as many elements as promised have been taken by any threads. Negations: with two consumers, one that found the queue not empty can wait forever; size() of a queue with 2^32 elements is 0."
 },
 "C170": {
  "note": "Proved for all histories: the log has no effect on the exchange; at each event it is exactly the execution reports to the sender of the order that are not rejections; entries are on time; if everybody sends their own orders and nobody is on both sides of a symbol, all units ordered are recorded exactly once. Negations: orders sent for others are never logged, an agent that trades with itself is logged twice, cancellations are logged with the time of the next order or never."
 },
 "C171": {
  "note": "Proved for every rounding with bounded relative and absolute error, for root finding with several properties, one property, and both minimizers, with corollaries for doubles; without rounding the model is that of C91. Negation: orders among much larger ones are not noticed, and the result depends on the order of participants. Not covered: overflow to infinity."
 },
 "C172": {
  "note": "At least one thread and at most 2^31. Every task is accounted for at all times, everything ends, the destructor returns, nothing is undefined. Executed exactly once: if no std::try_to_lock fails on a free mutex, or with one thread, or if no task is passed after the destructor begins. Violated otherwise: with two threads a task passed by a task while the destructor waits can be lost when try_to_lock fails for no reason, which the C++ standard allows (counterexample). Tasks throw nothing."
 },
 "C173": {
  "note": "Violated: once the tasks of all threads wait for tasks that have not been executed, no task is ever executed and the destructor never returns (counterexample, in general); one thread and one such task suffice (counterexample). True part: C172_destructor_returns, C172_idle_pool: if nobody waits in vain when nothing moves any more, the destructor returns and all tasks were executed."
 },
 "C174": {
  "note": "Proved in IEEE arithmetic for denominators up to 2^53 and numbers below 2^62 smallest units: less than one smallest unit off, apart from the rounding of the product; exact for whole numbers of smallest units up to 2^53. Violated for decimal numbers (0.29 dollars are 28 cents), for negative amounts (undefined) and for quantities of 2^63 smallest units or more (negative prices). integer_away_from_zero does not compile when used (no function sign) and is not modelled; infinities and NaNs are not modelled."
 },
 "C175": {
  "note": "All runs of the model of the scheduler; nobody else sends market data in the name of the exchange. Prices as integers of one currency and lot."
 },
 "C176": {
  "note": "Currencies and jurisdictions are complete and right. The country Andorra (AD) is missing (C176_counterexample_missing); the other countries are right. The names in the Python module are taken from the source as tables."
 },
 "C177": {
  "note": "One turn for each agent, round and step is proved for every run. The seed keeps the lowest 32 bits of the hash, time, round and sample: seeds are different before the time 2^32 if the agents are told apart by those bits of their hashes (C177_seeds_partial), as children of one parent are (C177_siblings, for the `hash_combine` of Boost 1.56-1.80). They repeat after 2^32 units of time, for numbers of agents that differ by 2^32 and for such samples (counterexamples)."
 },
 "C178": {
  "note": "Each message is handled once, for any shuffle and seed (C178_random_partial). The generator is made anew from the same seed for each priority, so that equal numbers of messages are brought into the same order (C178_counterexample_groups), and it has fewer than 2^31 states, so that from 13 messages on there are orders that no seed gives (C178_counterexample_orders). The generator never gets stuck (C178_generator_partial). Stated for agents with one callback for each kind of message."
 },
 "C179": {
  "note": "The books are the same (C179_books_partial), and unknown symbols are exceptions either way (C179_unknown_symbol_partial). But no directly entered order makes the exchange send anything (C179_counterexample_silent); the report goes out with the next message with an order for the symbol, and names that order (C179_counterexample_wrong_order); a best price that it made is not announced (C179_counterexample_data, C179_counterexample_stream)."
 },
 "C180": {
  "note": "Seeds that differ in one word give different numbers (C180_one_word_partial), so that an agent draws different numbers at different times, in different rounds or different samples (C180_turns_partial), siblings draw different numbers in the same round (C180_siblings_partial), and an agent draws different numbers in all first rounds of a run (C180_run_partial). But all calls in a turn give the same number (C180_counterexample_calls), and turns that differ in two respects can coincide: for each number drawn there is such a turn (C180_counterexample_rounds, C180_counterexample_agents). Seeds made from lists keep their numbers (C180_construct). The algorithm is that of the C++ standard, also for several words; the model was compared with the implementation in GCC."
 },
 "C181": {
  "note": "The delay is at least the shift (C181_at_least_shift_partial). But a new generator with the seed of the turn is made for each sample, so that all messages of a turn arrive at the same time (C181_counterexample_same), and neither sender nor recipient matters (C181_counterexample_pairs). The gamma distribution of the standard library is an argument, latencies are rational numbers until they are cut."
 },
 "C182": {
  "note": "Types of arguments and results only. Proved for all but 12 methods and constructors, 9 assignments and the 16 attributes of C168, which no program can use (C182_counterexample): among them quantities cannot be split, no property can be valued by an accounting standard, and a request for market data cannot name instruments."
 },
 "C183": {
  "note": "No Python object is converted to the entries of the map: setting one raises an exception (C183_counterexample_set), and all policies that programs can make pay nothing (C183_counterexample). A policy has what it is given (C183_policy_partial)."
 },
 "C184": {
  "note": "The shares and dates come back whatever the target was (C184_records_partial). The stocks and prices are never written: they stay those of the target (C184_counterexample, C184_restored_partial), and a shareholder with shares that is loaded into a new one has undefined stock holdings (C184_counterexample_holdings)."
 },
 "C185": {
  "note": "Proved for all numbers below 2^32 in decimal notation and the order of the repository (C185_agree_partial), with different texts for different versions (C185_distinct). Violated for lines in another order (C185_counterexample_order), numbers with a leading zero, which are octal in C++ only (C185_counterexample_zero), and comments that mention a constant, with which the import fails (C185_counterexample_comment)."
 },
 "C186": {
  "note": "Proved for orders for a symbol that are quoted alike and fit into 64 bits: the exchange over quotes refines the exchange over integers. Negation: an order in another currency than the orders that rest is an exception in the callback of the exchange, so that any agent can end the simulation."
 },
 "C187": {
  "note": "No assumption about quotes. At an exchange an exception ends the history, so that the theorem is about histories without one. Units that are lost when a book throws are in C148_counterexample_lots."
 },
 "C188": {
  "note": "Quotes are for a positive number of units, and price times lot fits into 64 bits. Nothing is assumed about which quotes are mixed."
 },
 "C189": {
  "note": "True of orders to sell (C189_sell) and of orders to buy against orders for the same number of units (C189_buy_partial). False otherwise: the operator >= does not compare lots, and multiplies prices by lots where it should divide, so that an order to buy is executed at any multiple of its limit (C189_counterexample_buy)."
 },
 "C190": {
  "note": "Currencies are proved in full, prices for offers for the same number of units (C190_uncrossed_partial). False for different numbers of units, since products of price and lot are compared (C190_counterexample_lots)."
 },
 "C191": {
  "note": "Proved if the order is alike to those on its own side. Otherwise the order may have been executed in part before its remainder cannot be placed (C191_counterexample_executed); the remainder is lost. In particular an exception never comes in the middle of the matching loop."
 },
 "C192": {
  "note": "Proved for orders to sell; for orders to buy and market data if the quotes are for the same number of units. Currencies agree in all cases. False for different numbers of units (C192_counterexample_data, C192_counterexample_buy), which nothing in the exchange refuses. An exception ends the history, as in C186."
 },
 "C193": {
  "note": "For all histories with any mixture of quotes; C193_unknown holds for every book."
 },
 "C194": {
  "note": "Also if the insertion ends with an exception. Extends the priority of C27 from integer limits to quotes."
 },
 "C195": {
  "note": "Holds from the beginning of the constructor of the class in question, if classes name themselves. std::bad_cast is never thrown: a pointer is cast, so that the conversion is undefined during the construction of bases (C195_counterexample_construction) and for other arguments (C195_counterexample_argument)."
 }
}