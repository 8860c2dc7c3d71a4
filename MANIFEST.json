{
 "claims": [
  {
   "property": "C01",
   "status": "proved",
   "theorems": [
    "Esl.Identity.C01_order",
    "Esl.Identity.C01_child_after_parent"
   ],
   "note": "Lexicographic order for all identities."
  },
  {
   "property": "C02",
   "status": "proved",
   "theorems": [
    "Esl.Identity.C02_unique_identifiers",
    "Esl.Identity.C02_every_create_issues"
   ],
   "note": "All creation histories shorter than 2^64."
  },
  {
   "property": "C03",
   "status": "partial",
   "theorems": [
    "Esl.Identity.C03_counterexample",
    "Esl.Identity.C03_agent_copy_restarts",
    "Esl.Identity.C03_copies_without_creation_partial"
   ],
   "note": "False of the code for agent copies (counter restarts at 0); counterexample proved; creation by copies is the missing part."
  },
  {
   "property": "C04",
   "status": "proved",
   "theorems": [
    "Esl.Identity.C04_render_injective"
   ],
   "note": "Injective for all widths."
  },
  {
   "property": "C05",
   "status": "proved",
   "theorems": [
    "Esl.Quantity.C05_split"
   ],
   "note": "Both branches of operator/ and divide."
  },
  {
   "property": "C06",
   "status": "partial",
   "theorems": [
    "Esl.Quantity.C06_subtraction_partial",
    "Esl.Quantity.C06_counterexample_predecrement",
    "Esl.Quantity.C06_counterexample_postdecrement"
   ],
   "note": "Prefix decrement increments and postfix decrement of zero wraps in the code; negations proved."
  },
  {
   "property": "C07",
   "status": "proved",
   "theorems": [
    "Esl.Quantity.C07_power",
    "Esl.Quantity.C07_power_exact"
   ],
   "note": "All word sizes."
  },
  {
   "property": "C08",
   "status": "proved",
   "theorems": [
    "Esl.Price.C08_same_currency",
    "Esl.Price.C08_different_currency"
   ],
   "note": "All pairs of prices: integer order in one currency, refusal otherwise."
  },
  {
   "property": "C09",
   "status": "partial",
   "theorems": [
    "Esl.Price.C09_equal_lots_partial",
    "Esl.Price.C09_different_lots_partial",
    "Esl.Price.C09_counterexample_ge_lots",
    "Esl.Price.C09_counterexample_wrap",
    "Esl.Price.C09_counterexample_overflow"
   ],
   "note": "Proved for equal positive lots and products below 2^63; >= does not check lots and large products wrap, negations proved."
  },
  {
   "property": "C10",
   "status": "proved",
   "theorems": [
    "Esl.Accounting.C10_statement_is_sum",
    "Esl.Accounting.C10_additive",
    "Esl.Accounting.C10_income_expenses"
   ],
   "note": "All recorded histories and intervals."
  },
  {
   "property": "C11",
   "status": "partial",
   "theorems": [
    "Esl.Accounting.C11_long_short_cancel",
    "Esl.Accounting.C11_defined",
    "Esl.Accounting.C11_stock_value_partial",
    "Esl.Accounting.C11_stock_value_unit_lot_partial",
    "Esl.Accounting.C11_counterexample_negative_price",
    "Esl.Accounting.C11_refused_without_quote"
   ],
   "note": "Long+short cancel for all quantities; valuation formula for non-negative quotes; negative quotes with lot>1 are wrong in the code, negation proved."
  },
  {
   "property": "C12",
   "status": "partial",
   "theorems": [
    "Esl.Inventory.C12_removal_partial",
    "Esl.Inventory.C12_order_irrelevant_partial",
    "Esl.Inventory.C12_counterexample_not_atomic",
    "Esl.Inventory.C12_insertion",
    "Esl.Inventory.C12_round_trip"
   ],
   "note": "Exact removal or refusal for all bundles and orders; a refused removal is not atomic in the code, negation proved."
  },
  {
   "property": "C13",
   "status": "proved",
   "theorems": [
    "Esl.Inventory.C13_conservation",
    "Esl.Inventory.C13_uninvolved",
    "Esl.Inventory.C13_refused_iff"
   ],
   "note": "All transfer histories delivered once to each side."
  },
  {
   "property": "C14",
   "status": "partial",
   "theorems": [
    "Esl.Inventory.C14_agreement_partial",
    "Esl.Inventory.C14_counterexample_take",
    "Esl.Inventory.C14_counterexample_self_transfer"
   ],
   "note": "All histories without self-transfers and repeated take; both break agreement in the code, negations proved."
  },
  {
   "property": "C15",
   "status": "proved",
   "theorems": [
    "Esl.Comm.C15_exactly_once",
    "Esl.Comm.C15_not_early"
   ],
   "note": "All message queues, handlers and steps: every due message is handed to each matching callback once and no message early."
  },
  {
   "property": "C16",
   "status": "proved",
   "theorems": [
    "Esl.Comm.C16_priority"
   ],
   "note": "All registration histories: callbacks of higher priority run first."
  },
  {
   "property": "C17",
   "status": "partial",
   "theorems": [
    "Esl.Comm.C17_in_order_reversed_partial",
    "Esl.Comm.C17_counterexample_last_first"
   ],
   "note": "False of the code: messages with the same delivery time are handled last-in first-out. The true reversed order is proved for all queues and the negation with a witness."
  },
  {
   "property": "C18",
   "status": "proved",
   "theorems": [
    "Esl.Threads.C18_threads",
    "Esl.Sched.C18_step_forward",
    "Esl.Sched.C18_run"
   ],
   "note": "All agent programs: a completed step moves strictly forward and a run visits strictly increasing times; also with any number of threads."
  },
  {
   "property": "C19",
   "status": "proved",
   "theorems": [
    "Esl.Threads.C19_threads",
    "Esl.Sched.C19_minimum",
    "Esl.Sched.C19_no_wakeup_skipped",
    "Esl.Sched.C19_acts_when_due"
   ],
   "note": "Next event is the minimum over all wake-up times (with any number of threads), no wake-up is skipped and an agent due acts."
  },
  {
   "property": "C20",
   "status": "partial",
   "theorems": [
    "Esl.Sched.C20_immediate",
    "Esl.Sched.C20_on_time_partial",
    "Esl.Sched.C20_counterexample_lost_wakeup"
   ],
   "note": "Proved for runs in which every acting agent asks to be woken no later than its pending messages (Attentive); otherwise the agent's own request overwrites the wake-up for the message, negation proved. Messages for the time at which they are sent are processed at this time whatever the agents ask for (C20_immediate)."
  },
  {
   "property": "C21",
   "status": "partial",
   "theorems": [
    "Esl.Sched.C21_counterexample_dated_past",
    "Esl.Sched.C21_counterexample_overdue",
    "Esl.Sched.C21_counterexample_late_message",
    "Esl.Sched.C21_terminates_partial"
   ],
   "note": "False of the code: a step never completes once a wake-up is overdue, and one message dated in the past causes that; negations proved. A round completes the step when all requests and messages lie in the future. In general: no run in which a message is dated before its sending completes (C21_counterexample_dated_past)."
  },
  {
   "property": "C22",
   "status": "proved",
   "theorems": [
    "Esl.Sched.C22_conservation",
    "Esl.Sched.C22_unknown_recipient",
    "Esl.Sched.C22_total"
   ],
   "note": "All worlds: every sent message ends in exactly one inbox or the step stops with an exception for an unknown recipient."
  },
  {
   "property": "C23",
   "status": "proved",
   "theorems": [
    "Esl.Threads.C23_completed",
    "Esl.Threads.C23_tasks",
    "Esl.Threads.C23_independence",
    "Esl.Threads.C23_any_two"
   ],
   "note": "All programs, populations, thread counts and interleavings of the jobs' atomic parts; agents share no memory in the model, as the code requires."
  },
  {
   "property": "C24",
   "status": "partial",
   "theorems": [
    "Esl.Threads.C24_counterexample_threads_ignored",
    "Esl.Threads.C24_counterexample_eight",
    "Esl.Threads.C24_at_least_one_partial"
   ],
   "note": "False of the code: the constructor stores verbosity as threads; negation proved for all arguments."
  },
  {
   "property": "C25",
   "status": "proved",
   "theorems": [
    "Esl.Book.C25_uncrossed",
    "Esl.Book.C25_best_prices"
   ],
   "note": "All histories of inserts and cancels, without bounds; prices as integers of one currency and lot."
  },
  {
   "property": "C26",
   "status": "proved",
   "theorems": [
    "Esl.Book.C26_conserves",
    "Esl.Book.C26_others_unchanged"
   ],
   "note": "All reachable books and all incoming orders."
  },
  {
   "property": "C27",
   "status": "proved",
   "theorems": [
    "Esl.Book.C27_priority"
   ],
   "note": "All reachable books and all incoming orders."
  },
  {
   "property": "C28",
   "status": "proved",
   "theorems": [
    "Esl.Book.C28_limits"
   ],
   "note": "All reachable books and all incoming orders."
  },
  {
   "property": "C29",
   "status": "partial",
   "theorems": [
    "Esl.Book.C29_cancel_partial",
    "Esl.Book.C29_counterexample_orders",
    "Esl.Book.C29_counterexample_never_removed",
    "Esl.Book.C29_listed_partial"
   ],
   "note": "Removal of exactly the order and the single report are proved for all histories; orders() keeps listing cancelled orders in the code, negation proved."
  },
  {
   "property": "C30",
   "status": "proved",
   "theorems": [
    "Esl.Book.C30_unique"
   ],
   "note": "All histories with fewer than 2^64-1 inserts."
  },
  {
   "property": "C31",
   "status": "partial",
   "theorems": [
    "Esl.Book.C31_counterexample_rests",
    "Esl.Book.C31_counterexample_partial_fill",
    "Esl.Book.C31_filled_partial",
    "Esl.Static.C31_static_immediate_or_cancel",
    "Esl.Static.C31_static_fill_or_kill_partial",
    "Esl.Static.C31_counterexample_static_fill_or_kill"
   ],
   "note": "The binary tree book ignores the lifetime: immediate-or-cancel remainders rest and fill-or-kill orders fill partly, negations proved; orders whose quantity is available are filled completely and do not rest. For the static book: immediate-or-cancel orders never rest and their quantity is accounted for after every careful history (C31_static_immediate_or_cancel); fill-or-kill orders can be executed in part and rest (counterexample), proved is that they are cancelled as a whole when nothing crosses."
  },
  {
   "property": "C32",
   "status": "partial",
   "theorems": [
    "Esl.Pool.C32_slots_partial",
    "Esl.Pool.C32_counterexample_constant",
    "Esl.Pool.C32_counterexample_unstored"
   ],
   "note": "All histories of a pool that follow the discipline of its caller (store the returned index, erase only live indices) and make fewer than 2^64/capacity rounds; without storing the index two live elements can share a slot, negation proved. Reading through a constant reference never ends (counterexample)."
  },
  {
   "property": "C33",
   "status": "partial",
   "theorems": [
    "Esl.Pool.C33_counterexample_double_erase",
    "Esl.Pool.C33_counterexample_never_inserted",
    "Esl.Pool.C33_reused_partial"
   ],
   "note": "False of the code: erasing twice, or erasing an index that was never handed out, corrupts the free list; negations proved. Holds for an index whose slot was reused."
  },
  {
   "property": "C34",
   "status": "partial",
   "theorems": [
    "Esl.Static.C34_round_trip_partial",
    "Esl.Static.C34_lower_half_partial",
    "Esl.Static.C34_counterexample_maximum",
    "Esl.Static.C34_counterexample_upper_half",
    "Esl.Static.C34_counterexample_small_lot",
    "Esl.Static.C34_counterexample_rounding",
    "Esl.Static.C34_binary64_partial"
   ],
   "note": "Proved in exact arithmetic for lots that are a multiple k>=2 of the denominator (and the lower half for k=1), all ranges and limits below the maximum. With the rounding of double, the same lots and k*upper <= 2^40: every limit below the maximum has an existing level, levels are strictly increasing, decoding gives the limit or the one a unit below. The maximum, k=1 in the upper half, smaller lots and the rounding of double break the exact round trip; negations proved."
  },
  {
   "property": "C35",
   "status": "partial",
   "theorems": [
    "Esl.Static.C35_matches_partial",
    "Esl.Static.C35_counterexample_lowest_sell",
    "Esl.Static.C35_counterexample_sell_matches_sell",
    "Esl.Static.C35_counterexample_lowest_buy",
    "Esl.Static.C35_counterexample_upper_half"
   ],
   "note": "Refinement: for every sequence of good-until-cancelled orders at faithfully represented prices the static book gives the reports, resting orders in sequence and best prices of the reference book up to an order-preserving renaming of identifiers, or throws only when more orders would rest than the capacity; never undefined behaviour. Partial because prices on the first level and prices that are not represented faithfully (C34) break it; counterexamples show crossed books, sell orders executed against sell orders and undefined behaviour."
  },
  {
   "property": "C36",
   "status": "partial",
   "theorems": [
    "Esl.Static.C36_best_prices_partial",
    "Esl.Static.C36_counterexample_cancel_best"
   ],
   "note": "Proved for all histories of insertions (any lifetime) and cancellations in which no cancellation takes the last order at a best price; false otherwise (counterexample)."
  },
  {
   "property": "C37",
   "status": "partial",
   "theorems": [
    "Esl.Exchange.C37_reports_partial",
    "Esl.Exchange.C37_after_order_partial",
    "Esl.Exchange.C37_counterexample_cancel",
    "Esl.Exchange.C37_counterexample_waiting",
    "Esl.Exchange.C37_counterexample_wrong_order",
    "Esl.Exchange.C37_unknown_symbol"
   ],
   "note": "For every history each report is sent once, in order, to its owner, except those still waiting in the book; none wait right after an order. Fails for cancellations: their report is not sent until the next order for the symbol, and then with that order's details."
  },
  {
   "property": "C38",
   "status": "partial",
   "theorems": [
    "Esl.Exchange.C38_counterexample_nobody",
    "Esl.Exchange.C38_counterexample_second",
    "Esl.Exchange.C38_logon_partial",
    "Esl.Exchange.C38_logout_partial",
    "Esl.Exchange.C38_logout_others"
   ],
   "note": "Fails: from a new exchange no history ever registers anybody (proved in general), because the constructor creates an empty entry and logon uses emplace; a second participant is never registered either. Logging out, and logging on for a ticker without an entry, work."
  },
  {
   "property": "C39",
   "status": "partial",
   "theorems": [
    "Esl.Grid.C39_combinations_partial",
    "Esl.Sampler.C39_grid_partial",
    "Esl.Sampler.C39_bounds",
    "Esl.Sampler.C39_counterexample"
   ],
   "note": "For every rounding of floating point numbers, the samples are all combinations of the computed values, each once (C39_combinations_partial), for densities of at least one whose product fits 32 bits; over rational numbers these are the equidistant values, and distinct (C39_grid_partial). Violated otherwise: density one gives NaN, and two densities of 65536 give no samples (counterexample)."
  },
  {
   "property": "C40",
   "status": "partial",
   "theorems": [
    "Esl.Grid.C40_values",
    "Esl.Hypercube.C40_distinct",
    "Esl.Hypercube.C40_repeated_partial",
    "Esl.Hypercube.C40_counterexample_repeated",
    "Esl.Sampler.C40_latin_partial",
    "Esl.Sampler.C40_counterexample"
   ],
   "note": "For every outcome of std::shuffle, assumed to permute. For every rounding, each computed value is used once (C40_values); over rational numbers these are the equidistant values (C40_latin_partial). Density one gives NaN (counterexample). C40_distinct derives the samples of distinct parameters from the loop of the code. A parameter that is listed twice may take a value in two samples and another in none (C40_counterexample_repeated), though none more often than it is listed (C40_repeated_partial)."
  },
  {
   "property": "C41",
   "status": "partial",
   "theorems": [
    "Esl.Sampler.C41_permutations_partial",
    "Esl.Sampler.C41_counterexample_overflow",
    "Esl.Sampler.C41_counterexample_duplication"
   ],
   "note": "For all random numbers within the ranges of the distributions and every way the distances may compare, if the number of candidate points fits 32 bits or there are at most two samples. Otherwise the function writes beyond the end of a vector (C41_counterexample_overflow: always, for three or more samples); with a duplication of zero it reads a candidate that does not exist (C41_counterexample_duplication)."
  },
  {
   "property": "C42",
   "status": "proved",
   "theorems": [
    "Esl.Codes.C42_checksum_valid",
    "Esl.Codes.C42_detects_digit",
    "Esl.Codes.C42_detects_transposition",
    "Esl.Codes.C42_lower_case"
   ],
   "note": "For every size of uint_fast16_t between 16 and 64 bits: the checksum is the unique digit passing Luhn's test; single digit errors and transpositions (exactly except 0 and 9) are detected. Lower case letters count as the upper case ones (C42_lower_case)."
  },
  {
   "property": "C43",
   "status": "partial",
   "theorems": [
    "Esl.Codes.C43_round_trip_partial",
    "Esl.Codes.C43_counterexample_round_trip",
    "Esl.Codes.C43_counterexample_malformed",
    "Esl.Codes.C43_rejects_partial",
    "Esl.Codes.C43_two_strings_partial",
    "Esl.Codes.C43_country_and_string_partial",
    "Esl.Codes.C43_counterexample_length",
    "Esl.Codes.C43_print_injective_partial"
   ],
   "note": "Violated: the constructor from a complete text keeps the first nine characters, country included, as the code, and does not verify the check digit (counterexamples for all codes starting with a digit); the constructor from a country and a text checks the length of the wrong thing and rejects nothing (counterexample). Proved: exactly which texts are rejected, the constructor from two strings round-trips, printing is injective."
  },
  {
   "property": "C44",
   "status": "proved",
   "theorems": [
    "Esl.Codes.C44_checksum_valid",
    "Esl.Codes.C44_detects_digit",
    "Esl.Codes.C44_accepts_exactly",
    "Esl.Codes.C44_round_trip",
    "Esl.Codes.C44_isin_of_cusip"
   ],
   "note": "Full alphabet with *, @ and #. The nine-symbol constructor accepts exactly the correct check digit. The constructor from a string does not verify the digit (not claimed)."
  },
  {
   "property": "C45",
   "status": "partial",
   "theorems": [
    "Esl.Codes.C45_checksum_valid",
    "Esl.Codes.C45_detects_partial",
    "Esl.Codes.C45_counterexample",
    "Esl.Codes.C45_round_trip"
   ],
   "note": "Check digit proved. A change is detected exactly if the values differ modulo ten, so that A to 0 goes unnoticed, and the string constructor does not verify the check digit (counterexample)."
  },
  {
   "property": "C46",
   "status": "partial",
   "theorems": [
    "Esl.Codes.C46_congruent_one_partial",
    "Esl.Codes.C46_detects_partial",
    "Esl.Codes.C46_checksums_differ_partial",
    "Esl.Codes.C46_round_trip",
    "Esl.Codes.C46_counterexample"
   ],
   "note": "Proved for numerical local parts: congruent to 1 modulo 97 without overflow of uint128_t, detection of changes at every place, round trip. Violated for letters in the local part and for the default-constructed LEI (counterexample)."
  },
  {
   "property": "C47",
   "status": "proved",
   "theorems": [
    "Esl.Codes.C47_isin",
    "Esl.Codes.C47_range_needed",
    "Esl.Codes.C47_share_identity",
    "Esl.Codes.C47_share_is_child",
    "Esl.Codes.C47_lei"
   ],
   "note": "Collision-free for last digits below 36^9/1000 and 8-bit ranks; codes collide outside that range (C47_range_needed). LEI codes collide exactly if the hashes agree modulo 36^12. Beyond the claim: identities of shares are different for different companies and ranks (C47_share_identity), but equal to those of properties that the company creates (C47_share_is_child)."
  },
  {
   "property": "C48",
   "status": "partial",
   "theorems": [
    "Esl.Price.C48_constructor",
    "Esl.Price.C48_same_denominator_partial",
    "Esl.Price.C48_strict_order",
    "Esl.Price.C48_counterexample"
   ],
   "note": "Equal denominators; currencies with equal code and different denominators break the order, negation proved."
  },
  {
   "property": "C49",
   "status": "partial",
   "theorems": [
    "Esl.Interval.C49_contains",
    "Esl.Interval.C49_half_open_partial",
    "Esl.Interval.C49_empty_swaps_flags",
    "Esl.Interval.C49_counterexample_closed",
    "Esl.Interval.C49_counterexample_open",
    "Esl.Interval.C49_counterexample_two",
    "Esl.Interval.C49_half_open_dense_partial",
    "Esl.Interval.C49_singleton_swaps_flags",
    "Esl.Interval.C49_contains_dense",
    "Esl.Interval.C49_swaps_flags_dense",
    "Esl.Interval.C49_counterexample_dense",
    "Esl.Interval.C49_degenerate_partial",
    "Esl.Interval.C49_counterexample_degenerate"
   ],
   "note": "Holds for half-open intervals; empty()/singleton() swap open and closed for symmetric intervals, negations proved: over integers, and over dense types (rational numbers), where open intervals with two different bounds have elements. degenerate() is right for half-open intervals and wrong for closed ones (C49_degenerate_partial, C49_counterexample_degenerate)."
  },
  {
   "property": "C50",
   "status": "proved",
   "theorems": [
    "Esl.BQueue.C50_fifo",
    "Esl.BQueue.C50_order_in_time",
    "Esl.BQueue.C50_at_most_once",
    "Esl.BQueue.C50_conserved",
    "Esl.BQueue.C50_only_pushed",
    "Esl.BQueue.C50_pop_result",
    "Esl.BQueue.C50_released",
    "Esl.BQueue.C50_close_releases",
    "Esl.BQueue.C50_terminates"
   ],
   "note": "Any number of threads, every interleaving of lock, condition, body, unlock and notify steps, with spurious wake-ups and failures of try_to_lock. Threads may also call empty() and size() (C169)."
  },
  {
   "property": "C51",
   "status": "partial",
   "theorems": [
    "Esl.BQueue.C51_counterexample_push_ignores_closed",
    "Esl.BQueue.C51_counterexample_closed_queue_accepts",
    "Esl.BQueue.C51_drain_partial"
   ],
   "note": "First half false of the code: push and try_push never look at the closed flag (negation proved). Second half proved: a closed queue is drained without waiting."
  },
  {
   "property": "C52",
   "status": "partial",
   "theorems": [
    "Esl.TPool.C52_accounted",
    "Esl.TPool.C52_exactly_once",
    "Esl.TPool.C52_history",
    "Esl.TPool.C52_defined",
    "Esl.TPool.C52_terminates",
    "Esl.TPool.C52_destructor_returns",
    "Esl.TPool.C52_idle_pool",
    "Esl.TPool.C52_counterexample_zero_threads"
   ],
   "note": "At least one thread; queue operations are single steps (C50 covers their inside; C172 has both in one model); tasks end, do not throw, and nobody enqueues once the destructor has begun (C172: tasks may). Violated for zero threads: no queues exist and the workers access them (counterexample)."
  },
  {
   "property": "C53",
   "status": "partial",
   "theorems": [
    "Esl.Company.C53_parts",
    "Esl.Company.C53_no_profit",
    "Esl.Company.C53_at_most_partial",
    "Esl.Company.C53_counterexample_policy",
    "Esl.Company.C53_total_partial",
    "Esl.Company.C53_counterexample_total",
    "Esl.Company.C53_counterexample_overflow",
    "Esl.Payout.C53_binary64_partial",
    "Esl.Payout.C53_binary64_no_profit",
    "Esl.Payout.C53_counterexample_cent",
    "Esl.Payout.C53_counterexample_exceeds"
   ],
   "note": "All share structures. Over exact arithmetic: exact parts, at most the profit, remainder less than a unit per class. In IEEE arithmetic, for profits of at most 2^49 units: at most the profit, each part within one unit of the exact one (C53_binary64_partial). Violated in IEEE arithmetic for larger profits, which dividends can exceed, and by parts of a cent too few; also violated for the total that a policy reports, which is the sum of dividends times shares if that fits (C53_total_partial) and undefined otherwise, and when the number of shares overflows (counterexamples)."
  },
  {
   "property": "C54",
   "status": "partial",
   "theorems": [
    "Esl.Company.C54_wake_partial",
    "Esl.Company.C54_counterexample_wake",
    "Esl.Company.C54_announcements",
    "Esl.Company.C54_once",
    "Esl.Company.C54_counterexample_announcement"
   ],
   "note": "All histories of steps: exact description of announcements, each made once to each shareholder. Wake-ups violated between announcement and payment; a date of zero is never announced (counterexamples)."
  },
  {
   "property": "C55",
   "status": "partial",
   "theorems": [
    "Esl.Company.C55_equal",
    "Esl.Company.C55_register_partial",
    "Esl.Company.C55_counterexample_rank",
    "Esl.Company.C55_ascending"
   ],
   "note": "All histories of assignments; violated for classes of equal rank (counterexample)."
  },
  {
   "property": "C56",
   "status": "proved",
   "theorems": [
    "Esl.Walras.C56_balanced",
    "Esl.Walras.C56_minimal",
    "Esl.Walras.C56_cleared",
    "Esl.Walras.C56_defined",
    "Esl.Walras.C56_every_property",
    "Esl.Walras.C56_market"
   ],
   "note": "compute_transfers for any demands and any sort order: amounts sum to zero, each participant gets one amount, total deviation from the rounded demands is minimal (equal to the size of the imbalance). Doubles are rationals; truncation as in C++."
  },
  {
   "property": "C57",
   "status": "partial",
   "theorems": [
    "Esl.Walras.C57_net_error",
    "Esl.Walras.C57_netting_partial",
    "Esl.Walras.C57_counterexample",
    "Esl.Walras.C57_counterexample_clearing"
   ],
   "note": "Net error of netting characterised exactly; equality when the larger side is sent/received first as stated. Counterexample: a property present in only one bundle, and one in the clearing itself."
  },
  {
   "property": "C58",
   "status": "partial",
   "theorems": [
    "Esl.Walras.C58_flows_partial",
    "Esl.Walras.C58_delivered",
    "Esl.Walras.C58_single_partial",
    "Esl.Walras.C58_counterexample"
   ],
   "note": "Exact flows for every clearing (delivered, charged, shorted, covered). Counterexample: a participant that buys two properties is sent only one, because the asset bag is replaced."
  },
  {
   "property": "C59",
   "status": "partial",
   "theorems": [
    "Esl.Tat.C59_breaker_partial",
    "Esl.Tat.C59_counterexample_minimization",
    "Esl.Tat.C59_counterexample_derivative_free",
    "Esl.Tat.C59_counterexample_default",
    "Esl.Tat.C59_no_worse_partial",
    "Esl.Tat.C59_no_worse_or_bound",
    "Esl.Tat.C59_counterexample_worse",
    "Esl.Tat.C59_counterexample_derivative_free_worse",
    "Esl.Walras.C59_applied",
    "Esl.Walras.C59_positive",
    "Esl.Walras.C59_counterexample_negative"
   ],
   "note": "Circuit breaker: proved for root finding for every solver trace; the other three methods ignore it (counterexamples, one with the default methods and a negative multiplier). No worse than the start: proved for one property with monotone excess demand, in general up to the bounds; counterexamples for a non-monotone demand and for the derivative-free root finder. Nonnegative multipliers keep prices positive (any sign-preserving rounding); negative ones make negative prices. All outcomes of applying a solution are described (C59_applied)."
  },
  {
   "property": "C60",
   "status": "partial",
   "theorems": [
    "Esl.Walras.C60_advances_partial",
    "Esl.Walras.C60_counterexample_stall"
   ],
   "note": "Counterexample theorem in general form: in the scheduler model, any simulation with a price setter that gets no orders never completes the step, whatever the others do. Partial: with at least one order the setter wakes up one step later."
  },
  {
   "property": "C61",
   "status": "partial",
   "theorems": [
    "Esl.Algo.C61_allocate_partial",
    "Esl.Algo.C61_counterexample_half",
    "Esl.Algo.C61_counterexample_too_much",
    "Esl.Algo.C61_counterexample_two_halves",
    "Esl.Algo.C61_counterexample_range",
    "Esl.Algo.C61_counterexample_negative",
    "Esl.Simplex.C61_binary64_partial",
    "Esl.Simplex.C61_counterexample_sum"
   ],
   "note": "Holds if the rounded values sum to no more than the rounded total: over exact arithmetic (C61_allocate_partial), and in IEEE arithmetic up to roundings of the total (C61_binary64_partial). Otherwise the loop runs out of bounds, for every rounding (counterexamples); in IEEE arithmetic the result may not sum to the nearest integer of the exact total (C61_counterexample_sum). Fractions that end in a half can get the additional one although they were rounded up (C61_counterexample_half). Totals beyond int and negative fractions: counterexamples."
  },
  {
   "property": "C62",
   "status": "partial",
   "theorems": [
    "Esl.Algo.C62_points",
    "Esl.Algo.C62_simplex",
    "Esl.Algo.C62_corners_missing",
    "Esl.Simplex.C62_binary64_partial",
    "Esl.Simplex.C62_counterexample_sum",
    "Esl.Simplex.C62_counterexample_missing"
   ],
   "note": "Exactly over rational numbers (C62_points, C62_simplex). In IEEE arithmetic dimension, signs and distinctness hold and the sum is the total up to one rounding per coordinate (C62_binary64_partial); the sum need not be exact, and points are missing (counterexamples)."
  },
  {
   "property": "C63",
   "status": "partial",
   "theorems": [
    "Esl.Text.C63_plain_records_partial",
    "Esl.Text.C63_counterexample_comma",
    "Esl.Text.C63_counterexample_no_reader",
    "Esl.Text.C63_counterexample_newline",
    "Esl.Text.C63_render"
   ],
   "note": "Proved for fields without separators, newlines or quotes; violated for a field with a comma, and the escaping used has no reader (counterexamples)."
  },
  {
   "property": "C64",
   "status": "partial",
   "theorems": [
    "Esl.Text.C64_vector",
    "Esl.Text.C64_array",
    "Esl.Text.C64_tuple",
    "Esl.Text.C64_map",
    "Esl.Text.C64_queue_prefix",
    "Esl.Text.C64_queue_partial",
    "Esl.Text.C64_counterexample_queue"
   ],
   "note": "Vectors, arrays, tuples and maps of all lengths; violated for queues of three or more elements, of which only the first half is shown (counterexample). Printing of sets and lists does not compile and is not modelled."
  },
  {
   "property": "C65",
   "status": "partial",
   "theorems": [
    "Esl.OpenBook.C65_field",
    "Esl.OpenBook.C65_message_partial",
    "Esl.OpenBook.C65_counterexample_time"
   ],
   "note": "All byte strings of the length of a message; violated for times of 2^32 microseconds (71.6 minutes) and later, which wrap (counterexample)."
  },
  {
   "property": "C66",
   "status": "partial",
   "theorems": [
    "Esl.Saved.C66_share_class",
    "Esl.Saved.C66_counterexample_timing",
    "Esl.Saved.C66_counterexample_price_pointer",
    "Esl.Archive.C66_sequence",
    "Esl.Archive.C66_tuple",
    "Esl.Archive.C66_entity",
    "Esl.Archive.C66_jurisdiction",
    "Esl.Archive.C66_person",
    "Esl.Archive.C66_rational_partial",
    "Esl.Archive.C66_counterexample_rational",
    "Esl.Archive.C66_interest_rate_partial",
    "Esl.Archive.C66_counterexample_price",
    "Esl.Archive.C66_price_saved_partial",
    "Esl.Archive.C66_counterexample_quote",
    "Esl.Archive.C66_counterexample_producer"
   ],
   "note": "Proved for sequences, tuples, identities, entities, currencies, jurisdictions, legal persons and share classes; for rational numbers exactly when both parts fit int. Violated for larger rational numbers, all prices, all quotes, all producers and all timings of agents (counterexamples); what is saved of a price would suffice (C66_price_saved_partial). Boost's own archives are taken for granted."
  },
  {
   "property": "C67",
   "status": "partial",
   "theorems": [
    "Esl.Maker.C67_bid_below_ask_partial",
    "Esl.Maker.C67_counterexample_risk_neutral",
    "Esl.Maker.C67_inventory",
    "Esl.Maker.C67_never_crossed",
    "Esl.Maker.C67_binary64",
    "Esl.Maker.C67_binary64_inventory",
    "Esl.Maker.C67_binary64_rounding",
    "Esl.Maker.C67_counterexample_little_aversion"
   ],
   "note": "Over real numbers with the real logarithm: quotes never cross for a nonnegative spread, the inventory shifts quotes in the right direction, exact rounding bounds for gamma > 0 and k > 0. Violated for gamma = 0, which the documentation allows (counterexample). In IEEE arithmetic with any logarithm that is not negative from one on: the bid is below the ask (C67_binary64), both are rounded outwards (C67_binary64_rounding), and a larger inventory moves no quote up (C67_binary64_inventory); but the spread vanishes for a risk aversion below 2^-54 times the arrival rate (C67_counterexample_little_aversion)."
  },
  {
   "property": "C68",
   "status": "partial",
   "theorems": [
    "Esl.MessageCode.C68_codes_partial",
    "Esl.MessageCode.C68_counterexample_mask",
    "Esl.MessageCode.C68_library_classes"
   ],
   "note": "All offsets below the mask; the offset equal to the mask is accepted and collides with offset 0, negation proved."
  },
  {
   "property": "C69",
   "status": "partial",
   "theorems": [
    "Esl.Out.C69_streams_partial",
    "Esl.Out.C69_once",
    "Esl.Out.C69_values",
    "Esl.Out.C69_add",
    "Esl.Out.C69_counterexample_second_output"
   ],
   "note": "All histories: each stream gets each value put after it was added exactly once, in order. Violated when an output is created twice under one name (counterexample)."
  },
  {
   "property": "C70",
   "status": "partial",
   "theorems": [
    "Esl.Company.C70_shareholder_partial",
    "Esl.Company.C70_counterexample_currency",
    "Esl.Company.C70_counterexample_bondholder"
   ],
   "note": "All sequences of quote messages; violated for bondholders, who keep the first price, and for a change of currency (counterexamples)."
  },
  {
   "property": "C71",
   "status": "partial",
   "theorems": [
    "Esl.Sched.C71_counterexample_deactivated",
    "Esl.Sched.C71_bounded_partial"
   ],
   "note": "False of the code: deactivation leaves the wake-up entry, so no step from that time on completes; negation proved. Proved: completed steps never pass the stale wake-up."
  },
  {
   "property": "C72",
   "status": "proved",
   "theorems": [
    "Esl.Comm.C72_locked",
    "Esl.Comm.C72_registered"
   ],
   "note": "All registration histories."
  },
  {
   "property": "C73",
   "status": "partial",
   "theorems": [
    "Esl.Accounting.C73_reporting_currency_partial",
    "Esl.Accounting.C73_counterexample",
    "Esl.Accounting.C73_converted_amount_partial",
    "Esl.Accounting.C73_counterexample_overflow"
   ],
   "note": "Converted amounts carry the foreign currency label in the code, negation proved for every conversion. Apart from that they are right, rounded down, if products stay below 2^63 (C73_converted_amount_partial); larger products wrap around (C73_counterexample_overflow)."
  },
  {
   "property": "C74",
   "status": "partial",
   "theorems": [
    "Esl.Announce.C74_room_partial",
    "Esl.Announce.C74_counterexample_freed",
    "Esl.Announce.C74_one_partial",
    "Esl.Sched.C74_counterexample_activate",
    "Esl.Sched.C74_activate_partial"
   ],
   "note": "Violated: the code appends to the vector it iterates over, which the language leaves undefined for every list that is not empty. At the level of memory the loop reads a freed buffer exactly if the buffer has no room for twice as many agents less one, which is the case in every new environment with two or more agents (for any growth policy that at most doubles the buffer). Proved: the exact condition, and the result for the other lists."
  },
  {
   "property": "C75",
   "status": "partial",
   "theorems": [
    "Esl.Static.C75_cancel_resting_partial",
    "Esl.Static.C75_counterexample_executed",
    "Esl.Static.C75_counterexample_lost_orders"
   ],
   "note": "Cancelling a resting order removes exactly it, for all careful histories; cancelling an executed order is reported again and corrupts the free list (counterexamples)."
  },
  {
   "property": "C76",
   "status": "proved",
   "theorems": [
    "Esl.Codes.C76_accepts",
    "Esl.Codes.C76_hash_injective"
   ],
   "note": "Acceptance and injectivity of std::hash on size_t of 64 bits."
  },
  {
   "property": "C77",
   "status": "partial",
   "theorems": [
    "Esl.Codes.C77_round_trip",
    "Esl.Codes.C77_counterexample_length",
    "Esl.Codes.C77_length_partial"
   ],
   "note": "Texts of four characters are handled as stated; longer texts are cut and accepted and shorter ones than three are read beyond their end (counterexample)."
  },
  {
   "property": "C78",
   "status": "proved",
   "theorems": [
    "Esl.Algo.C78_power",
    "Esl.Algo.C78_power_exact"
   ],
   "note": "Unsigned types of every width."
  },
  {
   "property": "C79",
   "status": "proved",
   "theorems": [
    "Esl.Algo.C79_concatenate",
    "Esl.Algo.C79_slice",
    "Esl.Algo.C79_cut_and_join"
   ],
   "note": "All element types, lengths and cuts."
  },
  {
   "property": "C80",
   "status": "proved",
   "theorems": [
    "Esl.OpenBook.C80_main_session"
   ],
   "note": "All files with valid scale codes and all symbols; what other scale codes do is C81."
  },
  {
   "property": "C81",
   "status": "partial",
   "theorems": [
    "Esl.OpenBook.C81_price_partial",
    "Esl.OpenBook.C81_counterexample_scale"
   ],
   "note": "Scales 2 to 11; violated for smaller scales, which throw, and larger ones, for which the lot does not fit (counterexample)."
  },
  {
   "property": "C82",
   "status": "partial",
   "theorems": [
    "Esl.Archive.C82_header",
    "Esl.Archive.C82_contents_partial",
    "Esl.Archive.C82_counterexample_header"
   ],
   "note": "Violated for every message type: the header is never saved. Proved for contents, and for headers by themselves."
  },
  {
   "property": "C83",
   "status": "partial",
   "theorems": [
    "Esl.Archive.C83_parameters_partial",
    "Esl.Archive.C83_missing",
    "Esl.Archive.C83_counterexample_threads"
   ],
   "note": "Violated for threads, which is given the verbosity; proved for the others."
  },
  {
   "property": "C84",
   "status": "partial",
   "theorems": [
    "Esl.Company.C84_records",
    "Esl.Company.C84_first_partial",
    "Esl.Company.C84_counterexample_later",
    "Esl.Company.C84_counterexample_twice"
   ],
   "note": "Exact description of the records for all histories of announcements; violated for later ex-dividend dates and several announcements in a step (counterexamples)."
  },
  {
   "property": "C85",
   "status": "proved",
   "theorems": [
    "Esl.Company.C85_stock_holdings",
    "Esl.Company.C85_unknown"
   ],
   "note": "All holdings."
  },
  {
   "property": "C86",
   "status": "partial",
   "theorems": [
    "Esl.Walras.C86_exact_partial",
    "Esl.Walras.C86_counterexample_forced_trade",
    "Esl.Walras.C86_counterexample_wrong_side"
   ],
   "note": "Partial: exact characterisation when the rounded demands already balance; counterexamples: a participant with zero demand is made to trade, and one on the wrong side."
  },
  {
   "property": "C87",
   "status": "partial",
   "theorems": [
    "Esl.Walras.C87_cash_partial",
    "Esl.Walras.C87_difference_partial",
    "Esl.Walras.C87_balanced_iff_partial",
    "Esl.Walras.C87_counterexample",
    "Esl.Walras.C87_rounded_partial",
    "Esl.Walras.C87_counterexample_lots"
   ],
   "note": "Proved for any number of properties and any positions, before netting: with lots that divide the prices, cash received and sent differ by exactly the change of the price of the units that close short positions, so they balance if and only if these are worth the same at the old prices; with any lots and any rounding of payments by at most e, up to 2e per participant and property. Negations: units that close short positions are charged at the old price; payments cut off in lots make the market lose money in proportion to the number of buyers."
  },
  {
   "property": "C88",
   "status": "proved",
   "theorems": [
    "Esl.Walras.C88_dates_increase",
    "Esl.Walras.C88_everyone"
   ],
   "note": "All histories from the initial state; no assumption on the order of times."
  },
  {
   "property": "C89",
   "status": "partial",
   "theorems": [
    "Esl.Walras.C89_cleared_orders",
    "Esl.Walras.C89_fresh_partial",
    "Esl.Walras.C89_counterexample_stale",
    "Esl.Walras.C89_counterexample_early"
   ],
   "note": "Exact characterisation of the cleared orders for all inboxes; partial statement when no order is stale. Counterexamples: one stale order suppresses all later ones; an order that is not due yet is cleared early."
  },
  {
   "property": "C90",
   "status": "partial",
   "theorems": [
    "Esl.Tat.C90_root_value",
    "Esl.Tat.C90_minimum_value",
    "Esl.Tat.C90_sum_of_squares",
    "Esl.Tat.C90_agree_partial",
    "Esl.Tat.C90_counterexample_unmentioned",
    "Esl.Tat.C90_counterexample_untraded"
   ],
   "note": "Root value and sum of squares characterised exactly for exact arithmetic. Counterexamples: traded property that no order mentions is undefined behaviour; orders for an untraded property make the formulations differ."
  },
  {
   "property": "C91",
   "status": "partial",
   "theorems": [
    "Esl.Tat.C91_several_partial",
    "Esl.Tat.C91_derivative_free_minimization",
    "Esl.Tat.C91_minimization_partial",
    "Esl.Tat.C91_counterexample_one_step",
    "Esl.Tat.C91_counterexample_stops",
    "Esl.Tat.C91_counterexample_others"
   ],
   "note": "Several properties strictly within the circuit breaker, and derivative-free minimization: proved for all traces. Minimization: up to a vanishing gradient. Counterexamples: one property, where the solver is stopped after one successful step (general theorem), minimization at a stationary point, derivative-free root finder that gave up."
  },
  {
   "property": "C92",
   "status": "partial",
   "theorems": [
    "Esl.Tat.C92_fallback",
    "Esl.Tat.C92_no_methods",
    "Esl.Tat.C92_counterexample_unreachable"
   ],
   "note": "Fallback order proved for all lists. Counterexample, general: methods after the derivative-free root finder are never tried, which includes the last of the default methods."
  },
  {
   "property": "C93",
   "status": "partial",
   "theorems": [
    "Esl.Impact.C93_counterexample_constant",
    "Esl.Impact.C93_counterexample_volume",
    "Esl.Impact.C93_counterexample_sides",
    "Esl.Impact.C93_balanced_partial"
   ],
   "note": "General negations: all quotes in all histories have the initial prices; volumes of two and more count for nothing because volume and side are swapped. Partial: balanced orders."
  },
  {
   "property": "C94",
   "status": "partial",
   "theorems": [
    "Esl.Impact.C94_listed_partial",
    "Esl.Impact.C94_counterexample_unlisted",
    "Esl.Impact.C94_counterexample_twice"
   ],
   "note": "Partial: all histories in which orders are for listed properties. Counterexamples: an order for an unlisted property lists it at price zero; the same quotes are sent twice."
  },
  {
   "property": "C95",
   "status": "partial",
   "theorems": [
    "Esl.Impact.C95_counterexample_stall",
    "Esl.Impact.C95_advances_partial",
    "Esl.Impact.C95_counterexample_stale"
   ],
   "note": "General negation in the scheduler model from time 2 on; partial: time advances when there are fresh orders."
  },
  {
   "property": "C96",
   "status": "partial",
   "theorems": [
    "Esl.Exchange.C96_counterexample_streams_ignored",
    "Esl.Exchange.C96_counterexample_snapshot_repeats",
    "Esl.Exchange.C96_counterexample_snapshot_never",
    "Esl.Exchange.C96_counterexample_cancel_unsubscribed",
    "Esl.Exchange.C96_stream_partial",
    "Esl.Exchange.C96_cancel_partial",
    "Esl.Exchange.C96_unrequested",
    "Esl.Exchange.C96_current",
    "Esl.Exchange.C96_counterexample_cancellations"
   ],
   "note": "Stream requests are ignored until somebody asked for a snapshot (proved in general), snapshots repeat for ever or never come, cancelling without a subscription is undefined behaviour. Streams after a snapshot, cancelling, absence of unrequested data and currency of the quotes are proved for all histories. Cancellations change the best quotes without any market data (C96_counterexample_cancellations)."
  },
  {
   "property": "C97",
   "status": "partial",
   "theorems": [
    "Esl.Exchange.C97_counterexample_all_reports",
    "Esl.Exchange.C97_counterexample_twice",
    "Esl.Exchange.C97_once_partial"
   ],
   "note": "Fails when the order changes the best bid or ask: then the stream shows the trade once per report (general theorem). Proved when the best quotes stay, without self-trade or waiting reports."
  },
  {
   "property": "C98",
   "status": "proved",
   "theorems": [
    "Esl.Exchange.C98_exchange",
    "Esl.Exchange.C98_engine",
    "Esl.Exchange.C98_engine_present"
   ],
   "note": "Proved for all histories of the exchange (book contents) and of the matching engine (including reports)."
  },
  {
   "property": "C99",
   "status": "proved",
   "theorems": [
    "Esl.Mpi.C99_activate",
    "Esl.Mpi.C99_history"
   ],
   "note": "Proved for any history. MPI transport and serialization are assumed faithful."
  },
  {
   "property": "C100",
   "status": "partial",
   "theorems": [
    "Esl.Mpi.C100_counterexample_count",
    "Esl.Mpi.C100_counterexample_idle",
    "Esl.Mpi.C100_forgotten_partial",
    "Esl.Mpi.C100_counterexample_remembered",
    "Esl.Mpi.C100_counterexample_again"
   ],
   "note": "False in general: the collective operation is given one element per deactivated agent instead of one per process, so it is undefined unless the numbers are equal, in particular when nothing was deactivated; each process learns of one agent per process; the list is never cleared. Proved what holds when the numbers are equal."
  },
  {
   "property": "C101",
   "status": "proved",
   "theorems": [
    "Esl.Mpi.C101_agree",
    "Esl.Mpi.C101_no_such_process"
   ],
   "note": "Proved for proposals to existing processes; others are undefined behaviour."
  },
  {
   "property": "C102",
   "status": "partial",
   "theorems": [
    "Esl.Mpi.C102_migrate_partial",
    "Esl.Mpi.C102_unbuffered_partial",
    "Esl.Mpi.C102_addresses_partial",
    "Esl.Mpi.C102_counterexample_self",
    "Esl.Mpi.C102_counterexample_absent"
   ],
   "note": "Proved for orderly migrations (between different processes, each agent once, from where it is) as a transition system with and without buffering: bounded, never stuck, agents end where they should, address books right. False for migrations to the own process (agent lost) and of absent agents (target waits forever)."
  },
  {
   "property": "C103",
   "status": "partial",
   "theorems": [
    "Esl.Mpi.C103_local_partial",
    "Esl.Mpi.C103_counterexample_lost",
    "Esl.Mpi.C103_counterexample_count",
    "Esl.Mpi.C103_counterexample_unknown"
   ],
   "note": "False: messages to other processes are copied and dropped, the reported number is always zero, unknown recipients are undefined behaviour on process zero. Proved that messages within a process are delivered exactly once."
  },
  {
   "property": "C104",
   "status": "partial",
   "theorems": [
    "Esl.Mpi.C104_counterexample_undefined",
    "Esl.Mpi.C104_ends_partial"
   ],
   "note": "False: after the first step the run reaches the deactivation, which is undefined (C100). Proved when it ends."
  },
  {
   "property": "C105",
   "status": "partial",
   "theorems": [
    "Esl.Mpi.C105_lookup_partial",
    "Esl.Mpi.C105_counterexample_unknown"
   ],
   "note": "False for unknown identities: a null pointer is inserted and later dereferenced. Proved for histories that look up active agents."
  },
  {
   "property": "C106",
   "status": "partial",
   "theorems": [
    "Esl.Mpi.C106_counterexample_stuck",
    "Esl.Mpi.C106_first_partial"
   ],
   "note": "False: the model's time is never changed, so that every call starts at the start of the simulation; from the second call nothing happens. Proved what the first call does. Pending activations are left out (undefined behaviour by C74)."
  },
  {
   "property": "C107",
   "status": "proved",
   "theorems": [
    "Esl.Ticker.C107_order",
    "Esl.Ticker.C107_text",
    "Esl.Ticker.C107_map"
   ],
   "note": "Order, text and sorted maps, for all tickers and histories. The hash of tickers is not modelled (it depends on boost::hash_combine)."
  },
  {
   "property": "C108",
   "status": "partial",
   "theorems": [
    "Esl.Names.C108_iso_partial",
    "Esl.Names.C108_iso_complete",
    "Esl.Names.C108_lookup",
    "Esl.Names.C108_distinct",
    "Esl.Names.C108_named_partial",
    "Esl.Names.C108_counterexample_unnamed"
   ],
   "note": "Names follow the table for all codes, are distinct, and contain the keyword of the country in Spec/Iso.lean. Violated for Andorra and India: these constants have no name (C108_counterexample_unnamed)."
  },
  {
   "property": "C109",
   "status": "proved",
   "theorems": [
    "Esl.Names.C109_lookup",
    "Esl.Names.C109_distinct",
    "Esl.Names.C109_constants",
    "Esl.Names.C109_accepts",
    "Esl.Names.C109_hash"
   ],
   "note": "Proved for all codes. USN and XXX have no name of their own and print their code."
  },
  {
   "property": "C110",
   "status": "partial",
   "theorems": [
    "Esl.Log.C110_kept",
    "Esl.Log.C110_main",
    "Esl.Log.C110_counterexample_console",
    "Esl.Log.C110_counterexample_dynamic",
    "Esl.Log.C110_dynamic_filtered"
   ],
   "note": "Proved for the log's buffer and severities known when compiling. Violated on the console in development builds (messages below the filter are shown) and for get(severity), which writes no severity. Messages of dynamic severity are filtered likewise (C110_dynamic_filtered)."
  },
  {
   "property": "C111",
   "status": "partial",
   "theorems": [
    "Esl.Log.C111_pieces",
    "Esl.Log.C111_progress",
    "Esl.Log.C111_counterexample_lines",
    "Esl.Log.C111_counterexample_endl"
   ],
   "note": "Proved for single insertions: each value is contiguous, in order, nothing lost, and the holder of the mutex can always finish. Violated for lines of several insertions, and channel::endl locks the mutex twice."
  },
  {
   "property": "C112",
   "status": "partial",
   "theorems": [
    "Esl.Log.C112_root_partial",
    "Esl.Log.C112_name",
    "Esl.Log.C112_suffix",
    "Esl.Log.C112_counterexample_directory"
   ],
   "note": "Proved for the last occurrence of the text esl/ and for paths without it. Violated for directories whose name merely ends in esl."
  },
  {
   "property": "C113",
   "status": "partial",
   "theorems": [
    "Esl.Python.C113_map",
    "Esl.Python.C113_inbox_partial",
    "Esl.Python.C113_counterexample_missing",
    "Esl.Python.C113_counterexample_several"
   ],
   "note": "Proved for maps, and for inboxes at times with exactly one message. Violated for inboxes: assignment to a time without messages does nothing, and for a time with several messages it replaces all of them."
  },
  {
   "property": "C114",
   "status": "partial",
   "theorems": [
    "Esl.Python.C114_low_partial",
    "Esl.Python.C114_counterexample_release",
    "Esl.Python.C114_counterexample_severity",
    "Esl.Python.C114_counterexample_object"
   ],
   "note": "Proved for strings logged as trace or notice. Violated for warnings and errors, which are logged as notices (and so vanish from release builds), and for objects other than strings, whose text is read after it was destroyed."
  },
  {
   "property": "C115",
   "status": "partial",
   "theorems": [
    "Esl.Python.C115_country",
    "Esl.Python.C115_isin_partial",
    "Esl.Python.C115_counterexample_isin",
    "Esl.Python.C115_counterexample_currency",
    "Esl.Python.C115_counterexample_currencies",
    "Esl.Python.C115_entity",
    "Esl.Python.C115_print_country",
    "Esl.Python.C115_counterexample_print"
   ],
   "note": "Proved for countries, legal entities and for codes of nine characters. Violated for currencies (only two of three letters, so USD and USN agree; and printing one raises an exception) and for shorter codes of securities (undefined behaviour)."
  },
  {
   "property": "C116",
   "status": "partial",
   "theorems": [
    "Esl.Python.C116_counterexample_agent",
    "Esl.Python.C116_counterexample_send",
    "Esl.Python.C116_communicator_partial"
   ],
   "note": "Violated for agents in general: inbox and outbox are copies, and send_message does nothing. Proved for appending to the outbox of a communicator."
  },
  {
   "property": "C117",
   "status": "partial",
   "theorems": [
    "Esl.Python.C117_read_partial",
    "Esl.Python.C117_counterexample_price"
   ],
   "note": "Proved for floating point and integer parameters. Violated for prices, which can be set and not read."
  },
  {
   "property": "C118",
   "status": "proved",
   "theorems": [
    "Esl.Python.C118_time"
   ],
   "note": "Proved for all returned objects; a returned integer outside of uint64 raises an exception."
  },
  {
   "property": "C119",
   "status": "partial",
   "theorems": [
    "Esl.Python.C119_demand_partial",
    "Esl.Python.C119_counterexample_dropped",
    "Esl.Python.C119_supply"
   ],
   "note": "Supply proved; demand proved for entries that are numbers for properties. Violated for others: they are dropped without an exception."
  },
  {
   "property": "C120",
   "status": "partial",
   "theorems": [
    "Esl.Python.C120_price_partial",
    "Esl.Python.C120_counterexample_rate"
   ],
   "note": "Proved for prices. Violated for exchange rates: a null pointer is read."
  },
  {
   "property": "C121",
   "status": "partial",
   "theorems": [
    "Esl.Names.C121_units_partial",
    "Esl.Names.C121_counterexample_units"
   ],
   "note": "Proved for all currency constants but three. Violated for TND (100, should be 1000), CLF (100, should be 10000) and UYI (100, should be 1). The standard is written down in Spec/Iso.lean."
  },
  {
   "property": "C122",
   "status": "partial",
   "theorems": [
    "Esl.Names.C122_jurisdictions_partial",
    "Esl.Names.C122_counterexample_missing"
   ],
   "note": "Proved for every jurisdiction constant, against the table of shared currencies in Spec/Iso.lean. Violated for five countries, which have no jurisdiction: AQ, FK, GS, PS, TW."
  },
  {
   "property": "C123",
   "status": "partial",
   "theorems": [
    "Esl.Construction.C123_property_partial",
    "Esl.Construction.C123_property_injective",
    "Esl.Construction.C123_tagged",
    "Esl.Construction.C123_counterexample_security",
    "Esl.Construction.C123_agent_partial",
    "Esl.Construction.C123_counterexample_owner",
    "Esl.Construction.C123_user_partial",
    "Esl.Construction.C123_virtual",
    "Esl.Construction.C123_plain",
    "Esl.Construction.C123_counterexample_user"
   ],
   "note": "Proved for stocks, bonds, money, assets and twelve classes of agents, and for classes of users whose constructor names the virtual base. Violated by security, owner<T> and debtor, whose objects always have the empty identifier, and by classes of users that pass the identifier to their direct base only."
  },
  {
   "property": "C124",
   "status": "partial",
   "theorems": [
    "Esl.Construction.C124_parties_partial",
    "Esl.Construction.C124_lending_parties",
    "Esl.Construction.C124_counterexample_issuer",
    "Esl.Construction.C124_counterexample_loans",
    "Esl.Construction.C124_counterexample_lending",
    "Esl.Construction.C124_counterexample_inventory",
    "Esl.Construction.C124_bonds_partial"
   ],
   "note": "Proved: loans and lending contracts know their parties; bonds with different identifiers are held side by side. Violated: all loans share the empty identifier, so an inventory holds at most one; lending contracts on one security share an identifier whoever the parties are; a bond drops its issuer."
  },
  {
   "property": "C125",
   "status": "partial",
   "theorems": [
    "Esl.Messages.C125_created_partial",
    "Esl.Messages.C125_nobody",
    "Esl.Messages.C125_sender_partial",
    "Esl.Messages.C125_counterexample_sender",
    "Esl.Messages.C125_library_partial",
    "Esl.Messages.C125_counterexample_take",
    "Esl.Messages.C125_counterexample_sent"
   ],
   "note": "Proved: recipient, delivery time, code, contents and queueing for all arguments; the sender for all messages of the library but one kind. Violated: create_message does not set the sender or the time of sending, so that without constructor arguments the sender is empty and the time zero; transfers by which a Walrasian market takes property name the participant as sender; all messages of the library except those of the exchange are sent at time zero."
  },
  {
   "property": "C126",
   "status": "partial",
   "theorems": [
    "Esl.Messages.C126_transfer_partial",
    "Esl.Messages.C126_counterexample_orders",
    "Esl.Messages.C126_counterexample_no_order",
    "Esl.Messages.C126_counterexample_quotes",
    "Esl.Messages.C126_no_quotes_partial"
   ],
   "note": "Proved for transfers and for quote messages without quotes. Violated for all orders (nothing is saved) and for every quote message with a quote (loading always throws)."
  },
  {
   "property": "C127",
   "status": "proved",
   "theorems": [
    "Esl.Messages.C127_reply",
    "Esl.Messages.C127_market"
   ],
   "note": "Proved for all quotes."
  },
  {
   "property": "C128",
   "status": "partial",
   "theorems": [
    "Esl.Messages.C128_rate_one_partial",
    "Esl.Messages.C128_counterexample_rate",
    "Esl.Messages.C128_at_least_shift_partial",
    "Esl.Messages.C128_counterexample_undefined",
    "Esl.Exchange.C128_exchange_partial",
    "Esl.Exchange.C128_counterexample_counterparty"
   ],
   "note": "Proved for market data and for reports to the sender of the order, and the lower bound by the shift. Violated: the counterparty's report takes the latency of the sender of the order; the rate of shifted_gamma_latency is used as scale, so that the documented latency holds for the rate one only. Random numbers are arguments and real numbers are rational. Latencies of minus one or less, and those that no duration can hold, are undefined (C128_counterexample_undefined)."
  },
  {
   "property": "C129",
   "status": "partial",
   "theorems": [
    "Esl.Messages.C129_empty_partial",
    "Esl.Messages.C129_counterexample_assets"
   ],
   "note": "Violated: the assets are always zero."
  },
  {
   "property": "C130",
   "status": "partial",
   "theorems": [
    "Esl.Arith.C130_amounts_partial",
    "Esl.Arith.C130_laws_partial",
    "Esl.Arith.C130_number_partial",
    "Esl.Arith.C130_counterexample_product",
    "Esl.Arith.C130_counterexample_quotient",
    "Esl.Arith.C130_counterexample_number",
    "Esl.Arith.C130_counterexample_currencies",
    "Esl.Arith.C130_counterexample_limits"
   ],
   "note": "Sums, differences, negation, integer multiples (in range) and products and quotients with numbers are proved; the property fails for products and quotients of prices (in smallest units), for adding numbers (in smallest units), for different currencies when assertions are off, and at the limits of the range. Assertions are modelled as compiled out."
  },
  {
   "property": "C131",
   "status": "partial",
   "theorems": [
    "Esl.Arith.C131_round_trip_partial",
    "Esl.Arith.C131_undivided_partial",
    "Esl.Arith.C131_representable_partial",
    "Esl.Arith.C131_whole_partial",
    "Esl.Arith.C131_order_partial",
    "Esl.Arith.C131_counterexample",
    "Esl.Arith.C131_counterexample_drift"
   ],
   "note": "With IEEE double arithmetic: the result is the same or one smallest unit nearer to zero (up to 2^51 units), exact for amounts that are floating-point numbers (whole amounts, halves, quarters) and in undivided currencies, and the order is preserved; 29 cents become 28, and the losses of repeated conversions add up."
  },
  {
   "property": "C132",
   "status": "partial",
   "theorems": [
    "Esl.Arith.C132_sums_partial",
    "Esl.Arith.C132_counterexample_product",
    "Esl.Arith.C132_counterexample_quotient",
    "Esl.Arith.C132_numbers_partial",
    "Esl.Arith.C132_round_trip_partial",
    "Esl.Arith.C132_counterexample_lot"
   ],
   "note": "Sums and differences are proved, and the way there and back with a lot of one; for any other lot it always fails, since the price per item is taken for the price of the lot. Products and quotients are of numbers of subunits per lot, so that they are wrong by the factor of the lot times the subunits."
  },
  {
   "property": "C133",
   "status": "partial",
   "theorems": [
    "Esl.Arith.C133_number_partial",
    "Esl.Arith.C133_counterexample_number",
    "Esl.Arith.C133_to_number_partial",
    "Esl.Arith.C133_inflation_partial",
    "Esl.Arith.C133_counterexample_currency",
    "Esl.Arith.C133_exchange_rate",
    "Esl.Arith.C133_counterexample_precision",
    "Esl.Arith.C133_similar_partial",
    "Esl.Arith.C133_counterexample_large"
   ],
   "note": "Within one step of the precision, apart from rounding; inflation is exact for a positive first price; exchange rates are exact. It fails for decimal numbers such as 0.0003, for prices in different currencies, and for the precision of exchange rates, which is that of the lowest terms. Exchange rates from numbers are within one step of the rate they are made like (C133_similar_partial); undefined from 2^64 steps on (C133_counterexample_large)."
  },
  {
   "property": "C134",
   "status": "partial",
   "theorems": [
    "Esl.Clearing.C134_unsolved",
    "Esl.Clearing.C134_settled_partial",
    "Esl.Clearing.C134_budget_partial",
    "Esl.Clearing.C134_counterexample_budget",
    "Esl.Clearing.C134_counterexample_silent",
    "Esl.Clearing.C134_counterexample_order"
   ],
   "note": "Proved for all markets, rounding functions and sorts: an unsolved clearing changes nothing; a solved one assigns units that balance and are close to the demands, and participants with one trade exchange exactly what follows. Missing: participants that trade several properties (C57, C58). Negations: a price rounded up to one smallest unit makes a buyer pay more than it offered; orders without any demand, for untraded properties or with a zero multiplier have undefined behaviour."
  },
  {
   "property": "C135",
   "status": "partial",
   "theorems": [
    "Esl.Unique.C135_conserved",
    "Esl.Unique.C135_one_owner",
    "Esl.Unique.C135_sets_partial",
    "Esl.Unique.C135_counterexample_nothing",
    "Esl.Unique.C135_counterexample_self",
    "Esl.Unique.C135_refused"
   ],
   "note": "Conservation at every moment and one owner are proved for every history. The set of unique items agrees with the inventory if transfers are between different owners and move one piece; it does not for transfers of the amount zero (release build) or to oneself. Giving more of an item than one has ends the run with an exception (C135_refused)."
  },
  {
   "property": "C136",
   "status": "partial",
   "theorems": [
    "Esl.Unique.C136_insert",
    "Esl.Unique.C136_erase_partial",
    "Esl.Unique.C136_round_trip",
    "Esl.Unique.C136_counterexample_not_atomic",
    "Esl.Unique.C136_counterexample_nothing",
    "Esl.Unique.C136_sets",
    "Esl.Unique.C136_counterexample_erase_set",
    "Esl.Unique.C136_unique_partial",
    "Esl.Unique.C136_counterexample_duplicate"
   ],
   "note": "Insertion, there-and-back and the set operations are proved. A refused removal has removed earlier items; removing nothing of an item without an entry dereferences the end iterator; erasing a set of unique items uses iterators of another container."
  },
  {
   "property": "C137",
   "status": "partial",
   "theorems": [
    "Esl.QNum.C137_exactly_one",
    "Esl.QNum.C137_sound",
    "Esl.QNum.C137_exact_partial",
    "Esl.QNum.C137_counterexample_equal",
    "Esl.QNum.C137_counterexample_unequal",
    "Esl.QNum.C137_unequal_partial",
    "Esl.QNum.C137_counterexample_negative",
    "Esl.QNum.C137_counterexample_product",
    "Esl.QNum.C137_whole_product",
    "Esl.QNum.C137_division_partial",
    "Esl.QNum.C137_counterexample_divide_by_one",
    "Esl.QNum.C137_counterexample_limits",
    "Esl.QNum.C137_counterexample_negative_divisor",
    "Esl.QNum.C137_conversion_partial"
   ],
   "note": "Comparisons are sound for every amount and exact if the amount or the number is at most 2^53. Above, different quantities equal the same number; != with a fraction is inconsistent with ==; products truncate the factor first; dividing by 1.0 changes large amounts."
  },
  {
   "property": "C138",
   "status": "partial",
   "theorems": [
    "Esl.Announce.C138_room_partial",
    "Esl.Announce.C138_counterexample_twice",
    "Esl.Announce.C138_counterexample_growth",
    "Esl.Announce.C138_counterexample_freed",
    "Esl.Announce.C138_none_partial"
   ],
   "note": "Violated: the list of deleted agents is doubled instead of emptied, so each agent is counted 2^i times in step i, and in a new environment the second step at the latest reads freed memory. Proved: the exact condition on the capacity under which a step is well defined, the number it returns, and the case without deleted agents."
  },
  {
   "property": "C139",
   "status": "partial",
   "theorems": [
    "Esl.Holders.C139_in_transit_partial",
    "Esl.Holders.C139_conserved_partial",
    "Esl.Holders.C139_modular",
    "Esl.Holders.C139_counterexample_no_owner",
    "Esl.Holders.C139_counterexample_wrap",
    "Esl.Threads.C139_threads_partial"
   ],
   "note": "Proved for all completed runs with amounts that fit into 64 bits, exactly, and modulo 2^64 without that assumption, with any number of threads. Violated if the transferee is not an owner (the message is dropped and the property with it) and if an amount wraps around; both are shown by a run."
  },
  {
   "property": "C140",
   "status": "proved",
   "theorems": [
    "Esl.Ledger.C140_accounted",
    "Esl.Ledger.C140_handled",
    "Esl.Ledger.C140_waiting",
    "Esl.Threads.C140_threads"
   ],
   "note": "Proved as an invariant of all rounds of all steps, with any number of threads; what was handled and sent is read from the log of the run with one thread, which ends in the same state (C23)."
  },
  {
   "property": "C141",
   "status": "partial",
   "theorems": [
    "Esl.Averages.C141_mean_partial",
    "Esl.Averages.C141_between_partial",
    "Esl.Averages.C141_order_partial",
    "Esl.Averages.C141_unit_partial",
    "Esl.Averages.C141_counterexample_integer",
    "Esl.Averages.C141_counterexample_two",
    "Esl.Averages.C141_counterexample_empty",
    "Esl.Averages.C141_rounding_partial",
    "Esl.Averages.C141_counterexample_growth",
    "Esl.Averages.C141_growth_partial",
    "Esl.Averages.C141_constant_partial",
    "Esl.Averages.C141_zero_partial",
    "Esl.Averages.C141_positive_partial",
    "Esl.Averages.C141_counterexample_negative",
    "Esl.Averages.C141_loss_partial",
    "Esl.Averages.C141_counterexample_interim",
    "Esl.Averages.C141_counterexample_beginning",
    "Esl.Averages.C141_positive_growth_partial",
    "Esl.Averages.C141_enumerate"
   ],
   "note": "Proved over exact real arithmetic for double elements: the mean, its bounds, order and unit, and enumerate. With any arithmetic whose operations have a bounded relative error within the range of the type, and an absolute one near zero, the computed mean is bounded around the exact one as long as the sum of the logarithms does not overflow (C141_rounding_partial). False for integer element types (C141_counterexample_integer: any sequence of ones and twos has mean 1) and for growth_rate (C141_counterexample_growth: the change is spread over one period too many, for every series that changed). Non-positive elements are not modelled. With zeros the mean is right (C141_zero_partial), and so is the growth rate of a series that ends with zero (C141_loss_partial); negative numbers and zeros before the end give NaN or infinity (C141_counterexample_negative, C141_counterexample_interim, C141_counterexample_beginning)."
  },
  {
   "property": "C142",
   "status": "partial",
   "theorems": [
    "Esl.Printing.C142_price_partial",
    "Esl.Printing.C142_identifies_partial",
    "Esl.Printing.C142_quote_partial",
    "Esl.Printing.C142_format",
    "Esl.Printing.C142_currencies",
    "Esl.Printing.C142_counterexample_large",
    "Esl.Printing.C142_counterexample_precision",
    "Esl.Printing.C142_counterexample_width",
    "Esl.Printing.C142_counterexample_fill",
    "Esl.Printing.C142_report_partial",
    "Esl.Printing.C142_counterexample_report",
    "Esl.Printing.C142_copy",
    "Esl.Printing.C142_equality_partial",
    "Esl.Printing.C142_counterexample_equality",
    "Esl.Printing.C142_counterexample_order"
   ],
   "note": "Proved for amounts below 2^52 minor units in currencies with a power of ten of minor units: the text is the exact amount and identifies price, quote, and state, owner and limit of a report. False: amounts above 2^53 share texts (C142_counterexample_large); printing a price changes the precision of the stream and printing an identity its fill character; a width splits currency and amount; reports do not show side, quantity or identifier; comparing reports with different lot sizes throws. double is IEEE binary64 with exact decimal output; log10 of the denominator is exact."
  },
  {
   "property": "C143",
   "status": "partial",
   "theorems": [
    "Esl.Sharing.C143_valid",
    "Esl.Sharing.C143_same_object",
    "Esl.Sharing.C143_stable",
    "Esl.Sharing.C143_alive",
    "Esl.Sharing.C143_deleted_partial",
    "Esl.Sharing.C143_counterexample_weak"
   ],
   "note": "Counts never go wrong, held pointers point to one existing object, no object is deleted twice (C143_valid); conversions keep the object (C143_same_object, C143_stable); exactly which objects exist (C143_alive). Partial because the deleter made by to_std keeps its pointer until the control block is destroyed: a weak pointer to such a result keeps the object (C143_counterexample_weak)."
  },
  {
   "property": "C144",
   "status": "partial",
   "theorems": [
    "Esl.Bindings.C144_market_partial",
    "Esl.Bindings.C144_counterexample_dropped",
    "Esl.Bindings.C144_counterexample_none",
    "Esl.Bindings.C144_orders_partial",
    "Esl.Bindings.C144_counterexample_failure",
    "Esl.Bindings.C144_counterexample_null",
    "Esl.Bindings.C144_counterexample_append",
    "Esl.Bindings.C144_solution_partial",
    "Esl.Bindings.C144_counterexample_unsolved"
   ],
   "note": "True for well-formed dictionaries and lists. False: other entries are dropped silently, None is undefined behaviour, a failed assignment loses the old orders, appending has no effect, and an unsolved market looks like an empty one."
  },
  {
   "property": "C145",
   "status": "partial",
   "theorems": [
    "Esl.Bindings.C145_company_partial",
    "Esl.Bindings.C145_counterexample_company",
    "Esl.Bindings.C145_counterexample_create",
    "Esl.Bindings.C145_activate_partial",
    "Esl.Bindings.C145_counterexample_local_agents",
    "Esl.Bindings.C145_seed"
   ],
   "note": "Activation, deactivation, seeds and companies that define dividends are right. False: agents cannot be created (the result is None and activating it is undefined behaviour), local_agents() raises an exception as soon as there is an agent, and a company whose class does not define upcoming_dividend fails in every step."
  },
  {
   "property": "C146",
   "status": "partial",
   "theorems": [
    "Esl.Auction.C146_clearing_partial",
    "Esl.Auction.C146_money_partial",
    "Esl.Auction.C146_in_transit_partial",
    "Esl.Auction.C146_positions_partial",
    "Esl.Auction.C146_cash_partial",
    "Esl.Auction.C146_counterexample_two",
    "Esl.Auction.C146_counterexample_money"
   ],
   "note": "Proved for clearings in which every participant demands at most one property per clearing (also for several properties traded by different participants, with short positions), over runs of any length, exactly and modulo 2^64 with transfers in transit. Money is conserved if moreover nobody closes a short position. Both restrictions are needed: a participant that buys two properties loses one of them (C146_counterexample_two), and closing a short position at the old price creates money (C146_counterexample_money)."
  },
  {
   "property": "C147",
   "status": "proved",
   "theorems": [
    "Esl.Venue.C147_book",
    "Esl.Venue.C147_sides",
    "Esl.Venue.C147_exchange",
    "Esl.Venue.C147_exchange_sides",
    "Esl.Venue.C147_simulation",
    "Esl.Venue.C147_simulation_sides"
   ],
   "note": "Proved for a book over all histories, for an exchange over all sequences of messages, and for whole simulations in which any other agents take part (they send no execution reports in the name of the exchange), by a ledger of units over all agents and messages. The statements about exchanges are about runs in which the exchange has not thrown: an order for a symbol without a book throws an exception, which ends the run. Reports of cancellations wait in the book until the next order for the symbol, which is why they appear as a separate term."
  },
  {
   "property": "C148",
   "status": "partial",
   "theorems": [
    "Esl.QBook.C148_alike_partial",
    "Esl.QBook.C148_one_currency_partial",
    "Esl.QBook.C148_refused_partial",
    "Esl.QBook.C148_accepted_partial",
    "Esl.QBook.C148_cancel",
    "Esl.QBook.C148_counterexample_lots",
    "Esl.QBook.C148_counterexample_units",
    "Esl.QBook.C148_counterexample_cancel",
    "Esl.QBook.C148_counterexample_overflow"
   ],
   "note": "Proved for all histories with one lot size and limits whose product with the lot fits into 64 bits: the book with quotes refines the book with integers (so that C25 to C31 and C147 carry over), all resting orders are in one currency, and orders in another currency are refused without effect. Limits that do not fit can rest, but then cancelling and matching them is undefined (C148_counterexample_overflow). With different lot sizes the claim fails: operator>= does not check lots, so that an order can be refused after a part of it was executed, and its remainder is lost (C148_counterexample_lots); quotes are not compared per unit (C148_counterexample_units); and cancelling an order again throws once the book trades in another currency (C148_counterexample_cancel)."
  },
  {
   "property": "C149",
   "status": "partial",
   "theorems": [
    "Esl.Population.C149_time",
    "Esl.Population.C149_created_acts_partial",
    "Esl.Population.C149_deleted_gone",
    "Esl.Population.C149_acts_known",
    "Esl.Population.C149_stays",
    "Esl.Population.C149_wakeups",
    "Esl.Population.C149_delivered_partial",
    "Esl.Population.C149_static",
    "Esl.Population.C149_counterexample_activation",
    "Esl.Population.C149_counterexample_idle",
    "Esl.Population.C149_counterexample_postponed",
    "Esl.Population.C149_counterexample_silenced",
    "Esl.Population.C149_counterexample_unreachable",
    "Esl.Population.C149_counterexample_never_completes",
    "Esl.Population.C149_counterexample_deleted_blocks"
   ],
   "note": "Proved for every run that completes: time (C149_time), new agents act in the next round unless a message was sent to them first (C149_created_acts_partial), deleted agents are gone (C149_deleted_gone), only known agents act, agents stay until deleted, wake-ups are honoured, messages between agents that stay are processed on time if agents are attentive (C149_delivered_partial, as in C20), and refinement to the fixed population (C149_static). The full claim fails: in the environment of the library a creation is undefined behaviour at the next step (C149_counterexample_activation); a new agent may never act (idle) or be postponed by a message (postponed); an agent deleted earlier in a round still acts in it and its messages are lost (silenced); a message to an agent deleted in the same round ends the run (unreachable); the wake-up of a deleted agent keeps the simulation from completing (never_completes, deleted_blocks)."
  },
  {
   "property": "C150",
   "status": "partial",
   "theorems": [
    "Esl.Dividends.C150_once",
    "Esl.Dividends.C150_announced_partial",
    "Esl.Dividends.C150_counterexample_payable",
    "Esl.Dividends.C150_counterexample_record"
   ],
   "note": "Proved for every completed run: announcements are made in order and never twice, and are processed at the time of sending (C150_once); the company acts on the announcement date and announces to every registered shareholder (C150_announced_partial). The full claim fails: no run completes if the dividend is payable after its announcement date, because the company then asks to be woken on the past announcement date (C150_counterexample_payable), nor if a shareholder that has shares gets an announcement with an ex-dividend date before the end, because its record is dated at time zero (C150_counterexample_record)."
  },
  {
   "property": "C151",
   "status": "partial",
   "theorems": [
    "Esl.Grid.C151_values_partial",
    "Esl.Grid.C151_samples_partial",
    "Esl.Grid.C151_exact_partial",
    "Esl.Grid.C151_counterexample_above",
    "Esl.Grid.C151_counterexample_below",
    "Esl.Grid.C151_counterexample_narrow",
    "Esl.Grid.C151_integers_partial",
    "Esl.Grid.C151_counterexample_integers",
    "Esl.Grid.C151_counterexample_exchanged"
   ],
   "note": "In IEEE arithmetic, for all representable bounds and densities of at least two: never below the lower bound, which is the first value, ascending, and within a few roundings of equidistant values (C151_values_partial, C151_samples_partial); exact, with both bounds, if bounds and steps are moderate multiples of a power of two, such as integers (C151_exact_partial). The full claim fails: values above the upper bound, an upper bound that is not reached, and values that coincide (counterexamples). For integer parameters: always in the interval, but the upper bound is reached only if the division leaves no remainder (C151_integers_partial), a density of one is undefined, and exchanged bounds give values far outside of the interval (C151_counterexample_exchanged)."
  },
  {
   "property": "C152",
   "status": "partial",
   "theorems": [
    "Esl.Listing.C152_names_partial",
    "Esl.Listing.C152_counterexample_loans",
    "Esl.Listing.C152_counterexample_assets",
    "Esl.Listing.C152_listed_partial",
    "Esl.Listing.C152_contents_partial",
    "Esl.Listing.C152_counterexample_money",
    "Esl.Listing.C152_counterexample_order",
    "Esl.Listing.C152_unique",
    "Esl.Listing.C152_unique_items",
    "Esl.Listing.C152_shortage"
   ],
   "note": "An inventory whose first entry, in the order of iteration, is money is printed as `{}`, whatever else is in it (C152_counterexample_money), so that what is printed depends on the order (C152_counterexample_order). An inventory whose first entry is not money is printed with all entries (C152_listed_partial), and the text then determines the contents as far as the names do (C152_contents_partial). Which names coincide is characterised exactly (C152_names_partial): assets, loans (C152_counterexample_loans, _assets), and money in currencies with the same code; all other names show the identifier. Unique property (C152_unique, C152_unique_items) and the message of a refused withdrawal (C152_shortage) are as claimed."
  },
  {
   "property": "C153",
   "status": "partial",
   "theorems": [
    "Esl.Overrides.C153_run_partial",
    "Esl.Overrides.C153_step_partial",
    "Esl.Overrides.C153_call_partial",
    "Esl.Overrides.C153_counterexample_inherited",
    "Esl.Overrides.C153_counterexample_ignored",
    "Esl.Overrides.C153_counterexample_nothing"
   ],
   "note": "The functions that are bound in Python are virtual member functions, so that calling the method of the base class ends up in the same Python method: a method with `super().m(...)` never returns (C153_counterexample_inherited). Definitions of `activate_agent`, `deactivate_agent` and of `act` in a company are ignored (C153_counterexample_ignored), and `activate`, `deactivate` and `send_messages` must return a number (C153_counterexample_nothing). For methods without such calls, the sequence of all calls of a run, of any length, is as claimed (C153_run_partial), and so is each call with its result (C153_call_partial)."
  },
  {
   "property": "C154",
   "status": "partial",
   "theorems": [
    "Esl.Callbacks.C154_counterexample_handle",
    "Esl.Callbacks.C154_counterexample_callback",
    "Esl.Callbacks.C154_handle_partial",
    "Esl.Callbacks.C154_different_partial",
    "Esl.Callbacks.C154_kept_partial"
   ],
   "note": "The function is captured by reference to a parameter, so that every use of the handle is undefined behaviour (C154_counterexample_handle), and `callback` always raises an exception (C154_counterexample_callback). While the variable exists the function is called as claimed (C154_handle_partial), and handles do not affect each other (C154_different_partial). A variable holds its function until it is destroyed (C154_kept_partial)."
  },
  {
   "property": "C155",
   "status": "partial",
   "theorems": [
    "Esl.Hashing.C155_container",
    "Esl.Hashing.C155_identity",
    "Esl.Hashing.C155_ticker",
    "Esl.Hashing.C155_cash",
    "Esl.Hashing.C155_share_partial",
    "Esl.Hashing.C155_counterexample_nan"
   ],
   "note": "Proved for containers in general (C155_container) and for identities (C155_identity), tickers (C155_ticker) and cash (C155_cash). A share class whose preference is not a number is not equal to itself, so that it is never found (C155_counterexample_nan); all other share classes are as claimed (C155_share_partial). `boost::hash_combine` is left open; that `boost::hash_value` of a zero does not depend on its sign is part of the model."
  },
  {
   "property": "C156",
   "status": "partial",
   "theorems": [
    "Esl.Solvers.C156_layout",
    "Esl.Solvers.C156_symmetric_partial",
    "Esl.Solvers.C156_separable_partial",
    "Esl.Solvers.C156_one",
    "Esl.Solvers.C156_gradient",
    "Esl.Solvers.C156_counterexample_transposed",
    "Esl.Solvers.C156_counterexample_diverges"
   ],
   "note": "False of the code: the matrix is transposed, since Adept stores matrices by columns and GSL by rows (general counterexample for every asymmetric cross effect; for a family of markets Newton steps with this matrix double all excess demands for ever, where the right matrix clears them in one step). Proved: the matrix is right exactly if the cross effects are symmetric, for demands that depend on their own multiplier only, for one property, and the gradient for the minimizer. The storage orders of the two libraries and the exactness of Adept are assumptions."
  },
  {
   "property": "C157",
   "status": "partial",
   "theorems": [
    "Esl.Solvers.C157_memory_partial",
    "Esl.Solvers.C157_default",
    "Esl.Solvers.C157_handler_partial",
    "Esl.Solvers.C157_counterexample_handler",
    "Esl.Solvers.C157_counterexample_steps"
   ],
   "note": "False of the code in two ways: a successful root search for one property leaves the handler that ignores errors installed, for ever; derivative_free_minimization reads step sizes that are never written. Proved for all other lists of methods and for the default methods (memory), and for several properties, without root finding or without result (handler)."
  },
  {
   "property": "C158",
   "status": "partial",
   "theorems": [
    "Esl.Poisson.C158_positive",
    "Esl.Poisson.C158_one_partial",
    "Esl.Poisson.C158_at_most_partial",
    "Esl.Poisson.C158_counterexample",
    "Esl.Poisson.C158_counterexample_two"
   ],
   "note": "False of the code: the probabilities are updated with k instead of k + 1, so that all numbers from two on have wrong probabilities (for every mean some random number gives two instead of three; with a mean of at most one nothing above two is ever drawn). Proved: at least one, one has the right probability, nothing is larger than it should be. Real arithmetic is exact. All members of the class are private, so a program cannot use it as it is."
  },
  {
   "property": "C159",
   "status": "partial",
   "theorems": [
    "Esl.Distance.C159_best_partial",
    "Esl.Distance.C159_refines",
    "Esl.Distance.C159_counterexample_coincide",
    "Esl.Distance.C159_counterexample_far"
   ],
   "note": "False of the code: squared differences are computed on 32 bits, so that points 65536 apart coincide and a far candidate is preferred (counterexamples). Proved for up to 65536 samples, with exact real arithmetic; and that the function is an instance of the arbitrary choice for which C41 is proved."
  },
  {
   "property": "C160",
   "status": "partial",
   "theorems": [
    "Esl.Notices.C160_class",
    "Esl.Notices.C160_record_partial",
    "Esl.Notices.C160_announcement_partial",
    "Esl.Notices.C160_counterexample_amount",
    "Esl.Notices.C160_counterexample_sender"
   ],
   "note": "False of the code: prices are not loaded and headers are not saved, so that every announcement arrives with dividends of zero and without a sender, and the shareholder sends no record to the company (counterexamples, for all policies and holdings). Proved: exactly which parts arrive."
  },
  {
   "property": "C161",
   "status": "partial",
   "theorems": [
    "Esl.Attributes.C161_order_partial",
    "Esl.Attributes.C161_counterexample"
   ],
   "note": "False of the code: centralized_exchange names the class market as a base, which no module defines, and messages name header, which is defined later, so that the import raises an exception (counterexample, with the exact condition on other modules). Proved for all modules: the import succeeds exactly if bases are defined first. The claims on other parts of the Python interface are about the module without this failure."
  },
  {
   "property": "C162",
   "status": "partial",
   "theorems": [
    "Esl.Attributes.C162_best_partial",
    "Esl.Attributes.C162_counterexample_tree"
   ],
   "note": "Proved for all books but the one with trees, whose class has methods of its own that return a type Python does not know: they raise an exception in every state (counterexample)."
  },
  {
   "property": "C163",
   "status": "partial",
   "theorems": [
    "Esl.Attributes.C163_read_partial",
    "Esl.Attributes.C163_counterexample",
    "Esl.Attributes.C163_counterexample_item"
   ],
   "note": "False of the code: attributes are copies, so that no Python program can give a company shares or shareholders, and no company created in Python announces a dividend (counterexample for all programs). Proved that the shares can be read."
  },
  {
   "property": "C164",
   "status": "partial",
   "theorems": [
    "Esl.Experiment.C164_read_back_partial",
    "Esl.Experiment.C164_absent",
    "Esl.Experiment.C164_fits_partial",
    "Esl.Experiment.C164_refused",
    "Esl.Experiment.C164_numpy_partial",
    "Esl.Experiment.C164_counterexample_int",
    "Esl.Experiment.C164_counterexample_sample",
    "Esl.Experiment.C164_seed_partial"
   ],
   "note": "Proved that numbers can be read back, and that models have the values that were set as unsigned numpy numbers. False of the code for Python integers, which become signed parameters, and make the constructor of a model throw, whatever their values; and simple_experiment fails for samples with more than 32 bits (counterexamples). Names that were never added, and prices, raise an exception when read (C164_absent)."
  },
  {
   "property": "C165",
   "status": "partial",
   "theorems": [
    "Esl.Orders.C165_create_partial",
    "Esl.Orders.C165_counterexample_quantity",
    "Esl.Orders.C165_counterexample_book",
    "Esl.Orders.C165_assign",
    "Esl.Orders.C165_cancel",
    "Esl.Orders.C165_equal_partial",
    "Esl.Orders.C165_counterexample_equal",
    "Esl.Orders.C165_contains_partial",
    "Esl.Orders.C165_counterexample_contains"
   ],
   "note": "Proved for quantities below 2^32 and orders with the same lot. False of the code for larger quantities, which Python orders silently reduce, so that less is executed or rests than was asked for after any history of the book; and for different lots, for which comparing orders raises an exception (counterexamples)."
  },
  {
   "property": "C166",
   "status": "partial",
   "theorems": [
    "Esl.Orders.C166_liquidity",
    "Esl.Orders.C166_print",
    "Esl.Orders.C166_warned_partial",
    "Esl.Orders.C166_counterexample_warned",
    "Esl.Orders.C166_counterexample_trades"
   ],
   "note": "Proved for liquidity and printing, and for warnings if supplied and bought units add up to less than 2^64; for larger numbers the sum wraps (counterexample). False of the code for trades: no order changes a position (counterexample)."
  },
  {
   "property": "C167",
   "status": "partial",
   "theorems": [
    "Esl.Values.C167_lookup_partial",
    "Esl.Values.C167_counterexample_hash",
    "Esl.Values.C167_counterexample_ticker",
    "Esl.Values.C167_counterexample_currency",
    "Esl.Values.C167_counterexample_digits"
   ],
   "note": "Proved for identities that are not changed. False of the code for all other classes: tickers, prices, quotes and others compare by value but hash by address, so that an equal object is never found; currencies and others compare by address; and the digits of an identity can be changed while it is a key (counterexamples). That boost::python classes keep the hash of object is part of the model of Python."
  },
  {
   "property": "C168",
   "status": "partial",
   "theorems": [
    "Esl.Values.C168_read_partial",
    "Esl.Values.C168_counterexample"
   ],
   "note": "Proved for all attributes but sixteen, which raise an exception because the module defines no class for their types (counterexample)."
  },
  {
   "property": "C169",
   "status": "partial",
   "theorems": [
    "Esl.BQueue.C169_moment",
    "Esl.BQueue.C169_lasts_partial",
    "Esl.BQueue.C169_counterexample_race",
    "Esl.BQueue.C169_counterexample_wrap"
   ],
   "note": "Proved for any number of threads and every interleaving: the answer is true when it is returned (size modulo 2^32), and it lasts until as many elements as promised have been taken by any threads. Negations: with two consumers, one that found the queue not empty can wait forever; size() of a queue with 2^32 elements is 0."
  },
  {
   "property": "C170",
   "status": "partial",
   "theorems": [
    "Esl.OrderLog.C170_transparent",
    "Esl.OrderLog.C170_messages",
    "Esl.OrderLog.C170_entries",
    "Esl.OrderLog.C170_accounts_partial",
    "Esl.OrderLog.C170_counterexample_brokers",
    "Esl.OrderLog.C170_counterexample_self",
    "Esl.OrderLog.C170_counterexample_cancel",
    "Esl.OrderLog.C170_counterexample_late"
   ],
   "note": "Proved for all histories: the log has no effect on the exchange; at each event it is exactly the execution reports to the sender of the order that are not rejections; entries are on time; if everybody sends their own orders and nobody is on both sides of a symbol, all units ordered are recorded exactly once. Negations: orders sent for others are never logged, an agent that trades with itself is logged twice, cancellations are logged with the time of the next order or never."
  },
  {
   "property": "C171",
   "status": "partial",
   "theorems": [
    "Esl.TatFl.C171_values",
    "Esl.TatFl.C171_several_partial",
    "Esl.TatFl.C171_derivative_free_minimization",
    "Esl.TatFl.C171_minimization_partial",
    "Esl.TatFl.C171_no_worse_partial",
    "Esl.TatFl.C171_exact",
    "Esl.TatFl.C171_several_double_partial",
    "Esl.TatFl.C171_minimization_double",
    "Esl.TatFl.C171_counterexample_absorbed",
    "Esl.TatFl.C171_counterexample_order"
   ],
   "note": "Proved for every rounding with bounded relative and absolute error, for root finding with several properties, one property, and both minimizers, with corollaries for doubles; without rounding the model is that of C91. Negation: orders among much larger ones are not noticed, and the result depends on the order of participants. Not covered: overflow to infinity."
  },
  {
   "property": "C172",
   "status": "partial",
   "theorems": [
    "Esl.Workers.C172_accounted",
    "Esl.Workers.C172_exactly_once_partial",
    "Esl.Workers.C172_one_thread_partial",
    "Esl.Workers.C172_before_partial",
    "Esl.Workers.C172_defined",
    "Esl.Workers.C172_terminates",
    "Esl.Workers.C172_destructor_returns",
    "Esl.Workers.C172_idle_pool",
    "Esl.Workers.C172_counterexample_lost"
   ],
   "note": "At least one thread and at most 2^31. Every task is accounted for at all times, everything ends, the destructor returns, nothing is undefined. Executed exactly once: if no std::try_to_lock fails on a free mutex, or with one thread, or if no task is passed after the destructor begins. Violated otherwise: with two threads a task passed by a task while the destructor waits can be lost when try_to_lock fails for no reason, which the C++ standard allows (counterexample). Tasks throw nothing."
  },
  {
   "property": "C173",
   "status": "partial",
   "theorems": [
    "Esl.Workers.C173_counterexample_deadlock",
    "Esl.Workers.C173_counterexample_own_task"
   ],
   "note": "Violated: once the tasks of all threads wait for tasks that have not been executed, no task is ever executed and the destructor never returns (counterexample, in general); one thread and one such task suffice (counterexample). True part: C172_destructor_returns, C172_idle_pool: if nobody waits in vain when nothing moves any more, the destructor returns and all tasks were executed."
  },
  {
   "property": "C174",
   "status": "partial",
   "theorems": [
    "Esl.Money.C174_rounding",
    "Esl.Money.C174_amount_partial",
    "Esl.Money.C174_exact_partial",
    "Esl.Money.C174_rule",
    "Esl.Money.C174_quantity_partial",
    "Esl.Money.C174_counterexample_cents",
    "Esl.Money.C174_counterexample_debt",
    "Esl.Money.C174_counterexample_quantity"
   ],
   "note": "Proved in IEEE arithmetic for denominators up to 2^53 and numbers below 2^62 smallest units: less than one smallest unit off, apart from the rounding of the product; exact for whole numbers of smallest units up to 2^53. Violated for decimal numbers (0.29 dollars are 28 cents), for negative amounts (undefined) and for quantities of 2^63 smallest units or more (negative prices). integer_away_from_zero does not compile when used (no function sign) and is not modelled; infinities and NaNs are not modelled."
  },
  {
   "property": "C175",
   "status": "proved",
   "theorems": [
    "Esl.Feed.C175_simulation",
    "Esl.Feed.C175_message"
   ],
   "note": "All runs of the model of the scheduler; nobody else sends market data in the name of the exchange. Prices as integers of one currency and lot."
  },
  {
   "property": "C176",
   "status": "partial",
   "theorems": [
    "Esl.Constants.C176_countries_partial",
    "Esl.Constants.C176_currencies",
    "Esl.Constants.C176_jurisdictions",
    "Esl.Constants.C176_counterexample_missing"
   ],
   "note": "Currencies and jurisdictions are complete and right. The country Andorra (AD) is missing (C176_counterexample_missing); the other countries are right. The names in the Python module are taken from the source as tables."
  },
  {
   "property": "C177",
   "status": "partial",
   "theorems": [
    "Esl.Seeds.C177_turns",
    "Esl.Seeds.C177_seeds_partial",
    "Esl.Seeds.C177_samples_partial",
    "Esl.Seeds.C177_siblings",
    "Esl.Seeds.C177_counterexample_time",
    "Esl.Seeds.C177_counterexample_numbers"
   ],
   "note": "One turn for each agent, round and step is proved for every run. The seed keeps the lowest 32 bits of the hash, time, round and sample: seeds are different before the time 2^32 if the agents are told apart by those bits of their hashes (C177_seeds_partial), as children of one parent are (C177_siblings, for the `hash_combine` of Boost 1.56-1.80). They repeat after 2^32 units of time, for numbers of agents that differ by 2^32 and for such samples (counterexamples)."
  },
  {
   "property": "C178",
   "status": "partial",
   "theorems": [
    "Esl.Shuffle.C178_random_partial",
    "Esl.Shuffle.C178_counterexample_groups",
    "Esl.Shuffle.C178_counterexample_orders",
    "Esl.Shuffle.C178_generator_partial"
   ],
   "note": "Each message is handled once, for any shuffle and seed (C178_random_partial). The generator is made anew from the same seed for each priority, so that equal numbers of messages are brought into the same order (C178_counterexample_groups), and it has fewer than 2^31 states, so that from 13 messages on there are orders that no seed gives (C178_counterexample_orders). The generator never gets stuck (C178_generator_partial). Stated for agents with one callback for each kind of message."
  },
  {
   "property": "C179",
   "status": "partial",
   "theorems": [
    "Esl.DirectOrders.C179_books_partial",
    "Esl.DirectOrders.C179_unknown_symbol_partial",
    "Esl.DirectOrders.C179_counterexample_silent",
    "Esl.DirectOrders.C179_counterexample_wrong_order",
    "Esl.DirectOrders.C179_counterexample_data",
    "Esl.DirectOrders.C179_counterexample_stream"
   ],
   "note": "The books are the same (C179_books_partial), and unknown symbols are exceptions either way (C179_unknown_symbol_partial). But no directly entered order makes the exchange send anything (C179_counterexample_silent); the report goes out with the next message with an order for the symbol, and names that order (C179_counterexample_wrong_order); a best price that it made is not announced (C179_counterexample_data, C179_counterexample_stream)."
  },
  {
   "property": "C180",
   "status": "partial",
   "theorems": [
    "Esl.Draws.C180_one_word_partial",
    "Esl.Draws.C180_turns_partial",
    "Esl.Draws.C180_siblings_partial",
    "Esl.Draws.C180_run_partial",
    "Esl.Draws.C180_counterexample_calls",
    "Esl.Draws.C180_counterexample_rounds",
    "Esl.Draws.C180_counterexample_agents",
    "Esl.Draws.C180_construct"
   ],
   "note": "Seeds that differ in one word give different numbers (C180_one_word_partial), so that an agent draws different numbers at different times, in different rounds or different samples (C180_turns_partial), siblings draw different numbers in the same round (C180_siblings_partial), and an agent draws different numbers in all first rounds of a run (C180_run_partial). But all calls in a turn give the same number (C180_counterexample_calls), and turns that differ in two respects can coincide: for each number drawn there is such a turn (C180_counterexample_rounds, C180_counterexample_agents). Seeds made from lists keep their numbers (C180_construct). The algorithm is that of the C++ standard, also for several words; the model was compared with the implementation in GCC."
  },
  {
   "property": "C181",
   "status": "partial",
   "theorems": [
    "Esl.Latency.C181_counterexample_same",
    "Esl.Latency.C181_counterexample_pairs",
    "Esl.Latency.C181_at_least_shift_partial"
   ],
   "note": "The delay is at least the shift (C181_at_least_shift_partial). But a new generator with the seed of the turn is made for each sample, so that all messages of a turn arrive at the same time (C181_counterexample_same), and neither sender nor recipient matters (C181_counterexample_pairs). The gamma distribution of the standard library is an argument, latencies are rational numbers until they are cut."
  },
  {
   "property": "C182",
   "status": "partial",
   "theorems": [
    "Esl.Calls.C182_usable_partial",
    "Esl.Calls.C182_counterexample",
    "Esl.Calls.C182_counterexample_listed"
   ],
   "note": "Types of arguments and results only. Proved for all but 12 methods and constructors, 9 assignments and the 16 attributes of C168, which no program can use (C182_counterexample): among them quantities cannot be split, no property can be valued by an accounting standard, and a request for market data cannot name instruments."
  },
  {
   "property": "C183",
   "status": "partial",
   "theorems": [
    "Esl.Calls.C183_counterexample_set",
    "Esl.Calls.C183_counterexample",
    "Esl.Calls.C183_policy_partial"
   ],
   "note": "No Python object is converted to the entries of the map: setting one raises an exception (C183_counterexample_set), and all policies that programs can make pay nothing (C183_counterexample). A policy has what it is given (C183_policy_partial)."
  },
  {
   "property": "C184",
   "status": "partial",
   "theorems": [
    "Esl.Saved.C184_records_partial",
    "Esl.Saved.C184_counterexample",
    "Esl.Saved.C184_counterexample_holdings",
    "Esl.Saved.C184_restored_partial"
   ],
   "note": "The shares and dates come back whatever the target was (C184_records_partial). The stocks and prices are never written: they stay those of the target (C184_counterexample, C184_restored_partial), and a shareholder with shares that is loaded into a new one has undefined stock holdings (C184_counterexample_holdings)."
  },
  {
   "property": "C185",
   "status": "partial",
   "theorems": [
    "Esl.Version.C185_agree_partial",
    "Esl.Version.C185_distinct",
    "Esl.Version.C185_counterexample_order",
    "Esl.Version.C185_counterexample_zero",
    "Esl.Version.C185_counterexample_comment",
    "Esl.Version.C185_lines"
   ],
   "note": "Proved for all numbers below 2^32 in decimal notation and the order of the repository (C185_agree_partial), with different texts for different versions (C185_distinct). Violated for lines in another order (C185_counterexample_order), numbers with a leading zero, which are octal in C++ only (C185_counterexample_zero), and comments that mention a constant, with which the import fails (C185_counterexample_comment)."
  },
  {
   "property": "C186",
   "status": "partial",
   "theorems": [
    "Esl.QExchange.C186_alike_partial",
    "Esl.QExchange.C186_data_partial",
    "Esl.QExchange.C186_counterexample_currency"
   ],
   "note": "Proved for orders for a symbol that are quoted alike and fit into 64 bits: the exchange over quotes refines the exchange over integers. Negation: an order in another currency than the orders that rest is an exception in the callback of the exchange, so that any agent can end the simulation."
  },
  {
   "property": "C187",
   "status": "proved",
   "theorems": [
    "Esl.QUnits.C187_book",
    "Esl.QUnits.C187_book_smooth",
    "Esl.QUnits.C187_sides",
    "Esl.QUnits.C187_exchange",
    "Esl.QUnits.C187_exchange_sides"
   ],
   "note": "No assumption about quotes. At an exchange an exception ends the history, so that the theorem is about histories without one. Units that are lost when a book throws are in C148_counterexample_lots."
  },
  {
   "property": "C188",
   "status": "proved",
   "theorems": [
    "Esl.QSides.C188_sides",
    "Esl.QSides.C188_comparable"
   ],
   "note": "Quotes are for a positive number of units, and price times lot fits into 64 bits. Nothing is assumed about which quotes are mixed."
  },
  {
   "property": "C189",
   "status": "partial",
   "theorems": [
    "Esl.QSides.C189_limits",
    "Esl.QSides.C189_sell",
    "Esl.QSides.C189_buy_partial",
    "Esl.QSides.C189_counterexample_buy"
   ],
   "note": "True of orders to sell (C189_sell) and of orders to buy against orders for the same number of units (C189_buy_partial). False otherwise: the operator >= does not compare lots, and multiplies prices by lots where it should divide, so that an order to buy is executed at any multiple of its limit (C189_counterexample_buy)."
  },
  {
   "property": "C190",
   "status": "partial",
   "theorems": [
    "Esl.QCrossing.C190_uncrossed_partial",
    "Esl.QCrossing.C190_currency",
    "Esl.QCrossing.C190_counterexample_lots"
   ],
   "note": "Currencies are proved in full, prices for offers for the same number of units (C190_uncrossed_partial). False for different numbers of units, since products of price and lot are compared (C190_counterexample_lots)."
  },
  {
   "property": "C191",
   "status": "partial",
   "theorems": [
    "Esl.QCrossing.C191_unchanged_partial",
    "Esl.QCrossing.C191_counterexample_executed",
    "Esl.QCrossing.C191_positive",
    "Esl.QCrossing.C191_defined"
   ],
   "note": "Proved if the order is alike to those on its own side. Otherwise the order may have been executed in part before its remainder cannot be placed (C191_counterexample_executed); the remainder is lost. In particular an exception never comes in the middle of the matching loop."
  },
  {
   "property": "C192",
   "status": "partial",
   "theorems": [
    "Esl.QData.C192_data_partial",
    "Esl.QData.C192_sell",
    "Esl.QData.C192_buy_partial",
    "Esl.QData.C192_counterexample_data",
    "Esl.QData.C192_counterexample_buy"
   ],
   "note": "Proved for orders to sell; for orders to buy and market data if the quotes are for the same number of units. Currencies agree in all cases. False for different numbers of units (C192_counterexample_data, C192_counterexample_buy), which nothing in the exchange refuses. An exception ends the history, as in C186."
  },
  {
   "property": "C193",
   "status": "proved",
   "theorems": [
    "Esl.QPriority.C193_cancel",
    "Esl.QPriority.C193_unknown",
    "Esl.QPriority.C193_unique"
   ],
   "note": "For all histories with any mixture of quotes; C193_unknown holds for every book."
  },
  {
   "property": "C194",
   "status": "proved",
   "theorems": [
    "Esl.QPriority.C194_priority",
    "Esl.QPriority.C194_later"
   ],
   "note": "Also if the insertion ends with an exception. Extends the priority of C27 from integer limits to quotes."
  },
  {
   "property": "C195",
   "status": "partial",
   "theorems": [
    "Esl.Identifiable.C195_identifier_partial",
    "Esl.Identifiable.C195_library",
    "Esl.Identifiable.C195_compare",
    "Esl.Identifiable.C195_never_throws",
    "Esl.Identifiable.C195_counterexample_construction",
    "Esl.Identifiable.C195_counterexample_argument"
   ],
   "note": "Holds from the beginning of the constructor of the class in question, if classes name themselves. std::bad_cast is never thrown: a pointer is cast, so that the conversion is undefined during the construction of bases (C195_counterexample_construction) and for other arguments (C195_counterexample_argument)."
  }
 ]
}