{
"Esl.Accounting.C10_additive": [
"Classical.choice",
"Quot.sound",
"propext"
],
"Esl.Accounting.C10_income_expenses": [
"Classical.choice",
"Quot.sound",
"propext"
],
"Esl.Accounting.C10_statement_is_sum": [
"Classical.choice",
"Quot.sound",
"propext"
],
"Esl.Accounting.C11_counterexample_negative_price": [
"propext"
],
"Esl.Accounting.C11_defined": [
"Classical.choice",
"Quot.sound",
"propext"
],
"Esl.Accounting.C11_long_short_cancel": [
"Quot.sound",
"propext"
],
"Esl.Accounting.C11_refused_without_quote": [
"propext"
],
"Esl.Accounting.C11_stock_value_partial": [
"Classical.choice",
"Quot.sound",
"propext"
],
"Esl.Accounting.C11_stock_value_unit_lot_partial": [
"Quot.sound",
"propext"
],
"Esl.Accounting.C73_converted_amount_partial": [
"Classical.choice",
"Quot.sound",
"propext"
],
"Esl.Accounting.C73_counterexample": [
"propext"
],
"Esl.Accounting.C73_counterexample_overflow": [
"propext"
],
"Esl.Accounting.C73_reporting_currency_partial": [
"Classical.choice",
"Quot.sound",
"propext"
],
"Esl.Algo.C61_allocate_partial": [
"Classical.choice",
"Quot.sound",
"propext"
],
"Esl.Algo.C61_counterexample_half": [
"Classical.choice",
"Quot.sound",
"propext"
],
"Esl.Algo.C61_counterexample_negative": [
"Classical.choice",
"Quot.sound",
"propext"
],
"Esl.Algo.C61_counterexample_range": [
"Classical.choice",
"Quot.sound",
"propext"
],
"Esl.Algo.C61_counterexample_too_much": [
"Classical.choice",
"Quot.sound",
"propext"
],
"Esl.Algo.C61_counterexample_two_halves": [
"Classical.choice",
"Quot.sound",
"propext"
],
"Esl.Algo.C62_corners_missing": [
"Classical.choice",
"Quot.sound",
"propext"
],
"Esl.Algo.C62_points": [
"Classical.choice",
"Quot.sound",
"propext"
],
"Esl.Algo.C62_simplex": [
"Classical.choice",
"Quot.sound",
"propext"
],
"Esl.Algo.C78_power": [
"Quot.sound",
"propext"
],
"Esl.Algo.C78_power_exact": [
"Quot.sound",
"propext"
],
"Esl.Algo.C79_concatenate": [
"Classical.choice",
"Quot.sound",
"propext"
],
"Esl.Algo.C79_cut_and_join": [
"Classical.choice",
"Quot.sound",
"propext"
],
"Esl.Algo.C79_slice": [
"Quot.sound",
"propext"
],
"Esl.Announce.C138_counterexample_freed": [
"Classical.choice",
"Quot.sound",
"propext"
],
"Esl.Announce.C138_counterexample_growth": [
"Classical.choice",
"Quot.sound",
"propext"
],
"Esl.Announce.C138_counterexample_twice": [
"Quot.sound",
"propext"
],
"Esl.Announce.C138_none_partial": [
"propext"
],
"Esl.Announce.C138_room_partial": [
"Quot.sound",
"propext"
],
"Esl.Announce.C74_counterexample_freed": [
"Quot.sound",
"propext"
],
"Esl.Announce.C74_one_partial": [
"Quot.sound",
"propext"
],
"Esl.Announce.C74_room_partial": [
"Quot.sound",
"propext"
],
"Esl.Archive.C66_counterexample_price": [
"Classical.choice",
"Quot.sound",
"propext"
],
"Esl.Archive.C66_counterexample_producer": [
"Quot.sound",
"propext"
],
"Esl.Archive.C66_counterexample_quote": [
"Classical.choice",
"Quot.sound",
"propext"
],
"Esl.Archive.C66_counterexample_rational": [
"propext"
],
"Esl.Archive.C66_entity": [
"propext"
],
"Esl.Archive.C66_interest_rate_partial": [
"Classical.choice",
"Quot.sound",
"propext"
],
"Esl.Archive.C66_jurisdiction": [
"Quot.sound",
"propext"
],
"Esl.Archive.C66_person": [
"propext"
],
"Esl.Archive.C66_price_saved_partial": [
"Classical.choice",
"Quot.sound",
"propext"
],
"Esl.Archive.C66_rational_partial": [
"Classical.choice",
"Quot.sound",
"propext"
],
"Esl.Archive.C66_sequence": [
"propext"
],
"Esl.Archive.C66_tuple": [
"propext"
],
"Esl.Archive.C82_contents_partial": [],
"Esl.Archive.C82_counterexample_header": [
"Quot.sound",
"propext"
],
"Esl.Archive.C82_header": [
"Quot.sound",
"propext"
],
"Esl.Archive.C83_counterexample_threads": [],
"Esl.Archive.C83_missing": [
"Classical.choice",
"Quot.sound",
"propext"
],
"Esl.Archive.C83_parameters_partial": [],
"Esl.Arith.C130_amounts_partial": [
"Classical.choice",
"Quot.sound",
"propext"
],
"Esl.Arith.C130_counterexample_currencies": [
"Quot.sound",
"propext"
],
"Esl.Arith.C130_counterexample_limits": [
"Quot.sound",
"propext"
],
"Esl.Arith.C130_counterexample_number": [
"Classical.choice",
"Quot.sound",
"propext"
],
"Esl.Arith.C130_counterexample_product": [
"Classical.choice",
"Quot.sound",
"propext"
],
"Esl.Arith.C130_counterexample_quotient": [
"Classical.choice",
"Quot.sound",
"propext"
],
"Esl.Arith.C130_laws_partial": [
"Classical.choice",
"Quot.sound",
"propext"
],
"Esl.Arith.C130_number_partial": [
"Classical.choice",
"Quot.sound",
"propext"
],
"Esl.Arith.C131_counterexample": [
"Classical.choice",
"Quot.sound",
"propext"
],
"Esl.Arith.C131_counterexample_drift": [
"Classical.choice",
"Quot.sound",
"propext"
],
"Esl.Arith.C131_order_partial": [
"Classical.choice",
"Quot.sound",
"propext"
],
"Esl.Arith.C131_representable_partial": [
"Classical.choice",
"Quot.sound",
"propext"
],
"Esl.Arith.C131_round_trip_partial": [
"Classical.choice",
"Quot.sound",
"propext"
],
"Esl.Arith.C131_undivided_partial": [
"Classical.choice",
"Quot.sound",
"propext"
],
"Esl.Arith.C131_whole_partial": [
"Classical.choice",
"Quot.sound",
"propext"
],
"Esl.Arith.C132_counterexample_lot": [
"Classical.choice",
"Quot.sound",
"propext"
],
"Esl.Arith.C132_counterexample_product": [
"Classical.choice",
"Quot.sound",
"propext"
],
"Esl.Arith.C132_counterexample_quotient": [
"Classical.choice",
"Quot.sound",
"propext"
],
"Esl.Arith.C132_numbers_partial": [
"Classical.choice",
"Quot.sound",
"propext"
],
"Esl.Arith.C132_round_trip_partial": [
"Classical.choice",
"Quot.sound",
"propext"
],
"Esl.Arith.C132_sums_partial": [
"Classical.choice",
"Quot.sound",
"propext"
],
"Esl.Arith.C133_counterexample_currency": [],
"Esl.Arith.C133_counterexample_large": [
"Classical.choice",
"Quot.sound",
"propext"
],
"Esl.Arith.C133_counterexample_number": [
"Classical.choice",
"Quot.sound",
"propext"
],
"Esl.Arith.C133_counterexample_precision": [
"Classical.choice",
"Quot.sound",
"propext"
],
"Esl.Arith.C133_exchange_rate": [
"Classical.choice",
"Quot.sound",
"propext"
],
"Esl.Arith.C133_inflation_partial": [
"Classical.choice",
"Quot.sound",
"propext"
],
"Esl.Arith.C133_number_partial": [
"Classical.choice",
"Quot.sound",
"propext"
],
"Esl.Arith.C133_similar_partial": [
"Classical.choice",
"Quot.sound",
"propext"
],
"Esl.Arith.C133_to_number_partial": [
"Classical.choice",
"Quot.sound",
"propext"
],
"Esl.Attributes.C161_counterexample": [
"Classical.choice",
"Quot.sound",
"propext"
],
"Esl.Attributes.C161_order_partial": [
"Quot.sound",
"propext"
],
"Esl.Attributes.C162_best_partial": [],
"Esl.Attributes.C162_counterexample_tree": [],
"Esl.Attributes.C163_counterexample": [
"Classical.choice",
"Quot.sound",
"propext"
],
"Esl.Attributes.C163_counterexample_item": [
"propext"
],
"Esl.Attributes.C163_read_partial": [
"propext"
],
"Esl.Auction.C146_cash_partial": [
"Classical.choice",
"Quot.sound",
"propext"
],
"Esl.Auction.C146_clearing_partial": [
"Classical.choice",
"Quot.sound",
"propext"
],
"Esl.Auction.C146_counterexample_money": [
"Classical.choice",
"Quot.sound",
"propext"
],
"Esl.Auction.C146_counterexample_two": [
"Classical.choice",
"Quot.sound",
"propext"
],
"Esl.Auction.C146_in_transit_partial": [
"Classical.choice",
"Quot.sound",
"propext"
],
"Esl.Auction.C146_money_partial": [
"Classical.choice",
"Quot.sound",
"propext"
],
"Esl.Auction.C146_positions_partial": [
"Classical.choice",
"Quot.sound",
"propext"
],
"Esl.Averages.C141_between_partial": [
"Classical.choice",
"Quot.sound",
"propext"
],
"Esl.Averages.C141_constant_partial": [
"Classical.choice",
"Quot.sound",
"propext"
],
"Esl.Averages.C141_counterexample_beginning": [
"Classical.choice",
"Quot.sound",
"propext"
],
"Esl.Averages.C141_counterexample_empty": [
"Classical.choice",
"Quot.sound",
"propext"
],
"Esl.Averages.C141_counterexample_growth": [
"Classical.choice",
"Quot.sound",
"propext"
],
"Esl.Averages.C141_counterexample_integer": [
"Classical.choice",
"Quot.sound",
"propext"
],
"Esl.Averages.C141_counterexample_interim": [
"Classical.choice",
"Quot.sound",
"propext"
],
"Esl.Averages.C141_counterexample_negative": [
"Classical.choice",
"Quot.sound",
"propext"
],
"Esl.Averages.C141_counterexample_two": [
"Classical.choice",
"Quot.sound",
"propext"
],
"Esl.Averages.C141_enumerate": [
"Classical.choice",
"Quot.sound",
"propext"
],
"Esl.Averages.C141_growth_partial": [
"Classical.choice",
"Quot.sound",
"propext"
],
"Esl.Averages.C141_loss_partial": [
"Classical.choice",
"Quot.sound",
"propext"
],
"Esl.Averages.C141_mean_partial": [
"Classical.choice",
"Quot.sound",
"propext"
],
"Esl.Averages.C141_order_partial": [
"Classical.choice",
"Quot.sound",
"propext"
],
"Esl.Averages.C141_positive_growth_partial": [
"Classical.choice",
"Quot.sound",
"propext"
],
"Esl.Averages.C141_positive_partial": [
"Classical.choice",
"Quot.sound",
"propext"
],
"Esl.Averages.C141_rounding_partial": [
"Classical.choice",
"Quot.sound",
"propext"
],
"Esl.Averages.C141_unit_partial": [
"Classical.choice",
"Quot.sound",
"propext"
],
"Esl.Averages.C141_zero_partial": [
"Classical.choice",
"Quot.sound",
"propext"
],
"Esl.BQueue.C169_counterexample_race": [
"Quot.sound",
"propext"
],
"Esl.BQueue.C169_counterexample_wrap": [
"Quot.sound",
"propext"
],
"Esl.BQueue.C169_lasts_partial": [
"Classical.choice",
"Quot.sound",
"propext"
],
"Esl.BQueue.C169_moment": [
"Classical.choice",
"Quot.sound",
"propext"
],
"Esl.BQueue.C50_at_most_once": [
"Classical.choice",
"Quot.sound",
"propext"
],
"Esl.BQueue.C50_close_releases": [
"Classical.choice",
"Quot.sound",
"propext"
],
"Esl.BQueue.C50_conserved": [
"Classical.choice",
"Quot.sound",
"propext"
],
"Esl.BQueue.C50_fifo": [
"Classical.choice",
"Quot.sound",
"propext"
],
"Esl.BQueue.C50_only_pushed": [
"Classical.choice",
"Quot.sound",
"propext"
],
"Esl.BQueue.C50_order_in_time": [
"Classical.choice",
"Quot.sound",
"propext"
],
"Esl.BQueue.C50_pop_result": [
"Classical.choice",
"Quot.sound",
"propext"
],
"Esl.BQueue.C50_released": [
"Classical.choice",
"Quot.sound",
"propext"
],
"Esl.BQueue.C50_terminates": [
"Quot.sound",
"propext"
],
"Esl.BQueue.C51_counterexample_closed_queue_accepts": [
"propext"
],
"Esl.BQueue.C51_counterexample_push_ignores_closed": [
"Quot.sound",
"propext"
],
"Esl.BQueue.C51_drain_partial": [
"Quot.sound",
"propext"
],
"Esl.Bindings.C144_counterexample_append": [
"propext"
],
"Esl.Bindings.C144_counterexample_dropped": [
"Classical.choice",
"Quot.sound",
"propext"
],
"Esl.Bindings.C144_counterexample_failure": [
"propext"
],
"Esl.Bindings.C144_counterexample_none": [
"propext"
],
"Esl.Bindings.C144_counterexample_null": [
"Classical.choice",
"Quot.sound",
"propext"
],
"Esl.Bindings.C144_counterexample_unsolved": [],
"Esl.Bindings.C144_market_partial": [
"Quot.sound",
"propext"
],
"Esl.Bindings.C144_orders_partial": [
"Classical.choice",
"Quot.sound",
"propext"
],
"Esl.Bindings.C144_solution_partial": [
"Quot.sound",
"propext"
],
"Esl.Bindings.C145_activate_partial": [
"Classical.choice",
"Quot.sound",
"propext"
],
"Esl.Bindings.C145_company_partial": [],
"Esl.Bindings.C145_counterexample_company": [],
"Esl.Bindings.C145_counterexample_create": [],
"Esl.Bindings.C145_counterexample_local_agents": [
"Quot.sound",
"propext"
],
"Esl.Bindings.C145_seed": [
"Classical.choice",
"Quot.sound",
"propext"
],
"Esl.Book.C25_best_prices": [
"Quot.sound",
"propext"
],
"Esl.Book.C25_uncrossed": [
"Quot.sound",
"propext"
],
"Esl.Book.C26_conserves": [
"Classical.choice",
"Quot.sound",
"propext"
],
"Esl.Book.C26_others_unchanged": [
"Classical.choice",
"Quot.sound",
"propext"
],
"Esl.Book.C27_priority": [
"Classical.choice",
"Quot.sound",
"propext"
],
"Esl.Book.C28_limits": [
"Classical.choice",
"Quot.sound",
"propext"
],
"Esl.Book.C29_cancel_partial": [
"Classical.choice",
"Quot.sound",
"propext"
],
"Esl.Book.C29_counterexample_never_removed": [],
"Esl.Book.C29_counterexample_orders": [],
"Esl.Book.C29_listed_partial": [
"Classical.choice",
"Quot.sound",
"propext"
],
"Esl.Book.C30_unique": [
"Classical.choice",
"Quot.sound",
"propext"
],
"Esl.Book.C31_counterexample_partial_fill": [],
"Esl.Book.C31_counterexample_rests": [],
"Esl.Book.C31_filled_partial": [
"Classical.choice",
"Quot.sound",
"propext"
],
"Esl.Callbacks.C154_counterexample_callback": [
"propext"
],
"Esl.Callbacks.C154_counterexample_handle": [
"Quot.sound",
"propext"
],
"Esl.Callbacks.C154_different_partial": [
"Quot.sound",
"propext"
],
"Esl.Callbacks.C154_handle_partial": [
"propext"
],
"Esl.Callbacks.C154_kept_partial": [
"Quot.sound",
"propext"
],
"Esl.Calls.C182_counterexample": [
"Classical.choice",
"Quot.sound",
"propext"
],
"Esl.Calls.C182_counterexample_listed": [
"Quot.sound",
"propext"
],
"Esl.Calls.C182_usable_partial": [
"Classical.choice",
"Quot.sound",
"propext"
],
"Esl.Calls.C183_counterexample": [
"Classical.choice",
"Quot.sound",
"propext"
],
"Esl.Calls.C183_counterexample_set": [
"Classical.choice",
"Quot.sound",
"propext"
],
"Esl.Calls.C183_policy_partial": [
"propext"
],
"Esl.Clearing.C134_budget_partial": [
"Classical.choice",
"Quot.sound",
"propext"
],
"Esl.Clearing.C134_counterexample_budget": [
"Classical.choice",
"Quot.sound",
"propext"
],
"Esl.Clearing.C134_counterexample_order": [
"Classical.choice",
"Quot.sound",
"propext"
],
"Esl.Clearing.C134_counterexample_silent": [
"Classical.choice",
"Quot.sound",
"propext"
],
"Esl.Clearing.C134_settled_partial": [
"Classical.choice",
"Quot.sound",
"propext"
],
"Esl.Clearing.C134_unsolved": [
"Classical.choice",
"Quot.sound",
"propext"
],
"Esl.Codes.C42_checksum_valid": [
"Classical.choice",
"Quot.sound",
"propext"
],
"Esl.Codes.C42_detects_digit": [
"Classical.choice",
"Quot.sound",
"propext"
],
"Esl.Codes.C42_detects_transposition": [
"Classical.choice",
"Quot.sound",
"propext"
],
"Esl.Codes.C42_lower_case": [
"Quot.sound",
"propext"
],
"Esl.Codes.C43_counterexample_length": [
"Classical.choice",
"Quot.sound",
"propext"
],
"Esl.Codes.C43_counterexample_malformed": [
"Classical.choice",
"Quot.sound",
"propext"
],
"Esl.Codes.C43_counterexample_round_trip": [
"Quot.sound",
"propext"
],
"Esl.Codes.C43_country_and_string_partial": [
"Quot.sound",
"propext"
],
"Esl.Codes.C43_print_injective_partial": [
"propext"
],
"Esl.Codes.C43_rejects_partial": [
"Classical.choice",
"Quot.sound",
"propext"
],
"Esl.Codes.C43_round_trip_partial": [
"Quot.sound",
"propext"
],
"Esl.Codes.C43_two_strings_partial": [
"Quot.sound",
"propext"
],
"Esl.Codes.C44_accepts_exactly": [
"Classical.choice",
"Quot.sound",
"propext"
],
"Esl.Codes.C44_checksum_valid": [
"Classical.choice",
"Quot.sound",
"propext"
],
"Esl.Codes.C44_detects_digit": [
"Classical.choice",
"Quot.sound",
"propext"
],
"Esl.Codes.C44_isin_of_cusip": [
"Classical.choice",
"Quot.sound",
"propext"
],
"Esl.Codes.C44_round_trip": [
"Classical.choice",
"Quot.sound",
"propext"
],
"Esl.Codes.C45_checksum_valid": [
"Classical.choice",
"Quot.sound",
"propext"
],
"Esl.Codes.C45_counterexample": [
"Classical.choice",
"Quot.sound",
"propext"
],
"Esl.Codes.C45_detects_partial": [
"Classical.choice",
"Quot.sound",
"propext"
],
"Esl.Codes.C45_round_trip": [
"Quot.sound",
"propext"
],
"Esl.Codes.C46_checksums_differ_partial": [
"Classical.choice",
"Quot.sound",
"propext"
],
"Esl.Codes.C46_congruent_one_partial": [
"Classical.choice",
"Quot.sound",
"propext"
],
"Esl.Codes.C46_counterexample": [
"Classical.choice",
"Quot.sound",
"propext"
],
"Esl.Codes.C46_detects_partial": [
"Classical.choice",
"Quot.sound",
"propext"
],
"Esl.Codes.C46_round_trip": [
"Quot.sound",
"propext"
],
"Esl.Codes.C47_isin": [
"Classical.choice",
"Quot.sound",
"propext"
],
"Esl.Codes.C47_lei": [
"Classical.choice",
"Quot.sound",
"propext"
],
"Esl.Codes.C47_range_needed": [
"Classical.choice",
"Quot.sound",
"propext"
],
"Esl.Codes.C47_share_identity": [
"propext"
],
"Esl.Codes.C47_share_is_child": [],
"Esl.Codes.C76_accepts": [
"Quot.sound",
"propext"
],
"Esl.Codes.C76_hash_injective": [
"Classical.choice",
"Quot.sound",
"propext"
],
"Esl.Codes.C77_counterexample_length": [
"Classical.choice",
"Quot.sound",
"propext"
],
"Esl.Codes.C77_length_partial": [
"Quot.sound",
"propext"
],
"Esl.Codes.C77_round_trip": [
"Quot.sound",
"propext"
],
"Esl.Comm.C15_exactly_once": [
"Classical.choice",
"Quot.sound",
"propext"
],
"Esl.Comm.C15_not_early": [
"Classical.choice",
"Quot.sound",
"propext"
],
"Esl.Comm.C16_priority": [
"Classical.choice",
"Quot.sound",
"propext"
],
"Esl.Comm.C17_counterexample_last_first": [
"Quot.sound",
"propext"
],
"Esl.Comm.C17_in_order_reversed_partial": [
"Classical.choice",
"Quot.sound",
"propext"
],
"Esl.Comm.C72_locked": [
"Quot.sound",
"propext"
],
"Esl.Comm.C72_registered": [
"Classical.choice",
"Quot.sound",
"propext"
],
"Esl.Company.C53_at_most_partial": [
"Classical.choice",
"Quot.sound",
"propext"
],
"Esl.Company.C53_counterexample_overflow": [
"Classical.choice",
"Quot.sound",
"propext"
],
"Esl.Company.C53_counterexample_policy": [
"Classical.choice",
"Quot.sound",
"propext"
],
"Esl.Company.C53_counterexample_total": [
"Classical.choice",
"Quot.sound",
"propext"
],
"Esl.Company.C53_no_profit": [
"Classical.choice",
"Quot.sound",
"propext"
],
"Esl.Company.C53_parts": [
"Classical.choice",
"Quot.sound",
"propext"
],
"Esl.Company.C53_total_partial": [
"Classical.choice",
"Quot.sound",
"propext"
],
"Esl.Company.C54_announcements": [
"Classical.choice",
"Quot.sound",
"propext"
],
"Esl.Company.C54_counterexample_announcement": [
"Classical.choice",
"Quot.sound",
"propext"
],
"Esl.Company.C54_counterexample_wake": [
"Quot.sound",
"propext"
],
"Esl.Company.C54_once": [
"Classical.choice",
"Quot.sound",
"propext"
],
"Esl.Company.C54_wake_partial": [
"Classical.choice",
"Quot.sound",
"propext"
],
"Esl.Company.C55_ascending": [
"Quot.sound",
"propext"
],
"Esl.Company.C55_counterexample_rank": [
"Classical.choice",
"Quot.sound",
"propext"
],
"Esl.Company.C55_equal": [
"Quot.sound",
"propext"
],
"Esl.Company.C55_register_partial": [
"Classical.choice",
"Quot.sound",
"propext"
],
"Esl.Company.C70_counterexample_bondholder": [
"Classical.choice",
"Quot.sound",
"propext"
],
"Esl.Company.C70_counterexample_currency": [
"Classical.choice",
"Quot.sound",
"propext"
],
"Esl.Company.C70_shareholder_partial": [
"Classical.choice",
"Quot.sound",
"propext"
],
"Esl.Company.C84_counterexample_later": [
"Classical.choice",
"Quot.sound",
"propext"
],
"Esl.Company.C84_counterexample_twice": [
"Classical.choice",
"Quot.sound",
"propext"
],
"Esl.Company.C84_first_partial": [
"Classical.choice",
"Quot.sound",
"propext"
],
"Esl.Company.C84_records": [
"Classical.choice",
"Quot.sound",
"propext"
],
"Esl.Company.C85_stock_holdings": [
"Classical.choice",
"Quot.sound",
"propext"
],
"Esl.Company.C85_unknown": [
"Quot.sound",
"propext"
],
"Esl.Constants.C176_counterexample_missing": [
"Classical.choice",
"Quot.sound",
"propext"
],
"Esl.Constants.C176_countries_partial": [
"Classical.choice",
"Quot.sound",
"propext"
],
"Esl.Constants.C176_currencies": [
"Classical.choice",
"Quot.sound",
"propext"
],
"Esl.Constants.C176_jurisdictions": [
"Classical.choice",
"Quot.sound",
"propext"
],
"Esl.Construction.C123_agent_partial": [
"propext"
],
"Esl.Construction.C123_counterexample_owner": [],
"Esl.Construction.C123_counterexample_security": [],
"Esl.Construction.C123_counterexample_user": [
"propext"
],
"Esl.Construction.C123_plain": [],
"Esl.Construction.C123_property_injective": [
"propext"
],
"Esl.Construction.C123_property_partial": [
"propext"
],
"Esl.Construction.C123_tagged": [
"propext"
],
"Esl.Construction.C123_user_partial": [
"propext"
],
"Esl.Construction.C123_virtual": [
"propext"
],
"Esl.Construction.C124_bonds_partial": [
"Quot.sound",
"propext"
],
"Esl.Construction.C124_counterexample_inventory": [
"Quot.sound",
"propext"
],
"Esl.Construction.C124_counterexample_issuer": [],
"Esl.Construction.C124_counterexample_lending": [],
"Esl.Construction.C124_counterexample_loans": [],
"Esl.Construction.C124_lending_parties": [],
"Esl.Construction.C124_parties_partial": [
"propext"
],
"Esl.DirectOrders.C179_books_partial": [
"Classical.choice",
"Quot.sound",
"propext"
],
"Esl.DirectOrders.C179_counterexample_data": [
"Classical.choice",
"Quot.sound",
"propext"
],
"Esl.DirectOrders.C179_counterexample_silent": [
"Classical.choice",
"Quot.sound",
"propext"
],
"Esl.DirectOrders.C179_counterexample_stream": [],
"Esl.DirectOrders.C179_counterexample_wrong_order": [
"Classical.choice",
"Quot.sound",
"propext"
],
"Esl.DirectOrders.C179_unknown_symbol_partial": [
"propext"
],
"Esl.Distance.C159_best_partial": [
"Classical.choice",
"Quot.sound",
"propext"
],
"Esl.Distance.C159_counterexample_coincide": [
"Quot.sound",
"propext"
],
"Esl.Distance.C159_counterexample_far": [
"Classical.choice",
"Quot.sound",
"propext"
],
"Esl.Distance.C159_refines": [
"Classical.choice",
"Quot.sound",
"propext"
],
"Esl.Dividends.C150_announced_partial": [
"Classical.choice",
"Quot.sound",
"propext"
],
"Esl.Dividends.C150_counterexample_payable": [
"Classical.choice",
"Quot.sound",
"propext"
],
"Esl.Dividends.C150_counterexample_record": [
"Classical.choice",
"Quot.sound",
"propext"
],
"Esl.Dividends.C150_once": [
"Classical.choice",
"Quot.sound",
"propext"
],
"Esl.Draws.C180_construct": [
"Quot.sound",
"propext"
],
"Esl.Draws.C180_counterexample_agents": [
"Quot.sound",
"propext"
],
"Esl.Draws.C180_counterexample_calls": [
"Quot.sound",
"propext"
],
"Esl.Draws.C180_counterexample_rounds": [
"Quot.sound",
"propext"
],
"Esl.Draws.C180_one_word_partial": [
"Quot.sound",
"propext"
],
"Esl.Draws.C180_run_partial": [
"Classical.choice",
"Quot.sound",
"propext"
],
"Esl.Draws.C180_siblings_partial": [
"Quot.sound",
"propext"
],
"Esl.Draws.C180_turns_partial": [
"Quot.sound",
"propext"
],
"Esl.Exchange.C128_counterexample_counterparty": [
"Quot.sound",
"propext"
],
"Esl.Exchange.C128_exchange_partial": [
"Classical.choice",
"Quot.sound",
"propext"
],
"Esl.Exchange.C37_after_order_partial": [
"Classical.choice",
"Quot.sound",
"propext"
],
"Esl.Exchange.C37_counterexample_cancel": [],
"Esl.Exchange.C37_counterexample_waiting": [
"Quot.sound",
"propext"
],
"Esl.Exchange.C37_counterexample_wrong_order": [
"propext"
],
"Esl.Exchange.C37_reports_partial": [
"Classical.choice",
"Quot.sound",
"propext"
],
"Esl.Exchange.C37_unknown_symbol": [
"propext"
],
"Esl.Exchange.C38_counterexample_nobody": [
"Classical.choice",
"Quot.sound",
"propext"
],
"Esl.Exchange.C38_counterexample_second": [
"Classical.choice",
"Quot.sound",
"propext"
],
"Esl.Exchange.C38_logon_partial": [
"Classical.choice",
"Quot.sound",
"propext"
],
"Esl.Exchange.C38_logout_others": [
"Classical.choice",
"Quot.sound",
"propext"
],
"Esl.Exchange.C38_logout_partial": [
"Classical.choice",
"Quot.sound",
"propext"
],
"Esl.Exchange.C96_cancel_partial": [
"Classical.choice",
"Quot.sound",
"propext"
],
"Esl.Exchange.C96_counterexample_cancel_unsubscribed": [
"Classical.choice",
"Quot.sound",
"propext"
],
"Esl.Exchange.C96_counterexample_cancellations": [
"Classical.choice",
"Quot.sound",
"propext"
],
"Esl.Exchange.C96_counterexample_snapshot_never": [
"Classical.choice",
"Quot.sound",
"propext"
],
"Esl.Exchange.C96_counterexample_snapshot_repeats": [
"propext"
],
"Esl.Exchange.C96_counterexample_streams_ignored": [
"Classical.choice",
"Quot.sound",
"propext"
],
"Esl.Exchange.C96_current": [
"Classical.choice",
"Quot.sound",
"propext"
],
"Esl.Exchange.C96_stream_partial": [
"Classical.choice",
"Quot.sound",
"propext"
],
"Esl.Exchange.C96_unrequested": [
"Classical.choice",
"Quot.sound",
"propext"
],
"Esl.Exchange.C97_counterexample_all_reports": [
"Classical.choice",
"Quot.sound",
"propext"
],
"Esl.Exchange.C97_counterexample_twice": [
"propext"
],
"Esl.Exchange.C97_once_partial": [
"Classical.choice",
"Quot.sound",
"propext"
],
"Esl.Exchange.C98_engine": [
"Classical.choice",
"Quot.sound",
"propext"
],
"Esl.Exchange.C98_engine_present": [
"Classical.choice",
"Quot.sound",
"propext"
],
"Esl.Exchange.C98_exchange": [
"Classical.choice",
"Quot.sound",
"propext"
],
"Esl.Experiment.C164_absent": [
"Classical.choice",
"Quot.sound",
"propext"
],
"Esl.Experiment.C164_counterexample_int": [
"Classical.choice",
"Quot.sound",
"propext"
],
"Esl.Experiment.C164_counterexample_sample": [
"Classical.choice",
"Quot.sound",
"propext"
],
"Esl.Experiment.C164_fits_partial": [
"Classical.choice",
"Quot.sound",
"propext"
],
"Esl.Experiment.C164_numpy_partial": [
"Classical.choice",
"Quot.sound",
"propext"
],
"Esl.Experiment.C164_read_back_partial": [
"Classical.choice",
"Quot.sound",
"propext"
],
"Esl.Experiment.C164_refused": [
"Classical.choice",
"Quot.sound",
"propext"
],
"Esl.Experiment.C164_seed_partial": [
"Classical.choice",
"Quot.sound",
"propext"
],
"Esl.Feed.C175_message": [
"Classical.choice",
"Quot.sound",
"propext"
],
"Esl.Feed.C175_simulation": [
"Classical.choice",
"Quot.sound",
"propext"
],
"Esl.Grid.C151_counterexample_above": [
"Classical.choice",
"Quot.sound",
"propext"
],
"Esl.Grid.C151_counterexample_below": [
"Classical.choice",
"Quot.sound",
"propext"
],
"Esl.Grid.C151_counterexample_exchanged": [
"Classical.choice",
"Quot.sound",
"propext"
],
"Esl.Grid.C151_counterexample_integers": [
"propext"
],
"Esl.Grid.C151_counterexample_narrow": [
"Classical.choice",
"Quot.sound",
"propext"
],
"Esl.Grid.C151_exact_partial": [
"Classical.choice",
"Quot.sound",
"propext"
],
"Esl.Grid.C151_integers_partial": [
"Quot.sound",
"propext"
],
"Esl.Grid.C151_samples_partial": [
"Classical.choice",
"Quot.sound",
"propext"
],
"Esl.Grid.C151_values_partial": [
"Classical.choice",
"Quot.sound",
"propext"
],
"Esl.Grid.C39_combinations_partial": [
"Classical.choice",
"Quot.sound",
"propext"
],
"Esl.Grid.C40_values": [
"Classical.choice",
"Quot.sound",
"propext"
],
"Esl.Hashing.C155_cash": [
"Quot.sound",
"propext"
],
"Esl.Hashing.C155_container": [
"Classical.choice",
"Quot.sound",
"propext"
],
"Esl.Hashing.C155_counterexample_nan": [
"Quot.sound",
"propext"
],
"Esl.Hashing.C155_identity": [
"Quot.sound",
"propext"
],
"Esl.Hashing.C155_share_partial": [
"Quot.sound",
"propext"
],
"Esl.Hashing.C155_ticker": [
"Quot.sound",
"propext"
],
"Esl.Holders.C139_conserved_partial": [
"Classical.choice",
"Quot.sound",
"propext"
],
"Esl.Holders.C139_counterexample_no_owner": [
"Quot.sound",
"propext"
],
"Esl.Holders.C139_counterexample_wrap": [
"Quot.sound",
"propext"
],
"Esl.Holders.C139_in_transit_partial": [
"Classical.choice",
"Quot.sound",
"propext"
],
"Esl.Holders.C139_modular": [
"Classical.choice",
"Quot.sound",
"propext"
],
"Esl.Hypercube.C40_counterexample_repeated": [
"Classical.choice",
"Quot.sound",
"propext"
],
"Esl.Hypercube.C40_distinct": [
"Classical.choice",
"Quot.sound",
"propext"
],
"Esl.Hypercube.C40_repeated_partial": [
"Classical.choice",
"Quot.sound",
"propext"
],
"Esl.Identifiable.C195_compare": [
"Quot.sound",
"propext"
],
"Esl.Identifiable.C195_counterexample_argument": [
"Quot.sound",
"propext"
],
"Esl.Identifiable.C195_counterexample_construction": [
"Classical.choice",
"Quot.sound",
"propext"
],
"Esl.Identifiable.C195_identifier_partial": [
"Quot.sound",
"propext"
],
"Esl.Identifiable.C195_library": [
"Quot.sound",
"propext"
],
"Esl.Identifiable.C195_never_throws": [],
"Esl.Identity.C01_child_after_parent": [],
"Esl.Identity.C01_order": [
"Classical.choice",
"Quot.sound",
"propext"
],
"Esl.Identity.C02_every_create_issues": [
"Quot.sound",
"propext"
],
"Esl.Identity.C02_unique_identifiers": [
"Classical.choice",
"Quot.sound",
"propext"
],
"Esl.Identity.C03_agent_copy_restarts": [
"propext"
],
"Esl.Identity.C03_copies_without_creation_partial": [
"Classical.choice",
"Quot.sound",
"propext"
],
"Esl.Identity.C03_counterexample": [
"propext"
],
"Esl.Identity.C04_render_injective": [
"Classical.choice",
"Quot.sound",
"propext"
],
"Esl.Impact.C93_balanced_partial": [
"Classical.choice",
"Quot.sound",
"propext"
],
"Esl.Impact.C93_counterexample_constant": [
"Classical.choice",
"Quot.sound",
"propext"
],
"Esl.Impact.C93_counterexample_sides": [
"Classical.choice",
"Quot.sound",
"propext"
],
"Esl.Impact.C93_counterexample_volume": [
"Classical.choice",
"Quot.sound",
"propext"
],
"Esl.Impact.C94_counterexample_twice": [
"Classical.choice",
"Quot.sound",
"propext"
],
"Esl.Impact.C94_counterexample_unlisted": [
"Classical.choice",
"Quot.sound",
"propext"
],
"Esl.Impact.C94_listed_partial": [
"Classical.choice",
"Quot.sound",
"propext"
],
"Esl.Impact.C95_advances_partial": [
"Classical.choice",
"Quot.sound",
"propext"
],
"Esl.Impact.C95_counterexample_stale": [
"Classical.choice",
"Quot.sound",
"propext"
],
"Esl.Impact.C95_counterexample_stall": [
"Classical.choice",
"Quot.sound",
"propext"
],
"Esl.Interval.C49_contains": [
"propext"
],
"Esl.Interval.C49_contains_dense": [
"propext"
],
"Esl.Interval.C49_counterexample_closed": [
"Classical.choice",
"Quot.sound",
"propext"
],
"Esl.Interval.C49_counterexample_degenerate": [
"Classical.choice",
"Quot.sound",
"propext"
],
"Esl.Interval.C49_counterexample_dense": [
"Classical.choice",
"Quot.sound",
"propext"
],
"Esl.Interval.C49_counterexample_open": [
"Quot.sound",
"propext"
],
"Esl.Interval.C49_counterexample_two": [
"Classical.choice",
"Quot.sound",
"propext"
],
"Esl.Interval.C49_degenerate_partial": [
"Classical.choice",
"Quot.sound",
"propext"
],
"Esl.Interval.C49_empty_swaps_flags": [
"Classical.choice",
"Quot.sound",
"propext"
],
"Esl.Interval.C49_half_open_dense_partial": [
"Classical.choice",
"Quot.sound",
"propext"
],
"Esl.Interval.C49_half_open_partial": [
"Classical.choice",
"Quot.sound",
"propext"
],
"Esl.Interval.C49_singleton_swaps_flags": [
"Classical.choice",
"Quot.sound",
"propext"
],
"Esl.Interval.C49_swaps_flags_dense": [
"Classical.choice",
"Quot.sound",
"propext"
],
"Esl.Inventory.C12_counterexample_not_atomic": [],
"Esl.Inventory.C12_insertion": [
"Quot.sound",
"propext"
],
"Esl.Inventory.C12_order_irrelevant_partial": [
"Quot.sound",
"propext"
],
"Esl.Inventory.C12_removal_partial": [
"Quot.sound",
"propext"
],
"Esl.Inventory.C12_round_trip": [
"Quot.sound",
"propext"
],
"Esl.Inventory.C13_conservation": [
"Classical.choice",
"Quot.sound",
"propext"
],
"Esl.Inventory.C13_refused_iff": [
"Classical.choice",
"Quot.sound",
"propext"
],
"Esl.Inventory.C13_uninvolved": [
"propext"
],
"Esl.Inventory.C14_agreement_partial": [
"Quot.sound",
"propext"
],
"Esl.Inventory.C14_counterexample_self_transfer": [
"propext"
],
"Esl.Inventory.C14_counterexample_take": [
"propext"
],
"Esl.Latency.C181_at_least_shift_partial": [
"Classical.choice",
"Quot.sound",
"propext"
],
"Esl.Latency.C181_counterexample_pairs": [
"Classical.choice",
"Quot.sound",
"propext"
],
"Esl.Latency.C181_counterexample_same": [
"Classical.choice",
"Quot.sound",
"propext"
],
"Esl.Ledger.C140_accounted": [
"Classical.choice",
"Quot.sound",
"propext"
],
"Esl.Ledger.C140_handled": [
"Classical.choice",
"Quot.sound",
"propext"
],
"Esl.Ledger.C140_waiting": [
"Classical.choice",
"Quot.sound",
"propext"
],
"Esl.Listing.C152_contents_partial": [
"Classical.choice",
"Quot.sound",
"propext"
],
"Esl.Listing.C152_counterexample_assets": [
"propext"
],
"Esl.Listing.C152_counterexample_loans": [
"propext"
],
"Esl.Listing.C152_counterexample_money": [
"propext"
],
"Esl.Listing.C152_counterexample_order": [
"Classical.choice",
"Quot.sound",
"propext"
],
"Esl.Listing.C152_listed_partial": [
"propext"
],
"Esl.Listing.C152_names_partial": [
"Classical.choice",
"Quot.sound",
"propext"
],
"Esl.Listing.C152_shortage": [
"Classical.choice",
"Quot.sound",
"propext"
],
"Esl.Listing.C152_unique": [
"Classical.choice",
"Quot.sound",
"propext"
],
"Esl.Listing.C152_unique_items": [
"propext"
],
"Esl.Log.C110_counterexample_console": [
"propext"
],
"Esl.Log.C110_counterexample_dynamic": [
"Quot.sound",
"propext"
],
"Esl.Log.C110_dynamic_filtered": [
"propext"
],
"Esl.Log.C110_kept": [
"propext"
],
"Esl.Log.C110_main": [],
"Esl.Log.C111_counterexample_endl": [
"propext"
],
"Esl.Log.C111_counterexample_lines": [
"propext"
],
"Esl.Log.C111_pieces": [
"Classical.choice",
"Quot.sound",
"propext"
],
"Esl.Log.C111_progress": [
"Quot.sound",
"propext"
],
"Esl.Log.C112_counterexample_directory": [
"Classical.choice",
"Quot.sound",
"propext"
],
"Esl.Log.C112_name": [
"Quot.sound",
"propext"
],
"Esl.Log.C112_root_partial": [
"Quot.sound",
"propext"
],
"Esl.Log.C112_suffix": [],
"Esl.Maker.C67_bid_below_ask_partial": [
"Classical.choice",
"Quot.sound",
"propext"
],
"Esl.Maker.C67_binary64": [
"Classical.choice",
"Quot.sound",
"propext"
],
"Esl.Maker.C67_binary64_inventory": [
"Classical.choice",
"Quot.sound",
"propext"
],
"Esl.Maker.C67_binary64_rounding": [
"Classical.choice",
"Quot.sound",
"propext"
],
"Esl.Maker.C67_counterexample_little_aversion": [
"Classical.choice",
"Quot.sound",
"propext"
],
"Esl.Maker.C67_counterexample_risk_neutral": [
"Classical.choice",
"Quot.sound",
"propext"
],
"Esl.Maker.C67_inventory": [
"Classical.choice",
"Quot.sound",
"propext"
],
"Esl.Maker.C67_never_crossed": [
"Classical.choice",
"Quot.sound",
"propext"
],
"Esl.MessageCode.C68_codes_partial": [
"Classical.choice",
"Quot.sound",
"propext"
],
"Esl.MessageCode.C68_counterexample_mask": [
"propext"
],
"Esl.MessageCode.C68_library_classes": [
"propext"
],
"Esl.Messages.C125_counterexample_sender": [],
"Esl.Messages.C125_counterexample_sent": [
"propext"
],
"Esl.Messages.C125_counterexample_take": [],
"Esl.Messages.C125_created_partial": [
"propext"
],
"Esl.Messages.C125_library_partial": [],
"Esl.Messages.C125_nobody": [],
"Esl.Messages.C125_sender_partial": [],
"Esl.Messages.C126_counterexample_no_order": [
"Classical.choice",
"Quot.sound",
"propext"
],
"Esl.Messages.C126_counterexample_orders": [],
"Esl.Messages.C126_counterexample_quotes": [
"Classical.choice",
"Quot.sound",
"propext"
],
"Esl.Messages.C126_no_quotes_partial": [
"Classical.choice",
"Quot.sound",
"propext"
],
"Esl.Messages.C126_transfer_partial": [
"propext"
],
"Esl.Messages.C127_market": [],
"Esl.Messages.C127_reply": [],
"Esl.Messages.C128_at_least_shift_partial": [
"Classical.choice",
"Quot.sound",
"propext"
],
"Esl.Messages.C128_counterexample_rate": [
"Classical.choice",
"Quot.sound",
"propext"
],
"Esl.Messages.C128_counterexample_undefined": [
"Classical.choice",
"Quot.sound",
"propext"
],
"Esl.Messages.C128_rate_one_partial": [
"Classical.choice",
"Quot.sound",
"propext"
],
"Esl.Messages.C129_counterexample_assets": [
"Quot.sound",
"propext"
],
"Esl.Messages.C129_empty_partial": [
"propext"
],
"Esl.Money.C174_amount_partial": [
"Classical.choice",
"Quot.sound",
"propext"
],
"Esl.Money.C174_counterexample_cents": [
"Classical.choice",
"Quot.sound",
"propext"
],
"Esl.Money.C174_counterexample_debt": [
"Classical.choice",
"Quot.sound",
"propext"
],
"Esl.Money.C174_counterexample_quantity": [
"Quot.sound",
"propext"
],
"Esl.Money.C174_exact_partial": [
"Classical.choice",
"Quot.sound",
"propext"
],
"Esl.Money.C174_quantity_partial": [
"Quot.sound",
"propext"
],
"Esl.Money.C174_rounding": [
"Classical.choice",
"Quot.sound",
"propext"
],
"Esl.Money.C174_rule": [
"Classical.choice",
"Quot.sound",
"propext"
],
"Esl.Mpi.C100_counterexample_again": [
"Quot.sound",
"propext"
],
"Esl.Mpi.C100_counterexample_count": [
"Quot.sound",
"propext"
],
"Esl.Mpi.C100_counterexample_idle": [
"Classical.choice",
"Quot.sound",
"propext"
],
"Esl.Mpi.C100_counterexample_remembered": [
"Classical.choice",
"Quot.sound",
"propext"
],
"Esl.Mpi.C100_forgotten_partial": [
"Classical.choice",
"Quot.sound",
"propext"
],
"Esl.Mpi.C101_agree": [
"Classical.choice",
"Quot.sound",
"propext"
],
"Esl.Mpi.C101_no_such_process": [
"Quot.sound",
"propext"
],
"Esl.Mpi.C102_addresses_partial": [
"Classical.choice",
"Quot.sound",
"propext"
],
"Esl.Mpi.C102_counterexample_absent": [
"propext"
],
"Esl.Mpi.C102_counterexample_self": [
"Classical.choice",
"Quot.sound",
"propext"
],
"Esl.Mpi.C102_migrate_partial": [
"Classical.choice",
"Quot.sound",
"propext"
],
"Esl.Mpi.C102_unbuffered_partial": [
"Classical.choice",
"Quot.sound",
"propext"
],
"Esl.Mpi.C103_counterexample_count": [
"Classical.choice",
"Quot.sound",
"propext"
],
"Esl.Mpi.C103_counterexample_lost": [
"Classical.choice",
"Quot.sound",
"propext"
],
"Esl.Mpi.C103_counterexample_unknown": [
"Quot.sound",
"propext"
],
"Esl.Mpi.C103_local_partial": [
"Classical.choice",
"Quot.sound",
"propext"
],
"Esl.Mpi.C104_counterexample_undefined": [
"Classical.choice",
"Quot.sound",
"propext"
],
"Esl.Mpi.C104_ends_partial": [
"Quot.sound",
"propext"
],
"Esl.Mpi.C105_counterexample_unknown": [
"Quot.sound",
"propext"
],
"Esl.Mpi.C105_lookup_partial": [
"Classical.choice",
"Quot.sound",
"propext"
],
"Esl.Mpi.C106_counterexample_stuck": [
"Classical.choice",
"Quot.sound",
"propext"
],
"Esl.Mpi.C106_first_partial": [
"Classical.choice",
"Quot.sound",
"propext"
],
"Esl.Mpi.C99_activate": [
"Classical.choice",
"Quot.sound",
"propext"
],
"Esl.Mpi.C99_history": [
"Classical.choice",
"Quot.sound",
"propext"
],
"Esl.Names.C108_counterexample_unnamed": [
"Classical.choice",
"Quot.sound",
"propext"
],
"Esl.Names.C108_distinct": [
"Classical.choice",
"Quot.sound",
"propext"
],
"Esl.Names.C108_iso_complete": [
"Classical.choice",
"Quot.sound",
"propext"
],
"Esl.Names.C108_iso_partial": [
"Classical.choice",
"Quot.sound",
"propext"
],
"Esl.Names.C108_lookup": [
"Classical.choice",
"Quot.sound",
"propext"
],
"Esl.Names.C108_named_partial": [
"Classical.choice",
"Quot.sound",
"propext"
],
"Esl.Names.C109_accepts": [
"Quot.sound",
"propext"
],
"Esl.Names.C109_constants": [
"propext"
],
"Esl.Names.C109_distinct": [
"Classical.choice",
"Quot.sound",
"propext"
],
"Esl.Names.C109_hash": [
"Classical.choice",
"Quot.sound",
"propext"
],
"Esl.Names.C109_lookup": [
"Classical.choice",
"Quot.sound",
"propext"
],
"Esl.Names.C121_counterexample_units": [
"Classical.choice",
"Quot.sound",
"propext"
],
"Esl.Names.C121_units_partial": [
"Classical.choice",
"Quot.sound",
"propext"
],
"Esl.Names.C122_counterexample_missing": [
"Classical.choice",
"Quot.sound",
"propext"
],
"Esl.Names.C122_jurisdictions_partial": [
"Classical.choice",
"Quot.sound",
"propext"
],
"Esl.Notices.C160_announcement_partial": [
"Classical.choice",
"Quot.sound",
"propext"
],
"Esl.Notices.C160_class": [
"Classical.choice",
"Quot.sound",
"propext"
],
"Esl.Notices.C160_counterexample_amount": [
"Classical.choice",
"Quot.sound",
"propext"
],
"Esl.Notices.C160_counterexample_sender": [
"Classical.choice",
"Quot.sound",
"propext"
],
"Esl.Notices.C160_record_partial": [
"Classical.choice",
"Quot.sound",
"propext"
],
"Esl.OpenBook.C65_counterexample_time": [
"Classical.choice",
"Quot.sound",
"propext"
],
"Esl.OpenBook.C65_field": [
"Classical.choice",
"Quot.sound",
"propext"
],
"Esl.OpenBook.C65_message_partial": [
"Classical.choice",
"Quot.sound",
"propext"
],
"Esl.OpenBook.C80_main_session": [
"Classical.choice",
"Quot.sound",
"propext"
],
"Esl.OpenBook.C81_counterexample_scale": [
"Classical.choice",
"Quot.sound",
"propext"
],
"Esl.OpenBook.C81_price_partial": [
"Classical.choice",
"Quot.sound",
"propext"
],
"Esl.OrderLog.C170_accounts_partial": [
"Classical.choice",
"Quot.sound",
"propext"
],
"Esl.OrderLog.C170_counterexample_brokers": [
"Classical.choice",
"Quot.sound",
"propext"
],
"Esl.OrderLog.C170_counterexample_cancel": [
"propext"
],
"Esl.OrderLog.C170_counterexample_late": [
"Classical.choice",
"Quot.sound",
"propext"
],
"Esl.OrderLog.C170_counterexample_self": [
"Classical.choice",
"Quot.sound",
"propext"
],
"Esl.OrderLog.C170_entries": [
"Quot.sound",
"propext"
],
"Esl.OrderLog.C170_messages": [
"Quot.sound",
"propext"
],
"Esl.OrderLog.C170_transparent": [
"Quot.sound",
"propext"
],
"Esl.Orders.C165_assign": [],
"Esl.Orders.C165_cancel": [
"propext"
],
"Esl.Orders.C165_contains_partial": [
"Quot.sound",
"propext"
],
"Esl.Orders.C165_counterexample_book": [
"Classical.choice",
"Quot.sound",
"propext"
],
"Esl.Orders.C165_counterexample_contains": [
"Quot.sound",
"propext"
],
"Esl.Orders.C165_counterexample_equal": [
"Quot.sound",
"propext"
],
"Esl.Orders.C165_counterexample_quantity": [
"Quot.sound",
"propext"
],
"Esl.Orders.C165_create_partial": [
"Classical.choice",
"Quot.sound",
"propext"
],
"Esl.Orders.C165_equal_partial": [
"Quot.sound",
"propext"
],
"Esl.Orders.C166_counterexample_trades": [
"Quot.sound",
"propext"
],
"Esl.Orders.C166_counterexample_warned": [
"Classical.choice",
"Quot.sound",
"propext"
],
"Esl.Orders.C166_liquidity": [
"Classical.choice",
"Quot.sound",
"propext"
],
"Esl.Orders.C166_print": [
"Classical.choice",
"Quot.sound",
"propext"
],
"Esl.Orders.C166_warned_partial": [
"propext"
],
"Esl.Out.C69_add": [
"Classical.choice",
"Quot.sound",
"propext"
],
"Esl.Out.C69_counterexample_second_output": [
"Classical.choice",
"Quot.sound",
"propext"
],
"Esl.Out.C69_once": [
"Classical.choice",
"Quot.sound",
"propext"
],
"Esl.Out.C69_streams_partial": [
"Classical.choice",
"Quot.sound",
"propext"
],
"Esl.Out.C69_values": [
"Classical.choice",
"Quot.sound",
"propext"
],
"Esl.Overrides.C153_call_partial": [
"Quot.sound",
"propext"
],
"Esl.Overrides.C153_counterexample_ignored": [
"propext"
],
"Esl.Overrides.C153_counterexample_inherited": [
"Quot.sound",
"propext"
],
"Esl.Overrides.C153_counterexample_nothing": [
"Quot.sound",
"propext"
],
"Esl.Overrides.C153_run_partial": [
"Quot.sound",
"propext"
],
"Esl.Overrides.C153_step_partial": [
"Quot.sound",
"propext"
],
"Esl.Payout.C53_binary64_no_profit": [
"Classical.choice",
"Quot.sound",
"propext"
],
"Esl.Payout.C53_binary64_partial": [
"Classical.choice",
"Quot.sound",
"propext"
],
"Esl.Payout.C53_counterexample_cent": [
"Classical.choice",
"Quot.sound",
"propext"
],
"Esl.Payout.C53_counterexample_exceeds": [
"Classical.choice",
"Quot.sound",
"propext"
],
"Esl.Poisson.C158_at_most_partial": [
"Classical.choice",
"Quot.sound",
"propext"
],
"Esl.Poisson.C158_counterexample": [
"Classical.choice",
"Quot.sound",
"propext"
],
"Esl.Poisson.C158_counterexample_two": [
"Classical.choice",
"Quot.sound",
"propext"
],
"Esl.Poisson.C158_one_partial": [
"Classical.choice",
"Quot.sound",
"propext"
],
"Esl.Poisson.C158_positive": [
"Classical.choice",
"Quot.sound",
"propext"
],
"Esl.Pool.C32_counterexample_constant": [],
"Esl.Pool.C32_counterexample_unstored": [],
"Esl.Pool.C32_slots_partial": [
"Classical.choice",
"Quot.sound",
"propext"
],
"Esl.Pool.C33_counterexample_double_erase": [],
"Esl.Pool.C33_counterexample_never_inserted": [],
"Esl.Pool.C33_reused_partial": [
"Classical.choice",
"Quot.sound",
"propext"
],
"Esl.Population.C149_acts_known": [
"Classical.choice",
"Quot.sound",
"propext"
],
"Esl.Population.C149_counterexample_activation": [
"Quot.sound",
"propext"
],
"Esl.Population.C149_counterexample_deleted_blocks": [
"Classical.choice",
"Quot.sound",
"propext"
],
"Esl.Population.C149_counterexample_idle": [
"Quot.sound",
"propext"
],
"Esl.Population.C149_counterexample_never_completes": [
"Quot.sound",
"propext"
],
"Esl.Population.C149_counterexample_postponed": [
"Quot.sound",
"propext"
],
"Esl.Population.C149_counterexample_silenced": [
"Quot.sound",
"propext"
],
"Esl.Population.C149_counterexample_unreachable": [
"Quot.sound",
"propext"
],
"Esl.Population.C149_created_acts_partial": [
"Classical.choice",
"Quot.sound",
"propext"
],
"Esl.Population.C149_deleted_gone": [
"Classical.choice",
"Quot.sound",
"propext"
],
"Esl.Population.C149_delivered_partial": [
"Classical.choice",
"Quot.sound",
"propext"
],
"Esl.Population.C149_static": [
"Quot.sound",
"propext"
],
"Esl.Population.C149_stays": [
"Classical.choice",
"Quot.sound",
"propext"
],
"Esl.Population.C149_time": [
"Classical.choice",
"Quot.sound",
"propext"
],
"Esl.Population.C149_wakeups": [
"Classical.choice",
"Quot.sound",
"propext"
],
"Esl.Price.C08_different_currency": [
"Quot.sound",
"propext"
],
"Esl.Price.C08_same_currency": [
"Classical.choice",
"Quot.sound",
"propext"
],
"Esl.Price.C09_counterexample_ge_lots": [],
"Esl.Price.C09_counterexample_overflow": [],
"Esl.Price.C09_counterexample_wrap": [],
"Esl.Price.C09_different_lots_partial": [
"propext"
],
"Esl.Price.C09_equal_lots_partial": [
"Classical.choice",
"Quot.sound",
"propext"
],
"Esl.Price.C48_constructor": [
"Classical.choice",
"Quot.sound",
"propext"
],
"Esl.Price.C48_counterexample": [
"propext"
],
"Esl.Price.C48_same_denominator_partial": [
"Classical.choice",
"Quot.sound",
"propext"
],
"Esl.Price.C48_strict_order": [
"Classical.choice",
"Quot.sound",
"propext"
],
"Esl.Printing.C142_copy": [],
"Esl.Printing.C142_counterexample_equality": [],
"Esl.Printing.C142_counterexample_fill": [],
"Esl.Printing.C142_counterexample_large": [
"Classical.choice",
"Quot.sound",
"propext"
],
"Esl.Printing.C142_counterexample_order": [],
"Esl.Printing.C142_counterexample_precision": [
"Classical.choice",
"Quot.sound",
"propext"
],
"Esl.Printing.C142_counterexample_report": [
"Classical.choice",
"Quot.sound",
"propext"
],
"Esl.Printing.C142_counterexample_width": [
"Classical.choice",
"Quot.sound",
"propext"
],
"Esl.Printing.C142_currencies": [
"Classical.choice",
"Quot.sound",
"propext"
],
"Esl.Printing.C142_equality_partial": [
"Quot.sound",
"propext"
],
"Esl.Printing.C142_format": [
"Classical.choice",
"Quot.sound",
"propext"
],
"Esl.Printing.C142_identifies_partial": [
"Classical.choice",
"Quot.sound",
"propext"
],
"Esl.Printing.C142_price_partial": [
"Classical.choice",
"Quot.sound",
"propext"
],
"Esl.Printing.C142_quote_partial": [
"Classical.choice",
"Quot.sound",
"propext"
],
"Esl.Printing.C142_report_partial": [
"Classical.choice",
"Quot.sound",
"propext"
],
"Esl.Python.C113_counterexample_missing": [
"Classical.choice",
"Quot.sound",
"propext"
],
"Esl.Python.C113_counterexample_several": [
"Quot.sound",
"propext"
],
"Esl.Python.C113_inbox_partial": [
"Quot.sound",
"propext"
],
"Esl.Python.C113_map": [
"Classical.choice",
"Quot.sound",
"propext"
],
"Esl.Python.C114_counterexample_object": [],
"Esl.Python.C114_counterexample_release": [
"propext"
],
"Esl.Python.C114_counterexample_severity": [
"propext"
],
"Esl.Python.C114_low_partial": [
"propext"
],
"Esl.Python.C115_counterexample_currencies": [
"Classical.choice",
"Quot.sound",
"propext"
],
"Esl.Python.C115_counterexample_currency": [
"propext"
],
"Esl.Python.C115_counterexample_isin": [
"propext"
],
"Esl.Python.C115_counterexample_print": [
"propext"
],
"Esl.Python.C115_country": [
"propext"
],
"Esl.Python.C115_entity": [
"Quot.sound",
"propext"
],
"Esl.Python.C115_isin_partial": [
"propext"
],
"Esl.Python.C115_print_country": [
"propext"
],
"Esl.Python.C116_communicator_partial": [
"propext"
],
"Esl.Python.C116_counterexample_agent": [],
"Esl.Python.C116_counterexample_send": [],
"Esl.Python.C117_counterexample_price": [
"propext"
],
"Esl.Python.C117_read_partial": [
"Classical.choice",
"Quot.sound",
"propext"
],
"Esl.Python.C118_time": [
"propext"
],
"Esl.Python.C119_counterexample_dropped": [
"propext"
],
"Esl.Python.C119_demand_partial": [
"Classical.choice",
"Quot.sound",
"propext"
],
"Esl.Python.C119_supply": [
"Classical.choice",
"Quot.sound",
"propext"
],
"Esl.Python.C120_counterexample_rate": [
"Quot.sound",
"propext"
],
"Esl.Python.C120_price_partial": [],
"Esl.QBook.C148_accepted_partial": [
"Classical.choice",
"Quot.sound",
"propext"
],
"Esl.QBook.C148_alike_partial": [
"Classical.choice",
"Quot.sound",
"propext"
],
"Esl.QBook.C148_cancel": [
"propext"
],
"Esl.QBook.C148_counterexample_cancel": [
"Classical.choice",
"Quot.sound",
"propext"
],
"Esl.QBook.C148_counterexample_lots": [
"Quot.sound",
"propext"
],
"Esl.QBook.C148_counterexample_overflow": [
"Classical.choice",
"Quot.sound",
"propext"
],
"Esl.QBook.C148_counterexample_units": [
"Quot.sound",
"propext"
],
"Esl.QBook.C148_one_currency_partial": [
"Classical.choice",
"Quot.sound",
"propext"
],
"Esl.QBook.C148_refused_partial": [
"Classical.choice",
"Quot.sound",
"propext"
],
"Esl.QCrossing.C190_counterexample_lots": [
"Classical.choice",
"Quot.sound",
"propext"
],
"Esl.QCrossing.C190_currency": [
"Classical.choice",
"Quot.sound",
"propext"
],
"Esl.QCrossing.C190_uncrossed_partial": [
"Classical.choice",
"Quot.sound",
"propext"
],
"Esl.QCrossing.C191_counterexample_executed": [
"Quot.sound",
"propext"
],
"Esl.QCrossing.C191_defined": [
"Classical.choice",
"Quot.sound",
"propext"
],
"Esl.QCrossing.C191_positive": [
"Classical.choice",
"Quot.sound",
"propext"
],
"Esl.QCrossing.C191_unchanged_partial": [
"Classical.choice",
"Quot.sound",
"propext"
],
"Esl.QData.C192_buy_partial": [
"Classical.choice",
"Quot.sound",
"propext"
],
"Esl.QData.C192_counterexample_buy": [
"propext"
],
"Esl.QData.C192_counterexample_data": [
"propext"
],
"Esl.QData.C192_data_partial": [
"Classical.choice",
"Quot.sound",
"propext"
],
"Esl.QData.C192_sell": [
"Classical.choice",
"Quot.sound",
"propext"
],
"Esl.QExchange.C186_alike_partial": [
"Classical.choice",
"Quot.sound",
"propext"
],
"Esl.QExchange.C186_counterexample_currency": [
"Classical.choice",
"Quot.sound",
"propext"
],
"Esl.QExchange.C186_data_partial": [
"Classical.choice",
"Quot.sound",
"propext"
],
"Esl.QNum.C137_conversion_partial": [
"Classical.choice",
"Quot.sound",
"propext"
],
"Esl.QNum.C137_counterexample_divide_by_one": [
"Classical.choice",
"Quot.sound",
"propext"
],
"Esl.QNum.C137_counterexample_equal": [
"Classical.choice",
"Quot.sound",
"propext"
],
"Esl.QNum.C137_counterexample_limits": [
"Classical.choice",
"Quot.sound",
"propext"
],
"Esl.QNum.C137_counterexample_negative": [
"Classical.choice",
"Quot.sound",
"propext"
],
"Esl.QNum.C137_counterexample_negative_divisor": [
"Quot.sound",
"propext"
],
"Esl.QNum.C137_counterexample_product": [
"Classical.choice",
"Quot.sound",
"propext"
],
"Esl.QNum.C137_counterexample_unequal": [
"Classical.choice",
"Quot.sound",
"propext"
],
"Esl.QNum.C137_division_partial": [
"Classical.choice",
"Quot.sound",
"propext"
],
"Esl.QNum.C137_exact_partial": [
"Classical.choice",
"Quot.sound",
"propext"
],
"Esl.QNum.C137_exactly_one": [
"Classical.choice",
"Quot.sound",
"propext"
],
"Esl.QNum.C137_sound": [
"Classical.choice",
"Quot.sound",
"propext"
],
"Esl.QNum.C137_unequal_partial": [
"Classical.choice",
"Quot.sound",
"propext"
],
"Esl.QNum.C137_whole_product": [
"Classical.choice",
"Quot.sound",
"propext"
],
"Esl.QPriority.C193_cancel": [
"Classical.choice",
"Quot.sound",
"propext"
],
"Esl.QPriority.C193_unique": [
"Classical.choice",
"Quot.sound",
"propext"
],
"Esl.QPriority.C193_unknown": [
"propext"
],
"Esl.QPriority.C194_later": [
"Classical.choice",
"Quot.sound",
"propext"
],
"Esl.QPriority.C194_priority": [
"Classical.choice",
"Quot.sound",
"propext"
],
"Esl.QSides.C188_comparable": [
"Classical.choice",
"Quot.sound",
"propext"
],
"Esl.QSides.C188_sides": [
"Classical.choice",
"Quot.sound",
"propext"
],
"Esl.QSides.C189_buy_partial": [
"Classical.choice",
"Quot.sound",
"propext"
],
"Esl.QSides.C189_counterexample_buy": [
"Classical.choice",
"Quot.sound",
"propext"
],
"Esl.QSides.C189_limits": [
"Quot.sound",
"propext"
],
"Esl.QSides.C189_sell": [
"Classical.choice",
"Quot.sound",
"propext"
],
"Esl.QUnits.C187_book": [
"Classical.choice",
"Quot.sound",
"propext"
],
"Esl.QUnits.C187_book_smooth": [
"Classical.choice",
"Quot.sound",
"propext"
],
"Esl.QUnits.C187_exchange": [
"Classical.choice",
"Quot.sound",
"propext"
],
"Esl.QUnits.C187_exchange_sides": [
"Classical.choice",
"Quot.sound",
"propext"
],
"Esl.QUnits.C187_sides": [
"Classical.choice",
"Quot.sound",
"propext"
],
"Esl.Quantity.C05_split": [
"Classical.choice",
"Quot.sound",
"propext"
],
"Esl.Quantity.C06_counterexample_postdecrement": [],
"Esl.Quantity.C06_counterexample_predecrement": [
"propext"
],
"Esl.Quantity.C06_subtraction_partial": [
"Quot.sound",
"propext"
],
"Esl.Quantity.C07_power": [
"Quot.sound",
"propext"
],
"Esl.Quantity.C07_power_exact": [
"Quot.sound",
"propext"
],
"Esl.Sampler.C39_bounds": [
"Classical.choice",
"Quot.sound",
"propext"
],
"Esl.Sampler.C39_counterexample": [
"Classical.choice",
"Quot.sound",
"propext"
],
"Esl.Sampler.C39_grid_partial": [
"Classical.choice",
"Quot.sound",
"propext"
],
"Esl.Sampler.C40_counterexample": [
"Classical.choice",
"Quot.sound",
"propext"
],
"Esl.Sampler.C40_latin_partial": [
"Classical.choice",
"Quot.sound",
"propext"
],
"Esl.Sampler.C41_counterexample_duplication": [
"Classical.choice",
"Quot.sound",
"propext"
],
"Esl.Sampler.C41_counterexample_overflow": [
"Classical.choice",
"Quot.sound",
"propext"
],
"Esl.Sampler.C41_permutations_partial": [
"Classical.choice",
"Quot.sound",
"propext"
],
"Esl.Saved.C184_counterexample": [
"Classical.choice",
"Quot.sound",
"propext"
],
"Esl.Saved.C184_counterexample_holdings": [
"Classical.choice",
"Quot.sound",
"propext"
],
"Esl.Saved.C184_records_partial": [
"Classical.choice",
"Quot.sound",
"propext"
],
"Esl.Saved.C184_restored_partial": [
"Classical.choice",
"Quot.sound",
"propext"
],
"Esl.Saved.C66_counterexample_price_pointer": [
"Classical.choice",
"Quot.sound",
"propext"
],
"Esl.Saved.C66_counterexample_timing": [
"Quot.sound",
"propext"
],
"Esl.Saved.C66_share_class": [
"Classical.choice",
"Quot.sound",
"propext"
],
"Esl.Sched.C18_run": [
"Classical.choice",
"Quot.sound",
"propext"
],
"Esl.Sched.C18_step_forward": [
"Classical.choice",
"Quot.sound",
"propext"
],
"Esl.Sched.C19_acts_when_due": [
"Classical.choice",
"Quot.sound",
"propext"
],
"Esl.Sched.C19_minimum": [
"Classical.choice",
"Quot.sound",
"propext"
],
"Esl.Sched.C19_no_wakeup_skipped": [
"Classical.choice",
"Quot.sound",
"propext"
],
"Esl.Sched.C20_counterexample_lost_wakeup": [
"Quot.sound",
"propext"
],
"Esl.Sched.C20_immediate": [
"Classical.choice",
"Quot.sound",
"propext"
],
"Esl.Sched.C20_on_time_partial": [
"Classical.choice",
"Quot.sound",
"propext"
],
"Esl.Sched.C21_counterexample_dated_past": [
"Classical.choice",
"Quot.sound",
"propext"
],
"Esl.Sched.C21_counterexample_late_message": [
"propext"
],
"Esl.Sched.C21_counterexample_overdue": [
"Classical.choice",
"Quot.sound",
"propext"
],
"Esl.Sched.C21_terminates_partial": [
"Classical.choice",
"Quot.sound",
"propext"
],
"Esl.Sched.C22_conservation": [
"Classical.choice",
"Quot.sound",
"propext"
],
"Esl.Sched.C22_total": [
"Classical.choice",
"Quot.sound",
"propext"
],
"Esl.Sched.C22_unknown_recipient": [
"Classical.choice",
"Quot.sound",
"propext"
],
"Esl.Sched.C71_bounded_partial": [
"Classical.choice",
"Quot.sound",
"propext"
],
"Esl.Sched.C71_counterexample_deactivated": [
"Classical.choice",
"Quot.sound",
"propext"
],
"Esl.Sched.C74_activate_partial": [],
"Esl.Sched.C74_counterexample_activate": [
"propext"
],
"Esl.Seeds.C177_counterexample_numbers": [
"propext"
],
"Esl.Seeds.C177_counterexample_time": [
"propext"
],
"Esl.Seeds.C177_samples_partial": [
"propext"
],
"Esl.Seeds.C177_seeds_partial": [
"Classical.choice",
"Quot.sound",
"propext"
],
"Esl.Seeds.C177_siblings": [
"Quot.sound",
"propext"
],
"Esl.Seeds.C177_turns": [
"Classical.choice",
"Quot.sound",
"propext"
],
"Esl.Sharing.C143_alive": [
"Classical.choice",
"Quot.sound",
"propext"
],
"Esl.Sharing.C143_counterexample_weak": [
"Classical.choice",
"Quot.sound",
"propext"
],
"Esl.Sharing.C143_deleted_partial": [
"Classical.choice",
"Quot.sound",
"propext"
],
"Esl.Sharing.C143_same_object": [
"Classical.choice",
"Quot.sound",
"propext"
],
"Esl.Sharing.C143_stable": [
"Classical.choice",
"Quot.sound",
"propext"
],
"Esl.Sharing.C143_valid": [
"Classical.choice",
"Quot.sound",
"propext"
],
"Esl.Shuffle.C178_counterexample_groups": [
"Classical.choice",
"Quot.sound",
"propext"
],
"Esl.Shuffle.C178_counterexample_orders": [
"Classical.choice",
"Quot.sound",
"propext"
],
"Esl.Shuffle.C178_generator_partial": [
"Quot.sound",
"propext"
],
"Esl.Shuffle.C178_random_partial": [
"Classical.choice",
"Quot.sound",
"propext"
],
"Esl.Simplex.C61_binary64_partial": [
"Classical.choice",
"Quot.sound",
"propext"
],
"Esl.Simplex.C61_counterexample_sum": [
"Classical.choice",
"Quot.sound",
"propext"
],
"Esl.Simplex.C62_binary64_partial": [
"Classical.choice",
"Quot.sound",
"propext"
],
"Esl.Simplex.C62_counterexample_missing": [
"Classical.choice",
"Quot.sound",
"propext"
],
"Esl.Simplex.C62_counterexample_sum": [
"Classical.choice",
"Quot.sound",
"propext"
],
"Esl.Solvers.C156_counterexample_diverges": [
"Classical.choice",
"Quot.sound",
"propext"
],
"Esl.Solvers.C156_counterexample_transposed": [
"Classical.choice",
"Quot.sound",
"propext"
],
"Esl.Solvers.C156_gradient": [
"Classical.choice",
"Quot.sound",
"propext"
],
"Esl.Solvers.C156_layout": [
"Classical.choice",
"Quot.sound",
"propext"
],
"Esl.Solvers.C156_one": [
"Classical.choice",
"Quot.sound",
"propext"
],
"Esl.Solvers.C156_separable_partial": [
"Classical.choice",
"Quot.sound",
"propext"
],
"Esl.Solvers.C156_symmetric_partial": [
"Classical.choice",
"Quot.sound",
"propext"
],
"Esl.Solvers.C157_counterexample_handler": [
"Classical.choice",
"Quot.sound",
"propext"
],
"Esl.Solvers.C157_counterexample_steps": [
"Classical.choice",
"Quot.sound",
"propext"
],
"Esl.Solvers.C157_default": [
"Classical.choice",
"Quot.sound",
"propext"
],
"Esl.Solvers.C157_handler_partial": [
"Classical.choice",
"Quot.sound",
"propext"
],
"Esl.Solvers.C157_memory_partial": [
"Classical.choice",
"Quot.sound",
"propext"
],
"Esl.Static.C31_counterexample_static_fill_or_kill": [
"Classical.choice",
"Quot.sound",
"propext"
],
"Esl.Static.C31_static_fill_or_kill_partial": [
"Classical.choice",
"Quot.sound",
"propext"
],
"Esl.Static.C31_static_immediate_or_cancel": [
"Classical.choice",
"Quot.sound",
"propext"
],
"Esl.Static.C34_binary64_partial": [
"Classical.choice",
"Quot.sound",
"propext"
],
"Esl.Static.C34_counterexample_maximum": [
"Classical.choice",
"Quot.sound",
"propext"
],
"Esl.Static.C34_counterexample_rounding": [
"Classical.choice",
"Quot.sound",
"propext"
],
"Esl.Static.C34_counterexample_small_lot": [
"Classical.choice",
"Quot.sound",
"propext"
],
"Esl.Static.C34_counterexample_upper_half": [
"Classical.choice",
"Quot.sound",
"propext"
],
"Esl.Static.C34_lower_half_partial": [
"Classical.choice",
"Quot.sound",
"propext"
],
"Esl.Static.C34_round_trip_partial": [
"Classical.choice",
"Quot.sound",
"propext"
],
"Esl.Static.C35_counterexample_lowest_buy": [
"Classical.choice",
"Quot.sound",
"propext"
],
"Esl.Static.C35_counterexample_lowest_sell": [
"Classical.choice",
"Quot.sound",
"propext"
],
"Esl.Static.C35_counterexample_sell_matches_sell": [
"Classical.choice",
"Quot.sound",
"propext"
],
"Esl.Static.C35_counterexample_upper_half": [
"Classical.choice",
"Quot.sound",
"propext"
],
"Esl.Static.C35_matches_partial": [
"Classical.choice",
"Quot.sound",
"propext"
],
"Esl.Static.C36_best_prices_partial": [
"Classical.choice",
"Quot.sound",
"propext"
],
"Esl.Static.C36_counterexample_cancel_best": [
"Classical.choice",
"Quot.sound",
"propext"
],
"Esl.Static.C75_cancel_resting_partial": [
"Classical.choice",
"Quot.sound",
"propext"
],
"Esl.Static.C75_counterexample_executed": [
"Classical.choice",
"Quot.sound",
"propext"
],
"Esl.Static.C75_counterexample_lost_orders": [
"Classical.choice",
"Quot.sound",
"propext"
],
"Esl.TPool.C52_accounted": [
"Classical.choice",
"Quot.sound",
"propext"
],
"Esl.TPool.C52_counterexample_zero_threads": [
"Quot.sound",
"propext"
],
"Esl.TPool.C52_defined": [
"Classical.choice",
"Quot.sound",
"propext"
],
"Esl.TPool.C52_destructor_returns": [
"Classical.choice",
"Quot.sound",
"propext"
],
"Esl.TPool.C52_exactly_once": [
"Classical.choice",
"Quot.sound",
"propext"
],
"Esl.TPool.C52_history": [
"Classical.choice",
"Quot.sound",
"propext"
],
"Esl.TPool.C52_idle_pool": [
"Classical.choice",
"Quot.sound",
"propext"
],
"Esl.TPool.C52_terminates": [
"Classical.choice",
"Quot.sound",
"propext"
],
"Esl.Tat.C59_breaker_partial": [
"Classical.choice",
"Quot.sound",
"propext"
],
"Esl.Tat.C59_counterexample_default": [
"Classical.choice",
"Quot.sound",
"propext"
],
"Esl.Tat.C59_counterexample_derivative_free": [
"Classical.choice",
"Quot.sound",
"propext"
],
"Esl.Tat.C59_counterexample_derivative_free_worse": [
"Classical.choice",
"Quot.sound",
"propext"
],
"Esl.Tat.C59_counterexample_minimization": [
"Classical.choice",
"Quot.sound",
"propext"
],
"Esl.Tat.C59_counterexample_worse": [
"Classical.choice",
"Quot.sound",
"propext"
],
"Esl.Tat.C59_no_worse_or_bound": [
"Classical.choice",
"Quot.sound",
"propext"
],
"Esl.Tat.C59_no_worse_partial": [
"Classical.choice",
"Quot.sound",
"propext"
],
"Esl.Tat.C90_agree_partial": [
"Classical.choice",
"Quot.sound",
"propext"
],
"Esl.Tat.C90_counterexample_unmentioned": [
"Classical.choice",
"Quot.sound",
"propext"
],
"Esl.Tat.C90_counterexample_untraded": [
"Classical.choice",
"Quot.sound",
"propext"
],
"Esl.Tat.C90_minimum_value": [
"Classical.choice",
"Quot.sound",
"propext"
],
"Esl.Tat.C90_root_value": [
"Classical.choice",
"Quot.sound",
"propext"
],
"Esl.Tat.C90_sum_of_squares": [
"Classical.choice",
"Quot.sound",
"propext"
],
"Esl.Tat.C91_counterexample_one_step": [
"Classical.choice",
"Quot.sound",
"propext"
],
"Esl.Tat.C91_counterexample_others": [
"Classical.choice",
"Quot.sound",
"propext"
],
"Esl.Tat.C91_counterexample_stops": [
"Classical.choice",
"Quot.sound",
"propext"
],
"Esl.Tat.C91_derivative_free_minimization": [
"Classical.choice",
"Quot.sound",
"propext"
],
"Esl.Tat.C91_minimization_partial": [
"Classical.choice",
"Quot.sound",
"propext"
],
"Esl.Tat.C91_several_partial": [
"Classical.choice",
"Quot.sound",
"propext"
],
"Esl.Tat.C92_counterexample_unreachable": [
"Classical.choice",
"Quot.sound",
"propext"
],
"Esl.Tat.C92_fallback": [
"Classical.choice",
"Quot.sound",
"propext"
],
"Esl.Tat.C92_no_methods": [
"Classical.choice",
"Quot.sound",
"propext"
],
"Esl.TatFl.C171_counterexample_absorbed": [
"Classical.choice",
"Quot.sound",
"propext"
],
"Esl.TatFl.C171_counterexample_order": [
"Classical.choice",
"Quot.sound",
"propext"
],
"Esl.TatFl.C171_derivative_free_minimization": [
"Classical.choice",
"Quot.sound",
"propext"
],
"Esl.TatFl.C171_exact": [
"Classical.choice",
"Quot.sound",
"propext"
],
"Esl.TatFl.C171_minimization_double": [
"Classical.choice",
"Quot.sound",
"propext"
],
"Esl.TatFl.C171_minimization_partial": [
"Classical.choice",
"Quot.sound",
"propext"
],
"Esl.TatFl.C171_no_worse_partial": [
"Classical.choice",
"Quot.sound",
"propext"
],
"Esl.TatFl.C171_several_double_partial": [
"Classical.choice",
"Quot.sound",
"propext"
],
"Esl.TatFl.C171_several_partial": [
"Classical.choice",
"Quot.sound",
"propext"
],
"Esl.TatFl.C171_values": [
"Classical.choice",
"Quot.sound",
"propext"
],
"Esl.Text.C63_counterexample_comma": [],
"Esl.Text.C63_counterexample_newline": [],
"Esl.Text.C63_counterexample_no_reader": [],
"Esl.Text.C63_plain_records_partial": [
"Quot.sound",
"propext"
],
"Esl.Text.C63_render": [
"propext"
],
"Esl.Text.C64_array": [
"Quot.sound",
"propext"
],
"Esl.Text.C64_counterexample_queue": [
"Quot.sound",
"propext"
],
"Esl.Text.C64_map": [
"Quot.sound",
"propext"
],
"Esl.Text.C64_queue_partial": [
"Quot.sound",
"propext"
],
"Esl.Text.C64_queue_prefix": [
"Quot.sound",
"propext"
],
"Esl.Text.C64_tuple": [
"propext"
],
"Esl.Text.C64_vector": [
"propext"
],
"Esl.Threads.C139_threads_partial": [
"Classical.choice",
"Quot.sound",
"propext"
],
"Esl.Threads.C140_threads": [
"Classical.choice",
"Quot.sound",
"propext"
],
"Esl.Threads.C18_threads": [
"Classical.choice",
"Quot.sound",
"propext"
],
"Esl.Threads.C19_threads": [
"Classical.choice",
"Quot.sound",
"propext"
],
"Esl.Threads.C23_any_two": [
"Classical.choice",
"Quot.sound",
"propext"
],
"Esl.Threads.C23_completed": [
"Classical.choice",
"Quot.sound",
"propext"
],
"Esl.Threads.C23_independence": [
"Classical.choice",
"Quot.sound",
"propext"
],
"Esl.Threads.C23_tasks": [
"Classical.choice",
"Quot.sound",
"propext"
],
"Esl.Threads.C24_at_least_one_partial": [
"Classical.choice",
"Quot.sound",
"propext"
],
"Esl.Threads.C24_counterexample_eight": [],
"Esl.Threads.C24_counterexample_threads_ignored": [],
"Esl.Ticker.C107_map": [
"Classical.choice",
"Quot.sound",
"propext"
],
"Esl.Ticker.C107_order": [
"Classical.choice",
"Quot.sound",
"propext"
],
"Esl.Ticker.C107_text": [
"Classical.choice",
"Quot.sound",
"propext"
],
"Esl.Unique.C135_conserved": [
"Classical.choice",
"Quot.sound",
"propext"
],
"Esl.Unique.C135_counterexample_nothing": [
"Quot.sound",
"propext"
],
"Esl.Unique.C135_counterexample_self": [
"Quot.sound",
"propext"
],
"Esl.Unique.C135_one_owner": [
"Classical.choice",
"Quot.sound",
"propext"
],
"Esl.Unique.C135_refused": [
"Quot.sound",
"propext"
],
"Esl.Unique.C135_sets_partial": [
"Classical.choice",
"Quot.sound",
"propext"
],
"Esl.Unique.C136_counterexample_duplicate": [
"propext"
],
"Esl.Unique.C136_counterexample_erase_set": [],
"Esl.Unique.C136_counterexample_not_atomic": [
"Quot.sound",
"propext"
],
"Esl.Unique.C136_counterexample_nothing": [
"propext"
],
"Esl.Unique.C136_erase_partial": [
"Quot.sound",
"propext"
],
"Esl.Unique.C136_insert": [
"Quot.sound",
"propext"
],
"Esl.Unique.C136_round_trip": [
"Quot.sound",
"propext"
],
"Esl.Unique.C136_sets": [
"Quot.sound",
"propext"
],
"Esl.Unique.C136_unique_partial": [
"Quot.sound",
"propext"
],
"Esl.Values.C167_counterexample_currency": [
"Quot.sound",
"propext"
],
"Esl.Values.C167_counterexample_digits": [
"Classical.choice",
"Quot.sound",
"propext"
],
"Esl.Values.C167_counterexample_hash": [
"Quot.sound",
"propext"
],
"Esl.Values.C167_counterexample_ticker": [
"Classical.choice",
"Quot.sound",
"propext"
],
"Esl.Values.C167_lookup_partial": [
"Classical.choice",
"Quot.sound",
"propext"
],
"Esl.Values.C168_counterexample": [
"Quot.sound",
"propext"
],
"Esl.Values.C168_read_partial": [
"Quot.sound",
"propext"
],
"Esl.Venue.C147_book": [
"Classical.choice",
"Quot.sound",
"propext"
],
"Esl.Venue.C147_exchange": [
"Classical.choice",
"Quot.sound",
"propext"
],
"Esl.Venue.C147_exchange_sides": [
"Classical.choice",
"Quot.sound",
"propext"
],
"Esl.Venue.C147_sides": [
"Classical.choice",
"Quot.sound",
"propext"
],
"Esl.Venue.C147_simulation": [
"Classical.choice",
"Quot.sound",
"propext"
],
"Esl.Venue.C147_simulation_sides": [
"Classical.choice",
"Quot.sound",
"propext"
],
"Esl.Version.C185_agree_partial": [
"Classical.choice",
"Quot.sound",
"propext"
],
"Esl.Version.C185_counterexample_comment": [
"Classical.choice",
"Quot.sound",
"propext"
],
"Esl.Version.C185_counterexample_order": [
"Classical.choice",
"Quot.sound",
"propext"
],
"Esl.Version.C185_counterexample_zero": [
"Classical.choice",
"Quot.sound",
"propext"
],
"Esl.Version.C185_distinct": [
"Classical.choice",
"Quot.sound",
"propext"
],
"Esl.Version.C185_lines": [
"Quot.sound",
"propext"
],
"Esl.Walras.C56_balanced": [
"Classical.choice",
"Quot.sound",
"propext"
],
"Esl.Walras.C56_cleared": [
"Classical.choice",
"Quot.sound",
"propext"
],
"Esl.Walras.C56_defined": [
"Classical.choice",
"Quot.sound",
"propext"
],
"Esl.Walras.C56_every_property": [
"Quot.sound",
"propext"
],
"Esl.Walras.C56_market": [
"Classical.choice",
"Quot.sound",
"propext"
],
"Esl.Walras.C56_minimal": [
"Classical.choice",
"Quot.sound",
"propext"
],
"Esl.Walras.C57_counterexample": [
"propext"
],
"Esl.Walras.C57_counterexample_clearing": [
"propext"
],
"Esl.Walras.C57_net_error": [
"Classical.choice",
"Quot.sound",
"propext"
],
"Esl.Walras.C57_netting_partial": [
"Classical.choice",
"Quot.sound",
"propext"
],
"Esl.Walras.C58_counterexample": [],
"Esl.Walras.C58_delivered": [
"Classical.choice",
"Quot.sound",
"propext"
],
"Esl.Walras.C58_flows_partial": [
"Classical.choice",
"Quot.sound",
"propext"
],
"Esl.Walras.C58_single_partial": [
"Classical.choice",
"Quot.sound",
"propext"
],
"Esl.Walras.C59_applied": [
"Classical.choice",
"Quot.sound",
"propext"
],
"Esl.Walras.C59_counterexample_negative": [
"Classical.choice",
"Quot.sound",
"propext"
],
"Esl.Walras.C59_positive": [
"Classical.choice",
"Quot.sound",
"propext"
],
"Esl.Walras.C60_advances_partial": [],
"Esl.Walras.C60_counterexample_stall": [
"Classical.choice",
"Quot.sound",
"propext"
],
"Esl.Walras.C86_counterexample_forced_trade": [
"Classical.choice",
"Quot.sound",
"propext"
],
"Esl.Walras.C86_counterexample_wrong_side": [
"Classical.choice",
"Quot.sound",
"propext"
],
"Esl.Walras.C86_exact_partial": [
"Classical.choice",
"Quot.sound",
"propext"
],
"Esl.Walras.C87_balanced_iff_partial": [
"Classical.choice",
"Quot.sound",
"propext"
],
"Esl.Walras.C87_cash_partial": [
"Classical.choice",
"Quot.sound",
"propext"
],
"Esl.Walras.C87_counterexample": [
"propext"
],
"Esl.Walras.C87_counterexample_lots": [
"Classical.choice",
"Quot.sound",
"propext"
],
"Esl.Walras.C87_difference_partial": [
"Classical.choice",
"Quot.sound",
"propext"
],
"Esl.Walras.C87_rounded_partial": [
"Classical.choice",
"Quot.sound",
"propext"
],
"Esl.Walras.C88_dates_increase": [
"Quot.sound",
"propext"
],
"Esl.Walras.C88_everyone": [
"Quot.sound",
"propext"
],
"Esl.Walras.C89_cleared_orders": [
"Classical.choice",
"Quot.sound",
"propext"
],
"Esl.Walras.C89_counterexample_early": [],
"Esl.Walras.C89_counterexample_stale": [],
"Esl.Walras.C89_fresh_partial": [
"Classical.choice",
"Quot.sound",
"propext"
],
"Esl.Workers.C172_accounted": [
"Classical.choice",
"Quot.sound",
"propext"
],
"Esl.Workers.C172_before_partial": [
"Classical.choice",
"Quot.sound",
"propext"
],
"Esl.Workers.C172_counterexample_lost": [
"propext"
],
"Esl.Workers.C172_defined": [
"Classical.choice",
"Quot.sound",
"propext"
],
"Esl.Workers.C172_destructor_returns": [
"Classical.choice",
"Quot.sound",
"propext"
],
"Esl.Workers.C172_exactly_once_partial": [
"Classical.choice",
"Quot.sound",
"propext"
],
"Esl.Workers.C172_idle_pool": [
"Classical.choice",
"Quot.sound",
"propext"
],
"Esl.Workers.C172_one_thread_partial": [
"Classical.choice",
"Quot.sound",
"propext"
],
"Esl.Workers.C172_terminates": [
"Classical.choice",
"Quot.sound",
"propext"
],
"Esl.Workers.C173_counterexample_deadlock": [
"Classical.choice",
"Quot.sound",
"propext"
],
"Esl.Workers.C173_counterexample_own_task": [
"Quot.sound",
"propext"
]
}