{
 "claims": [
  {
   "property": "C01",
   "status": "proved",
   "theorems": [
    "Verif.c01_build_iff_balanced",
    "Verif.c01_panics_at_closing_call"
   ],
   "note": ""
  },
  {
   "property": "C02",
   "status": "proved",
   "theorems": [
    "Verif.c02_names_distinct",
    "Verif.c02_name_chosen",
    "Verif.c02_one_filing",
    "Verif.c02_search_terminates",
    "Verif.c02_book_entries"
   ],
   "note": ""
  },
  {
   "property": "C03",
   "status": "proved",
   "theorems": [
    "Verif.c03_built_amounts",
    "Verif.c03_read_amounts"
   ],
   "note": ""
  },
  {
   "property": "C04",
   "status": "proved",
   "theorems": [
    "Verif.c04_transactions_canonical",
    "Verif.c04_any_postings_canonical"
   ],
   "note": ""
  },
  {
   "property": "C05",
   "status": "proved",
   "theorems": [
    "Verif.c05_order_independent",
    "Verif.c05_permutation"
   ],
   "note": ""
  },
  {
   "property": "C06",
   "status": "proved",
   "theorems": [
    "Verif.c06_running_balances",
    "Verif.c06_last_balance"
   ],
   "note": ""
  },
  {
   "property": "C07",
   "status": "proved",
   "theorems": [
    "Verif.c07_read_twice",
    "Verif.c07_transactions_stable"
   ],
   "note": ""
  },
  {
   "property": "C08",
   "status": "proved",
   "theorems": [
    "Verif.c08_double_entry",
    "Verif.c08_balanced_preserved"
   ],
   "note": ""
  },
  {
   "property": "C09",
   "status": "proved",
   "theorems": [
    "Verif.c09_since",
    "Verif.c09_asof",
    "Verif.c09_postings_unchanged",
    "Verif.c09_zero",
    "Verif.c09_partition",
    "Verif.c09_interval"
   ],
   "note": ""
  },
  {
   "property": "C10",
   "status": "proved",
   "theorems": [
    "Verif.c10_splitBy"
   ],
   "note": ""
  },
  {
   "property": "C11",
   "status": "proved",
   "theorems": [
    "Verif.c11_mapAccount",
    "Verif.c11_regexAccounts"
   ],
   "note": ""
  },
  {
   "property": "C12",
   "status": "proved",
   "theorems": [
    "Verif.c12_adjustPost"
   ],
   "note": ""
  },
  {
   "property": "C13",
   "status": "proved",
   "theorems": [
    "Verif.c13_depreciate",
    "Verif.c13_dueDates",
    "Verif.c13_totals_kept",
    "Verif.c13_no_periods"
   ],
   "note": ""
  },
  {
   "property": "C14",
   "status": "proved",
   "theorems": [
    "Verif.c14_mapAmount",
    "Verif.c14_regexCCY"
   ],
   "note": ""
  },
  {
   "property": "C15",
   "status": "proved",
   "theorems": [
    "Verif.c15_dateRange",
    "Verif.c15_adjustBy",
    "Verif.c15_none",
    "Verif.c15_zero_span"
   ],
   "note": ""
  },
  {
   "property": "C16",
   "status": "proved",
   "theorems": [
    "Verif.c16_filterByAccount",
    "Verif.c16_filterByAccount_index"
   ],
   "note": ""
  },
  {
   "property": "C17",
   "status": "partial",
   "theorems": [
    "Verif.c17_filterReverse_fails",
    "Verif.c17_next_filter_undoes_fails",
    "Verif.c17_filterReverse_partial"
   ],
   "note": "False of the code: FilterTransactionReverse sets the postings only, so the transactions reported before the next read, and any following filter, ignore it. The partial theorem says what it does achieve."
  },
  {
   "property": "C18",
   "status": "partial",
   "theorems": [
    "Verif.c18_accounts_fails",
    "Verif.c18_accounts_partial",
    "Verif.c18_accounts_exact"
   ],
   "note": "False of the code when an account holds several currencies: only the balance of its last posting in any currency is looked at. Proved when every account uses one currency."
  },
  {
   "property": "C19",
   "status": "partial",
   "theorems": [
    "Verif.c19_decimals_fails",
    "Verif.c19_decimals_partial"
   ],
   "note": "False of the code: 1/4 gets one decimal. Proved for denominators that are powers of ten."
  },
  {
   "property": "C20",
   "status": "proved",
   "theorems": [
    "Verif.c20_date_days_date",
    "Verif.c20_days_date_days"
   ],
   "note": ""
  },
  {
   "property": "C21",
   "status": "proved",
   "theorems": [
    "Verif.c21_next_day",
    "Verif.c21_day_zero",
    "Verif.c21_strictly_increasing",
    "Verif.c21_daysSince_after",
    "Verif.c21_every_later_date",
    "Verif.c21_daysSince_before"
   ],
   "note": ""
  },
  {
   "property": "C22",
   "status": "proved",
   "theorems": [
    "Verif.c22_addDays_later",
    "Verif.c22_addDays_daysSince",
    "Verif.c22_addDays_zero",
    "Verif.c22_addDays_add"
   ],
   "note": ""
  },
  {
   "property": "C23",
   "status": "proved",
   "theorems": [
    "Verif.c23_floor_is_period_start",
    "Verif.c23_other_words",
    "Verif.c23_floor_laws"
   ],
   "note": ""
  },
  {
   "property": "C24",
   "status": "proved",
   "theorems": [
    "Verif.c24_floorDiff_moves_k_periods",
    "Verif.c24_floorDiff_additive"
   ],
   "note": ""
  },
  {
   "property": "C25",
   "status": "proved",
   "theorems": [
    "Verif.c25_string_roundtrip",
    "Verif.c25_ledger_roundtrip"
   ],
   "note": "c25_roundtrip for DateFromString, c25_ledger_roundtrip for the ledger loader's date reader."
  },
  {
   "property": "C26",
   "status": "partial",
   "theorems": [
    "Verif.c26_invalid_date_accepted_fails",
    "Verif.c26_means_partial",
    "Verif.c26_refused_partial"
   ],
   "note": "False of the code: dates such as 2021-02-31 are accepted. c26_means_partial: every text that means a real day is read as that day; c26_refused_partial: text of no known form is refused (0). Missing: figures that name no day are not refused."
  },
  {
   "property": "C27",
   "status": "partial",
   "theorems": [
    "Verif.c27_asYears_ignores_day_fails",
    "Verif.c27_asYears_monotone_partial"
   ],
   "note": "False of the code: AsYears ignores the day of the month. The partial theorem gives monotonicity."
  },
  {
   "property": "C28",
   "status": "proved",
   "theorems": [
    "Verif.c28_lookup",
    "Verif.c28_lookup_any_date",
    "Verif.c28_latest",
    "Verif.c28_earliest"
   ],
   "note": ""
  },
  {
   "property": "C29",
   "status": "proved",
   "theorems": [
    "Verif.c29_between_neighbours",
    "Verif.c29_never_panics"
   ],
   "note": ""
  },
  {
   "property": "C30",
   "status": "proved",
   "theorems": [
    "Verif.c30_order_irrelevant",
    "Verif.c30_permuted_calls"
   ],
   "note": ""
  },
  {
   "property": "C31",
   "status": "proved",
   "theorems": [
    "Verif.c31_inverse",
    "Verif.c31_inverse_nonzero",
    "Verif.c31_mixed_sign_fails"
   ],
   "note": "For positive prices; c31_inverse_nonzero for any non-zero answer; c31_mixed_sign_fails shows that positivity is needed."
  },
  {
   "property": "C32",
   "status": "proved",
   "theorems": [
    "Verif.c32_iterator"
   ],
   "note": ""
  },
  {
   "property": "C33",
   "status": "partial",
   "theorems": [
    "Verif.c33_rename_partial",
    "Verif.c33_collision_fails",
    "Verif.c33_order_fails"
   ],
   "note": "False of the code when the renaming collides or re-matches its own output (c33_collision_fails, c33_order_fails). Proved for injective, idempotent renamings, for every iteration order."
  },
  {
   "property": "C34",
   "status": "proved",
   "theorems": [
    "Verif.c34_no_crash",
    "Verif.c34_no_crash_prices"
   ],
   "note": "Under the hypothesis that the price lookups into the base currency answer; c34_no_crash_prices discharges it for real dates and positive prices."
  },
  {
   "property": "C35",
   "status": "proved",
   "theorems": [
    "Verif.c35_allocation"
   ],
   "note": ""
  },
  {
   "property": "C36",
   "status": "proved",
   "theorems": [
    "Verif.c36_running_totals"
   ],
   "note": ""
  },
  {
   "property": "C37",
   "status": "partial",
   "theorems": [
    "Verif.c37_base_amounts_partial",
    "Verif.c37_base_amounts_fails"
   ],
   "note": "False of the code: the price is looked up in the wrong direction (c37_base_amounts_fails). The partial theorem states what is computed."
  },
  {
   "property": "C38",
   "status": "proved",
   "theorems": [
    "Verif.c38_window",
    "Verif.c38_no_bounds",
    "Verif.c38_register_ordered"
   ],
   "note": ""
  },
  {
   "property": "C39",
   "status": "partial",
   "theorems": [
    "Verif.c39_ascending_partial",
    "Verif.c39_descending_fails"
   ],
   "note": "False of the code in descending order for every non-empty selection (c39_descending_fails); ascending order proved."
  },
  {
   "property": "C40",
   "status": "proved",
   "theorems": [
    "Verif.c40_exact_difference",
    "Verif.c40_reported"
   ],
   "note": ""
  },
  {
   "property": "C41",
   "status": "proved",
   "theorems": [
    "Verif.c41_no_duplicates"
   ],
   "note": ""
  },
  {
   "property": "C42",
   "status": "partial",
   "theorems": [
    "Verif.c42_reimport_emits_nothing",
    "Verif.c42_append_then_reimport_partial",
    "Verif.c42_reimport_fails"
   ],
   "note": "Proved whenever every date and payee of the main ledger and of the emitted transactions still occurs after appending (c42_reimport_emits_nothing), and for appending to ledgers without transactions that net to nothing. False of the code otherwise (c42_reimport_fails): such a transaction is not reported but still occupies its name in the builder."
  },
  {
   "property": "C43",
   "status": "proved",
   "theorems": [
    "Verif.c43_only_counter_account"
   ],
   "note": ""
  },
  {
   "property": "C44",
   "status": "partial",
   "theorems": [
    "Verif.c44_most_common_fails",
    "Verif.c44_chosen_account_partial"
   ],
   "note": "False of the code: `k = max` instead of `max = k` in book_reclassify.go:56. The partial theorem says what is chosen."
  },
  {
   "property": "C45",
   "status": "proved",
   "theorems": [
    "Verif.c45_script_builds",
    "Verif.c45_no_crash"
   ],
   "note": ""
  },
  {
   "property": "C46",
   "status": "proved",
   "theorems": [
    "Verif.c46_summary_totals",
    "Verif.c46_other_rows",
    "Verif.c46_completes",
    "Verif.c46_completes_prices",
    "Verif.c46_which_accounts"
   ],
   "note": ""
  },
  {
   "property": "C47",
   "status": "proved",
   "theorems": [
    "Verif.c47_rectangular",
    "Verif.c47_reference_column",
    "Verif.c47_one_per_transaction"
   ],
   "note": ""
  },
  {
   "property": "C48",
   "status": "proved",
   "theorems": [
    "Verif.c48_fill",
    "Verif.c48_accounts"
   ],
   "note": ""
  },
  {
   "property": "C49",
   "status": "proved",
   "theorems": [
    "Verif.c49_credit_hidden"
   ],
   "note": ""
  },
  {
   "property": "C50",
   "status": "partial",
   "theorems": [
    "Verif.c50_common_prefix_fails",
    "Verif.c50_common_prefix_partial",
    "Verif.c50_always",
    "Verif.c50_exact"
   ],
   "note": "False of the code when two names part right at a divider (c50_common_prefix_fails). c50_exact: with a divider of one character it is wrong exactly then. c50_always: what holds in all cases."
  },
  {
   "property": "C51",
   "status": "proved",
   "theorems": [
    "Verif.c51_level_and_term",
    "Verif.c51_never_panics"
   ],
   "note": ""
  },
  {
   "property": "C52",
   "status": "partial",
   "theorems": [
    "Verif.c52_sort_order_fails",
    "Verif.c52_sort_order_partial",
    "Verif.c52_siblings_partial"
   ],
   "note": "False of the code for amounts above 1e9 (the sort key saturates)."
  },
  {
   "property": "C53",
   "status": "partial",
   "theorems": [
    "Verif.c53_report_unaffected",
    "Verif.c53_book_unchanged_fails",
    "Verif.c53_unbalanced_after_fails",
    "Verif.c53_book_unchanged_partial"
   ],
   "note": "False of the code when the posting slice has spare capacity: append in accumulate overwrites shared storage; proved when capacity equals length."
  },
  {
   "property": "C54",
   "status": "partial",
   "theorems": [
    "Verif.c54_amount_exact_partial",
    "Verif.c54_large_amount_fails"
   ],
   "note": "False of the code for mantissas of 2^63 or more (int64 wraps); proved exactly below."
  },
  {
   "property": "C55",
   "status": "proved",
   "theorems": [
    "Verif.c55_elided_amount_balances"
   ],
   "note": ""
  },
  {
   "property": "C56",
   "status": "partial",
   "theorems": [
    "Verif.c56_posting_line_exact_partial",
    "Verif.c56_posting_stored_partial",
    "Verif.c56_amount_ignored_fails"
   ],
   "note": "False of the code for an amount without a currency: it is silently left as trailing text. Proved for every posting line in the documented shapes."
  },
  {
   "property": "C57",
   "status": "partial",
   "theorems": [
    "Verif.c57_text_roundtrip_partial",
    "Verif.c57_export_reload_partial",
    "Verif.c57_amount_rounded_fails"
   ],
   "note": "False of the code: amounts not expressible in the currency's decimals are rounded (an eighth printed as 0.1, c57_amount_rounded_fails). Proved, for a whole book, for everything the format can express."
  },
  {
   "property": "C58",
   "status": "partial",
   "theorems": [
    "Verif.c58_acyclic_terminates_partial",
    "Verif.c58_cyclic_include_fails"
   ],
   "note": "False of the code for cyclic includes; proved for every acyclic set of files."
  },
  {
   "property": "C59",
   "status": "partial",
   "theorems": [
    "Verif.c59_loaded_book_balanced_partial",
    "Verif.c59_unbalanced_before_another_partial",
    "Verif.c59_crash_only_last_partial",
    "Verif.c59_last_unbalanced_fails"
   ],
   "note": "False of the code for the last transaction of the file, which makes Build panic rather than give an error. Proved: a loaded book is always balanced, and an unbalanced transaction before another one is an error."
  },
  {
   "property": "C60",
   "status": "partial",
   "theorems": [
    "Verif.c60_reads_on_partial",
    "Verif.c60_line_by_line_partial",
    "Verif.c60_file_partial",
    "Verif.c60_nul_fails"
   ],
   "note": "False of the code for a NUL rune in the file (read as end of file). Proved for text without NUL."
  },
  {
   "property": "C61",
   "status": "proved",
   "theorems": [
    "Verif.c61_macro_is_expansion",
    "Verif.c61_terminates",
    "Verif.c61_stops_at_first_error",
    "Verif.c61_self_macro_diverges",
    "Verif.c61_error_names",
    "Verif.c61_double_entry",
    "Verif.c61_syntax",
    "Verif.c61_days"
   ],
   "note": ""
  },
  {
   "property": "C62",
   "status": "proved",
   "theorems": [
    "Verif.c62_padString_exact",
    "Verif.c62_width",
    "Verif.c62_width_right"
   ],
   "note": ""
  },
  {
   "property": "C63",
   "status": "partial",
   "theorems": [
    "Verif.c63_layout_partial",
    "Verif.c63_layout_unchanged",
    "Verif.c63_layout_fails",
    "Verif.c63_table_partial"
   ],
   "note": "False of the code: division by zero when the last shrinkable column is empty (c63_layout_fails). Partial theorems: every other layout fits the width and every cell is printed in its column."
  },
  {
   "property": "C64",
   "status": "partial",
   "theorems": [
    "Verif.c64_open_at_end_partial",
    "Verif.c64_balanced_iff_partial",
    "Verif.c64_balanced_fails",
    "Verif.c64_page_partial"
   ],
   "note": "False of the code: the summary report leaves <div> elements open (c64_balanced_fails). The exact number left open is proved."
  },
  {
   "property": "C65",
   "status": "partial",
   "theorems": [
    "Verif.c65_open_close",
    "Verif.c65_closed_iff_zero_partial",
    "Verif.c65_closed_iff_zero_fails"
   ],
   "note": "Opening and closing dates proved (c65_open_close). False of the code: an account is closed while it still holds another currency (c65_closed_iff_zero_fails)."
  },
  {
   "property": "C66",
   "status": "partial",
   "theorems": [
    "Verif.c66_parse",
    "Verif.c66_roundtrip_partial",
    "Verif.c66_repeated_value_rejected_partial",
    "Verif.c66_repeated_flag_fails",
    "Verif.c66_roundtrip_empty_type_fails",
    "Verif.c66_switch",
    "Verif.c66_values"
   ],
   "note": "False of the code: a repeated flag-style key is accepted and an empty type loses its parameters. Parsing and the round trip otherwise proved."
  },
  {
   "property": "C67",
   "status": "partial",
   "theorems": [
    "Verif.c67_save_partial",
    "Verif.c67_crash_fails",
    "Verif.c67_error_keeps_old_fails",
    "Verif.c67_success_fails"
   ],
   "note": "False of the code: the file is truncated before anything is written (c67_crash_fails), an error loses the old contents (c67_error_keeps_old_fails), and the error of closing the compressor is dropped (c67_success_fails). The partial theorem says what holds at every crash point."
  },
  {
   "property": "C68",
   "status": "proved",
   "theorems": [
    "Verif.c68_monzo",
    "Verif.c68_monzo_ids",
    "Verif.c68_starling",
    "Verif.c68_nordigen",
    "Verif.c68_monzo_file"
   ],
   "note": "For Monzo, Starling and Nordigen, against arbitrary servers; the model ends where SaveToFile (C67) begins."
  },
  {
   "property": "C69",
   "status": "partial",
   "theorems": [
    "Verif.c69_terminates_partial",
    "Verif.c69_burst_fails"
   ],
   "note": "False of the code when a hundred transactions fall within a minute (c69_burst_fails). Otherwise terminates and stores everything the server has."
  },
  {
   "property": "C70",
   "status": "partial",
   "theorems": [
    "Verif.c70_throttled_partial",
    "Verif.c70_late_request_fails"
   ],
   "note": "False of the code when a request goes out later than its slot (c70_late_request_fails). Exact bound proved."
  },
  {
   "property": "C71",
   "status": "partial",
   "theorems": [
    "Verif.c71_inferRates_fails"
   ],
   "note": "False of the code: the loop has no exit; proved for every compacted transaction."
  },
  {
   "property": "C72",
   "status": "proved",
   "theorems": [
    "Verif.c72_inferRate",
    "Verif.c72_rate_positive"
   ],
   "note": ""
  },
  {
   "property": "C73",
   "status": "partial",
   "theorems": [
    "Verif.c73_mapAmount_fails",
    "Verif.c73_mapAccount_fails",
    "Verif.c73_filters_partial"
   ],
   "note": "False of the code: Duplicate shares the numbers (c73_mapAmount_fails, c73_mapAccount_fails). c73_filters_partial: reading and filtering both copies in any interleaving is independent."
  },
  {
   "property": "C74",
   "status": "proved",
   "theorems": [
    "Verif.c74_never_overwrites",
    "Verif.c74_first_existing",
    "Verif.c74_default",
    "Verif.c74_env"
   ],
   "note": ""
  },
  {
   "property": "C75",
   "status": "proved",
   "theorems": [
    "Verif.c75_bounded",
    "Verif.c75_no_crash",
    "Verif.c75_newton",
    "Verif.c75_real",
    "Verif.c75_years"
   ],
   "note": "c75_bounded is for any arithmetic, IEEE floats included; c75_real and c75_newton over the reals."
  },
  {
   "property": "C80",
   "status": "proved",
   "theorems": [
    "Verif.c80_in_place",
    "Verif.c80_report",
    "Verif.c80_build"
   ],
   "note": "Refinement proof between the pointer-level model (Model/Heap.lean) and the list model used by all other theorems; operations with a second book are not included."
  },
  {
   "property": "C78",
   "status": "partial",
   "theorems": [
    "Verif.c78_reports_missing",
    "Verif.c78_table_partial",
    "Verif.c78_crash",
    "Verif.c78_empty_fails",
    "Verif.c78_crash_fails",
    "Verif.c78_sum_partial",
    "Verif.c78_divider_fails"
   ],
   "note": "False of the code: an empty report, an earlier transaction without a row of the last one, and an account whose name ends in the divider crash it (c78_*_fails; c78_crash says exactly when). Proved for all transactions with the same rows, hence for every summarised book with proper account names (c78_sum_partial)."
  },
  {
   "property": "C81",
   "status": "partial",
   "theorems": [
    "Verif.c81_one_by_one",
    "Verif.c81_isolated_partial",
    "Verif.c81_overlap_text_partial",
    "Verif.c81_sticky_flag_fails",
    "Verif.c81_mixed_up_fails"
   ],
   "note": "False of the code (the command is commented out of root.go): flags of earlier requests stick and simultaneous requests write to one output (c81_*_fails). c81_one_by_one says exactly what each request answered in turn gets; partial for requests repeating all earlier flags, and, for overlapping ones without flags, of the text computed."
  },
  {
   "property": "C82",
   "status": "partial",
   "theorems": [
    "Verif.c82_enum",
    "Verif.c82_enumSlice",
    "Verif.c82_report_type",
    "Verif.c82_export_type",
    "Verif.c82_config_value_fails",
    "Verif.c82_split_type"
   ],
   "note": "Flags: proved for every argument and case folding. False of values from the configuration file, which are not checked (c82_config_value_fails: the default file's type \"Ansi\" silently means Ledger)."
  },
  {
   "property": "C91",
   "status": "partial",
   "theorems": [
    "Verif.c91_later_starts_partial",
    "Verif.c91_default_rejected_fails",
    "Verif.c91_offending_key",
    "Verif.c91_indentation"
   ],
   "note": "False of the code: the default file has report.macros, which the report settings lack, and left-over keys are rejected at the next start (c91_default_rejected_fails). Proved for any default text that decodes without left-over keys."
  },
  {
   "property": "C83",
   "status": "partial",
   "theorems": [
    "Verif.c83_every_place_partial",
    "Verif.c83_null_entry_fails",
    "Verif.c83_any_order",
    "Verif.c83_loop_order_fails",
    "Verif.c83_rest_ignored_fails",
    "Verif.c83_file_partial"
   ],
   "note": "False of the code: null entries of objects are dropped, text after the first JSON value is ignored, and the order of a script's loop over an object is Go's random map order (c83_*_fails). Proved: every other place of the data is seen exactly, whatever the map order."
  },
  {
   "property": "C84",
   "status": "partial",
   "theorems": [
    "Verif.c84_headings_exact",
    "Verif.c84_every_field_partial",
    "Verif.c84_repeated_heading_fails",
    "Verif.c84_no_headings",
    "Verif.c84_no_crash"
   ],
   "note": "encoding/csv's splitting into records is a parameter. False for repeated headings: only the last column of a heading can be reached (c84_headings_exact says so for every table); proved for distinct headings, for files without headings, and that nothing crashes."
  },
  {
   "property": "C85",
   "status": "partial",
   "theorems": [
    "Verif.c85_booked_partial",
    "Verif.c85_exact_partial",
    "Verif.c85_nan_fails",
    "Verif.c85_copied_amount_fails"
   ],
   "note": "big.Rat.SetString is a parameter. False of NaN and infinite floats, which count as 0, and of amounts copied from the ledger, which scripts see as floats (c85_copied_amount_fails holds for any rounding to binary fractions). Otherwise proved end to end from the script's arguments to the reported transactions."
  },
  {
   "property": "C88",
   "status": "partial",
   "theorems": [
    "Verif.c88_exact",
    "Verif.c88_no_duplicates_partial",
    "Verif.c88_since_fails"
   ],
   "note": "False if the script restricts or renames the ledger, because the comparison is with the ledger as the script left it (c88_since_fails; c88_exact says exactly what is shown). Proved for transactions whose date lies in every period the script restricted the ledger to, if it renames nothing."
  },
  {
   "property": "C76",
   "status": "partial",
   "theorems": [
    "Verif.c76_export_reload_partial",
    "Verif.c76_unquoted_fails",
    "Verif.c76_rounded_fails"
   ],
   "note": "False of the code: units and currencies of prices are written without the quotes they may need (the file then cannot be loaded), and prices are rounded to the decimals of the amounts in their currency (c76_*_fails). Proved for prices the export can express, for any order of the pairs, transactions included."
  },
  {
   "property": "C90",
   "status": "proved",
   "theorems": [
    "Verif.c90_report_exact",
    "Verif.c90_account_totals",
    "Verif.c90_file_amounts"
   ],
   "note": "Whole command from file to the transactions handed to the printer. Reports with --sum are covered by C45-C49."
  },
  {
   "property": "C92",
   "status": "partial",
   "theorems": [
    "Verif.c92_converted_partial",
    "Verif.c92_no_price_fails",
    "Verif.c92_period_start_fails"
   ],
   "note": "False of the code in two ways: a currency without a price is shown 1:1 without a word (c92_no_price_fails) and combined reports convert at the first day of the period, not at the posting's date (c92_period_start_fails). Proved: uncombined reports of currencies with recorded prices."
  },
  {
   "property": "C77",
   "status": "partial",
   "theorems": [
    "Verif.c77_accounts_plain_partial",
    "Verif.c77_name_read_whole_partial",
    "Verif.c77_name_split_fails"
   ],
   "note": "False of names outside the loader's character set: the name is cut and the rest is read as an amount (c77_name_split_fails). Proved for all names of letters, digits, & ' : _, and that loaded accounts are always such names."
  },
  {
   "property": "C87",
   "status": "partial",
   "theorems": [
    "Verif.c87_sections_partial",
    "Verif.c87_file_accounts_partial",
    "Verif.c87_dot_fails"
   ],
   "note": "The section's postings are selected by the unescaped pattern ^name$, so names with pattern characters (possible after map operations) show other accounts' postings (c87_dot_fails). Proved for plain names, hence for every account of a file without operations."
  },
  {
   "property": "C86",
   "status": "partial",
   "theorems": [
    "Verif.c86_export_partial",
    "Verif.c86_amount_recovered",
    "Verif.c86_note_fails",
    "Verif.c86_register"
   ],
   "note": "The note of a posting is replaced by the transaction's note (posting.go:127): c86_note_fails. Everything else is proved; the text encoding of encoding/json is trusted."
  },
  {
   "property": "C89",
   "status": "partial",
   "theorems": [
    "Verif.c89_fields_roundtrip",
    "Verif.c89_export_rows_partial",
    "Verif.c89_built_rows_partial",
    "Verif.c89_register_rows_partial",
    "Verif.c89_note_fails",
    "Verif.c89_decimals_fails"
   ],
   "note": "False for amounts with more than six decimals (c89_decimals_fails) and for transactions merged by operations from several with different notes (c89_note_fails). Proved for amounts in millionths below 2^52; for built books without a condition on notes."
  },
  {
   "property": "C94",
   "status": "partial",
   "theorems": [
    "Verif.c94_printed_exact_partial",
    "Verif.c94_printed_close",
    "Verif.c94_large_fails"
   ],
   "note": "Proved exact below 2^52 units of the last decimal and within half a unit plus 2^-53 of the amount in general; false for larger amounts, for every rounding (c94_large_fails)."
  },
  {
   "property": "C95",
   "status": "partial",
   "theorems": [
    "Verif.c95_combined_partial",
    "Verif.c95_sections_fails"
   ],
   "note": "Without --combined a line with the account precedes each table, so the output is not one table (c95_sections_fails, for every report). Proved with --combined."
  },
  {
   "property": "C79",
   "status": "partial",
   "theorems": [
    "Verif.c79_shown_partial",
    "Verif.c79_escape_fails"
   ],
   "note": "Texts are not escaped: a payee with '<' disappears from the page (c79_escape_fails). Proved for non-empty reports whose texts contain no '<'; character entities are not decoded by the specification."
  },
  {
   "property": "C93",
   "status": "partial",
   "theorems": [
    "Verif.c93_export_partial",
    "Verif.c93_report_partial",
    "Verif.c93_quote_fails",
    "Verif.c93_merged_fails"
   ],
   "note": "Quotes in a payee are not escaped (c93_quote_fails), and names that differ only in capitals or spaces are merged (c93_merged_fails). Proved for payees without quotes or line ends, names that stay one word, and amounts that fit the currency's decimals, relative to the renaming. Price lines are written in the ledger syntax, which a Beancount reader does not accept; the specification's reader skips them."
  },
  {
   "property": "C98",
   "status": "partial",
   "theorems": [
    "Verif.c98_needs_state",
    "Verif.c98_same_request_partial",
    "Verif.c98_mixed_requests_fails"
   ],
   "note": "Two overlapping callback requests write code and state separately, so the state of one can be accepted with the code of the other (c98_mixed_requests_fails). Proved when requests do not overlap (c98_same_request_partial); in every run a code is used only if some request carried the state (c98_needs_state)."
  },
  {
   "property": "C99",
   "status": "proved",
   "theorems": [
    "Verif.c99_not_expired",
    "Verif.c99_kept"
   ],
   "note": "The server's clock and lifetime announcements are inputs of the model."
  },
  {
   "property": "C96",
   "status": "proved",
   "theorems": [
    "Verif.c96_parsed",
    "Verif.c96_loaded_book",
    "Verif.c96_balanced_loads",
    "Verif.c96_unbalanced_refused",
    "Verif.c96_one_reading"
   ],
   "note": "The well-formed lines are given as a grammar in Spec/File.lean. Postings with an `@` price (which the program reads and drops), amounts of 2^63 or more before the point is removed, and files without a final line feed are not among them. Files that include each other in a circle stand for no bookings and are not loaded (c96_loaded_book; C58 says they are read for ever)."
  },
  {
   "property": "C100",
   "status": "partial",
   "theorems": [
    "Verif.c100_register_text_partial",
    "Verif.c100_sections_partial",
    "Verif.c100_no_holes",
    "Verif.c100_register_text_fails"
   ],
   "note": "False of texts with an escape character, which hides what follows it (c100_register_text_fails); proved of all other texts, of screens on which the dates, amounts and balances fit, and of registers without holes (ascending order, c100_no_holes; descending order is C39)."
  },
  {
   "property": "C97",
   "status": "partial",
   "theorems": [
    "Verif.c97_reload_monzo",
    "Verif.c97_reload_starling",
    "Verif.c97_reload_nordigen",
    "Verif.c97_stored_partial",
    "Verif.c97_ids",
    "Verif.c97_number_fails",
    "Verif.c97_monzo_file",
    "Verif.c97_starling_file",
    "Verif.c97_nordigen_file"
   ],
   "note": "False of numbers that are no float64, such as long integers: they go through float64 (c97_number_fails). Proved: what is in the file is read back (c97_monzo_file, c97_starling_file, c97_nordigen_file) for every state; and records are stored as sent if their numbers have at most fifteen digits (c97_stored_partial)."
  },
  {
   "property": "C101",
   "status": "partial",
   "theorems": [
    "Verif.c101_pending_partial",
    "Verif.c101_pending_fails"
   ],
   "note": "False of the code: a pending transaction without transactionId makes the whole reply an error (c101_pending_fails). Proved: it holds exactly if every pending transaction has one."
  },
  {
   "property": "C102",
   "status": "proved",
   "theorems": [
    "Verif.c102_complete"
   ],
   "note": ""
  },
  {
   "property": "C103",
   "status": "proved",
   "theorems": [
    "Verif.c103_nothing_missed",
    "Verif.c103_history",
    "Verif.c103_asked"
   ],
   "note": "The bank is assumed to answer a request for changes with all items last changed at or after that time, and to give later changes later times."
  },
  {
   "property": "C104",
   "status": "partial",
   "theorems": [
    "Verif.c104_language_partial",
    "Verif.c104_scaled",
    "Verif.c104_other_iff",
    "Verif.c104_language_fails"
   ],
   "note": "False of the code: Dutch, German and French print a decimal comma, which the loader skips: 12,5 comes back as 125 (c104_language_fails). Proved: it holds for English (c104_language_partial); in the other languages amounts below 1000 come back multiplied by ten per decimal (c104_scaled), so unchanged exactly if there are no decimals (c104_other_iff)."
  },
  {
   "property": "C105",
   "status": "partial",
   "theorems": [
    "Verif.c105_export_again_partial",
    "Verif.c105_first_fails"
   ],
   "note": "False of the first export of an export: amounts that were added up may need fewer decimals, 1.0 becomes 1 (c105_first_fails). Proved: from the second one on the texts are the same, for everything the format can express, in English."
  },
  {
   "property": "C106",
   "status": "partial",
   "theorems": [
    "Verif.c106_export_saved_partial",
    "Verif.c106_account_fails",
    "Verif.c106_decimals",
    "Verif.c106_amounts_fit"
   ],
   "note": "False of what the format cannot express, such as an account with a blank (c106_account_fails). Proved, for all operations, for books the format can express, in English (other languages: C104)."
  },
  {
   "property": "C107",
   "status": "partial",
   "theorems": [
    "Verif.c107_appended_partial",
    "Verif.c107_decimals_fails",
    "Verif.c107_message_fails",
    "Verif.c107_alias_fails",
    "Verif.c107_vanishing_fails"
   ],
   "note": "False of the code in four ways, each proved: amounts are printed with the decimals of the main ledger, so with whole amounts there 12.50 becomes 12 (c107_decimals_fails); a printed message of two lines is read as ledger (c107_message_fails); an alias of the ledger renames an imported account (c107_alias_fails); a vanishing transaction of the same date and payee makes it \"Lunch (2)\" (c107_vanishing_fails). Proved otherwise, for every ledger, in English."
  },
  {
   "property": "C108",
   "status": "partial",
   "theorems": [
    "Verif.c108_import_again_partial",
    "Verif.c108_again_fails",
    "Verif.c108_program_partial"
   ],
   "note": "False if the ledger has a transaction of the same date and payee that nets to nothing (c108_again_fails). Proved, exactly (only the script's messages are printed), under the conditions of C107. c108_program_partial: the same for the whole program, from the command line and configuration file to the status and output."
  },
  {
   "property": "C109",
   "status": "partial",
   "theorems": [
    "Verif.c109_failed_partial",
    "Verif.c109_succeeds",
    "Verif.c109_nothing_fails"
   ],
   "note": "False of the code: the transactions of the files before the failing one are printed (c109_nothing_fails). Proved: what is printed is exactly the output of the import of those files, and at most the messages of the failing script."
  },
  {
   "property": "C110",
   "status": "partial",
   "theorems": [
    "Verif.c110_view",
    "Verif.c110_numbers",
    "Verif.c110_balance",
    "Verif.c110_recover",
    "Verif.c110_amount_fails",
    "Verif.c110_asof",
    "Verif.c110_since",
    "Verif.c110_map"
   ],
   "note": "False of the amounts as such: they are float64 (c110_amount_fails). Proved: everything else exactly, the balance as sum of the amounts visited so far, amounts within half an ulp and recoverable by rounding up to 18 decimals and 2^52 units."
  },
  {
   "property": "C111",
   "status": "partial",
   "theorems": [
    "Verif.c111_list_kept_partial",
    "Verif.c111_reading",
    "Verif.c111_map_fails",
    "Verif.c111_balance_fails"
   ],
   "note": "False of the code: data.transactions returns the book's own slices. After map the list shows other postings, even a transaction that does not balance (c111_map_fails); after since and another reading it shows other balances (c111_balance_fails). Proved: with reading, since and asof the transactions and postings stay (all but the balances), with reading only everything."
  },
  {
   "property": "C112",
   "status": "partial",
   "theorems": [
    "Verif.c112_all",
    "Verif.c112_balance_partial",
    "Verif.c112_no_argument",
    "Verif.c112_text",
    "Verif.c112_balance_fails",
    "Verif.c112_json"
   ],
   "note": "False without --all: Accounts() looks only at the balance of the account's last posting, so an account that holds euros is left out if its last posting is in dollars and its dollars are zero (c112_balance_fails). Proved: --all exactly, accounts of one currency exactly, no account without anything is listed (c112_balance_partial), the printed column (c112_text)."
  },
  {
   "property": "C113",
   "status": "proved",
   "theorems": [
    "Verif.c113_currencies"
   ],
   "note": "Proved for files of the grammar of C96. That the decimals may be too few to show an amount such as 1/8 is C19."
  },
  {
   "property": "C114",
   "status": "partial",
   "theorems": [
    "Verif.c114_everything_in_order",
    "Verif.c114_first_tall",
    "Verif.c114_no_pager",
    "Verif.c114_waits_partial",
    "Verif.c114_register",
    "Verif.c114_waits_fails"
   ],
   "note": "False when a command fails after less was started: cobra does not call PersistentPostRun then, the pager's pipe is not closed and less not waited for (c114_waits_fails, a register whose second account is no regular expression after map). All else proved; waiting proved for commands that end without error, exactly (c114_waits_partial)."
  },
  {
   "property": "C115",
   "status": "partial",
   "theorems": [
    "Verif.c115_served",
    "Verif.c115_kept_iff",
    "Verif.c115_login_lasts_partial",
    "Verif.c115_reusable",
    "Verif.c115_lost_for_ever",
    "Verif.c115_login_lasts_fails"
   ],
   "note": "False: a token that expires while a run goes on (or within ten seconds of its start) is renewed only in memory; the new refresh token is not saved and the old one is spent, so that every later run fails (c115_login_lasts_fails, c115_lost_for_ever). Proved: it is kept exactly unless that happens (c115_kept_iff), histories where it does not happen (c115_login_lasts_partial), banks that let refresh tokens be used again (c115_reusable)."
  },
  {
   "property": "C116",
   "status": "proved",
   "theorems": [
    "Verif.c116_summary",
    "Verif.c116_file"
   ],
   "note": "For the book after any operations (c116_summary) and for the file without operations (c116_file, grammar of C96). Which accounts are subtotal accounts is exact if no two names part at the divider (else C50 applies). A currency without a price counts with the rate that C28 gives."
  },
  {
   "property": "C117",
   "status": "proved",
   "theorems": [
    "Verif.c117_balance",
    "Verif.c117_order",
    "Verif.c117_register"
   ],
   "note": "c117_balance: balancing does not depend on the order. c117_order: any two ledgers with the same content, any two sorts and map orders, any operations and options: same end, same transactions (notes aside) or same summary rows. The divider must not be empty. The walk of the price map in mapccy is kept the same on both sides (C33). c117_register: the same of register (Props/OrderReg)."
  },
  {
   "property": "C118",
   "status": "partial",
   "theorems": [
    "Verif.c118_nested_partial",
    "Verif.c118_after",
    "Verif.c118_nested_fails"
   ],
   "note": "False of the code (c118_nested_fails): rows are sorted by the values of the accounts above them, so when two sibling accounts have equal totals (Exp:Car and Exp:Food, both 10) their children are mixed and the car's expenses are listed under the food. Proved: without such ties (to six decimals, amounts up to ten billion, divider of one character) every row reads right, also with --credit and --hidden (c118_nested_partial); and always, every indented row comes somewhere after the row of the account it is named after, which is one step less indented (c118_after)."
  },
  {
   "property": "C119",
   "status": "partial",
   "theorems": [
    "Verif.c119_summed_partial",
    "Verif.c119_unsummed_blank",
    "Verif.c119_names_fails"
   ],
   "note": "False of the code (c119_names_fails): the builder leaves the label of a posting empty, and only --sum (or an operation that renames accounts) sets it, so a text or HTML report without --sum has blank account names: proved for every ledger (c119_unsummed_blank). With --sum every row that is not indented is labelled with its account (c119_summed_partial); indented rows are C118."
  },
  {
   "property": "C120",
   "status": "partial",
   "theorems": [
    "Verif.c120_largest_first_partial",
    "Verif.c120_largest_first_fails"
   ],
   "note": "False of the code (c120_largest_first_fails): above a thousand million the number in the sort key is negative and its text sorts the wrong way, so 2 000 000 000 comes before 3 000 000 000. Proved up to a thousand million, in the order before --credit and --hidden (c120_largest_first_partial)."
  },
  {
   "property": "C121",
   "status": "partial",
   "theorems": [
    "Verif.c121_line_partial",
    "Verif.c121_costs_dropped_partial",
    "Verif.c121_total_refused",
    "Verif.c121_price_recorded_fails",
    "Verif.c121_purchase_fails"
   ],
   "note": "False as stated (c121_price_recorded_fails, c121_purchase_fails): the code has a TODO where the price would be used. What holds, for all files: c121_costs_dropped_partial (loading files with costs is loading them without), c121_line_partial (one line), c121_total_refused (`@@` refuses the file)."
  },
  {
   "property": "C122",
   "status": "proved",
   "theorems": [
    "Verif.c122_listing",
    "Verif.c122_balances",
    "Verif.c122_summary"
   ],
   "note": "Documented in the help of `report` (report.go:33-43). c122_listing (entry by entry), c122_balances (per account and currency), c122_summary (summary rows)."
  },
  {
   "property": "C123",
   "status": "proved",
   "theorems": [
    "Verif.c123_swap",
    "Verif.c123_combine",
    "Verif.c123_period",
    "Verif.c123_dates"
   ],
   "note": "c123_swap (independent operations), c123_combine (combine by a finer period first; for real dates), c123_period (combine and a date that begins a period; for real dates), c123_dates (stricter date). Examples beside them show that the conditions are needed (date within a period; month 13)."
  },
  {
   "property": "C124",
   "status": "proved",
   "theorems": [
    "Verif.c124_listing",
    "Verif.c124_summary"
   ],
   "note": "c124_listing (reports that list transactions, any kind), c124_summary (summed reports that combine: each is a summary in the sense of C116 and subtree and account amounts add). part_demo shows three ledgers on one disk that meet the hypotheses."
  },
  {
   "property": "C125",
   "status": "partial",
   "theorems": [
    "Verif.c125_again_partial",
    "Verif.c125_merged_fails",
    "Verif.c125_register_partial"
   ],
   "note": "c125_again_partial: for operations whose currency renamings are clear for the prices (no two pairs of currencies with prices merge, new names are not renamed again). c125_merged_fails: with a mapccy that merges two currencies with prices the converted amounts depend on the map order. c125_register_partial: the same of register."
  },
  {
   "property": "C126",
   "status": "partial",
   "theorems": [
    "Verif.c126_saved_partial",
    "Verif.c126_account_fails",
    "Verif.c126_rounded_fails"
   ],
   "note": "c126_saved_partial: English number format and a book the format can express (Writable), renamings of currencies in the report clear in the sense of C125. c126_account_fails: an account renamed to one with a blank; c126_rounded_fails: amounts divided further than the decimals of the ledger are rounded in the file."
  },
  {
   "property": "C127",
   "status": "partial",
   "theorems": [
    "Verif.c127_kept_partial",
    "Verif.c127_stored_partial",
    "Verif.c127_runs",
    "Verif.c127_links",
    "Verif.c127_syncs",
    "Verif.c127_renewal_fails"
   ],
   "note": "c127_runs, c127_links, c127_syncs: the requests and the end of every run after every history, a crash exactly if the bank answers `null` to a request for transactions; c127_kept_partial, c127_stored_partial: what the file says (numbers of at most 15 digits, as in C97). c127_renewal_fails: an expired consent is never renewed. Not modelled: the token (C99), partly written files (C67)."
  },
  {
   "property": "C128",
   "status": "partial",
   "theorems": [
    "Verif.c128_place_partial",
    "Verif.c128_unbalanced",
    "Verif.c128_row_fails",
    "Verif.c128_place_fails"
   ],
   "note": "c128_place_partial: the place is right, except that a stop at the end of a line is reported as column 0 of the next row (c128_row_fails: `2020/01` alone in row 1 is reported as 2:0), and except for errors without a place: unbalanced transactions (c128_place_fails), a denominator that overflows to zero, `include` without a name. c128_unbalanced: the message for an unbalanced transaction. The messages themselves are modelled but (but for that one) not claimed."
  },
  {
   "property": "C129",
   "status": "partial",
   "theorems": [
    "Verif.c129_screen_partial",
    "Verif.c129_sum_partial",
    "Verif.c129_screen_fails"
   ],
   "note": "c129_screen_partial: for transactions that have the same rows; c129_sum_partial: every summary (`--sum`) is such a table, so there the report neither crashes nor complains. Missing: labels with an escape character, which hides what follows it (c129_screen_fails); currencies with runes that cannot be printed; accounts with an empty name or one that ends in the divider (c78_divider_fails); reports without a summary whose transactions have different rows (C78)."
  },
  {
   "property": "C130",
   "status": "partial",
   "theorems": [
    "Verif.c130_text_partial",
    "Verif.c130_formats",
    "Verif.c130_html_partial",
    "Verif.c130_style",
    "Verif.c130_json",
    "Verif.c130_text_fails"
   ],
   "note": "c130_text_partial: text, for summaries that are not empty and plain names; c130_json: JSON, summary or not; c130_html_partial: HTML, for texts without `<` (C79); c130_formats: the type (but Beancount) does not change the transactions reported; c130_style: the style sheet. Missing: a ledger with nothing to report, of which the text report crashes (c130_text_fails); names with escape characters or unprintable runes, accounts ending in the divider (C129); `<` in names (C79)."
  },
  {
   "property": "C131",
   "status": "partial",
   "theorems": [
    "Verif.c131_saved_partial",
    "Verif.c131_again_partial",
    "Verif.c131_sum_fails"
   ],
   "note": "c131_saved_partial, c131_again_partial: for English number format, transactions the format can express (C57) and, for the second, real dates. Missing: summaries (`--sum`), whose subtotals are printed like postings, so that the file is refused (c131_sum_fails); other languages (C104)."
  },
  {
   "property": "C132",
   "status": "partial",
   "theorems": [
    "Verif.c132_text_partial",
    "Verif.c132_json_partial",
    "Verif.c132_csv_partial",
    "Verif.c132_combined_partial",
    "Verif.c132_only",
    "Verif.c132_descending_fails"
   ],
   "note": "c132_text_partial, c132_json_partial, c132_csv_partial, c132_combined_partial, c132_only: ascending order, names the screen can show, English numbers (text), ordinary amounts (JSON), six decimals (CSV). Missing: descending order, which crashes (c132_descending_fails, C39); names that are regular expressions (C87)."
  },
  {
   "property": "C133",
   "status": "partial",
   "theorems": [
    "Verif.c133_agree_partial",
    "Verif.c133_periods_partial",
    "Verif.c133_convert_fails"
   ],
   "note": "c133_agree_partial, c133_periods_partial: ascending order, accounts whose names have no special characters (C87), operations only without conversion. Missing: conversion together with operations, where the register converts before and the report after the operations (c133_convert_fails)."
  },
  {
   "property": "C134",
   "status": "proved",
   "theorems": [
    "Verif.c134_report",
    "Verif.c134_register",
    "Verif.c134_export",
    "Verif.c134_accts",
    "Verif.c134_ccy",
    "Verif.c134_refused",
    "Verif.c134_help",
    "Verif.c134_bad_file",
    "Verif.c134_no_file",
    "Verif.c134_count"
   ],
   "note": "c134_report, c134_register, c134_export, c134_accts, c134_ccy: the whole run, from the command line to status and output. c134_refused, c134_help, c134_count, c134_bad_file, c134_no_file: the other ends. The flag library and TOML decoding are modelled by their documented behaviour; the command is the first word; of the configuration file the keys and typed values are the input (its text: C74, C91)."
  },
  {
   "property": "C135",
   "status": "partial",
   "theorems": [
    "Verif.c135_unused_partial",
    "Verif.c135_zero_fails"
   ],
   "note": "False of the code: the setting is read and never used (c135_zero_fails). c135_unused_partial: two command lines that differ in --zero alone have the same effect, for every ledger."
  },
  {
   "property": "C136",
   "status": "partial",
   "theorems": [
    "Verif.c136_definition_partial",
    "Verif.c136_plain",
    "Verif.c136_missing",
    "Verif.c136_refused",
    "Verif.c136_bad_file",
    "Verif.c136_written_out",
    "Verif.c136_defaults",
    "Verif.c136_code_fails",
    "Verif.c136_name_fails"
   ],
   "note": "c136_definition_partial: the settings of `import NAME`, for names without blanks. c136_written_out: the same as `import` with the options written out. c136_plain, c136_defaults, c136_missing, c136_refused, c136_bad_file. False in full: --code (and --format) cannot be given where the definition has it (c136_code_fails), and a definition with a blank in its name is no command of that name (c136_name_fails). Flags before the definition's name are left to `other`."
  },
  {
   "property": "C137",
   "status": "partial",
   "theorems": [
    "Verif.c137_as_import",
    "Verif.c137_appended_partial",
    "Verif.c137_since_fails",
    "Verif.c137_decimals_fails"
   ],
   "note": "c137_as_import: generate prints what import prints for the same calls. c137_appended_partial: the appended ledger, for scripts that restrict the ledger only to periods in which all they add lies (always so for one that only reads), a ledger without vanishing transactions, printable transactions. False in full: data.since cuts the ledger itself (c137_since_fails), and amounts are printed with the decimals of the ledger (c137_decimals_fails)."
  },
  {
   "property": "C138",
   "status": "partial",
   "theorems": [
    "Verif.c138_generate_again_partial",
    "Verif.c138_since_fails",
    "Verif.c138_program_partial"
   ],
   "note": "c138_generate_again_partial under the hypotheses of C137; false in full (c138_since_fails): after data.since the deduplication compares with the cut ledger. c138_program_partial: the same for the whole program."
  },
  {
   "property": "C139",
   "status": "partial",
   "theorems": [
    "Verif.c139_definition_partial",
    "Verif.c139_plain",
    "Verif.c139_missing",
    "Verif.c139_refused",
    "Verif.c139_defaults",
    "Verif.c139_written_out",
    "Verif.c139_code_fails"
   ],
   "note": "c139_definition_partial: the settings of `generate NAME`, for names without blanks. c139_written_out: the same as `generate` with the options written out. c139_plain, c139_defaults, c139_missing, c139_refused. False in full: --code cannot be given where the definition has it (c139_code_fails)."
  },
  {
   "property": "C140",
   "status": "proved",
   "theorems": [
    "Verif.c140_refused",
    "Verif.c140_missing",
    "Verif.c140_unbalanced",
    "Verif.c140_done",
    "Verif.c140_status",
    "Verif.c140_operations"
   ],
   "note": "c140_refused, c140_missing, c140_unbalanced, c140_done, c140_operations, c140_status, over the whole program (goledgerMain); definitions with names without blanks."
  },
  {
   "property": "C141",
   "status": "partial",
   "theorems": [
    "Verif.c141_balance",
    "Verif.c141_report_partial",
    "Verif.c141_register_partial",
    "Verif.c141_same_day_fails"
   ],
   "note": "c141_balance; c141_report_partial and c141_register_partial, for ledgers without two transactions of one date and payee and without two price lines of one date and pair of currencies, and currencies renamed clearly (see C125). False in full: of two prices of one day the later line counts (c141_same_day_fails)."
  },
  {
   "property": "C142",
   "status": "proved",
   "theorems": [
    "Verif.c142_loads",
    "Verif.c142_report",
    "Verif.c142_register",
    "Verif.c142_silent"
   ],
   "note": "c142_loads, c142_report, c142_register, c142_silent. What the lines of a file say is the relation FileSays of C96."
  },
  {
   "property": "C143",
   "status": "partial",
   "theorems": [
    "Verif.c143_says_partial",
    "Verif.c143_report_partial",
    "Verif.c143_register_partial",
    "Verif.c143_alias_fails"
   ],
   "note": "c143_says_partial (the two say the same), c143_report_partial, c143_register_partial: for blocks without alias lines, whose own includes mean the same files from both places. False in full (c143_alias_fails): the aliases of an included file end with it."
  },
  {
   "property": "C144",
   "status": "partial",
   "theorems": [
    "Verif.c144_report_partial",
    "Verif.c144_register_partial",
    "Verif.c144_lines_partial",
    "Verif.c144_price_fails"
   ],
   "note": "False of an added price: rates between two prices are interpolated, so a later price changes the converted amounts of the days before (c144_price_fails). Proved for added transactions. A register that converts does so before the operations, so a later posting may make it crash; if both end, they show the same."
  },
  {
   "property": "C145",
   "status": "proved",
   "theorems": [
    "Verif.c145_report",
    "Verif.c145_operation",
    "Verif.c145_words",
    "Verif.c145_reversal"
   ],
   "note": "Proved for --combineby other than skip (c145_report) and for every report with a combine operation (c145_operation); c145_words and c145_reversal give instances of ledgers with the same daily amounts."
  },
  {
   "property": "C146",
   "status": "partial",
   "theorems": [
    "Verif.c146_since",
    "Verif.c146_period",
    "Verif.c146_elsewhere",
    "Verif.c146_register_partial",
    "Verif.c146_register_fails"
   ],
   "note": "Proved for every report (c146_since, c146_period; c146_elsewhere: a transaction of another day put anywhere in the ledger) and for combined registers (c146_register_partial). False of a register with a section for each account (c146_register_fails): whether an account has one depends on its balance over all days, because FilterTransaction leaves the balances stored with the postings as they are and Accounts looks at them."
  },
  {
   "property": "C147",
   "status": "proved",
   "theorems": [
    "Verif.c147_loads",
    "Verif.c147_cycle",
    "Verif.c147_command"
   ],
   "note": "c147_loads gives the exact condition on the disk (IncludesEnd is accessibility of the include relation); c147_cycle and c147_command for the cyclic case. The model says non-termination by fuel: no depth is enough. In the program the recursion ends by exhausting memory or file handles, with a non-zero status."
  },
  {
   "property": "C148",
   "status": "proved",
   "theorems": [
    "Verif.c148_load",
    "Verif.c148_command",
    "Verif.c148_import",
    "Verif.c148_generate"
   ],
   "note": "MovedTo is stated for any renaming of the files; tree_moved shows it of a directory moved elsewhere with filepath.Join as concatenation after the directory of the file (no '..' cleaning)."
  },
  {
   "property": "C149",
   "status": "proved",
   "theorems": [
    "Verif.c149_loads",
    "Verif.c149_report",
    "Verif.c149_register",
    "Verif.c149_alias"
   ],
   "note": "Operations after the first are arbitrary. c149_register is for registers without conversion: with it the register converts before the operations and the postings of several currencies of an account are joined by map only."
  },
  {
   "property": "C150",
   "status": "proved",
   "theorems": [
    "Verif.c150_import",
    "Verif.c150_generate",
    "Verif.c150_stops",
    "Verif.c150_program",
    "Verif.c150_generate_program"
   ],
   "note": "c150_import and c150_generate are equivalences: status 0 and this output, or the conditions fail. The running of Starlark is a parameter (what calls a script makes of its data); deduplication and reclassification are importRun (C41, C44). c150_program, c150_generate_program: the same from the command line."
  },
  {
   "property": "C151",
   "status": "proved",
   "theorems": [
    "Verif.c151_loads",
    "Verif.c151_report",
    "Verif.c151_register",
    "Verif.c151_split",
    "Verif.c151_swap",
    "Verif.c151_cancel"
   ],
   "note": "c151_loads, c151_report, c151_register; c151_split, c151_swap and c151_cancel give the ways of rewriting. Reports are compared up to the order of rows that sort alike (SameReport), as for C122."
  },
  {
   "property": "C152",
   "status": "proved",
   "theorems": [
    "Verif.c152_loads",
    "Verif.c152_report"
   ],
   "note": "c152_loads, c152_report (with the clearness condition ClearOps of C125; without it the order in which Go walks the price map decides, c125_merged_fails). SameShown: both show the same rows if both end well, and end alike unless the report converts without combining."
  },
  {
   "property": "C153",
   "status": "proved",
   "theorems": [
    "Verif.c153_monzo",
    "Verif.c153_starling",
    "Verif.c153_nordigen",
    "Verif.c153_refused",
    "Verif.c153_words",
    "Verif.c153_help",
    "Verif.c153_bad_file"
   ],
   "note": "c153_monzo, c153_starling, c153_nordigen (the settings), c153_refused, c153_words, c153_help, c153_bad_file. What a download then does is a parameter (C68, C70, C97-C103, C115, C127). The flags of nordigen are really named `Client ID` and `Client Secret`, with the blank; their help texts are exchanged."
  },
  {
   "property": "C154",
   "status": "partial",
   "theorems": [
    "Verif.c154_monzo",
    "Verif.c154_login",
    "Verif.c154_starling_partial",
    "Verif.c154_starling_fails",
    "Verif.c154_nordigen_partial",
    "Verif.c154_nordigen_fails",
    "Verif.c154_forms",
    "Verif.c154_ids_partial",
    "Verif.c154_ids_fails"
   ],
   "note": "c154_monzo, c154_login and c154_forms hold for all texts (the code escapes them). The other requests put the texts into the address as they are: c154_starling_partial, c154_nordigen_partial and c154_ids_partial are for texts without # % & + / = ?, and c154_starling_fails (a time with an offset: the + is read as a blank) and c154_nordigen_fails (a country with an &), c154_ids_fails (an id with a slash) are for others. net/url's Encode is modelled by its documented behaviour; reading an address is specified in Spec/Address."
  },
  {
   "property": "C155",
   "status": "proved",
   "theorems": [
    "Verif.c155_report",
    "Verif.c155_export",
    "Verif.c155_register",
    "Verif.c155_unknown",
    "Verif.c155_itself"
   ],
   "note": "c155_report, c155_register, c155_export; c155_unknown; c155_itself. The macros are those of the table `macros` at the top of the file (the table `[report.macros]` that the help text shows is refused, C91)."
  },
  {
   "property": "C156",
   "status": "proved",
   "theorems": [
    "Verif.c156_move_all",
    "Verif.c156_moves",
    "Verif.c156_move_none",
    "Verif.c156_maps",
    "Verif.c156_back",
    "Verif.c156_depreciate"
   ],
   "note": "c156_move_all, c156_moves, c156_move_none, c156_maps, c156_back, c156_depreciate. The engine for expressions is arbitrary; where a renaming is compared it must leave a text without a match as it is (Go's does)."
  },
  {
   "property": "C157",
   "status": "proved",
   "theorems": [
    "Verif.c157_loads",
    "Verif.c157_listing",
    "Verif.c157_summary"
   ],
   "note": "c157_loads, c157_listing, c157_summary (the rows before --credit turns signs and --hidden leaves accounts out, as in C116)."
  },
  {
   "property": "C158",
   "status": "partial",
   "theorems": [
    "Verif.c158_move_all_partial",
    "Verif.c158_moves_partial",
    "Verif.c158_move_none_partial",
    "Verif.c158_maps_partial",
    "Verif.c158_back_partial",
    "Verif.c158_depreciate_partial",
    "Verif.c158_swap_partial",
    "Verif.c158_dates_partial",
    "Verif.c158_sections_fails"
   ],
   "note": "c158_swap_partial, c158_dates_partial, c158_move_all_partial, c158_moves_partial, c158_move_none_partial, c158_maps_partial, c158_back_partial, c158_depreciate_partial: the combined register. Missing: the register with a section for each account, where it is false (c158_sections_fails): which accounts are left out as empty depends on the balances as of the last operation that compacts, so `since=2021-01-01 map=/Q/R/` lists accounts that `map=/Q/R/ since=2021-01-01` does not."
  },
  {
   "property": "C159",
   "status": "proved",
   "theorems": [
    "Verif.c159_report",
    "Verif.c159_export",
    "Verif.c159_register",
    "Verif.c159_same_month",
    "Verif.c159_plain",
    "Verif.c159_program_report",
    "Verif.c159_program_export",
    "Verif.c159_program_register",
    "Verif.c159_program_lists",
    "Verif.c159_today"
   ],
   "note": "c159_report, c159_export, c159_register, c159_same_month, c159_plain; whole program, with flags and configuration file: c159_program_report, c159_program_export, c159_program_register, c159_program_lists. Combined by the present day (the default of a fresh configuration file), neither converted nor summed: the same lines but for their day, c159_today. The clock is a parameter of the operations (GetToday). What a word must not end in is a small grammar in Spec/OnDay; macros count by their words, at any depth."
  },
  {
   "property": "C160",
   "status": "proved",
   "theorems": [
    "Verif.c160_converted",
    "Verif.c160_multiplied",
    "Verif.c160_unconverted",
    "Verif.c160_summary"
   ],
   "note": "c160_converted (the formula), c160_multiplied (all amounts in priced currencies: plainly k times), c160_unconverted, c160_summary (rows that both summaries have; that the unconverted listing used in the formula succeeds is proved). The reports compared are assumed to succeed. With mapccy the price table is changed by the operations and the set of priced currencies with it; not covered."
  },
  {
   "property": "C161",
   "status": "proved",
   "theorems": [
    "Verif.c161_listing",
    "Verif.c161_unconverted",
    "Verif.c161_summary"
   ],
   "note": "c161_listing, c161_summary, c161_unconverted. Real days only (a ledger file may name a day such as 2020/99/99, on which the lookup can panic), and no two prices of the pair for one day: which of two the binary search finds may change with the length of the list."
  }
 ]
}