{
 "C17": {
  "note": "False of the code: FilterTransactionReverse sets the postings only, so the transactions reported before the next read, and any following filter, ignore it. The partial theorem says what it does achieve."
 },
 "C18": {
  "note": "False of the code when an account holds several currencies: only the balance of its last posting in any currency is looked at. Proved when every account uses one currency."
 },
 "C19": {
  "note": "False of the code: 1/4 gets one decimal. Proved for denominators that are powers of ten."
 },
 "C25": {
  "note": "c25_roundtrip for DateFromString, c25_ledger_roundtrip for the ledger loader's date reader."
 },
 "C26": {
  "note": "False of the code: dates such as 2021-02-31 are accepted. c26_means_partial: every text that means a real day is read as that day; c26_refused_partial: text of no known form is refused (0). Missing: figures that name no day are not refused."
 },
 "C27": {
  "note": "False of the code: AsYears ignores the day of the month. The partial theorem gives monotonicity."
 },
 "C31": {
  "status": "proved",
  "note": "For positive prices; c31_inverse_nonzero for any non-zero answer; c31_mixed_sign_fails shows that positivity is needed."
 },
 "C33": {
  "note": "False of the code when the renaming collides or re-matches its own output (c33_collision_fails, c33_order_fails). Proved for injective, idempotent renamings, for every iteration order."
 },
 "C37": {
  "note": "False of the code: the price is looked up in the wrong direction (c37_base_amounts_fails). The partial theorem states what is computed."
 },
 "C39": {
  "note": "False of the code in descending order for every non-empty selection (c39_descending_fails); ascending order proved."
 },
 "C71": {
  "note": "False of the code: the loop has no exit; proved for every compacted transaction."
 },
 "C34": {
  "note": "Under the hypothesis that the price lookups into the base currency answer; c34_no_crash_prices discharges it for real dates and positive prices."
 },
 "C42": {
  "note": "Proved whenever every date and payee of the main ledger and of the emitted transactions still occurs after appending (c42_reimport_emits_nothing), and for appending to ledgers without transactions that net to nothing. False of the code otherwise (c42_reimport_fails): such a transaction is not reported but still occupies its name in the builder."
 },
 "C44": {
  "note": "False of the code: `k = max` instead of `max = k` in book_reclassify.go:56. The partial theorem says what is chosen."
 },
 "C50": {
  "note": "False of the code when two names part right at a divider (c50_common_prefix_fails). c50_exact: with a divider of one character it is wrong exactly then. c50_always: what holds in all cases."
 },
 "C52": {
  "note": "False of the code for amounts above 1e9 (the sort key saturates)."
 },
 "C53": {
  "note": "False of the code when the posting slice has spare capacity: append in accumulate overwrites shared storage; proved when capacity equals length."
 },
 "C54": {
  "note": "False of the code for mantissas of 2^63 or more (int64 wraps); proved exactly below."
 },
 "C56": {
  "note": "False of the code for an amount without a currency: it is silently left as trailing text. Proved for every posting line in the documented shapes."
 },
 "C58": {
  "note": "False of the code for cyclic includes; proved for every acyclic set of files."
 },
 "C59": {
  "note": "False of the code for the last transaction of the file, which makes Build panic rather than give an error. Proved: a loaded book is always balanced, and an unbalanced transaction before another one is an error."
 },
 "C60": {
  "note": "False of the code for a NUL rune in the file (read as end of file). Proved for text without NUL."
 },
 "C57": {
  "note": "False of the code: amounts not expressible in the currency's decimals are rounded (an eighth printed as 0.1, c57_amount_rounded_fails). Proved, for a whole book, for everything the format can express."
 },
 "C63": {
  "note": "False of the code: division by zero when the last shrinkable column is empty (c63_layout_fails). Partial theorems: every other layout fits the width and every cell is printed in its column."
 },
 "C64": {
  "note": "False of the code: the summary report leaves <div> elements open (c64_balanced_fails). The exact number left open is proved."
 },
 "C65": {
  "note": "Opening and closing dates proved (c65_open_close). False of the code: an account is closed while it still holds another currency (c65_closed_iff_zero_fails)."
 },
 "C66": {
  "note": "False of the code: a repeated flag-style key is accepted and an empty type loses its parameters. Parsing and the round trip otherwise proved."
 },
 "C67": {
  "note": "False of the code: the file is truncated before anything is written (c67_crash_fails), an error loses the old contents (c67_error_keeps_old_fails), and the error of closing the compressor is dropped (c67_success_fails). The partial theorem says what holds at every crash point."
 },
 "C68": {
  "note": "For Monzo, Starling and Nordigen, against arbitrary servers; the model ends where SaveToFile (C67) begins."
 },
 "C69": {
  "note": "False of the code when a hundred transactions fall within a minute (c69_burst_fails). Otherwise terminates and stores everything the server has."
 },
 "C70": {
  "note": "False of the code when a request goes out later than its slot (c70_late_request_fails). Exact bound proved."
 },
 "C75": {
  "note": "c75_bounded is for any arithmetic, IEEE floats included; c75_real and c75_newton over the reals."
 },
 "C73": {
  "note": "False of the code: Duplicate shares the numbers (c73_mapAmount_fails, c73_mapAccount_fails). c73_filters_partial: reading and filtering both copies in any interleaving is independent."
 },
 "C80": {
  "note": "Refinement proof between the pointer-level model (Model/Heap.lean) and the list model used by all other theorems; operations with a second book are not included."
 },
 "C78": {
  "note": "False of the code: an empty report, an earlier transaction without a row of the last one, and an account whose name ends in the divider crash it (c78_*_fails; c78_crash says exactly when). Proved for all transactions with the same rows, hence for every summarised book with proper account names (c78_sum_partial)."
 },
 "C81": {
  "note": "False of the code (the command is commented out of root.go): flags of earlier requests stick and simultaneous requests write to one output (c81_*_fails). c81_one_by_one says exactly what each request answered in turn gets; partial for requests repeating all earlier flags, and, for overlapping ones without flags, of the text computed."
 },
 "C82": {
  "note": "Flags: proved for every argument and case folding. False of values from the configuration file, which are not checked (c82_config_value_fails: the default file's type \"Ansi\" silently means Ledger)."
 },
 "C91": {
  "note": "False of the code: the default file has report.macros, which the report settings lack, and left-over keys are rejected at the next start (c91_default_rejected_fails). Proved for any default text that decodes without left-over keys."
 },
 "C83": {
  "note": "False of the code: null entries of objects are dropped, text after the first JSON value is ignored, and the order of a script's loop over an object is Go's random map order (c83_*_fails). Proved: every other place of the data is seen exactly, whatever the map order."
 },
 "C84": {
  "note": "encoding/csv's splitting into records is a parameter. False for repeated headings: only the last column of a heading can be reached (c84_headings_exact says so for every table); proved for distinct headings, for files without headings, and that nothing crashes."
 },
 "C85": {
  "note": "big.Rat.SetString is a parameter. False of NaN and infinite floats, which count as 0, and of amounts copied from the ledger, which scripts see as floats (c85_copied_amount_fails holds for any rounding to binary fractions). Otherwise proved end to end from the script's arguments to the reported transactions."
 },
 "C88": {
  "note": "False if the script restricts or renames the ledger, because the comparison is with the ledger as the script left it (c88_since_fails; c88_exact says exactly what is shown). Proved for transactions whose date lies in every period the script restricted the ledger to, if it renames nothing."
 },
 "C76": {
  "note": "False of the code: units and currencies of prices are written without the quotes they may need (the file then cannot be loaded), and prices are rounded to the decimals of the amounts in their currency (c76_*_fails). Proved for prices the export can express, for any order of the pairs, transactions included."
 },
 "C92": {
  "note": "False of the code in two ways: a currency without a price is shown 1:1 without a word (c92_no_price_fails) and combined reports convert at the first day of the period, not at the posting's date (c92_period_start_fails). Proved: uncombined reports of currencies with recorded prices."
 },
 "C90": {
  "note": "Whole command from file to the transactions handed to the printer. Reports with --sum are covered by C45-C49."
 },
 "C77": {
  "note": "False of names outside the loader's character set: the name is cut and the rest is read as an amount (c77_name_split_fails). Proved for all names of letters, digits, & ' : _, and that loaded accounts are always such names."
 },
 "C87": {
  "note": "The section's postings are selected by the unescaped pattern ^name$, so names with pattern characters (possible after map operations) show other accounts' postings (c87_dot_fails). Proved for plain names, hence for every account of a file without operations."
 },
 "C86": {
  "note": "The note of a posting is replaced by the transaction's note (posting.go:127): c86_note_fails. Everything else is proved; the text encoding of encoding/json is trusted."
 },
 "C89": {
  "note": "False for amounts with more than six decimals (c89_decimals_fails) and for transactions merged by operations from several with different notes (c89_note_fails). Proved for amounts in millionths below 2^52; for built books without a condition on notes."
 },
 "C94": {
  "note": "Proved exact below 2^52 units of the last decimal and within half a unit plus 2^-53 of the amount in general; false for larger amounts, for every rounding (c94_large_fails)."
 },
 "C95": {
  "note": "Without --combined a line with the account precedes each table, so the output is not one table (c95_sections_fails, for every report). Proved with --combined."
 },
 "C79": {
  "note": "Texts are not escaped: a payee with '<' disappears from the page (c79_escape_fails). Proved for non-empty reports whose texts contain no '<'; character entities are not decoded by the specification."
 },
 "C93": {
  "note": "Quotes in a payee are not escaped (c93_quote_fails), and names that differ only in capitals or spaces are merged (c93_merged_fails). Proved for payees without quotes or line ends, names that stay one word, and amounts that fit the currency's decimals, relative to the renaming. Price lines are written in the ledger syntax, which a Beancount reader does not accept; the specification's reader skips them."
 },
 "C98": {
  "note": "Two overlapping callback requests write code and state separately, so the state of one can be accepted with the code of the other (c98_mixed_requests_fails). Proved when requests do not overlap (c98_same_request_partial); in every run a code is used only if some request carried the state (c98_needs_state)."
 },
 "C99": {
  "note": "The server's clock and lifetime announcements are inputs of the model."
 },
 "C96": {
  "note": "The well-formed lines are given as a grammar in Spec/File.lean. Postings with an `@` price (which the program reads and drops), amounts of 2^63 or more before the point is removed, and files without a final line feed are not among them. Files that include each other in a circle stand for no bookings and are not loaded (c96_loaded_book; C58 says they are read for ever)."
 },
 "C100": {
  "note": "False of texts with an escape character, which hides what follows it (c100_register_text_fails); proved of all other texts, of screens on which the dates, amounts and balances fit, and of registers without holes (ascending order, c100_no_holes; descending order is C39)."
 },
 "C97": {
  "note": "False of numbers that are no float64, such as long integers: they go through float64 (c97_number_fails). Proved: what is in the file is read back (c97_monzo_file, c97_starling_file, c97_nordigen_file) for every state; and records are stored as sent if their numbers have at most fifteen digits (c97_stored_partial)."
 },
 "C101": {
  "note": "False of the code: a pending transaction without transactionId makes the whole reply an error (c101_pending_fails). Proved: it holds exactly if every pending transaction has one."
 },
 "C102": {
  "note": ""
 },
 "C103": {
  "note": "The bank is assumed to answer a request for changes with all items last changed at or after that time, and to give later changes later times."
 },
 "C104": {
  "note": "False of the code: Dutch, German and French print a decimal comma, which the loader skips: 12,5 comes back as 125 (c104_language_fails). Proved: it holds for English (c104_language_partial); in the other languages amounts below 1000 come back multiplied by ten per decimal (c104_scaled), so unchanged exactly if there are no decimals (c104_other_iff)."
 },
 "C105": {
  "note": "False of the first export of an export: amounts that were added up may need fewer decimals, 1.0 becomes 1 (c105_first_fails). Proved: from the second one on the texts are the same, for everything the format can express, in English."
 },
 "C106": {
  "note": "False of what the format cannot express, such as an account with a blank (c106_account_fails). Proved, for all operations, for books the format can express, in English (other languages: C104)."
 },
 "C107": {
  "note": "False of the code in four ways, each proved: amounts are printed with the decimals of the main ledger, so with whole amounts there 12.50 becomes 12 (c107_decimals_fails); a printed message of two lines is read as ledger (c107_message_fails); an alias of the ledger renames an imported account (c107_alias_fails); a vanishing transaction of the same date and payee makes it \"Lunch (2)\" (c107_vanishing_fails). Proved otherwise, for every ledger, in English."
 },
 "C108": {
  "note": "False if the ledger has a transaction of the same date and payee that nets to nothing (c108_again_fails). Proved, exactly (only the script's messages are printed), under the conditions of C107. c108_program_partial: the same for the whole program, from the command line and configuration file to the status and output."
 },
 "C109": {
  "note": "False of the code: the transactions of the files before the failing one are printed (c109_nothing_fails). Proved: what is printed is exactly the output of the import of those files, and at most the messages of the failing script."
 },
 "C110": {
  "note": "False of the amounts as such: they are float64 (c110_amount_fails). Proved: everything else exactly, the balance as sum of the amounts visited so far, amounts within half an ulp and recoverable by rounding up to 18 decimals and 2^52 units."
 },
 "C111": {
  "note": "False of the code: data.transactions returns the book's own slices. After map the list shows other postings, even a transaction that does not balance (c111_map_fails); after since and another reading it shows other balances (c111_balance_fails). Proved: with reading, since and asof the transactions and postings stay (all but the balances), with reading only everything."
 },
 "C112": {
  "note": "False without --all: Accounts() looks only at the balance of the account's last posting, so an account that holds euros is left out if its last posting is in dollars and its dollars are zero (c112_balance_fails). Proved: --all exactly, accounts of one currency exactly, no account without anything is listed (c112_balance_partial), the printed column (c112_text)."
 },
 "C113": {
  "note": "Proved for files of the grammar of C96. That the decimals may be too few to show an amount such as 1/8 is C19."
 },
 "C114": {
  "note": "False when a command fails after less was started: cobra does not call PersistentPostRun then, the pager's pipe is not closed and less not waited for (c114_waits_fails, a register whose second account is no regular expression after map). All else proved; waiting proved for commands that end without error, exactly (c114_waits_partial)."
 },
 "C115": {
  "note": "False: a token that expires while a run goes on (or within ten seconds of its start) is renewed only in memory; the new refresh token is not saved and the old one is spent, so that every later run fails (c115_login_lasts_fails, c115_lost_for_ever). Proved: it is kept exactly unless that happens (c115_kept_iff), histories where it does not happen (c115_login_lasts_partial), banks that let refresh tokens be used again (c115_reusable)."
 },
 "C116": {
  "note": "For the book after any operations (c116_summary) and for the file without operations (c116_file, grammar of C96). Which accounts are subtotal accounts is exact if no two names part at the divider (else C50 applies). A currency without a price counts with the rate that C28 gives."
 },
 "C117": {
  "note": "c117_balance: balancing does not depend on the order. c117_order: any two ledgers with the same content, any two sorts and map orders, any operations and options: same end, same transactions (notes aside) or same summary rows. The divider must not be empty. The walk of the price map in mapccy is kept the same on both sides (C33). c117_register: the same of register (Props/OrderReg)."
 },
 "C118": {
  "note": "False of the code (c118_nested_fails): rows are sorted by the values of the accounts above them, so when two sibling accounts have equal totals (Exp:Car and Exp:Food, both 10) their children are mixed and the car's expenses are listed under the food. Proved: without such ties (to six decimals, amounts up to ten billion, divider of one character) every row reads right, also with --credit and --hidden (c118_nested_partial); and always, every indented row comes somewhere after the row of the account it is named after, which is one step less indented (c118_after)."
 },
 "C119": {
  "note": "False of the code (c119_names_fails): the builder leaves the label of a posting empty, and only --sum (or an operation that renames accounts) sets it, so a text or HTML report without --sum has blank account names: proved for every ledger (c119_unsummed_blank). With --sum every row that is not indented is labelled with its account (c119_summed_partial); indented rows are C118."
 },
 "C120": {
  "note": "False of the code (c120_largest_first_fails): above a thousand million the number in the sort key is negative and its text sorts the wrong way, so 2 000 000 000 comes before 3 000 000 000. Proved up to a thousand million, in the order before --credit and --hidden (c120_largest_first_partial)."
 },
 "C121": {
  "note": "False as stated (c121_price_recorded_fails, c121_purchase_fails): the code has a TODO where the price would be used. What holds, for all files: c121_costs_dropped_partial (loading files with costs is loading them without), c121_line_partial (one line), c121_total_refused (`@@` refuses the file)."
 },
 "C122": {
  "note": "Documented in the help of `report` (report.go:33-43). c122_listing (entry by entry), c122_balances (per account and currency), c122_summary (summary rows)."
 },
 "C123": {
  "note": "c123_swap (independent operations), c123_combine (combine by a finer period first; for real dates), c123_period (combine and a date that begins a period; for real dates), c123_dates (stricter date). Examples beside them show that the conditions are needed (date within a period; month 13)."
 },
 "C124": {
  "note": "c124_listing (reports that list transactions, any kind), c124_summary (summed reports that combine: each is a summary in the sense of C116 and subtree and account amounts add). part_demo shows three ledgers on one disk that meet the hypotheses."
 },
 "C125": {
  "note": "c125_again_partial: for operations whose currency renamings are clear for the prices (no two pairs of currencies with prices merge, new names are not renamed again). c125_merged_fails: with a mapccy that merges two currencies with prices the converted amounts depend on the map order. c125_register_partial: the same of register."
 },
 "C126": {
  "note": "c126_saved_partial: English number format and a book the format can express (Writable), renamings of currencies in the report clear in the sense of C125. c126_account_fails: an account renamed to one with a blank; c126_rounded_fails: amounts divided further than the decimals of the ledger are rounded in the file."
 },
 "C127": {
  "note": "c127_runs, c127_links, c127_syncs: the requests and the end of every run after every history, a crash exactly if the bank answers `null` to a request for transactions; c127_kept_partial, c127_stored_partial: what the file says (numbers of at most 15 digits, as in C97). c127_renewal_fails: an expired consent is never renewed. Not modelled: the token (C99), partly written files (C67)."
 },
 "C128": {
  "note": "c128_place_partial: the place is right, except that a stop at the end of a line is reported as column 0 of the next row (c128_row_fails: `2020/01` alone in row 1 is reported as 2:0), and except for errors without a place: unbalanced transactions (c128_place_fails), a denominator that overflows to zero, `include` without a name. c128_unbalanced: the message for an unbalanced transaction. The messages themselves are modelled but (but for that one) not claimed."
 },
 "C129": {
  "note": "c129_screen_partial: for transactions that have the same rows; c129_sum_partial: every summary (`--sum`) is such a table, so there the report neither crashes nor complains. Missing: labels with an escape character, which hides what follows it (c129_screen_fails); currencies with runes that cannot be printed; accounts with an empty name or one that ends in the divider (c78_divider_fails); reports without a summary whose transactions have different rows (C78)."
 },
 "C130": {
  "note": "c130_text_partial: text, for summaries that are not empty and plain names; c130_json: JSON, summary or not; c130_html_partial: HTML, for texts without `<` (C79); c130_formats: the type (but Beancount) does not change the transactions reported; c130_style: the style sheet. Missing: a ledger with nothing to report, of which the text report crashes (c130_text_fails); names with escape characters or unprintable runes, accounts ending in the divider (C129); `<` in names (C79)."
 },
 "C131": {
  "note": "c131_saved_partial, c131_again_partial: for English number format, transactions the format can express (C57) and, for the second, real dates. Missing: summaries (`--sum`), whose subtotals are printed like postings, so that the file is refused (c131_sum_fails); other languages (C104)."
 },
 "C132": {
  "note": "c132_text_partial, c132_json_partial, c132_csv_partial, c132_combined_partial, c132_only: ascending order, names the screen can show, English numbers (text), ordinary amounts (JSON), six decimals (CSV). Missing: descending order, which crashes (c132_descending_fails, C39); names that are regular expressions (C87)."
 },
 "C133": {
  "note": "c133_agree_partial, c133_periods_partial: ascending order, accounts whose names have no special characters (C87), operations only without conversion. Missing: conversion together with operations, where the register converts before and the report after the operations (c133_convert_fails)."
 },
 "C134": {
  "note": "c134_report, c134_register, c134_export, c134_accts, c134_ccy: the whole run, from the command line to status and output. c134_refused, c134_help, c134_count, c134_bad_file, c134_no_file: the other ends. The flag library and TOML decoding are modelled by their documented behaviour; the command is the first word; of the configuration file the keys and typed values are the input (its text: C74, C91)."
 },
 "C135": {
  "note": "False of the code: the setting is read and never used (c135_zero_fails). c135_unused_partial: two command lines that differ in --zero alone have the same effect, for every ledger."
 },
 "C136": {
  "note": "c136_definition_partial: the settings of `import NAME`, for names without blanks. c136_written_out: the same as `import` with the options written out. c136_plain, c136_defaults, c136_missing, c136_refused, c136_bad_file. False in full: --code (and --format) cannot be given where the definition has it (c136_code_fails), and a definition with a blank in its name is no command of that name (c136_name_fails). Flags before the definition's name are left to `other`."
 },
 "C137": {
  "note": "c137_as_import: generate prints what import prints for the same calls. c137_appended_partial: the appended ledger, for scripts that restrict the ledger only to periods in which all they add lies (always so for one that only reads), a ledger without vanishing transactions, printable transactions. False in full: data.since cuts the ledger itself (c137_since_fails), and amounts are printed with the decimals of the ledger (c137_decimals_fails)."
 },
 "C138": {
  "note": "c138_generate_again_partial under the hypotheses of C137; false in full (c138_since_fails): after data.since the deduplication compares with the cut ledger. c138_program_partial: the same for the whole program."
 },
 "C139": {
  "note": "c139_definition_partial: the settings of `generate NAME`, for names without blanks. c139_written_out: the same as `generate` with the options written out. c139_plain, c139_defaults, c139_missing, c139_refused. False in full: --code cannot be given where the definition has it (c139_code_fails)."
 },
 "C140": {
  "note": "c140_refused, c140_missing, c140_unbalanced, c140_done, c140_operations, c140_status, over the whole program (goledgerMain); definitions with names without blanks."
 },
 "C141": {
  "note": "c141_balance; c141_report_partial and c141_register_partial, for ledgers without two transactions of one date and payee and without two price lines of one date and pair of currencies, and currencies renamed clearly (see C125). False in full: of two prices of one day the later line counts (c141_same_day_fails)."
 },
 "C142": {
  "note": "c142_loads, c142_report, c142_register, c142_silent. What the lines of a file say is the relation FileSays of C96."
 },
 "C143": {
  "note": "c143_says_partial (the two say the same), c143_report_partial, c143_register_partial: for blocks without alias lines, whose own includes mean the same files from both places. False in full (c143_alias_fails): the aliases of an included file end with it."
 },
 "C144": {
  "note": "False of an added price: rates between two prices are interpolated, so a later price changes the converted amounts of the days before (c144_price_fails). Proved for added transactions. A register that converts does so before the operations, so a later posting may make it crash; if both end, they show the same."
 },
 "C145": {
  "note": "Proved for --combineby other than skip (c145_report) and for every report with a combine operation (c145_operation); c145_words and c145_reversal give instances of ledgers with the same daily amounts."
 },
 "C146": {
  "note": "Proved for every report (c146_since, c146_period; c146_elsewhere: a transaction of another day put anywhere in the ledger) and for combined registers (c146_register_partial). False of a register with a section for each account (c146_register_fails): whether an account has one depends on its balance over all days, because FilterTransaction leaves the balances stored with the postings as they are and Accounts looks at them."
 },
 "C147": {
  "note": "c147_loads gives the exact condition on the disk (IncludesEnd is accessibility of the include relation); c147_cycle and c147_command for the cyclic case. The model says non-termination by fuel: no depth is enough. In the program the recursion ends by exhausting memory or file handles, with a non-zero status."
 },
 "C148": {
  "note": "MovedTo is stated for any renaming of the files; tree_moved shows it of a directory moved elsewhere with filepath.Join as concatenation after the directory of the file (no '..' cleaning)."
 },
 "C149": {
  "note": "Operations after the first are arbitrary. c149_register is for registers without conversion: with it the register converts before the operations and the postings of several currencies of an account are joined by map only."
 },
 "C150": {
  "note": "c150_import and c150_generate are equivalences: status 0 and this output, or the conditions fail. The running of Starlark is a parameter (what calls a script makes of its data); deduplication and reclassification are importRun (C41, C44). c150_program, c150_generate_program: the same from the command line."
 },
 "C151": {
  "note": "c151_loads, c151_report, c151_register; c151_split, c151_swap and c151_cancel give the ways of rewriting. Reports are compared up to the order of rows that sort alike (SameReport), as for C122."
 },
 "C152": {
  "note": "c152_loads, c152_report (with the clearness condition ClearOps of C125; without it the order in which Go walks the price map decides, c125_merged_fails). SameShown: both show the same rows if both end well, and end alike unless the report converts without combining."
 },
 "C153": {
  "note": "c153_monzo, c153_starling, c153_nordigen (the settings), c153_refused, c153_words, c153_help, c153_bad_file. What a download then does is a parameter (C68, C70, C97-C103, C115, C127). The flags of nordigen are really named `Client ID` and `Client Secret`, with the blank; their help texts are exchanged."
 },
 "C154": {
  "note": "c154_monzo, c154_login and c154_forms hold for all texts (the code escapes them). The other requests put the texts into the address as they are: c154_starling_partial, c154_nordigen_partial and c154_ids_partial are for texts without # % & + / = ?, and c154_starling_fails (a time with an offset: the + is read as a blank) and c154_nordigen_fails (a country with an &), c154_ids_fails (an id with a slash) are for others. net/url's Encode is modelled by its documented behaviour; reading an address is specified in Spec/Address."
 },
 "C155": {
  "note": "c155_report, c155_register, c155_export; c155_unknown; c155_itself. The macros are those of the table `macros` at the top of the file (the table `[report.macros]` that the help text shows is refused, C91)."
 },
 "C156": {
  "note": "c156_move_all, c156_moves, c156_move_none, c156_maps, c156_back, c156_depreciate. The engine for expressions is arbitrary; where a renaming is compared it must leave a text without a match as it is (Go's does)."
 },
 "C157": {
  "note": "c157_loads, c157_listing, c157_summary (the rows before --credit turns signs and --hidden leaves accounts out, as in C116)."
 },
 "C158": {
  "note": "c158_swap_partial, c158_dates_partial, c158_move_all_partial, c158_moves_partial, c158_move_none_partial, c158_maps_partial, c158_back_partial, c158_depreciate_partial: the combined register. Missing: the register with a section for each account, where it is false (c158_sections_fails): which accounts are left out as empty depends on the balances as of the last operation that compacts, so `since=2021-01-01 map=/Q/R/` lists accounts that `map=/Q/R/ since=2021-01-01` does not."
 },
 "C159": {
  "note": "c159_report, c159_export, c159_register, c159_same_month, c159_plain; whole program, with flags and configuration file: c159_program_report, c159_program_export, c159_program_register, c159_program_lists. Combined by the present day (the default of a fresh configuration file), neither converted nor summed: the same lines but for their day, c159_today. The clock is a parameter of the operations (GetToday). What a word must not end in is a small grammar in Spec/OnDay; macros count by their words, at any depth."
 },
 "C160": {
  "note": "c160_converted (the formula), c160_multiplied (all amounts in priced currencies: plainly k times), c160_unconverted, c160_summary (rows that both summaries have; that the unconverted listing used in the formula succeeds is proved). The reports compared are assumed to succeed. With mapccy the price table is changed by the operations and the set of priced currencies with it; not covered."
 },
 "C161": {
  "note": "c161_listing, c161_summary, c161_unconverted. Real days only (a ledger file may name a day such as 2020/99/99, on which the lookup can panic), and no two prices of the pair for one day: which of two the binary search finds may change with the length of the list."
 }
}