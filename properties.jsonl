{"id": "C01", "title": "Builder accepts exactly the balanced ledgers", "statement": "Driving a Builder with any sequence of NewTransaction/AddPosting calls and then Build: the run completes with a Book if and only if, for every transaction and every currency, the amounts added to that transaction sum to zero; otherwise it panics, and it panics no later than the NewTransaction/Build call that closes the offending transaction.", "quantifier": "every finite sequence of NewTransaction/AddPosting/AddPrice calls with arbitrary dates, payees, accounts, currencies and rational amounts", "why_tests_cant": "The set of call sequences and amounts is infinite; a test checks a handful of balanced and unbalanced books.", "anchors": ["book/builder.go: NewTransaction, AddPosting, checkAndClearTransaction, Build"]}
{"id": "C02", "title": "Every transaction keeps its own identity", "statement": "Each NewTransaction call is given a (date, payee) pair different from that of every earlier NewTransaction call; the payee is the one supplied if it is free on that date, otherwise the supplied payee followed by ' (k)' with the least free k>=2; the search for a free payee always terminates.", "quantifier": "every sequence of NewTransaction calls, including payees that already look like 'X (2)'", "why_tests_cant": "Adversarial payees (already containing suffixes) and unbounded repetition cannot be enumerated.", "anchors": ["book/builder.go: NewTransaction"]}
{"id": "C03", "title": "Posted amounts are preserved by compaction", "statement": "For every (date, payee, account, currency) the sum of the amounts reported by Transactions() equals the sum of the amounts added to the builder under that key; nothing is lost, duplicated or moved to another key.", "quantifier": "every balanced builder history; every sort implementation satisfying the sort.Slice contract", "why_tests_cant": "The claim ranges over all multisets of postings and over all (unstable) sort results.", "anchors": ["book/book_compact.go: compact", "book/builder.go: Build", "book/book.go: Transactions"]}
{"id": "C04", "title": "Transactions() is in canonical form", "statement": "Transactions() of any book returns non-empty transactions in strictly increasing (date, payee) order; within a transaction all postings carry that date and payee, are in strictly increasing (account, currency) order with no repeated (account, currency), and no posting has amount zero.", "quantifier": "every non-empty posting list and every permissible sort result", "why_tests_cant": "Canonical form is a universally quantified shape property; tests only see small books.", "anchors": ["book/book_compact.go: compact", "book/posting.go: isLess"]}
{"id": "C05", "title": "The result does not depend on posting order or on the sort algorithm", "statement": "Two books holding the same postings in any order, compacted with any two sort implementations that satisfy the contract of sort.Slice (which is unstable), report the same transactions: same dates, payees, accounts, currencies, amounts and running balances.", "quantifier": "all permutations of all posting lists, all pairs of sort implementations", "why_tests_cant": "sort.Slice is unstable and its behaviour on equal keys is unspecified; a test exercises one Go version and one order.", "anchors": ["book/book_compact.go: compact"]}
{"id": "C06", "title": "Running balances are prefix sums", "statement": "After compaction, GetBalance() of each posting equals the sum of the amounts of all postings of the same account and currency up to and including it in report order; in particular the last one equals the account's total in that currency.", "quantifier": "every posting list, every posting in the result", "why_tests_cant": "Needs an argument for every interleaving of accounts and currencies across any number of transactions.", "anchors": ["book/book_compact.go: compact (balance pass)"]}
{"id": "C07", "title": "Reading a book does not change it", "statement": "Calling Transactions() again (or any number of times) returns the same transactions and leaves the book as it was: compaction is idempotent.", "quantifier": "every book state reachable or not", "why_tests_cant": "Idempotence must hold for every state, including ones with zero or duplicate postings.", "anchors": ["book/book.go: Transactions", "book/book_compact.go: compact"]}
{"id": "C08", "title": "Double entry is preserved by every operation sequence", "statement": "Starting from a book in which every (date, payee) transaction nets to zero in every currency, after any sequence of map, move, mapccy, asof, since, combine, depreciate, convert, filter, adjust and reclassify operations every transaction still nets to zero in every currency, and so does the whole book.", "quantifier": "every balanced book and every finite operation sequence with arbitrary regular expressions, factors, dates, rates and periods", "why_tests_cant": "Operation histories are unbounded and regexes/rates arbitrary.", "anchors": ["book/book.go: AdjustPost, Depreciate, AdjustBy, MapAmount, MapAccount, MapTransaction, FilterTransaction, SplitBy", "book/book_utils.go", "cmd/app/book_op.go"]}
{"id": "C09", "title": "asof/since select exactly the right transactions", "statement": "FilterByDateSince(d) keeps exactly the transactions dated d or later and FilterByDateAsof(d) exactly those dated strictly before d, unchanged and in order; the two together partition the book; date 0 means no filter; filters commute and compose to the half-open interval.", "quantifier": "every book, every pair of dates", "why_tests_cant": "Boundary inclusion must be right at every date for every book.", "anchors": ["book/book_utils.go: FilterByDateSince, FilterByDateAsof", "book/book.go: FilterTransaction"]}
{"id": "C10", "title": "combine (SplitBy) preserves account totals per period", "statement": "After SplitBy(by) every posting date is the floor of the original date, payees are empty, and for every period, account and currency the total equals the total of the original postings that fall in that period; in particular every account's overall total is unchanged.", "quantifier": "every book, every period type including today/none/unknown strings", "why_tests_cant": "Sums over arbitrary many transactions merging into one.", "anchors": ["book/book.go: SplitBy, MapTransaction", "book/date.go: FloorDiff"]}
{"id": "C11", "title": "map renames accounts without changing money", "statement": "After MapAccount(f)/RegexAccounts, for every transaction, target account and currency the amount equals the sum over all original accounts that map to it; totals per transaction and currency are unchanged.", "quantifier": "every book, every (deterministic) account mapping, including many-to-one and regex with alternate account", "why_tests_cant": "Many-to-one renames merge postings in unboundedly many ways.", "anchors": ["book/book.go: MapAccount", "book/book_utils.go: RegexAccounts"]}
{"id": "C12", "title": "move transfers exactly the requested fraction", "statement": "After AdjustPost(search, replace, f), for every transaction, account a and currency: new amount = old amount - f*(old amount if a matches) + f*(sum of old amounts of matching accounts whose replacement is a).", "quantifier": "every book, regex, replacement and rational factor", "why_tests_cant": "Replacement may map onto matching or existing accounts; the identity must hold for all.", "anchors": ["book/book.go: AdjustPost"]}
{"id": "C13", "title": "depreciate spreads but never loses money", "statement": "For periods n>=1, Depreciate leaves every account's overall total in every currency unchanged; for n<=0 it moves the matching amounts to the asset account for good; each of the n instalments of a posting is 1/n of it, the first on the posting date and the j-th on the first day of the j-th following month (period monthly).", "quantifier": "every book, regex, replacement, period string and number of periods", "why_tests_cant": "n, the dates and the overlaps with existing transactions are unbounded.", "anchors": ["book/book.go: Depreciate", "book/date.go: FloorDiff"]}
{"id": "C14", "title": "convert/mapccy scale amounts uniformly", "statement": "MapAmount(f) multiplies each posting by the rate for its (date, currency) and relabels its currency, so per transaction, account and new currency the amount is the rate-weighted sum of the originals; RegexCCY uses rate 1 and so preserves totals.", "quantifier": "every book, every rate function", "why_tests_cant": "Several currencies may collapse into one.", "anchors": ["book/book.go: MapAmount", "book/book_utils.go: RegexCCY", "cmd/reports/report.go: run", "cmd/register/register.go: run"]}
{"id": "C15", "title": "AdjustBy scales to the requested period", "statement": "AdjustBy(by) multiplies every amount by 1/days, 365/(12 days), 365/(4 days) or 365/days where days is the span between the earliest and latest posting date; 'none' does nothing; an unknown period or a zero span panics instead of returning wrong amounts.", "quantifier": "every book and period string", "why_tests_cant": "The span depends on the whole posting list.", "anchors": ["book/book.go: AdjustBy"]}
{"id": "C16", "title": "FilterByAccount keeps exactly the transactions touching an account", "statement": "FilterByAccount(a) keeps precisely the transactions having a posting whose account is exactly a, unchanged and in order.", "quantifier": "every book and account", "why_tests_cant": "Universally quantified selection.", "anchors": ["book/book_utils.go: FilterByAccount"]}
{"id": "C17", "title": "FilterTransactionReverse filters the book", "statement": "After FilterTransactionReverse(f) the book's transactions are exactly those satisfying f (in some order).", "quantifier": "every book and filter, followed by any further operation", "why_tests_cant": "Depends on the state left behind for later operations, i.e. on histories.", "anchors": ["book/book.go: FilterTransactionReverse"]}
{"id": "C18", "title": "Accounts lists exactly the accounts with a balance", "statement": "Accounts(regex, true) returns, sorted and without repetition, exactly the matching accounts having a non-zero total in some currency; Accounts(regex, false) returns exactly the matching accounts with any posting.", "quantifier": "every compacted book and regex", "why_tests_cant": "Depends on the interplay of any number of currencies in an account.", "anchors": ["book/book.go: Accounts"]}
{"id": "C19", "title": "Currency decimals suffice to print every amount", "statement": "GetCCYDecimals gives for each currency the least d with 10^d at least every amount's (reduced) denominator in the built book; every amount entered with finitely many decimals is printable exactly with d decimals.", "quantifier": "every builder history", "why_tests_cant": "Ranges over all denominators; the failing denominators (4, 8, 20, 25, ...) are easy to miss.", "anchors": ["book/builder.go: Build (mmap/rmap)", "cmd/app/print.go: FormatNumber"]}
{"id": "C20", "title": "Day number <-> date round trip", "statement": "GetDateFromDays(d.AsDays()) = d for every valid calendar date from year 1 on, and GetDateFromDays(n) is a valid date with AsDays n for every n >= 0.", "quantifier": "all valid dates, all day numbers", "why_tests_cant": "Infinite domain with leap-year exceptions at 4/100/400.", "anchors": ["book/date.go: AsDays, GetDateFromDays, YearIsLeapYear"]}
{"id": "C21", "title": "DaysSince counts calendar days", "statement": "AsDays of the day after d (Gregorian calendar) is AsDays(d)+1, so AsDays is strictly increasing on valid dates and DaysSince is the number of calendar days between two dates.", "quantifier": "all valid dates", "why_tests_cant": "Every month end, year end and leap day must be right.", "anchors": ["book/date.go: AsDays, DaysSince"]}
{"id": "C22", "title": "AddDays is day arithmetic", "statement": "For valid dates, d.AddDays(a).AddDays(b) = d.AddDays(a+b), d.AddDays(0)=d, d.AddDays(n).DaysSince(d)=n and the result is a valid date (as long as it does not precede year 1).", "quantifier": "all valid dates and integer day counts", "why_tests_cant": "Infinite domain.", "anchors": ["book/date.go: AddDays"]}
{"id": "C23", "title": "Floor gives the start of the enclosing period", "statement": "Floor(by) of a valid date for yearly/quarterly/monthly is the first day of the year/quarter/month containing it: it is valid, not after the date, idempotent, monotone, and the date lies strictly before the next period start.", "quantifier": "all valid dates and the three period kinds", "why_tests_cant": "Infinite domain with December/quarter boundaries.", "anchors": ["book/date.go: Floor, FloorDiff, FloorYear, FloorQuarter, FloorMonth"]}
{"id": "C24", "title": "Period stepping is additive", "statement": "FloorDiff(by, a) followed by FloorDiff(by, b) equals FloorDiff(by, a+b) and moves by exactly a+b periods, for positive and negative a, b of any size.", "quantifier": "all valid dates, all integers a, b (as long as year stays >= 1)", "why_tests_cant": "Normalisation loops over unbounded offsets.", "anchors": ["book/date.go: FloorDiff, FloorMonth, FloorQuarter, FloorYear"]}
{"id": "C25", "title": "Date text round trip", "statement": "For every valid date with a year from 1 to 9999, DateFromString(d.String()) = d, and the ledger lexer's parseDate reads d.String() back as d.", "quantifier": "all valid dates", "why_tests_cant": "Regex alternatives and padding must work for each date.", "anchors": ["book/date.go: String, DateFromString", "loader/lexer.go: parseDate, parseNumber"]}
{"id": "C26", "title": "DateFromString yields a real date or reports failure", "statement": "DateFromString returns either 0 (unparseable) or a valid calendar date.", "quantifier": "all strings", "why_tests_cant": "All strings cannot be tested.", "anchors": ["book/date.go: DateFromString"]}
{"id": "C27", "title": "AsYears increases with the date", "statement": "For valid dates d1 < d2, AsYears(d1) < AsYears(d2) (used for IRR discounting).", "quantifier": "all pairs of valid dates", "why_tests_cant": "Existing IRR tests only use first-of-month dates.", "anchors": ["book/date.go: AsYears", "book/irr.go: CalculateIRR"]}
{"id": "C28", "title": "Price lookup follows the documented rule", "statement": "GetPrice(date, unit, ccy): 1/Exact when unit = ccy; 1/None without data; first price/OutOfRange before the first date; last price/OutOfRange after the last; a price recorded for exactly that date/Exact; otherwise the linear interpolation between the nearest earlier and nearest later price/Inferred.", "quantifier": "every price history (unsorted, any length) and query date", "why_tests_cant": "Binary search correctness for every length and every gap.", "anchors": ["book/price.go: getPrice, PriceList.GetPrice, build, addPrice"]}
{"id": "C29", "title": "Interpolated prices stay between their neighbours", "statement": "An Inferred price lies between the two neighbouring recorded prices; lookups never panic on a price history with valid dates and positive prices.", "quantifier": "every price history with valid dates", "why_tests_cant": "Needs monotonicity of AsDays on all dates.", "anchors": ["book/price.go: PriceList.GetPrice", "book/date.go: DaysSince"]}
{"id": "C30", "title": "Price entry order is irrelevant", "statement": "If all recorded dates of a pair are distinct, lookups do not depend on the order of AddPrice calls.", "quantifier": "every permutation of every price history", "why_tests_cant": "Factorially many orders.", "anchors": ["book/price.go: addPrice, build"]}
{"id": "C31", "title": "Inverse conversion is consistent", "statement": "When only one direction of a pair is recorded with positive prices, GetPrice(d, a, b) * GetPrice(d, b, a) = 1 with the same price type.", "quantifier": "all dates, all price histories", "why_tests_cant": "Must hold at exact, inferred and out-of-range dates.", "anchors": ["book/price.go: getPrice"]}
{"id": "C32", "title": "The price iterator agrees with direct lookup", "statement": "For any non-decreasing sequence of query dates, PriceIterator.GetPrice returns the same price and type as PriceList.GetPrice.", "quantifier": "every price list with distinct dates, every non-decreasing query sequence", "why_tests_cant": "State carried between calls over unbounded query histories.", "anchors": ["book/price.go: PriceIterator.GetPrice, PriceList.GetPrice"]}
{"id": "C33", "title": "mapccy renames price pairs deterministically and without loss", "statement": "RegexCCY leaves in the price book exactly the original price lists under their renamed pairs, independently of Go's map iteration order.", "quantifier": "every price book, renaming and map iteration order", "why_tests_cant": "Map iteration order is random and entries inserted during iteration may or may not be visited.", "anchors": ["book/book_utils.go: RegexCCY"]}
{"id": "C34", "title": "The register never crashes on a balanced book", "statement": "ExtractRegister on any book whose transactions balance completes without panicking (every extracted posting has a counter-posting of opposite sign in the same currency), with one row per matching posting when not splitting and one row per counter-posting when splitting.", "quantifier": "every balanced book, every account regex, split or not", "why_tests_cant": "Division by the counter total must be non-zero for every book.", "anchors": ["book/registry.go: ExtractRegister"]}
{"id": "C35", "title": "Register rows allocate the posting exactly", "statement": "The rows produced for a posting sum to the posting's amount; with split, each row's share is proportional to the counter-posting's amount.", "quantifier": "every balanced book, regex, split or not", "why_tests_cant": "Exact rational identity over any number of counter-postings.", "anchors": ["book/registry.go: ExtractRegister"]}
{"id": "C36", "title": "Register balance column is the running total", "statement": "Each row's Balance is the sum of the Amounts of all rows of the same currency up to it, so the last equals the matching accounts' total in that currency; likewise BaseBalance for BaseAmount.", "quantifier": "every balanced book and regex", "why_tests_cant": "Unbounded number of rows and currencies.", "anchors": ["book/registry.go: ExtractRegister"]}
{"id": "C37", "title": "Register base amounts use the price of the currency in the base currency", "statement": "When no trade rate can be inferred, BaseAmount = Amount * GetPrice(date, row currency, base currency).", "quantifier": "every book, base currency and price history", "why_tests_cant": "A direction error is invisible when prices are 1.", "anchors": ["book/registry.go: ExtractRegister", "book/price.go: addPrice"]}
{"id": "C38", "title": "Register date window is exact", "statement": "FilterByDate(min, max) on a date-ordered register keeps exactly the rows with min <= date < max, an absent bound being unbounded.", "quantifier": "every date-ordered register and every pair of bounds", "why_tests_cant": "Boundary and empty-window cases for all registers.", "anchors": ["book/registry.go: FilterByDate"]}
{"id": "C39", "title": "Register count and ordering", "statement": "ShowReport with count n>0 shows the first n rows, n<0 the last |n|, 0 all; with asc=false it shows the same rows in reverse order.", "quantifier": "every register, count and order flag", "why_tests_cant": "All lengths and counts.", "anchors": ["cmd/register/show_register.go: ShowReport"]}
{"id": "C40", "title": "RemoveDuplicatesOf is exact set difference", "statement": "b.RemoveDuplicatesOf(main) keeps exactly the transactions of b whose (date, payee) does not occur in main, unchanged and in order.", "quantifier": "every pair of books", "why_tests_cant": "Merge-style cursor over two sorted lists of any length.", "anchors": ["book/book_dedup.go: RemoveDuplicatesOf"]}
{"id": "C41", "title": "An import run never emits a (date, payee) twice", "statement": "Importing any list of files with deduplication emits no transaction whose (date, payee) occurs in the main ledger or in the output of an earlier file of the same run.", "quantifier": "every main ledger and every list of imported books", "why_tests_cant": "Unbounded number of files and transactions.", "anchors": ["cmd/importer/import.go: run", "book/book_dedup.go"]}
{"id": "C42", "title": "Re-importing is idempotent", "statement": "If the transactions emitted by an import are appended to the main ledger, running the same import again with deduplication emits nothing.", "quantifier": "every main ledger, every import", "why_tests_cant": "Quantifies over all ledgers and imports.", "anchors": ["cmd/importer/import.go: run", "book/book_dedup.go", "book/builder.go: NewTransaction"]}
{"id": "C43", "title": "Reclassify only renames the counter-account", "statement": "ReclassifyByAccount changes nothing but the account of the non-reference posting in two-posting transactions that involve the reference account, and only to a counter-account seen in the reference book; transactions stay balanced.", "quantifier": "every pair of books, reference account, distance function and map iteration order", "why_tests_cant": "Nondeterministic map order and arbitrary similarity function.", "anchors": ["book/book_reclassify.go: ReclassifyByAccount"]}
{"id": "C44", "title": "Reclassify picks the most common counter-account", "statement": "For a payee seen in the reference book the counter-account chosen is one used at least as often as any other for that payee.", "quantifier": "every reference book and every map iteration order", "why_tests_cant": "Map iteration order is random in Go.", "anchors": ["book/book_reclassify.go: ReclassifyByAccount"]}
{"id": "C45", "title": "add() can only create balanced transactions", "statement": "Any sequence of successful add() calls from an import/generate script leaves the builder balanced, so Build cannot panic.", "quantifier": "every sequence of add calls with arbitrary amounts, accounts and currencies", "why_tests_cant": "Scripts are arbitrary.", "anchors": ["script/starlark.go: GetBuilderFunction"]}
{"id": "C46", "title": "Summary parents total their descendants", "statement": "In every transaction returned by Accumulate, the summary row of an account equals the sum, converted to the base currency at that date's price, of the book's postings in that transaction for the account itself and all accounts below it (before the credit sign flip).", "quantifier": "every compacted book, divider, base currency", "why_tests_cant": "Account trees of any depth, any number of currencies.", "anchors": ["book/book_accum.go: Accumulate"]}
{"id": "C47", "title": "Summary reports are rectangular", "statement": "All transactions returned by Accumulate contain the same set of (account, term, level, currency) rows, each once; so the text report finds every row in its reference column and never fails.", "quantifier": "every compacted book with any number of transactions", "why_tests_cant": "Depends on the merge-scan that adds the missing accounts for every book.", "anchors": ["book/book_accum.go: addEmptyAccounts, Accumulate", "cmd/reports/text.go: ShowTransactions"]}
{"id": "C48", "title": "Missing accounts are filled with zero", "statement": "addEmptyAccounts terminates without panicking on any compacted book and yields, for every transaction and every (account, currency) occurring anywhere in the book, exactly one posting: the original or a zero one.", "quantifier": "every compacted book", "why_tests_cant": "Cursor loop with three indices; termination and index safety for all inputs.", "anchors": ["book/book_accum.go: addEmptyAccounts"]}
{"id": "C49", "title": "Credit flip and hidden account", "statement": "Accumulate negates exactly the rows whose account matches the credit pattern and removes exactly the rows of the hidden account; all other rows are unaffected.", "quantifier": "every book, credit pattern, hidden account", "why_tests_cant": "Universally quantified frame property.", "anchors": ["book/book_accum.go: Accumulate"]}
{"id": "C50", "title": "Common prefixes are common ancestors", "statement": "The grouping account computed for two neighbouring accounts is the longest account that is an ancestor of (or equal to) both.", "quantifier": "all pairs of account names and dividers", "why_tests_cant": "Names such as 'A-B' and 'A:C' that diverge exactly at a divider are easy to miss.", "anchors": ["book/book_accum.go: findMaxCommonPrefix"]}
{"id": "C51", "title": "Account level and term reconstruct the name", "statement": "The level assigned to a row is the number of summary accounts strictly above it and the term is what remains of its name after the deepest such account.", "quantifier": "all account names, all summary-account sets", "why_tests_cant": "Names of any depth.", "anchors": ["book/book_accum.go: splitByStrings"]}
{"id": "C52", "title": "Summary rows are ordered by descending value", "statement": "Sibling rows are sorted by decreasing value: the sort key is antitone in the amount.", "quantifier": "all amounts", "why_tests_cant": "Overflow of the fixed-width key only shows for amounts above one billion.", "anchors": ["book/book_accum.go: getSortOrder"]}
{"id": "C53", "title": "Accumulate does not modify the book", "statement": "After Accumulate, the book's postings are the same as before.", "quantifier": "every book, including slices with spare capacity", "why_tests_cant": "Depends on slice capacity/aliasing that value-level tests do not see.", "anchors": ["book/book_accum.go: addEmptyAccounts, Accumulate"]}
{"id": "C54", "title": "Ledger amounts are read exactly", "statement": "parseAmt reads an optionally signed decimal numeral with thousands commas as exactly the rational number it denotes.", "quantifier": "all numerals", "why_tests_cant": "int64 accumulation overflows only beyond 18 digits.", "anchors": ["loader/lexer.go: parseAmt"]}
{"id": "C55", "title": "An elided amount balances the transaction", "statement": "A posting line without amount adds, for each currency with a non-zero open balance, the negated balance, so the transaction nets to zero in every currency afterwards.", "quantifier": "every builder state and every map iteration order", "why_tests_cant": "Any number of currencies; nondeterministic iteration.", "anchors": ["loader/parser.go: parsePosting", "book/builder.go: GetLastCCYBals, AddPosting"]}
{"id": "C56", "title": "No posted amount is silently ignored", "statement": "If a posting line carries a non-zero number, that number is part of the posting added.", "quantifier": "all posting lines", "why_tests_cant": "All inputs.", "anchors": ["loader/parser.go: parsePosting"]}
{"id": "C57", "title": "Ledger export can be loaded again", "statement": "A transaction printed in ledger format by ShowLedger is parsed back by ParseFile to the same date, payee, notes, accounts, currencies and amounts.", "quantifier": "every transaction whose names use the characters the format allows and whose amounts are decimal", "why_tests_cant": "Printer/parser inverse over all values.", "anchors": ["cmd/export/ledger.go: ShowLedger, LedgerFormatCurrency", "cmd/reports/ledger.go: ShowLedger", "loader/parser.go", "loader/lexer.go", "cmd/app/print.go: FormatSymbol, FormatNumber"]}
{"id": "C58", "title": "Loading always terminates", "statement": "ParseFile terminates on every finite set of files.", "quantifier": "all file systems, including cyclic includes", "why_tests_cant": "Non-termination cannot be observed by a test.", "anchors": ["loader/parser.go: parseFileLocal"]}
{"id": "C59", "title": "Unbalanced ledgers are reported as errors", "statement": "LoadBook returns an error (it does not crash) when a transaction in the file does not balance.", "quantifier": "all ledgers, wherever the offending transaction is", "why_tests_cant": "Position of the offending transaction matters.", "anchors": ["cmd/app/app.go: LoadBook", "loader/parser.go: parseFileLocal", "book/builder.go: Build"]}
{"id": "C60", "title": "The whole file is read", "statement": "Every line of the ledger file is processed or an error is reported.", "quantifier": "all file contents", "why_tests_cant": "Arbitrary contents, e.g. NUL characters.", "anchors": ["loader/lexer.go: next (eof = rune 0)", "loader/parser.go: parseFileLocal"]}
{"id": "C61", "title": "Macro expansion is sequential composition", "statement": "BookOps applies the operations in order, a macro behaving exactly like its expansion in place; evaluation stops at the first error; it terminates whenever macros are not cyclic.", "quantifier": "all macro tables and operation lists", "why_tests_cant": "Arbitrary nesting depth.", "anchors": ["cmd/app/book_op.go: BookOps, bookOp"]}
{"id": "C62", "title": "Padded cells have the requested width", "statement": "Length(PadString(s, w, left)) = w for w >= 0 for strings whose escape sequences are terminated, colour sequences being kept intact.", "quantifier": "all strings and widths", "why_tests_cant": "All strings, ANSI sequences, tabs and control characters.", "anchors": ["cmd/app/print.go: PadString, Length"]}
{"id": "C63", "title": "Column layout fits the terminal", "statement": "When the content is wider than the terminal and some columns may shrink, the shrunk column widths add up to exactly the terminal width, and non-shrinkable columns keep their width; every printed row has the same width.", "quantifier": "all column widths, shrink flags and terminal widths", "why_tests_cant": "Integer rounding over any number of columns.", "anchors": ["cmd/app/print.go: PrintColumns"]}
{"id": "C64", "title": "HTML report markup is balanced", "statement": "Every div opened by the HTML report is closed.", "quantifier": "all transaction lists with arbitrary levels", "why_tests_cant": "Depends on the level of the last row of each transaction.", "anchors": ["cmd/reports/html.go: ShowHTMLTransactions"]}
{"id": "C65", "title": "Beancount export opens accounts once and closes only finished ones", "statement": "Each account is opened exactly once, on the date of its first posting, and is closed only if it has no remaining balance, on the day after its last posting.", "quantifier": "all books", "why_tests_cant": "Accounts holding several currencies.", "anchors": ["cmd/export/beancount.go: ShowBeancount", "cmd/reports/beancount.go: ShowBeancount"]}
{"id": "C66", "title": "Import option strings round trip", "statement": "CLIConfig.Set parses type:key=value,... ; a key given twice is rejected; Set(String(cfg)) restores cfg.", "quantifier": "all option strings / configurations whose keys and values contain no separators, every map iteration order", "why_tests_cant": "All strings.", "anchors": ["cmd/utils/cli_config.go: Set, String"]}
{"id": "C67", "title": "A crash while saving never loses the state file", "statement": "At every crash point of SaveToFile the state file holds either the complete old or the complete new contents, and a reported success means the new contents are complete.", "quantifier": "every crash point and every failing system call", "why_tests_cant": "Crash points cannot be unit-tested.", "anchors": ["cmd/utils/json.go: SaveToFile"]}
{"id": "C68", "title": "Syncing never drops downloaded transactions", "statement": "Monzo, Starling and Nordigen syncs only add or update items by id: every id present before is present after, and an item delivered by the server is stored.", "quantifier": "every stored state and every sequence of server replies", "why_tests_cant": "Arbitrary server behaviour.", "anchors": ["cmd/download/monzo.go: GetAllTransactions", "cmd/download/starling.go: syncFeed", "cmd/download/nordigen.go: RefreshAccounts"]}
{"id": "C69", "title": "Downloading terminates", "statement": "GetAllTransactions terminates when the server has finitely many transactions.", "quantifier": "every server contents", "why_tests_cant": "Needs an adversarial transaction burst.", "anchors": ["cmd/download/monzo.go: GetAllTransactions"]}
{"id": "C70", "title": "Requests are throttled", "statement": "Any two consecutive throttled requests are at least the minimum delay apart.", "quantifier": "every sequence of call times on a monotone clock", "why_tests_cant": "Timing histories.", "anchors": ["cmd/download/net.go: getThrottler"]}
{"id": "C71", "title": "Inferring rates terminates", "statement": "InferRates returns the rates implied by the accounts with exactly two postings of the transaction.", "quantifier": "all transactions", "why_tests_cant": "Termination.", "anchors": ["book/transaction.go: InferRates"]}
{"id": "C72", "title": "A trade rate is inferred from a two-currency exchange", "statement": "InferRate(base, unit) returns -base/unit for the first account whose first two postings are in base and unit with opposite signs, and nil if there is none; it never panics on compacted transactions.", "quantifier": "all compacted transactions", "why_tests_cant": "All account runs.", "anchors": ["book/transaction.go: InferRate"]}
{"id": "C73", "title": "A duplicated book is independent", "statement": "Operations on b.Duplicate() do not affect what b reports, and vice versa.", "quantifier": "all books and operations", "why_tests_cant": "Pointer sharing is invisible unless both copies are inspected after mutation.", "anchors": ["book/book.go: Duplicate, MapAmount", "book/book_compact.go: compact"]}
{"id": "C74", "title": "An existing configuration file is never overwritten", "statement": "load() reads the first existing candidate file; it writes the default configuration only when none of the candidates exists.", "quantifier": "all file system states and environments", "why_tests_cant": "All combinations of existing/unreadable files.", "anchors": ["cmd/config.go: load"]}
{"id": "C75", "title": "IRR iteration is bounded and its result is a fixed point within tolerance", "statement": "CalculateIRR performs at most 10000 Newton steps and, unless the limit is hit, returns a rate whose residual or next Newton step is below 0.0001; the rate never goes below -1.", "quantifier": "all cash flows and dates (over exact arithmetic)", "why_tests_cant": "Convergence behaviour on arbitrary cash flows.", "anchors": ["book/irr.go: CalculateIRR"]}
{"id": "C80", "title": "Working in place gives the same as working on copies", "statement": "A loaded book whose operations overwrite postings and amounts in place (merging, dropping zeros, mapping, filtering, appending) reads, after any sequence of MapTransaction, MapAccount, MapAmount, FilterTransaction, AdjustPost, Depreciate, AdjustBy and Transactions calls, exactly as if every operation had computed a new book from the old one; no operation leaves a stale or overwritten posting, and loading and all these operations never make two postings share a number.", "quantifier": "all loaded books, all sequences of operations, all outcomes of sorting, whether or not append finds spare capacity", "why_tests_cant": "Aliasing bugs show only for particular lengths, capacities and orders of operations.", "anchors": ["book/book_compact.go: compact", "book/book.go: MapTransaction, MapAccount, MapAmount, FilterTransaction, AdjustPost, Depreciate, AdjustBy", "book/builder.go: Build, AddPosting", "book/posting.go: dup"]}
{"id": "C78", "title": "The text report shows every amount or explains why not", "statement": "The text report never crashes: it either prints a table with one row per account and currency of the report and one column per transaction, in which every amount stands in the row of its account and currency and the column of its transaction, unabridged, or it reports that the transactions must be summarised first and prints nothing.", "quantifier": "every list of transactions (plain or summarised, any number of accounts, levels, currencies and transactions), every terminal width and every formatting of names, dates and amounts", "why_tests_cant": "whether a row is found, left empty or shared depends on the combination of accounts, terms and currencies of all transactions; tests use a handful of tables in which all transactions have the same accounts", "anchors": ["cmd/reports/text.go: TextReport.ShowTransactions", "cmd/app/print.go: PrintColumns", "book/book_accum.go: Accumulate"]}
{"id": "C81", "title": "A web request answers only itself", "statement": "The web server's response to a request is what the same command would have printed on its own with the server's settings: it depends on no earlier or simultaneous request, and no other request's output ends up in it.", "quantifier": "all sequences of requests, all interleavings of the goroutines serving them, all commands and flags", "why_tests_cant": "the settings and the output target are shared between requests, so an error shows only after particular earlier requests or in particular interleavings", "anchors": ["cmd/web/web.go: handle, Execute", "cmd/app/app.go: App", "cmd/root.go"]}
{"id": "C82", "title": "A chosen type is the type used", "statement": "A flag with a fixed choice of values accepts exactly these values, in any letter case, and rejects everything else leaving the setting unchanged; the report or export produced is the one named by the value.", "quantifier": "all arguments, all lists of choices, all flags of this kind", "why_tests_cant": "the argument is any text; tests try the listed names and one wrong one", "anchors": ["cmd/utils/types.go: Enum.Set, EnumSlice.Set", "cmd/reports/report.go: run", "cmd/export/export.go: run"]}
{"id": "C91", "title": "The configuration file the program writes is one it reads", "statement": "If the program finds no configuration file it writes one, and every later start in the same environment reads this file and continues with the same settings.", "quantifier": "all environments (home, configuration directories), file systems, program names and numbers of later starts", "why_tests_cant": "the error shows only at the second start, in a directory without a configuration, and depends on the decoder's left-over keys", "anchors": ["cmd/config.go: load, DEFAULT_CONFIG_FILE", "cmd/root.go", "cmd/reports/report.go: TransactionReport"]}
{"id": "C83", "title": "A script sees the JSON file as it is", "statement": "The data an import script gets from a JSON file has at every place (any path of keys and positions) the value that stands there in the file; nothing is dropped or added, the whole file is read, and what the script sees (including the order in which it walks the data) is the same at every run.", "quantifier": "all JSON values of any depth, all paths, all orders in which Go walks its maps", "why_tests_cant": "Go map order is random and nesting is unbounded; tests fix a few small values", "anchors": ["script/convert.go: jsonToStarlark, ReadJSON"]}
{"id": "C84", "title": "Every CSV field reaches the script under its heading", "statement": "Importing a CSV file with a heading line gives one entry per record in which every field is found under the heading of its column; without a heading line, the records as lists of all their fields; files that do not fit are rejected and nothing crashes.", "quantifier": "all tables, headings, delimiters and import configurations", "why_tests_cant": "headings are arbitrary texts of the bank's file; tests use one file with distinct headings", "anchors": ["script/convert.go: GetReadCSV", "cmd/importer/import_op.go: NewBookImporterByConfig, NewCSVBookImporter"]}
{"id": "C85", "title": "Scripts book exactly the amounts they give", "statement": "What the successful add() calls of a script book on any date, account and currency is exactly the sum of the amounts given (integers, decimal texts, floats), divided by their denominators, with the opposite amounts on the counter-accounts; values that are no amounts are rejected; an amount read from the ledger and added again is the same amount.", "quantifier": "all scripts (sequences of add calls and ledger operations), all amounts and denominators, all ledgers", "why_tests_cant": "scripts and amounts are arbitrary; conversion errors show only for particular values", "anchors": ["script/convert.go: GetBigRat", "script/starlark.go: GetBuilderFunction", "script/book.go: starlarkPosting.Attr"]}
{"id": "C88", "title": "generate with dedup repeats nothing", "statement": "With deduplication, generate shows exactly the transactions the script generated whose date and payee do not occur in the ledger.", "quantifier": "all ledgers, all scripts, including those that filter or rename the ledger they are given", "why_tests_cant": "depends on the interplay of the script's operations on the ledger with the later comparison", "anchors": ["cmd/generate/generate.go: run", "cmd/generate/starlark.go: generate", "script/book_op.go: sincef, asoff, mapf", "book/book_dedup.go: RemoveDuplicatesOf"]}
{"id": "C76", "title": "Exported prices can be loaded again", "statement": "The ledger export of a book, loaded as a file of its own, gives the same transactions and, for every pair, the same list of prices, so that every price query has the same answer.", "quantifier": "all books built and changed in any way, all price histories, all orders in which the map yields the price pairs", "why_tests_cant": "units, currencies and price values are arbitrary; rounding and quoting go wrong only for some of them", "anchors": ["cmd/export/ledger.go: ShowLedger", "book/book.go: GetPricePairs, GetPriceList", "loader/parser.go: parsePrice"]}
{"id": "C90", "title": "A report shows exactly what was posted", "statement": "The transactions a report without --sum shows are the book left by the operations, exactly: the amount shown under each date, payee, account and currency is the sum of the postings shown there (at the start of their period when combining, under no payee, each at its rate when converting, otherwise at 1); the list is in canonical order with running balances, every transaction shown balances, and account totals are kept when nothing is converted. Without operations, combination and conversion these are the amounts of the ledger file.", "quantifier": "every ledger file, settings, report options, macro table, list of operations, sort and regular expression engine", "why_tests_cant": "The claim ranges over all ledgers and all combinations of options and operations; a test looks at a few reports.", "anchors": ["cmd/reports/report.go:run", "cmd/app/app.go:LoadBook", "cmd/app/book_op.go:BookOps", "book/book.go:Transactions,SplitBy,MapAmount"]}
{"id": "C92", "title": "Converted amounts are the posted amounts at the recorded prices", "statement": "With --convert every amount shown is the sum of the amounts posted there, each times the price recorded in the ledger for its currency on its own date (interpolated between the nearest recorded prices, or the reciprocal of the opposite price). A currency without any price is not converted silently.", "quantifier": "every ledger file and report options", "why_tests_cant": "Depends on all price histories, dates and periods; a test fixes a few.", "anchors": ["cmd/reports/report.go:run", "book/book.go:MapAmount", "book/price.go:getPrice"]}
{"id": "C77", "title": "An account name is read whole", "statement": "The account written on a posting line is the account posted to: a name followed by blanks and an amount is read as that whole name, and every account of a loaded book is a name written in the file, made only of letters, digits, & ' : and _.", "quantifier": "every ledger text and account name", "why_tests_cant": "Ranges over all names and texts.", "anchors": ["loader/parser.go:parseAccount,parsePosting", "loader/lexer.go"]}
{"id": "C87", "title": "The register shows each account's own postings", "statement": "The register command prints one section for every account of the book selected by the account pattern, in order, and the section of an account lists exactly that account's postings with their running balance.", "quantifier": "every ledger file, pattern, operations, register options, sort and regular expression engine", "why_tests_cant": "Ranges over all ledgers, account names and patterns.", "anchors": ["cmd/register/register.go:run", "cmd/register/show_register.go", "book/registry.go:ExtractRegister", "book/book.go:Accounts"]}
{"id": "C86", "title": "JSON output says what the book says", "statement": "The JSON export is an array with one object per reported transaction, in order, giving its date, payee and note and its postings in order, each posting with its account, currency, amount (the nearest float64, from which the decimal amount is recovered by rounding) and its own note. The JSON register gives every entry shown with all its fields.", "quantifier": "every reachable book, register, sort and amounts of ordinary size", "why_tests_cant": "Ranges over all books and amounts; rounding to binary floating point depends on every digit.", "anchors": ["book/transaction.go:MarshalJSON", "book/posting.go:MarshalJSON", "book/registry.go:MarshalJSON", "cmd/app/print.go:PrintJSON", "cmd/export/export.go:run"]}
{"id": "C89", "title": "CSV output reads back as the postings", "statement": "Reading the CSV export back gives the header and then exactly one row per reported posting, in order, with its date, payee, transaction note, account, currency, amount and note, whatever characters the texts contain; likewise for the rows of the register.", "quantifier": "every reachable book and register, every text content, every rounding to nearest", "why_tests_cant": "Ranges over all texts (quotes, commas, line breaks) and all amounts.", "anchors": ["cmd/export/csv.go:ShowCSV", "cmd/register/show_register.go:ShowCSV", "cmd/app/print.go:PrintCSV"]}
{"id": "C94", "title": "Printed amounts are exact", "statement": "An amount with no more decimals than its currency is printed with is printed exactly; any other amount is printed to the nearest unit of the last decimal.", "quantifier": "every amount, currency, decimals, and rounding to float64 and to decimals", "why_tests_cant": "Printing goes through binary floating point; exactness has to hold for every decimal amount.", "anchors": ["cmd/app/print.go:FormatNumber"]}
{"id": "C95", "title": "The register's CSV output is one table", "statement": "With --type CSV the register command writes a CSV file: the header, then rows with the same columns.", "quantifier": "every register report", "why_tests_cant": "Ranges over all registers.", "anchors": ["cmd/register/register.go:run", "cmd/register/show_register.go:ShowCSV"]}
{"id": "C79", "title": "HTML reports show the book's texts", "statement": "Read as HTML, the report shows, for every reported transaction in order, the date and, if there is one, the payee, and then per posting in order the account label and the currency and amount, each text exactly as it is in the book.", "quantifier": "every report, style sheet and text content", "why_tests_cant": "Ranges over all texts; a text with markup characters changes the structure of the document.", "anchors": ["cmd/reports/html.go:ShowHTMLTransactions", "cmd/reports/html.go:indentedString"]}
{"id": "C93", "title": "The Beancount output says what the book says", "statement": "Read as Beancount, the export and the report have the reported transactions in order, each with the book's date and payee and, in order, the book's postings with account, amount and currency, where accounts and currencies are renamed by one fixed renaming that keeps different names apart.", "quantifier": "every reachable book, price table, base currency and directive order", "why_tests_cant": "Ranges over all books, texts and amounts; a quote in a payee or an amount that is rounded in print changes what a reader of the file sees.", "anchors": ["cmd/export/beancount.go:ShowBeancount", "cmd/export/beancount.go:FormatCurrency", "cmd/export/beancount.go:FormatAccount", "cmd/reports/beancount.go:ShowBeancount"]}
{"id": "C98", "title": "A login code is used only if it came with this run's state", "statement": "An authorisation code is exchanged for a token only if the browser request that carried the code also carried the random state of this run.", "quantifier": "every interleaving of the handlers of any number of callback requests", "why_tests_cant": "Ranges over schedules of concurrent HTTP handlers.", "anchors": ["cmd/download/net.go:CaptureCode", "cmd/download/monzo.go:NewMonzoClient"]}
{"id": "C99", "title": "Requests carry an access token that has not expired", "statement": "Each time a token is asked for, the token returned has not expired at that time by the lifetime the bank announced for it, and a stored token that is still valid is reused without a request.", "quantifier": "every history of token requests, clock readings and server answers", "why_tests_cant": "Ranges over histories of refreshes and clock readings.", "anchors": ["cmd/download/nordigen.go:Token"]}
{"id": "C96", "title": "A ledger file is read as its lines say", "statement": "A ledger file made of well-formed lines (comments, empty lines, first lines of transactions, postings with and without an amount, prices, aliases, includes) is loaded if and only if the transactions its lines state balance, and the loaded book is the one built from exactly those transactions, postings and prices in the order of the lines, with included files read in place, account aliases resolved by the last definition in force, and a posting without an amount taking what is missing in each currency.", "quantifier": "every set of files made of well-formed lines that include each other in any way, every spelling of dates, amounts, quotes and blanks, and every order of the balancing currencies", "why_tests_cant": "Ranges over all files, file trees and spellings.", "anchors": ["loader/parser.go:ParseFile", "loader/parser.go:parseFileLocal", "loader/parser.go:parseTransaction", "loader/parser.go:parsePosting", "loader/parser.go:parsePrice", "loader/lexer.go"]}
{"id": "C100", "title": "The register on the screen shows the entries", "statement": "The register printed as text shows, apart from colours, the headings and then one line per entry in order, with date, payee, account (if combined), counter account, amount with its currency, and balance, each in its own column. Every column is as wide as its widest text; if a line would not fit the screen only the columns of names are cut, and the line then fills the screen exactly. Without --combined each account's table comes after a blank line and the account.", "quantifier": "every register, terminal width, choice of columns and colour, and every number format", "why_tests_cant": "Ranges over all registers, texts and terminal widths.", "anchors": ["cmd/register/show_register.go:ShowText", "cmd/register/register.go:run", "cmd/app/print.go:PrintColumns", "cmd/app/print.go:GetColumnMoney", "cmd/app/print.go:Ansi"]}
{"id": "C97", "title": "What a bank sends is stored as it was sent", "statement": "A state file written by a download is read back, by the next download, as the same data: the same records under the same ids, and at every place of every record the same value; and a record received from a bank is written to the file with the same value at every place as in the bank's JSON.", "quantifier": "every JSON reply, every state any sequence of loads and receipts leads to", "why_tests_cant": "Ranges over all JSON data and all states.", "anchors": ["cmd/utils/json.go:LoadFromFile,SaveToFile,GetStringValue,GetListValue,ListToStringList", "cmd/download/monzo.go:Transaction.UnmarshalJSON,Transaction.MarshalJSON,MonzoData", "cmd/download/starling.go:FeedItem.UnmarshalJSON,Spaces,StarlingData", "cmd/download/nordigen.go:Requisition.UnmarshalJSON,NordigenData"]}
{"id": "C101", "title": "Pending transactions do not matter", "statement": "What a Nordigen download receives of the booked transactions does not depend on which pending transactions the bank lists.", "quantifier": "every list of booked and of pending transactions", "why_tests_cant": "Ranges over all replies of a bank.", "anchors": ["cmd/download/nordigen.go:RefreshAccounts", "cmd/download/nordigen.go:NordigenTransaction.UnmarshalJSON", "cmd/download/net.go:fetchFromURL"]}
{"id": "C102", "title": "A Monzo download that succeeds is complete", "statement": "When a Monzo sync succeeds, every transaction the bank held when the sync began, of every account the bank lists or the state file knows, is stored; all of them, or, if the bank no longer gives all of them, those of the last 89 days. Transactions may come in or be changed between the requests.", "quantifier": "every bank, every change of its contents during the sync, every number of transactions and pages, every order of the accounts", "why_tests_cant": "Ranges over all contents of the bank and all interleavings of changes with requests.", "anchors": ["cmd/download/monzo.go:GetAllTransactions", "cmd/download/monzo.go:Sync"]}
{"id": "C103", "title": "Starling syncs miss no change", "statement": "After any history of Starling syncs, what is stored of a feed is that feed exactly as the bank had it at some time; after a successful sync the feeds of every account's default category and of all its spaces are at least as new as when the sync began, although only changes since twenty days before the last known one were asked for.", "quantifier": "every sequence of changes at the bank, every history of syncs, with and without --all, every order of the accounts", "why_tests_cant": "Ranges over all histories of changes and syncs.", "anchors": ["cmd/download/starling.go:syncFeed", "cmd/download/starling.go:Sync"]}
{"id": "C104", "title": "The language does not change what an export says", "statement": "The transactions of a book, printed in ledger format with whatever language is set (English, Dutch, German, French), and loaded again, come back with the same amounts.", "quantifier": "every reachable book, every supported language, every amount the decimals can express", "why_tests_cant": "Ranges over all books, amounts and languages.", "anchors": ["cmd/app/print.go:NewBookPrinter,FormatNumber", "cmd/export/ledger.go:Ledger", "loader/lexer.go:parseAmt"]}
{"id": "C105", "title": "Exporting an export writes the same file", "statement": "`goledger export` of a file that `goledger export` wrote writes that file again, up to the order of the price pairs.", "quantifier": "every ledger with all its includes, every list of operations of the first export, every order in which Go ranges over the prices", "why_tests_cant": "Ranges over all ledgers and all operations.", "anchors": ["cmd/export/export.go:ExportReport.run", "cmd/export/ledger.go:Ledger", "book/builder.go:Build"]}
{"id": "C106", "title": "A saved export is the book after the operations", "statement": "What `goledger export` with any operations writes, saved to a file and loaded from there, is the book after the operations: the same transactions with the same amounts and balances, and the same answer to every question for a price.", "quantifier": "every ledger, every list of operations and macros, every date and pair of currencies", "why_tests_cant": "Ranges over all ledgers and all operations.", "anchors": ["cmd/export/export.go:ExportReport.run", "cmd/app/book_op.go:BookOps", "cmd/export/ledger.go:Ledger"]}
{"id": "C107", "title": "What import prints, appended to the ledger, adds the imported transactions", "statement": "Append what `goledger import` printed to the ledger and load it: it has the lines (date, payee, account, currency, amount) it had before, those of the imported transactions, and no others; the prices are unchanged.", "quantifier": "every ledger with its includes and aliases, every number of import files, every script (its add calls and printed messages), with and without reclassification", "why_tests_cant": "Ranges over all ledgers, scripts and import files.", "anchors": ["cmd/importer/import.go:ImportDef.run", "cmd/importer/starlark.go:processData", "script/starlark.go:Print,GetBuilderFunction", "cmd/reports/ledger.go:ShowLedger", "cmd/app/app.go:LoadBook"]}
{"id": "C108", "title": "Importing the same files again after appending prints nothing", "statement": "After appending what `goledger import --dedup` printed to the ledger, the same import prints no transactions, whatever the reclassification and the language.", "quantifier": "every ledger with its includes and aliases, every number of import files, every script", "why_tests_cant": "Ranges over all ledgers, scripts and import files.", "anchors": ["cmd/importer/import.go:ImportDef.run", "book/book_dedup.go:RemoveDuplicatesOf", "loader/parser.go:ParseFile"]}
{"id": "C109", "title": "An import that fails has printed nothing", "statement": "If `goledger import` ends with an error (a file missing or not decoded, a script failing), it has printed nothing that would be appended to the ledger.", "quantifier": "every ledger, every list of import files, every file at which it fails", "why_tests_cant": "Ranges over all lists of files and failure points.", "anchors": ["cmd/importer/import.go:ImportDef.run", "script/starlark.go:Print"]}
{"id": "C110", "title": "A script sees the book the reports show", "statement": "Looping in a script over data.transactions and over each transaction visits exactly the postings the reports show, each once and in their order, with the date, payee, account, currency, notes, amount and running balance the reports show; nothing else can be read of them.", "quantifier": "every book (built by any builder calls and changed by any operations), every posting and every attribute name", "why_tests_cant": "Ranges over all books and attribute names.", "anchors": ["script/book.go:posting.Attr,transaction.Attr,transaction.Iterate,transactions.Iterate", "script/book_op.go:Attr", "book/book.go:Transactions"]}
{"id": "C111", "title": "A list of transactions a script has taken stays as it is", "statement": "After ts = data.transactions, the list ts shows the transactions of the book at that moment, whatever the script does afterwards with the book (reading it again, since, asof, map).", "quantifier": "every book, every sequence of later operations, every growth of the arrays", "why_tests_cant": "Ranges over all books and histories of operations; the defect is aliasing of memory.", "anchors": ["script/book_op.go:Attr,since,asof,mapfunc", "book/book.go:Transactions,FilterTransaction,MapAccount", "book/book_compact.go:compact"]}
{"id": "C112", "title": "The list of accounts is the accounts of the file", "statement": "goledger accts with --all lists exactly the accounts that match the expression (all accounts without one) and that some transaction of the ledger file books on; without --all exactly those of them that hold something. Each is listed once, in order, on a line of its own and whole, whatever the terminal.", "quantifier": "every ledger file with every file it includes, every expression and behaviour of the regular expression engine, every sorting, every terminal width, colours on or off", "why_tests_cant": "Ranges over all ledger files and expressions.", "anchors": ["cmd/accounts/accounts.go:Add", "book/book.go:Accounts", "cmd/app/print.go:PrintColumns"]}
{"id": "C113", "title": "The list of currencies is the currencies of the file", "statement": "goledger ccy prints one line for every currency the ledger file books in and no other, with the number of decimals that amounts in that currency are printed with in every language: the fewest for which no amount written in the file has a larger denominator.", "quantifier": "every ledger file with every file it includes, every order of walking the map, every language", "why_tests_cant": "Ranges over all ledger files; the order of the map is different at every run.", "anchors": ["cmd/currencies/currencies.go:Add", "book/book.go:GetCCYDecimals", "book/builder.go:Build"]}
{"id": "C114", "title": "Nothing printed is lost in the pager", "statement": "Whatever a command prints, and whenever less can be started: what goes to the terminal directly followed by what less receives is all that was printed, in order; less starts with the first table taller than the terminal and receives everything from there on; without a terminal, or if everything fits, everything is printed directly; and if less was started the command waits for it before it ends, however it ends.", "quantifier": "every sequence of texts and tables, every terminal, every moment at which less can or cannot be started; for the register every ledger file, operations and expression", "why_tests_cant": "Ranges over all outputs and over the failures of an external program.", "anchors": ["cmd/app/app.go:initialiseLess", "cmd/app/app.go:LoadApp", "cmd/app/print.go:PrintColumns", "cmd/register/register.go:run"]}
{"id": "C115", "title": "A Monzo login lasts", "statement": "After one login, every later run of the Monzo import sends all of its requests with a token that is valid at that time, and nobody has to log in again, whatever the times of the runs and of the requests in them.", "quantifier": "every history of runs and request times, every bank that grants tokens of a minimal life and accepts each refresh token once", "why_tests_cant": "Ranges over all histories of runs and expiry times.", "anchors": ["cmd/download/monzo.go:NewMonzoClient"]}
{"id": "C116", "title": "A summary adds up the ledger file", "statement": "goledger report --sum prints one column per date and payee shown, in order; each subtotal account has one row in it, at its level, with what the ledger file books on the account and all accounts below it in the base currency; each account and currency shown anywhere has a row in every column with what is booked on it there; no row has any other figure; what is in no column is nothing. --hidden leaves out rows and --credit negates rows, and they change nothing else.", "quantifier": "every ledger file with every file it includes, all operations, every combination, conversion, hidden account, credit expression, base currency and divider, every sorting and map order", "why_tests_cant": "Ranges over all ledger files, account trees and operations.", "anchors": ["cmd/reports/report.go:run", "book/book_accum.go:Accumulate", "book/price.go:GetPrice"]}
{"id": "C117", "title": "The order of the transactions in the ledger does not matter", "statement": "Two ledgers (files with their includes) that contain the same transactions in any order, with the postings of each transaction in any order, no two of the same date and payee, and the same price lines, balance or fail to balance alike, and if they balance every `goledger report`, after any operations and with any options, ends in the same way on both and shows the same: the same transactions with the same postings and running balances, or with --sum the same columns of the same rows. `goledger register` likewise: the same accounts with the same rows (notes aside). Neither the sorting algorithm nor the order in which Go walks its maps shows in the result.", "quantifier": "every pair of ledgers with the same content, every operation list with macros, every report and register option, every sort implementation that meets the contract of sort.Slice, every map iteration order in the reading of elided amounts and in Accumulate", "why_tests_cant": "Transaction orders, sort implementations and map orders multiply; a test sees one order of one file with one Go version.", "anchors": ["cmd/reports/report.go", "book/book_accum.go", "book/book_compact.go", "book/builder.go", "loader/parser.go", "cmd/register/register.go"]}
{"id": "C118", "title": "In a summary every indented row stands under the account it is named after", "statement": "In `report --sum` a row that is not indented is labelled with its account, and for an indented row the nearest less indented row above it is the row of the account whose name, followed by the divider and the row's label, is the account of the row.", "quantifier": "every ledger, operation list, base currency and map order", "why_tests_cant": "Depends on coincidences between the totals of all accounts in a column.", "anchors": ["book/book_accum.go:getSortOrder", "book/book_accum.go:getSortOrderString", "book/book_accum.go:Accumulate", "cmd/reports/text.go:ShowTransactions"]}
{"id": "C119", "title": "Reports name the account of each amount", "statement": "In a text or HTML report every row that is not indented is labelled with the account its amount is on.", "quantifier": "every ledger, operation list and report setting", "why_tests_cant": "Ranges over all books and paths from the builder to the printed rows.", "anchors": ["book/builder.go:AddPosting", "book/posting.go:GetAccountTerm", "cmd/reports/text.go:ShowTransactions", "cmd/reports/html.go:ShowHTMLTransactions"]}
{"id": "C120", "title": "In a summary the larger amounts come first", "statement": "In `report --sum`, of two accounts directly under the same account (or both at the top) the one with the larger amount in the base currency comes first.", "quantifier": "every ledger, operation list, base currency and map order", "why_tests_cant": "Ranges over all pairs of amounts; the order is that of texts made from numbers.", "anchors": ["book/book_accum.go:getSortOrder", "book/book_accum.go:getSortOrderString", "book/posting.go:isLess"]}
{"id": "C121", "title": "The price given with a posting is used", "statement": "When a posting in a ledger file gives the price of what it moves (`Broker 10 ACME @ 5 USD`), loading the file uses that price: the book knows a price of the commodity for that day, and a transaction that balances at these prices is accepted. (False of the code: the price is read and dropped; files with such prices load exactly as the same files without them, so no price is recorded and a purchase for cash is refused as unbalanced; a total price, `@@`, makes the whole file be refused.)", "quantifier": "every set of ledger files, every posting line with any price in either spelling, every alias map and builder state, every include depth", "why_tests_cant": "that a price never has any effect is a statement about all files containing it, all positions in the file and all includes; a test shows one file", "anchors": ["loader/parser.go:parsePosting", "loader/parser.go:parseCCYAmt", "loader/parser.go:parseFileLocal", "cmd/app/app.go:LoadBook"]}
{"id": "C122", "title": "The change over a period is the difference of the balances", "statement": "For any two days with the first not after the second, running the same report command once up to the first day (`asof=D1`), once up to the second (`asof=D2`) and once between them (`since=D1 asof=D2`) shows three consistent sets of figures: every entry's, every account's and every summary line's amount up to D2 is its amount up to D1 plus its change between, whatever operations come before and however amounts are converted to another currency.", "quantifier": "every set of ledger files, every list of operations, every pair of days in any spelling (dates or relative days), every report configuration (listing, converted, summarised, nested), every account, currency and date/payee shown", "why_tests_cant": "the identity relates three runs of the command over all files, dates and configurations (a boundary day counted twice or lost would break it only for entries of that day)", "anchors": ["cmd/reports/report.go:run", "book/book_utils.go:FilterByDateSince", "book/book_utils.go:FilterByDateAsof", "cmd/app/book_op.go:bookOp"]}
{"id": "C123", "title": "Operations that concern different things can be given in any order", "statement": "In the list of operations of a report, two neighbouring operations that concern different things (`asof`/`since`: days; `map`/`move`: accounts; `mapccy`: currencies; `combine`: periods; `depreciate` and `mapccy`) can be exchanged without changing what is shown, whatever comes before and after and whatever kind of report it is; `combine` by a period followed by `combine` by one that contains it is the second alone; `combine` and `asof`/`since` can be exchanged when the date is the first day of a period; of two `asof` (two `since`) only the stricter counts. (Only an unpriced amount converted without combining can make one of the two runs fail where the other does not.)", "quantifier": "every set of ledger files, every list of operations and macros before and after, every regular expression engine, clock and sorting algorithm, every pair of such operations with any patterns, dates, factors, every report configuration (listing, converted, summarised)", "why_tests_cant": "each law is an equation between two programs on all books; a test compares two runs on one file, and the books differ in internal order, running balances and notes in between", "anchors": ["cmd/app/book_op.go:bookOp", "book/book.go:SplitBy", "book/book.go:MapAccount", "book/book.go:MapAmount", "book/book.go:AdjustPost", "book/book_utils.go:FilterByDateAsof", "book/book_utils.go:FilterByDateSince", "cmd/reports/report.go:run"]}
{"id": "C124", "title": "The report of a ledger in parts is the sum of the reports of the parts", "statement": "Split a ledger into the files of two years (people, accounts), with the common price lines first in both: for any operations and any report settings, if the three reports succeed, what the report of the whole ledger shows in total under any choice of dates, accounts and currencies is what the reports of the two parts show together. For a summary that combines transactions, the amount of each row - a subtotal account or an account of its own in a currency - is the sum of the amounts of the two parts. (Converted amounts need the same price lines in the three ledgers.)", "quantifier": "every three ledgers spread over any files and includes, every way to divide the transactions, every list of operations and macros, every regular expression engine, clock and sorting algorithm, every report configuration, every set of dates, accounts and currencies", "why_tests_cant": "additivity is an equation between three runs on arbitrary ledgers; merging of equal postings, renaming of equal payees and vanishing of zero amounts happen differently in the whole and in the parts", "anchors": ["loader/parser.go:parseFileLocal", "cmd/app/app.go:LoadBook", "cmd/app/book_op.go:BookOps", "book/book_accum.go:Accumulate", "cmd/reports/report.go:run"]}
{"id": "C125", "title": "The same command shows the same each time", "statement": "Run a report or a register twice on the same files with the same operations, settings, date and locale: it ends the same way and shows the same transactions with the same amounts and balances, or the same rows, although Go walks its maps in another order each time and may sort in another way among equals. (Notes of postings that were merged may differ.)", "quantifier": "every ledger spread over any files and includes, every list of operations and macros, every report and register configuration, every two sorting algorithms, every two orders in which maps are walked, every two sufficient depths", "why_tests_cant": "Go randomises the order in which maps are walked; a test sees a few orders of a few ledgers", "anchors": ["book/book_utils.go:RegexCCY", "cmd/reports/report.go:run", "loader/parser.go", "book/book_accum.go:Accumulate", "book/builder.go", "cmd/register/register.go:run"]}
{"id": "C126", "title": "A saved export serves as the ledger", "statement": "`goledger export OPS > f` and then `goledger -l f report MORE` shows what `goledger report OPS MORE` shows: the same transactions and balances, or the same rows, for any operations and report settings.", "quantifier": "every ledger, every list of operations of the export and every list of operations and settings of the report, every sorting algorithm and map order, every set of files in which the export has been saved", "why_tests_cant": "it is an equation between a composition of two commands through a text file and a third command, for arbitrary ledgers and operations", "anchors": ["cmd/export/export.go:run", "cmd/export/ledger.go", "loader/parser.go", "cmd/reports/report.go:run", "cmd/app/book_op.go:BookOps"]}
{"id": "C127", "title": "The Nordigen download over many runs", "statement": "`goledger download nordigen f`, run again and again from no file: the first runs ask for the bank and end with its link; from then on every run asks only about the consent the bank gave and the accounts it lists, and the file has of every booked transaction ever reported the latest version, as the bank sent it, and the latest data of every account; a run that fails leaves the file as it was; no run crashes; and when the consent has expired the user can get a new link.", "quantifier": "every number of runs, every input of the user, every answers of the bank (any JSON, any failure) to every request of every run, every failure to write, every transaction id and account", "why_tests_cant": "the state of a run is the outcome of all earlier runs and answers; a test sees a few histories", "anchors": ["cmd/download/nordigen.go:Init", "cmd/download/nordigen.go:Sync", "cmd/download/nordigen.go:RefreshRequisition", "cmd/download/nordigen.go:RefreshAccounts", "cmd/utils/json.go:LoadFromFile", "cmd/utils/json.go:SaveToFile"]}
{"id": "C128", "title": "A refused line is reported with its place", "statement": "When a ledger file is refused, the error names the file and the row and column (counted from 1) of the rune at which reading stopped: the rows before that row alone are accepted, and whatever follows that rune, the file is refused with the same error. The error of an included file names the included file and its own row. A transaction that does not balance is reported when the next one begins, with the date and payee under which it is filed, and the amount left over in one of its currencies.", "quantifier": "every text of a ledger file (without the rune 0), every state in which it is read, every set of included files, every depth of includes, every text behind the place of the error", "why_tests_cant": "the place is a statement about every continuation of the text and about all rows before it; a test looks at a few messages", "anchors": ["loader/lexer.go:stop", "loader/lexer.go:next", "loader/parser.go:parseFileLocal", "loader/parser.go:ParseFile", "book/builder.go:checkAndClearTransaction"]}
{"id": "C129", "title": "The text report shows the whole table", "statement": "The text report is a table as seen on the screen: the dates of the transactions as headings; one row for every account, subtotal and currency, with its label indented by two blanks for every level, and in the column of every transaction the currency and the amount of that transaction in that row; a blank line before every top-level row but the first; every column as wide as its widest text, whatever the width of the screen, so that no name and no figure is cut. With and without colours the same is seen, and reading a figure gives the amount.", "quantifier": "every book and summary of it, every base currency, divider and options, every number format with a decimal point, every width of the screen, with and without colours, every set of printable runes that agrees with ASCII", "why_tests_cant": "alignment and completeness depend on all rows, labels, currencies and widths together; a test looks at a few tables", "anchors": ["cmd/reports/text.go:ShowTransactions", "cmd/app/print.go:GetColumnMoney", "cmd/app/print.go:PrintColumns"]}
{"id": "C130", "title": "The report command, from the ledger file to what is shown", "statement": "`report --sum` shows the summary of the ledger after the operations in whichever format is asked for: as text a whole table of it, as JSON its transactions and rows in order, as HTML a page with the style sheet and the same dates, payees, labels and amounts. The type does not change what is reported. The style sheet is the text given, or the file named after `file:`; if that file cannot be read, the command ends with an error.", "quantifier": "every ledger file, every list of operations, every set of report options, every width of the screen, every style sheet and file system", "why_tests_cant": "the chain from file to screen has unboundedly many inputs; a test compares a few outputs with expected ones", "anchors": ["cmd/reports/report.go:run", "cmd/reports/html.go:ShowHTMLTransactions", "cmd/utils/cli_file_or_str.go:GetFileOrStr", "cmd/reports/text.go:ShowTransactions"]}
{"id": "C131", "title": "A report in ledger format is a ledger", "statement": "`report --type Ledger`, with any operations, combining by any period and converting or not, prints a text that saved to a file is a ledger: it loads, with exactly the transactions reported (dates, payees, accounts, currencies, amounts, balances, notes), and reporting that file with the same options shows the same transactions again.", "quantifier": "every ledger file, every list of operations, every period and conversion, every later file system with the saved text", "why_tests_cant": "printing, parsing and reporting have to fit together for every ledger; a round trip of a few files shows little", "anchors": ["cmd/reports/ledger.go:ShowLedger", "cmd/reports/report.go:run", "loader/parser.go:ParseFile"]}
{"id": "C132", "title": "The register command, from the ledger file to what is shown", "statement": "`register` shows, for each matching account in order (or for all of them together), the postings of the book after conversion and operations: date, payee, counter-account, amount and running balance, those in the window of dates and as many as asked for; as a table on the screen, as JSON and as CSV the same rows, with amounts that read back as the amounts.", "quantifier": "every ledger file, every list of operations, every account pattern, every window and count, every type, every width of the screen", "why_tests_cant": "loading, operations, windowing, balances and printing have to fit together for every ledger", "anchors": ["cmd/register/register.go:run", "cmd/register/show_register.go:ShowReport"]}
{"id": "C133", "title": "The register and the report agree", "statement": "For the same ledger and operations, `register` and `report` say the same of an account: the last balance the register shows in a currency is what the report's postings add up to until the end of the window, the first balance less the first amount is what they add up to before the window, the amounts add up to the change within it, and the amounts of a month (or other period) add up to what the combined report shows for that period. With --all no account of the report is missing.", "quantifier": "every ledger file, every list of operations, every account, every window of dates, every period", "why_tests_cant": "two commands with separate code have to agree on every ledger", "anchors": ["cmd/register/register.go:run", "cmd/reports/report.go:run", "book/registry.go:ExtractRegister"]}
{"id": "C134", "title": "The command line comes before the configuration file, which comes before the built-in settings", "statement": "`report`, `register`, `export`, `accts` and `ccy` work with exactly these settings: for each one the last value given on the command line, or else the value of the configuration file, or else the built-in one (the language: of LANG). The operations are the words of the command line that are no flags, in order, wherever the flags stand, and everything after `--`. A command line with an unknown flag, a missing value or a value of the wrong kind, a wrong number of arguments, or a configuration file with an unknown key or a value of the wrong kind ends the program with status 1 and without output, whatever the ledger; --help ends it with the usage text and status 0.", "quantifier": "every command line, every configuration file, every environment, every ledger", "why_tests_cant": "the command lines (order and form of flags, repeated flags) and files are unbounded, and every setting has to be checked against each source", "anchors": ["main.go:main", "cmd/root.go:Execute", "cmd/app/app.go:LoadCommand", "cmd/reports/report.go:Add", "cmd/register/register.go:Add", "cmd/export/export.go:Add", "cmd/accounts/accounts.go:Add", "cmd/currencies/currencies.go:Add"]}
{"id": "C135", "title": "register --zero begins the balances at zero", "statement": "With `register --zero` (\"start balance at zero\") each balance shown is the sum of the amounts shown up to it, whatever comes before the window of dates.", "quantifier": "every ledger, every command line with --zero", "why_tests_cant": "it concerns every ledger and window of dates", "anchors": ["cmd/register/register.go:Add", "cmd/register/register.go:run", "book/registry.go:ExtractRegister"]}
{"id": "C136", "title": "An import definition of the configuration file is the import command with its options set", "statement": "`import NAME …`, where the configuration file has a table importdefs.NAME, works with exactly these settings: for each of format, code, account, counter-account, deduplication and reclassification the last value given on the command line, or else that of the definition; the currency is that of the definition, or else the ledger's. The files are the words of the line. It is the same as `import` with the definition's options written out. Without a definition these are the options of the line (deduplication and reclassification on). A call of add() in the script that leaves out account, counter-account or currency means those. If no file is given, or code, format, account or counter-account is neither in the definition nor on the line, or the line cannot be read, or a definition has an unknown key or a value of the wrong kind, the program ends with status 1 and without output.", "quantifier": "every configuration file, every definition, every command line, every ledger, every script and every order in which Go walks the map of definitions", "why_tests_cant": "definitions, command lines and the order of the map are unbounded; every option has to be checked against each source", "anchors": ["cmd/importer/import.go:Add", "cmd/importer/import.go:run", "cmd/importer/import.go:create", "cmd/importer/starlark.go:processData", "script/starlark.go:GetBuilderFunction", "cmd/config.go:config_help"]}
{"id": "C137", "title": "What generate prints, appended to the ledger, adds exactly the generated transactions", "statement": "When `generate` (with deduplication) ends well and its output is appended to the ledger file, the file loads; its transactions are those it had plus those the script added that were not in it already; the prices and everything else are as before. The command prints exactly what `import` prints for a file whose script makes the same add() calls.", "quantifier": "every ledger file, every script run (any sequence of reading, restricting, mapping and add() calls), every printer that renders amounts correctly", "why_tests_cant": "ledgers and scripts are unbounded; the deduplication depends on the whole ledger and on the order of the script's steps", "anchors": ["cmd/generate/generate.go:Add", "cmd/generate/starlark.go:Process", "script/starlark.go:GetBuilderFunction", "book/book_dedup.go"]}
{"id": "C138", "title": "Running generate again after appending its output prints nothing", "statement": "After the output of `generate` (with deduplication) has been appended to the ledger, running the same script again, making the same add() calls, prints only the script's own messages.", "quantifier": "every ledger file, every script run", "why_tests_cant": "needs the composition of printing, loading, matching and deduplication for all ledgers and scripts", "anchors": ["cmd/generate/generate.go:Add", "cmd/generate/starlark.go:Process", "script/starlark.go:GetBuilderFunction", "book/book_dedup.go"]}
{"id": "C139", "title": "A generate definition of the configuration file is the generate command with its options set", "statement": "`generate NAME …`, where the configuration file has a table generate.NAME, works with the last value given on the command line, or else that of the definition, for the code and the deduplication. It is the same as `generate` with the definition's options written out. A call of add() that leaves out account, currency or counter-account means acct, ccy and cacct. If a word is given, or the code is neither in the definition nor on the line, or the line cannot be read, the program ends with status 1 and without output.", "quantifier": "every configuration file, every definition, every command line, every ledger, every script and every order in which Go walks the map of definitions", "why_tests_cant": "definitions, command lines and the order of the map are unbounded; every option has to be checked against each source", "anchors": ["cmd/generate/generate.go:Add", "cmd/generate/starlark.go:Process", "script/starlark.go:GetBuilderFunction", "book/book_dedup.go", "cmd/config.go:config_help", "cmd/root.go"]}
{"id": "C140", "title": "A ledger that cannot be loaded ends every command with a non-zero status and without output", "statement": "If the ledger of the command line (or else of the configuration file, or else main.ledger), or a file it includes, is missing or refused, every command that works on the ledger ends with status 1 and prints nothing; if its last transaction does not balance, with status 1 or 2 and nothing printed. Status 0 (without --help) means that the ledger was loaded, and for report and export that every operation was done. The status is never above 2.", "quantifier": "every command that works on the ledger (built in, import and generate, with and without a definition), every command line, every configuration file, every set of files", "why_tests_cant": "command lines, configuration files and ledgers are unbounded, and every path from the load to the exit has to be checked", "anchors": ["main.go:main", "cmd/app/app.go:LoadBook", "cmd/root.go", "cmd/importer/import.go:run", "cmd/generate/generate.go:run"]}
{"id": "C141", "title": "The order of the price lines does not matter", "statement": "Two ledgers with the same transactions and the same price lines, each in any order and with the price lines anywhere between the transactions, both load or both are refused, and report and register show the same of them.", "quantifier": "every two such ledgers (over any number of included files), every configuration, report and register command, every sequence of operations and macros, every sorting algorithm and order of Go's maps", "why_tests_cant": "all permutations of ledgers of any size, and every operation", "anchors": ["book/book.go:addPrice", "book/builder.go:Build", "loader/parser.go", "cmd/reports/report.go", "cmd/register/register.go"]}
{"id": "C142", "title": "Only what the lines of the ledger say matters", "statement": "Two ledgers whose lines say the same bookings and prices, in the same order, whatever their comments, empty lines, spacing, aliases, number formats and division into files: both load or neither does, and report and register show the same of them. Empty lines, comments and lines with = or D say nothing.", "quantifier": "every two ledgers over any number of included files that say the same, every configuration, report and register command, every sequence of operations and macros, every sorting algorithm and map order", "why_tests_cant": "the layouts of a ledger are unbounded, and every command and operation has to be checked on both", "anchors": ["loader/parser.go:ParseFile", "loader/parser.go:parseFileLocal", "loader/lexer.go", "book/builder.go", "cmd/reports/report.go", "cmd/register/register.go"]}
{"id": "C143", "title": "Moving part of the ledger to an included file changes nothing", "statement": "Replacing some lines of the ledger by an include line for a file of the same directory with these lines: the one loads if and only if the other does, and report and register show the same.", "quantifier": "every ledger, every block of its lines, every name for the included file, every report and register command", "why_tests_cant": "ledgers, blocks and nested includes are unbounded", "anchors": ["loader/parser.go:parseFileLocal"]}
{"id": "C144", "title": "Later bookings do not change earlier reports", "statement": "A report or register whose first operation is asof=DAY shows the same before and after anything dated DAY or later is added to the ledger (transactions in any number, in the file or an included one, and prices).", "quantifier": "all ledgers and their continuations by later bookings, all days, all further operations, report and register settings, orders in which Go sorts and walks maps", "why_tests_cant": "a test compares one ledger and one continuation; the claim is about every continuation, and amounts that merge, cancel or are given an added payee name could reach back", "anchors": ["book/book_utils.go: FilterByDateAsof", "book/builder.go: Build", "book/price.go: getPrice", "loader/parser.go", "cmd/reports/report.go", "cmd/register/register.go", "book/book_compact.go"]}
{"id": "C145", "title": "A combined report depends only on the amounts of each day, account and currency", "statement": "Two ledgers with the same price lines and the same total for each day, account and currency give the same report by day or longer periods (report types other than Beancount), after any operations: payees, notes, the division into transactions, and transactions turned back on the same day leave no trace.", "quantifier": "all pairs of ledgers with the same daily amounts, all operations, macros and report settings, orders in which Go sorts and walks maps", "why_tests_cant": "relates two runs on arbitrary ledgers; the same daily amounts can be divided in unboundedly many ways", "anchors": ["book/book.go: SplitBy", "book/book_reclassify.go", "book/book_accum.go", "cmd/reports/report.go", "book/book_compact.go"]}
{"id": "C146", "title": "A report of a period depends only on the bookings of the period", "statement": "A report or register that begins with since=DAY (and asof=DAY) shows the same of two ledgers that have the same transactions, in the same order, from the first day on (before the second day), and the same price lines, whatever they book on other days.", "quantifier": "all pairs of ledgers that agree on a period, all periods, all further operations, report and register settings, orders in which Go sorts and walks maps", "why_tests_cant": "relates two runs on arbitrary ledgers that differ arbitrarily outside the period", "anchors": ["book/book_utils.go: FilterByDateSince, FilterByDateAsof", "book/builder.go: NewTransaction", "book/book.go: Accounts, FilterTransaction", "cmd/reports/report.go", "cmd/register/register.go"]}
{"id": "C147", "title": "A ledger whose includes come back to a file is never accepted", "statement": "A ledger loads exactly if following its includes always ends and every transaction of it balances. If a file that is reached from the ledger through includes includes itself, directly or through others, then no ledger command (report, register, export, accounts, currencies …) ends with status 0, whatever the flags and operations.", "quantifier": "all ledgers of any number of files, all ways in which they include each other, all command lines", "why_tests_cant": "a run on a cyclic ledger does not end, so a test cannot observe it; and that every ledger without a cycle loads ranges over all include graphs", "anchors": ["loader/parser.go: ParseFile, include handling", "cmd/app/app.go: LoadBook"]}
{"id": "C148", "title": "A ledger can be moved together with the files it includes", "statement": "If the files of a ledger are moved to other names so that each file still finds what it includes under its new name (for instance a whole directory is moved, since includes are relative to the directory of the file that has them), every command — report, register, export, accounts, currencies, import, generate — gives the same output, errors included.", "quantifier": "all ledgers, all renamings of files that respect includes, all commands, settings and operations", "why_tests_cant": "relates two runs on arbitrary trees of files", "anchors": ["loader/parser.go: ParseFile", "cmd/app/app.go: LoadBook", "cmd/reports/report.go", "cmd/register/register.go", "cmd/export/export.go"]}
{"id": "C149", "title": "Renaming accounts by an operation, by an alias or in the ledger is the same", "statement": "A report whose first operation is map=/SEARCH/REPLACE/ALT/ shows what the report without that operation shows of the ledger in which the accounts are already written with the names that the rule gives them; so does a register that does not convert to the base currency; and the one ledger loads if the other does. An alias line put before a ledger whose other alias lines have to do with other accounts makes it book what the ledger with the account renamed books.", "quantifier": "all ledgers, all rules and regular expressions, all further operations, report and register settings, orders of sorting and of maps", "why_tests_cant": "relates runs on two arbitrary ledgers, and three ways to rename", "anchors": ["book/book_utils.go: RegexAccount", "loader/parser.go: alias lines", "book/builder.go: AddPosting, NewTransaction", "cmd/reports/report.go", "cmd/register/register.go"]}
{"id": "C150", "title": "What import and generate print is exactly what the scripts booked from the files", "statement": "import ends with status 0 exactly if the ledger loads, each file in order (for - the standard input, which is empty the second time) can be read and decoded and the script, given the decoded data and the name of the file, ends well; the output is then, for each file in order, the messages of its script and the transactions its add() calls book: of the date, payee and note given, the amount divided by its denominator on the account and its opposite on the counter-account, likewise for the second amount, with the account, currency and counter-account of the command where add() leaves them out. A file that cannot be read or decoded ends the import with status 1 and the output of the files before it. generate ends with status 0 exactly if the ledger loads and its script ends well; since, asof and map in the script change the ledger as the operations of those names do; the output is the messages and the booked transactions (less those of the ledger so changed, with deduplication).", "quantifier": "all ledgers, files, formats, definitions, command lines, and all scripts: any messages, any calls of add() with any of their arguments given or left out", "why_tests_cant": "files, scripts and arguments are unbounded; every optional argument must default independently of the others", "anchors": ["cmd/importer/import.go: run", "cmd/importer/starlark.go: processData", "script/starlark.go: GetBuilderFunction, Print", "cmd/generate/generate.go: run", "cmd/generate/starlark.go", "script/book_op.go"]}
{"id": "C151", "title": "Only the amounts of a transaction matter, not the lines it is written in", "statement": "If two ledgers have, transaction by transaction, the same date and payee and the same total on each account in each currency, and the same price lines, then the one loads exactly if the other does, and every report and register, under all options and operations, shows the same rows and amounts of both (printed with as many decimals as the lines of the ledger have, C19). In particular an amount may be written in two lines, the lines of a transaction may be in any order, two lines that cancel may be left out, and notes have no effect.", "quantifier": "all pairs of ledgers (any files, any includes), all report and register options, all operations", "why_tests_cant": "ledgers, splittings and command lines are unbounded", "anchors": ["book/builder.go: Build", "book/book.go: compact", "loader/parser.go", "cmd/ledger/report/report.go", "cmd/ledger/register/register.go"]}
{"id": "C152", "title": "Renaming currencies by an operation or in the ledger is the same", "statement": "A report whose first operation is mapccy=/SEARCH/REPLACE/ shows what the report without it shows of the ledger in which the currencies of all amounts and prices are renamed by this rule (including ledgers where amounts of two currencies become one), as long as the renaming keeps the pairs of currencies that have prices apart and no new name is renamed again; and the renamed ledger loads if the ledger does.", "quantifier": "all pairs of ledgers of which one is the other renamed, all rules, all further operations and options of the report", "why_tests_cant": "ledgers, rules and further operations are unbounded", "anchors": ["book/book_utils.go: RegexCCY", "book/book.go: MapAmount", "loader/parser.go", "cmd/ledger/report/report.go"]}
{"id": "C153", "title": "Which settings a download works with", "statement": "`goledger download monzo|starling|nordigen … FILE` works with the client ID, secret, port, access token and --alldata given on the command line (the last one given), or else in the configuration file (whatever the case of its keys), or else built in (port 12345, also if the file says 0; nothing; not all data), on the one file named on the line. A line that cannot be read, or names no file or more than one, ends with status 1 without a download; --help shows the help without one; a configuration file with a setting of a bank that does not exist, or of the wrong kind, makes every command fail.", "quantifier": "all configuration files, all command lines after the bank (flags in any written form and order), all banks, all behaviours of the downloads themselves", "why_tests_cant": "command lines and files are unbounded", "anchors": ["cmd/root.go: Execute", "cmd/config.go: LoadConfig", "cmd/download/download.go: Add", "cmd/download/monzo.go: MonzoDownload.Add", "cmd/download/starling.go: StarlingDownload.Add", "cmd/download/nordigen.go: NordigenDownload.Add"]}
{"id": "C154", "title": "A bank is asked for what the program means to ask for", "statement": "However the account, category, time, country, client ID, secret and state are spelt, the server that reads the address of a request, or a form posted to it, reads those very values: Monzo is asked for the transactions of the account since the time, a hundred with their merchants; the login link asks for the client of the settings, with the state of this run, and sends the browser back to the port that the program listens on; Starling is asked for the feed of the account and category since the time; Nordigen for the institutions of the country that take payments, a token for the client ID and secret, a requisition for the institution; and both for the details and transactions of the account whose id is meant.", "quantifier": "all texts of bytes for accounts, categories, times, countries, client IDs, secrets, tokens, ids and states; all ports", "why_tests_cant": "the texts are unbounded and any byte may mean something in an address", "anchors": ["cmd/download/monzo.go: getTransactions", "cmd/download/monzo.go: NewMonzoClient", "cmd/download/starling.go: syncFeed", "cmd/download/nordigen.go: ListInstitutions", "cmd/download/nordigen.go: Token", "cmd/download/nordigen.go: Init", "cmd/download/nordigen.go: RefreshAccounts", "cmd/download/starling.go: Sync"]}
{"id": "C155", "title": "A macro of the configuration file is the operations it stands for", "statement": "A report, register or export whose command line names macros ends the same way, and shows the same, as the one whose line has the operations the macros stand for in their places, the macros they use replaced likewise; also if the macros are then deleted from the configuration file, whatever else it says and wherever the flags stand. A word that is neither an operation nor a macro, on the line or in a macro used there, makes the report fail without output; a macro that begins with itself never ends.", "quantifier": "all configuration files, all command lines and their flags, all macros that do not use themselves, all ledgers", "why_tests_cant": "macros use macros to any depth, and files, lines and ledgers are unbounded", "anchors": ["cmd/app/book_op.go: BookOps", "cmd/app/book_op.go: bookOp", "cmd/config.go: load", "cmd/reports/report.go: run", "cmd/register/register.go: run", "cmd/export/export.go: run"]}
{"id": "C156", "title": "Renamings, moves and depreciations that come to the same", "statement": "In a report: moving all of the matching accounts to an account shows what renaming them shows; moving a part, and then a part of what is left, shows what one move of the two parts together shows, if the account moved to does not match itself; moving nothing changes nothing; one renaming after another shows what the renaming shows that takes every account where the two take it, and two renamings that take every account back change nothing; and a depreciation over one month or more, all amounts then brought to one day, shows what there is without it.", "quantifier": "all ledgers, all search and replacement texts, all parts and numbers of months, all operations before and after", "why_tests_cant": "ledgers, expressions and the operations around are unbounded", "anchors": ["book/book_utils.go: RegexAccounts", "book/book.go: AdjustPost", "book/book.go: Depreciate", "book/book.go: MapAccount", "cmd/app/book_op.go: bookOp", "cmd/reports/report.go: run"]}
{"id": "C157", "title": "With all amounts multiplied, reports show the amounts multiplied", "statement": "If one ledger says what another says with every amount multiplied by the same number (cents instead of euros, all signs turned; the prices stay), it loads if the other does (and, unless the number is zero, only then), and its report shows, for any dates, accounts and currencies, what the other's shows there multiplied by that number: after any operations, converted or not, as a listing or as the rows of a summary.", "quantifier": "all pairs of ledgers, also with includes, all numbers, all operations and macros, all report settings", "why_tests_cant": "ledgers, numbers and operations are unbounded", "anchors": ["loader/parser.go: ParseFile", "book/builder.go: AddPosting", "book/book_accum.go: Accumulate", "book/book.go: MapAmount", "cmd/reports/report.go: run"]}
{"id": "C158", "title": "Operations that come to the same, come to the same in the register", "statement": "What holds of reports (C123, C156) holds of registers: operations that concern different things can be given in any order, of two end or start dates only the stricter counts, moves and renamings that come to the same show the same entries with the same balances, and a depreciation whose amounts are then brought to one day shows nothing, wherever the operations stand and whether or not amounts are converted.", "quantifier": "all ledgers, all such operations and all operations and macros before and after, all register settings", "why_tests_cant": "each law is an equation between two programs on all books", "anchors": ["cmd/register/register.go: run", "cmd/app/book_op.go: bookOp", "book/registry.go: ExtractRegister", "book/book.go: Accounts", "book/book_utils.go: FilterByDateSince"]}
{"id": "C159", "title": "A report without words for the present shows the same on any day", "statement": "A report, an export or a register is the same whatever the day on which it is asked for, provided that no operation (given, or in a macro used) ends in `today` or in words for a period near the present (`this month`, `last year`, …), and neither does the option that combines or limits by date; with such periods but without `today` it is still the same on all days of a month. A listing combined by the present day and not converted differs from one day to another only in that day. The lists of accounts and currencies never depend on the day. In particular depreciation by months does not depend on the day.", "quantifier": "all ledgers, settings, operations and macros without such words, all pairs of days", "why_tests_cant": "a test runs on one day", "anchors": ["book/date.go: GetToday, DateFromString, FloorDiff", "cmd/app/book_op.go: bookOp", "cmd/reports/report.go: run", "cmd/register/register.go: run", "cmd/export/export.go: run"]}
{"id": "C160", "title": "Multiplied prices multiply what is converted", "statement": "Suppose two ledgers differ only in that every price in the base currency is k times as high in the second, and none of their prices is a price of the base currency itself. Then the converted listing of the second shows, in any account and on any dates, k times what that of the first shows there, but for the amounts in the base currency itself and in currencies that have no price in it, which stay; after any operations other than mapccy (macros included), combined by date or not, whether prices are exact, interpolated or out of range. The same holds of the rows of converted summaries combined by date. Without conversion the two listings show the same.", "quantifier": "all pairs of ledgers (includes, shortcuts) that say the same but for prices times k, all k, operations without mapccy, report settings, dates and accounts", "why_tests_cant": "a test has some prices", "anchors": ["book/price.go: GetPrice, getPrice, addPrice, build", "cmd/reports/report.go: run", "book/book_utils.go: MapAmount"]}
{"id": "C161", "title": "A new price touches only the days up to the neighbouring prices", "statement": "If one more price of a currency is added to the ledger, for a day that has none, then every figure that a report shows, converted or summed, on a day that is separated from the day of the new price by another price of that pair (perhaps of that very day) stays the same, whatever the operations other than mapccy; so does, on every day, a listing that is not converted. Prices far away never matter.", "quantifier": "all ledgers (includes, shortcuts), all additional price lines at any place, all days, accounts and currencies, operations without mapccy, report settings", "why_tests_cant": "a test has some prices and some days", "anchors": ["book/price.go: GetPrice, getPrice, addPrice, build", "cmd/reports/report.go: run", "book/accum.go: Accumulate"]}
