# goledger in Lean 4 — design

Subject: `mescanne/goledger` (Go), source at `/repo`, read as text only; nothing of it was built or run.
Deliverable: the Lake project in `lean/`, the property list `properties.jsonl`, the status list `MANIFEST.json`, the mutation log
`seeded/LOG.jsonl`. `tools/manifest.py`, `tools/axioms.py` and `tools/design.py` regenerate `MANIFEST.json` and the generated
sections of this file.

## 1. Trusted base

* Lean 4.33.0's kernel. No axiom is declared. The axioms each theorem depends on are listed in section 6: nothing but `propext`,
  `Classical.choice` and `Quot.sound` occurs. `native_decide`, `bv_decide` and compiled evaluation are not used; concrete
  examples are evaluated by the kernel (`decide +kernel`).
* Mathlib: individual modules (tactics `ring`, `linarith`, `norm_num`, ordered-field structure of `Rat`, `List` lemmas, and for C75
  real powers) whose proofs are checked by the same kernel.
* The reading of the Go code: every model definition cites file and lines. That the definition says what those lines do is not
  checked by any machine; the mutation log records how the theorems react when the definitions are changed as a bug would change
  them.
* The contracts of the libraries, in the next table. They are hypotheses of the theorems (arbitrary functions with a stated law), not axioms;
  each is shown to be satisfiable by a concrete instance in the examples.

### What the model idealises
| Go | model | consequence |
|---|---|---|
| `string` (bytes) | `Str = List Nat` of code units, byte-wise lexicographic `<` | UTF-8 preserves the rune order, so the same type is used for runes in the loader |
| `*big.Rat` | `Rat` (values) | aliasing of the pointers is modelled separately in the heap models (C53, C73, C80); C80 proves that the list model used elsewhere agrees with the pointer model |
| `Date` (an `int` yyyymmdd) | `Int`, with Go's truncated `/` and `%` (`Int.tdiv`, `Int.tmod`) | overflow of 64-bit date arithmetic is out of scope |
| `int64` in `parseAmt` | wraps around at 2^63 (`wrap64`) | C54, C56, C57 carry the bound |
| `sort.Slice` (unstable) | an arbitrary function `srt` with the library's contract `IsSort`: a permutation, sorted by `isLess` | theorems quantify over every such function |
| `sort.SliceStable` / `sort.Search` | stable insertion sort / the binary-search loop written out | |
| `regexp` | arbitrary functions `mat`, `rep`, and `valid` for compilation | theorems hold for every regular expression; C87 uses a small spec of what a literal pattern matches |
| `map` iteration order | arbitrary permutation, or a relation over all orders | |
| panic, `log.Fatal`, `os.Exit` | explicit `Except`/`Option`/`CmdEnd` result | |
| possibly infinite loops | fuel; non-termination = no amount of fuel suffices | |
| `big.Rat.Float64`, `%.*f` in printing | any `fl` with `DoubleRounding` (nearest double: exact on doubles, relative error 2^-53) and any `rd` with `NearestNat` | no idealisation of rounding: C57, C76, C86, C89, C94 are about the rounded values |
| `float64` in the rate of return | an abstract arithmetic (C75, boundedness) and the reals (C75, fixed point) | |
| `float64` in scripts | finite rationals, NaN, ±Inf | C85 |
| `time.Now` | parameter, or a clock that never goes back (C70) | |
| file system | contents before, after and at every crash point of a save (C67, C74) | |
| bank servers | arbitrary functions from request to answer; a sequence of answers (C68–C70) | |
| goroutines of the web and login servers | interleavings of the handlers' accesses (C81, C98) | |
| starlark interpreter | the list of builtin calls a script makes, arbitrary | C45, C85, C88 hold for every script |
| cobra, viper, mapstructure | flag setting as assignments; the key check of `ErrorUnused` | C81, C82, C91 |
| `encoding/json`, `encoding/csv` writers | JSON: the tree handed to the encoder; CSV: the writer's quoting rules written out, read back by a reader in `Spec/Csv` | |
| `strings.Title`, `unicode.IsLetter`, `unicode.IsPrint`, locale grouping | arbitrary functions (grouping with a law) | |

## 2. Layout
* `Verif/Basic.lean` strings and generic list lemmas.
* `Verif/Model/*.lean` the model, function by function, each definition citing `/repo`.
* `Verif/Spec/*.lean` small specifications, written without the model's helpers where the English does not name them
  (calendar, ledger totals, numerals and ledger lines, CSV and HTML readers, floats, …).
* `Verif/Proofs/*.lean` helper lemmas.
* `Verif/Props/*.lean` the property theorems `cNN_…` with their non-vacuity examples.

Policy. If a property is false of the code: the full statement is kept in `properties.jsonl`, a theorem
`cNN_…_fails` proves the negation from a concrete witness, `cNN_…_partial` proves the strongest part that holds, and the status is
`partial`.

## 3. Plan per property
| id | what is modelled | how it is proved |
|---|---|---|
| C01 | Builder: NewTransaction/AddPosting/Build as a state machine with panic | induction over the call list, invariant on the open per-currency balances |
| C02 | payee renaming loop with the seen-key map | invariant keys ↔ issued pairs; injectivity of `"%d %s"` and of `(k)` suffixes; pigeonhole for termination |
| C03–C07 | `compact` with an arbitrary sort | induction over merge/zero-drop/regroup; canonical lists with the same key totals are equal |
| C08 | all Book operations as a datatype, executed in sequence | every operation preserves "each (date,payee) nets to zero per currency"; induction over the sequence |
| C09,C16,C17 | FilterTransaction & wrappers | list filter lemmas; C17 by counterexample (stale index) |
| C10–C15 | SplitBy, MapAccount, AdjustPost, Depreciate, MapAmount, AdjustBy | per-key totals through key-total preservation of compaction |
| C18,C19 | Accounts, currency decimals | C18: proved for single-currency accounts, counterexample otherwise; C19: least exponent proved, exactness refuted (1/4) |
| C20–C27 | date.go arithmetic | closed form of day numbers, omega; C26/C27 refuted with partials |
| C28–C32 | price list, binary search, interpolation, iterator | loop invariant of the search; convexity of interpolation |
| C33 | RegexCCY's mutation of the price map while ranging | order-relation model; counterexample; partial for non-colliding fresh names |
| C34–C39 | ExtractRegister, FilterByDate, ShowReport slicing | induction over transactions/postings; C37, C39 refuted with partials |
| C40–C42 | RemoveDuplicatesOf, importer run | two-cursor merge = filter; induction on files |
| C43,C44 | ReclassifyByAccount | frame proof; C44 refuted (comparison bug) |
| C45 | starlark `add()` on the builder | each call adds zero-sum postings |
| C46–C53 | Accumulate and helpers | totals over descendant sets, rectangularity, prefix function, sort key; C50, C52, C53 refuted with partials |
| C54–C60 | lexer and parser over rune lists | denotation of numerals; round trip; C54 (overflow), C56, C57, C58, C59, C60 partly refuted |
| C61 | BookOps with macros | fuelled evaluator; acyclic macros terminate |
| C62–C66 | print.go, HTML, Beancount, CLIConfig | induction on strings/rows |
| C67–C70, C74 | file-system / server / clock state machines | invariants over steps and crash points |
| C71,C72 | InferRates, InferRate | divergence for every fuel; run analysis |
| C73,C80 | heap model: numbers as cells, slices as arrays of records | C73 counterexample by shared pointers, partial for filters; C80 simulation between the heap run and the list run |
| C75 | Newton iteration over abstract reals | fuel bound, exit condition |
| C76 | price lines of the export, the loader on them | round trip line by line, then the sorted price lists agree |
| C77 | account names in the loader | characters of `parseAccount`; invariant over the whole load |
| C78 | text report | the printed table equals a specified table; exact crash condition |
| C79 | HTML report as text | pieces scanned by the specification's HTML reader |
| C81 | web server | interleaving model, counterexamples; sequential requests in closed form |
| C82,C91 | flags, configuration | case analysis; decoding keys |
| C83,C84 | JSON/CSV to starlark values | structural induction over JSON, paths of access |
| C85,C88 | `add` amounts; generate with dedup | induction over script calls, C40 for the difference |
| C86,C89,C94,C95 | JSON, CSV output, number printing | contracts for rounding; CSV writer/reader round trip by induction over runes |
| C87 | register sections | literal patterns match themselves only |
| C93 | Beancount export and report | a reader of Beancount text, independent of the printer; lines that do not start an entry are skipped; round trip by induction over transactions |
| C98 | login callback handlers and the waiting main routine | interleaving semantics; invariant over runs; counterexample schedule |
| C99 | token requests | induction over histories of requests |
| C96 | the whole ledger reader on files given as well-formed lines (grammar and meaning in Spec/File.lean) | one lemma per kind of line; induction over include depth (soundness) and over the derivation of the meaning (completeness) |
| C100 | the text register: columns, colours, widths, narrowing to the terminal, the sections (Model/RegText) | what is seen of text with escape sequences (Spec/Screen), table lemma over all tables, then the cells of the register |
| C97 | state files and replies as JSON trees: encoding/json on interface{}, structs, maps, slices, pointers; the record types (Model/State) | round trip of codecs, compositionally; numbers by the distance of neighbouring float64 (Spec/Float) |
| C101 | the reply with booked and pending transactions (Model/State: nordReply) | when a list of records can be read |
| C102 | GetAllTransactions and Sync of Monzo with a bank whose contents change between requests (Model/Download) | invariant of the rounds: everything before `since` has been delivered |
| C103 | syncFeed and Sync of Starling with the choice of the time asked for (Model/Download) | the stored feed is that of a prefix of the bank's versions; induction over the history of syncs |
| C104 | the printer's numbers in each supported language (Model/Lang), the loader on them | the numeral with a decimal comma is read as the number of units of its last decimal; the scaled book is canonical and balanced, so the general reload theorem applies |
| C105 | export.go run end to end: load, operations, the export types (Model/ExportCmd) | a book loaded from an export is determined by the calls its text makes; writing it and loading again makes the same calls |
| C106 | as C105, with all operations and macros | every operation keeps the book well-formed, balanced and its price lists sorted; then the export round trip |
| C107 | the import command end to end: `Model/ImportCmd` (load, scripts as their add calls and messages, dedup, reclassify, printing with the main book's decimals), the loader on the ledger with the text appended | a loaded file does not include itself (`Proofs/Append`), so the text is read after what was read before; then the printed transactions are read as their calls; entry totals |
| C108 | as C107, run twice | from C107 every date and payee is reported, then C42 |
| C109 | as C107, with scripts and files that fail | induction over the files |
| C110 | `Model/ScriptBook`: attributes of postings and transactions, the two `for` loops | attributes by cases, loops by induction, the rest from C04 and C06; numbers through the `DoubleRounding` contract |
| C111 | `Model/ScriptBook` on top of the memory model of C80, with the array of transactions | invariant: the cells of the held list are those of a static snapshot, under every step but `map`; witnesses by kernel evaluation |
| C112 | `Model/ListCmds` (command `accts`), on `Model/Commands`, `Model/Print`; specification of the file from `Spec/File` | from C18, C96 and the totals of the builder's calls; the table by C63's exact layout for one column; witness by kernel evaluation |
| C113 | `Model/ListCmds` (command `ccy`), the map walked in any order | from C19 and C96 |
| C114 | `Model/Pager`: the writer, `initialiseLess`, `PersistentPostRun`, the register's prints; whether `less` starts is an arbitrary function of the attempt | induction over the outputs; the register through C89's text |
| C115 | `Model/MonzoLogin`: `NewMonzoClient` with a state file, oauth2's token source by contract, the bank as an arbitrary grant function | induction over the requests and the runs |
| C116 | `Model/Commands`, `Model/Accum` with `Model/Loader` | C90 (what is shown) composed with C46–C49 (columns) and C96 (what the file says) |
| C117 | `Model/Commands` (`reportCmd`), `Model/Accum`, `Model/Builder`, `Model/Loader`; two runs with different `srt` and map orders | `Proofs/Order`, `Proofs/Order2`: every operation and Accumulate preserve "same postings up to notes" (compaction has one result; the rows of a summary column are distinct in account, level and currency, so their sort has one result); `Props/Order`: the book built from a ledger depends only on its entries and price lines; `registerCmd` likewise (Props/OrderReg: every step of the register reads only what two alike postings share) |
| C118 | the `report --sum` command with level, term and sort key of every row (`Accum`, `Commands`) | sort keys are chains of fixed-width keys of the accounts above; a key that begins another belongs to an account above unless two siblings tie; counterexample with equal totals |
| C119 | the `report` command with the labels of the rows | level and term from C51 for summaries; without `--sum` the builder's empty labels survive compaction, splitting and conversion; counterexample |
| C120 | the `report --sum` command with the sort keys | siblings share the chain of keys above them, and fixed-width hexadecimal keys are in the order of their values; counterexample above a thousand million |
| C121 | `skipAtPrice` inside `parsePostingLine` (parser.go:315-320), whole-file loader | Spec/Cost writes a posting with its cost; `parsePostingLine_tail` reads a line whatever follows its amount, so the costed line takes the same step; lifted to files by line-by-line reading (C60) and induction on include depth; two refutations |
| C122 | `reportCmd` with the date filters of book_op.go:67-80 and book_utils.go | the two filters are list filters on the posting slice of a well-formed book; the sum over postings before D2 splits at D1, and every shown figure is a key-weighted sum of the postings (C90, C116) |
| C123 | every operation of `Prim.apply` as a linear operator on weights of (date, payee, account, currency) (`pull`) | `prim_pull`: the weighted sum after an operation is the pulled-back weighted sum before it; commuting operators give books with the same totals (`SameTotals`), a congruence for all operations, macros and reports, because reading a book makes it canonical (C04, C05) |
| C124 | no new code; a ledger as the list of calls its files make (C96), three ledgers of which one says what the two others say (Spec/Parts) | every step of a report is linear in the postings: a weight on the result is a weight on the file's postings that does not depend on the ledger (Proofs/Laws `pull`), and does not look at the payee; the sum over the whole file is the sum over the parts |
| C125 | `reportCmd` in two environments that differ in the sort and in every map order (`OpEnv.again`, `Env.again`) | the loaded books have the same postings in other orders and the same prices up to order (`built_shuffled`); each operation keeps them so (`NearBook`, `near_prim`), a clear renaming of currencies gives the same table whatever the walk; a merged one does not (witness); `registerCmd` likewise |
| C126 | `exportCmd`, then `reportCmd` of the file it wrote | C106 gives the book read from the file; it has the totals of the exported book (`SameTotals`) and its prices (`NearBook`), which the operations and the report keep (C123, C125); witnesses for names and decimals the format cannot express |
| C127 | `nordRun` (Model/Nordigen: setting up, fetching, saving) on the state file as JSON, run after run | invariant over histories: the file is the encoding of a state that agrees with the log of requests and answers (latest answer per request, latest transaction per id), kept by reloading (C97) and by each run; witness: an expired consent |
| C128 | `readLedger` (Model/LoaderErr: the loader with rows, columns and messages; proved to read what `parseFileLocal` reads) | the readers, as a state monad with stops, are shown compositionally to leave a suffix, not to look beyond the end of a line, and not to look beyond the rune they are at; induction on rounds and on lines; witnesses: a line that ends too early, an unbalanced transaction |
| C129 | `reportText` (Model/ReportText: `showText` with the formats of text.go and print.go) | a table without columns to shrink is laid out as if the screen had no width; blank lines are woven between the lines of `table_plain` (C98); the cells as seen are the columns of the specification; for summaries, C47 gives equal rows and the labels and currencies consist of runes of the book's accounts and currencies; witness: a label with an escape character |
| C130 | `reportFull` (Model/ReportCmd: `run` of report.go with its output in every format, `GetFileOrStr`) | the command is `reportCmd` followed by the printer of the type with the decimals of the book; then C116 for the summary, C129 for the text (the names shown are the book's), C86 for JSON, C79 for HTML; witness: an empty ledger |
| C131 | `reportFull` with type Ledger (Model/ReportCmd) | the book shown is well-formed and balanced, so its printed transactions load again as in C57 (without prices); a report of that book shows period starts, base currency and rate 1 again, so the totals by date, payee, account and currency agree and the canonical listing is the same; witness: a summary, whose subtotals unbalance it |
| C132 | `registerFull` (Model/RegisterFull): load, convert, operations, rows, then text table, JSON or CSV per section | composition of C87 (rows), C38 (window), C100 (table), C86/C89 (JSON, CSV); the rows are specified by `Spec.RegisterOf`, without the code's counters or holes. |
| C133 | `registerCmd`, `reportCmd` (Model/Commands) | both read the same transactions (C87, C90); rows of a set of days add up to the postings of those days (C35, C36); dates are sorted, so the window is an interval of the rows; witness: conversion before and after the operations |
| C134 | `mainCmd` (Model/Main): `main`, `Execute`, the `Add` functions, pflag's parser, the typed keys of the file | a grammar of command lines (Spec/Main); the parser reads exactly the lines of the grammar (induction over the parts, and over the arguments for the converse); the settings by induction over the flags given and the keys of the file |
| C135 | `mainCmd` | false: witness with one payment before the window; by C134 the settings used do not depend on the flag |
| C136 | `goledgerMain` (`impDefs`, `impExecute`, `importFull`) | flags as in C134 over the settings of import; the map of definitions as any permutation; false in full: witnesses for --code and for a name with a blank |
| C137 | `generateCmd` | reduced to `importCmd` on the script's add calls (the restrictions keep what is compared), then C107; false in full: witnesses for data.since and for decimals |
| C138 | `generateCmd` twice | C108 through the same reduction; false in full: witness for data.since |
| C139 | `goledgerMain` (`genDefs`, `genExecute`, `generateFull`) | as C136 over the settings of generate; false in full: witness for --code |
| C140 | `goledgerMain`, `mainCmd`, `loadBook`, the exit statuses (`CmdEnd.exit`, `Printed.exit`) | every command runs `loadBook` with the settings of C134 first; case analysis of its end |
| C141 | `loadBook`, `reportCmd`, `registerCmd`, `Builder.addPrice`, `Builder.build` | prices of one pair are sorted by date and each date is there once, so a permutation sorts to the same list; the rest as C116 and C125; witness for two prices of one day |
| C142 | `loadBook`, `reportCmd`, `registerCmd` | every load is the build of a reading of the lines (C96), two readings differ in the order of elided postings only; the rest as C117 |
| C143 | `parseFileLocal`, `loadBook`, `reportCmd`, `registerCmd` | what an include line says by induction over the lines, then C142; witness for aliases |
| C144 | the loader, the builder, `Compact`, `asof=`, report and register on two ledgers, one the continuation of the other | the postings before the day are the same up to notes (totals per key, `compactPost_cut`), then the operations and the report depend on these only |
| C145 | the loader, the builder, the operations, `SplitBy`, conversion and the report on two ledgers | totals under weights that do not look at the payee are kept by every operation (`prim_pull`); combining makes them decide the book |
| C146 | the loader, the builder, `since=`, `asof=`, report and register on two ledgers that agree on a period | the payees under which the transactions of a day are filed depend on that day only (`filed_during`), so totals under weights that vanish outside the period agree; the filters make these decide the rest; witness for the register |
| C147 | the loader on files that include each other | includes that end, by accessibility: induction gives a reading of the file, and a reading ends; with C96 (file to book) the exact condition of loading; commands by C140 |
| C148 | the loader on two disks related by a renaming of the files | step by step simulation of the parser under the renaming, then each command from its definition |
| C149 | the builder on renamed calls, `RegexAccount`, alias lines | the filed transactions of the renamed calls are the compacted renamed ones; pairs of good books (C112) give equal reports; the alias line by induction on readings |
| C150 | import and generate from files and scripts to output | a relation says which file books what (contents of files, standard input once, decoded data, messages, add calls field by field); induction on the files shows the loop prints exactly this; likewise the steps of a generating script |
| C151 | the loader, the builder, report and register on two ledgers with the same amounts | every weighted total of the filed transactions is a sum over the amounts per account and currency (`lsum_booked`), so the two books have the same totals; built books being compacted, pairs of good books (C112) give equal reports |
| C152 | the builder on calls with other currencies, `mapccy`, the price table | the totals after `mapccy` are those of the renamed bookings (`prim_pull`); the price tables have the same entries (C33), which is all that operations and reports ask of them (`near_ops`); the rest as C123 |
| C153 | the settings and flags of the banks, their table in the configuration file, and the program (C134) with them | reading the file key by key gives the settings of the specification (`readDown_eq`), and so do the flags of a readable line (`set_monzo` …); the parser of command lines as for C134 |
| C154 | the addresses of the requests as functions of the texts (`Model/Address`, with net/url's escaping); a server's reading of an address specified on its own (`Spec/Address`); reading undoes escaping, for all bytes; where the code does not escape, proved for plain texts and refuted in general |
| C155 | the program (C134) with macros from the file: every setting but the macros is read the same from the file without them; the operations by C61; register sections do not look at the macros |
| C156 | the weighted totals of the book (C123): each operation takes the weights back, and the two lists take all weights back to the same |
| C157 | the calls with amounts multiplied; weighted totals (C124) | the weighted sums of the loaded book are multiplied; operations and reports are linear in them (`ops_linear`) |
| C158 | the register command (C132), totals (C123) | books of the same totals compact to the same postings but for notes, which is all the combined register reads; witness for sections |
| C159 | operations as text (C81), dates as text (C144) | each text is read the same on both days (its `=` part is not today and not period words), then every primitive but combining by today ignores the clock; within a month the first days agree |
| C160 | price lookup, reading of files (C96), laws of operations (C124) | every stage of the price table (add, sort, search, interpolate) commutes with multiplication; the postings weigh the same; conversion before summing by weights |
| C161 | price lookup by the documented rule (C28) | the rule gives one answer when days are distinct; the answer of the smaller history is one of the larger if another price lies between; then as C160 |
| C90,C92 | whole report command, conversion | composition: loader invariants, C08–C14, C57, price lookup |

## 4. Files modelled
<!-- files -->
Computed from the citations in `Model/`; a function counts as modelled if at least half of its lines are cited.

| file | modelled in | functions not modelled |
|---|---|---|
| book/book.go | Book, Commands, ExportCmd, Heap, ListCmds, ScriptBook | Book.GetPrice, Book.GetPriceList |
| book/book_accum.go | Accum, Alias | — |
| book/book_compact.go | Book, Compact, Heap, ScriptBook | — |
| book/book_dedup.go | Book | — |
| book/book_reclassify.go | Reclassify | — |
| book/book_utils.go | Book, BookOp, PriceMap | — |
| book/builder.go | Builder, Heap, LoaderErr, ScriptBook | — |
| book/date.go | BookOp, Date, Flags, JsonOut | Date.GetYear, Date.GetYearMonth, Date.GetYearQuarter, GetToday |
| book/docs.go | — | — |
| book/irr.go | IRR | — |
| book/posting.go | Heap, JsonOut, Posting | Posting.GetDate, Posting.GetPayee, Posting.GetTransactionNote, Posting.GetAccount, Posting.GetAccountLevel, Posting.GetAccountTerm, Posting.GetAmount, Posting.GetCCY, Posting.GetPostNote, Posting.GetBalance, Posting.String |
| book/price.go | JsonOut, Price | Price.GetDate, Price.GetPrice, newPriceBookBuilder, priceBook.getPrices, priceBook.getValue |
| book/registry.go | JsonOut, Register | — |
| book/transaction.go | Csv, JsonOut, Posting, Register, ScriptBook | Transaction.MaxAccountTerm |
| cmd/accounts/accounts.go | ListCmds, Main | — |
| cmd/app/app.go | Commands, ConfigFile, Lang, Loader, Main, Pager, Web | mustResolveTemplate |
| cmd/app/book_op.go | BookOp, Commands | — |
| cmd/app/print.go | Csv, Export, Lang, Main, Pager, Print, RegText, ReportText, Text, Web | BookPrinter.Width, BookPrinter.Printf, BookPrinter.Sprintf, BookPrinter.PrintJSON, BookPrinter.FormatSimpleMoney, BookPrinter.FormatMoney, ListLength, Combine |
| cmd/config.go | Config, ConfigFile, Main, MainDownload, MainImport | — |
| cmd/currencies/currencies.go | ListCmds, Main | — |
| cmd/download/download.go | ConfigFile, MainDownload | — |
| cmd/download/monzo.go | Address, Download, Login, MainDownload, MonzoLogin, State | MonzoDownload.Add, MonzoClient.VerifyAuthenticated |
| cmd/download/net.go | Address, Download, Login, State | postToURL |
| cmd/download/nordigen.go | Address, Download, MainDownload, Nordigen, State, Token | NordigenClient.RefreshRequisition |
| cmd/download/starling.go | Address, Download, MainDownload, State | StarlingDownload.Add, StarlingDownload.Token, StarlingDownload.NewStarlingClient |
| cmd/export/beancount.go | Beancount | FormatAccount |
| cmd/export/csv.go | Csv | — |
| cmd/export/export.go | ConfigFile, ExportCmd, Flags, JsonOut, Main | Add |
| cmd/export/ledger.go | Export, ExportCmd | — |
| cmd/generate/generate.go | ConfigFile, Generate, GenerateCmd, MainImport | Generate.add |
| cmd/generate/starlark.go | Generate, Import, ImportCmd, MainImport | — |
| cmd/importer/import.go | ConfigFile, Import, ImportCmd, MainImport | — |
| cmd/importer/import_op.go | Script | — |
| cmd/importer/starlark.go | Generate, Import, ImportCmd, MainImport | — |
| cmd/register/register.go | Commands, ConfigFile, Csv, Main, Pager, RegText, RegisterFull, Web | — |
| cmd/register/show_register.go | Csv, JsonOut, Main, Pager, RegText, Register, RegisterFull | — |
| cmd/reports/beancount.go | Beancount | FormatCurrency, FormatAccount |
| cmd/reports/html.go | Html, ReportCmd | — |
| cmd/reports/ledger.go | Export | — |
| cmd/reports/report.go | Commands, ConfigFile, Flags, Main, ReportCmd, Web | Add |
| cmd/reports/text.go | ReportText, Text | — |
| cmd/root.go | ConfigFile, Main, MainDownload, MainImport | — |
| cmd/utils/cli_config.go | CLIConfig, ConfigFile, MainImport | CLIConfig.Type |
| cmd/utils/cli_file_or_str.go | ReportCmd | — |
| cmd/utils/docs.go | — | AddDocs |
| cmd/utils/json.go | Download, State | ToJson |
| cmd/utils/shell.go | — | AddShell |
| cmd/utils/types.go | Flags, Main | NewEnumSlice, EnumSlice.Values, EnumSlice.String, EnumSlice.Type |
| cmd/web/web.go | Web | Add, WebConfig.run, WebConfig.handle |
| loader/lexer.go | Loader, LoaderErr | — |
| loader/parser.go | Heap, Loader, LoaderErr | — |
| main.go | Main, MainDownload, Pager | — |
| script/book.go | Script, ScriptBook | starlarkPosting.AttrNames, starlarkPosting.String, starlarkPosting.Type, starlarkPosting.Freeze, starlarkPosting.Truth, starlarkPosting.Hash, starlarkTransaction.AttrNames, starlarkTransaction.String, starlarkTransaction.Type, starlarkTransaction.Freeze, starlarkTransaction.Truth, starlarkTransaction.Hash, starlarkTransactions.String, starlarkTransactions.Type, starlarkTransactions.Freeze, starlarkTransactions.Truth, starlarkTransactions.Hash |
| script/book_op.go | BookOp, Commands, Generate, ScriptBook | — |
| script/convert.go | Import, Script | — |
| script/starlark.go | Generate, Heap, Import, ImportCmd, MainImport | RunStarlark |
<!-- /files -->

## 5. Status and where code and property disagree
<!-- status -->
| id | property | status | remarks |
|---|---|---|---|
| C01 | Builder accepts exactly the balanced ledgers | proved |  |
| C02 | Every transaction keeps its own identity | proved |  |
| C03 | Posted amounts are preserved by compaction | proved |  |
| C04 | Transactions() is in canonical form | proved |  |
| C05 | The result does not depend on posting order or on the sort algorithm | proved |  |
| C06 | Running balances are prefix sums | proved |  |
| C07 | Reading a book does not change it | proved |  |
| C08 | Double entry is preserved by every operation sequence | proved |  |
| C09 | asof/since select exactly the right transactions | proved |  |
| C10 | combine (SplitBy) preserves account totals per period | proved |  |
| C11 | map renames accounts without changing money | proved |  |
| C12 | move transfers exactly the requested fraction | proved |  |
| C13 | depreciate spreads but never loses money | proved |  |
| C14 | convert/mapccy scale amounts uniformly | proved |  |
| C15 | AdjustBy scales to the requested period | proved |  |
| C16 | FilterByAccount keeps exactly the transactions touching an account | proved |  |
| C17 | FilterTransactionReverse filters the book | partial | False of the code: FilterTransactionReverse sets the postings only, so the transactions reported before the next read, and any following filter, ignore it. The partial theorem says what it does achieve. |
| C18 | Accounts lists exactly the accounts with a balance | partial | False of the code when an account holds several currencies: only the balance of its last posting in any currency is looked at. Proved when every account uses one currency. |
| C19 | Currency decimals suffice to print every amount | partial | False of the code: 1/4 gets one decimal. Proved for denominators that are powers of ten. |
| C20 | Day number <-> date round trip | proved |  |
| C21 | DaysSince counts calendar days | proved |  |
| C22 | AddDays is day arithmetic | proved |  |
| C23 | Floor gives the start of the enclosing period | proved |  |
| C24 | Period stepping is additive | proved |  |
| C25 | Date text round trip | proved | c25_roundtrip for DateFromString, c25_ledger_roundtrip for the ledger loader's date reader. |
| C26 | DateFromString yields a real date or reports failure | partial | False of the code: dates such as 2021-02-31 are accepted. c26_means_partial: every text that means a real day is read as that day; c26_refused_partial: text of no known form is refused (0). Missing: figures that name no day are not refused. |
| C27 | AsYears increases with the date | partial | False of the code: AsYears ignores the day of the month. The partial theorem gives monotonicity. |
| C28 | Price lookup follows the documented rule | proved |  |
| C29 | Interpolated prices stay between their neighbours | proved |  |
| C30 | Price entry order is irrelevant | proved |  |
| C31 | Inverse conversion is consistent | proved | For positive prices; c31_inverse_nonzero for any non-zero answer; c31_mixed_sign_fails shows that positivity is needed. |
| C32 | The price iterator agrees with direct lookup | proved |  |
| C33 | mapccy renames price pairs deterministically and without loss | partial | False of the code when the renaming collides or re-matches its own output (c33_collision_fails, c33_order_fails). Proved for injective, idempotent renamings, for every iteration order. |
| C34 | The register never crashes on a balanced book | proved | Under the hypothesis that the price lookups into the base currency answer; c34_no_crash_prices discharges it for real dates and positive prices. |
| C35 | Register rows allocate the posting exactly | proved |  |
| C36 | Register balance column is the running total | proved |  |
| C37 | Register base amounts use the price of the currency in the base currency | partial | False of the code: the price is looked up in the wrong direction (c37_base_amounts_fails). The partial theorem states what is computed. |
| C38 | Register date window is exact | proved |  |
| C39 | Register count and ordering | partial | False of the code in descending order for every non-empty selection (c39_descending_fails); ascending order proved. |
| C40 | RemoveDuplicatesOf is exact set difference | proved |  |
| C41 | An import run never emits a (date, payee) twice | proved |  |
| C42 | Re-importing is idempotent | partial | Proved whenever every date and payee of the main ledger and of the emitted transactions still occurs after appending (c42_reimport_emits_nothing), and for appending to ledgers without transactions that net to nothing. False of the code otherwise (c42_reimport_fails): such a transaction is not reported but still occupies its name in the builder. |
| C43 | Reclassify only renames the counter-account | proved |  |
| C44 | Reclassify picks the most common counter-account | partial | False of the code: `k = max` instead of `max = k` in book_reclassify.go:56. The partial theorem says what is chosen. |
| C45 | add() can only create balanced transactions | proved |  |
| C46 | Summary parents total their descendants | proved |  |
| C47 | Summary reports are rectangular | proved |  |
| C48 | Missing accounts are filled with zero | proved |  |
| C49 | Credit flip and hidden account | proved |  |
| C50 | Common prefixes are common ancestors | partial | False of the code when two names part right at a divider (c50_common_prefix_fails). c50_exact: with a divider of one character it is wrong exactly then. c50_always: what holds in all cases. |
| C51 | Account level and term reconstruct the name | proved |  |
| C52 | Summary rows are ordered by descending value | partial | False of the code for amounts above 1e9 (the sort key saturates). |
| C53 | Accumulate does not modify the book | partial | False of the code when the posting slice has spare capacity: append in accumulate overwrites shared storage; proved when capacity equals length. |
| C54 | Ledger amounts are read exactly | partial | False of the code for mantissas of 2^63 or more (int64 wraps); proved exactly below. |
| C55 | An elided amount balances the transaction | proved |  |
| C56 | No posted amount is silently ignored | partial | False of the code for an amount without a currency: it is silently left as trailing text. Proved for every posting line in the documented shapes. |
| C57 | Ledger export can be loaded again | partial | False of the code: amounts not expressible in the currency's decimals are rounded (an eighth printed as 0.1, c57_amount_rounded_fails). Proved, for a whole book, for everything the format can express. |
| C58 | Loading always terminates | partial | False of the code for cyclic includes; proved for every acyclic set of files. |
| C59 | Unbalanced ledgers are reported as errors | partial | False of the code for the last transaction of the file, which makes Build panic rather than give an error. Proved: a loaded book is always balanced, and an unbalanced transaction before another one is an error. |
| C60 | The whole file is read | partial | False of the code for a NUL rune in the file (read as end of file). Proved for text without NUL. |
| C61 | Macro expansion is sequential composition | proved |  |
| C62 | Padded cells have the requested width | proved |  |
| C63 | Column layout fits the terminal | partial | False of the code: division by zero when the last shrinkable column is empty (c63_layout_fails). Partial theorems: every other layout fits the width and every cell is printed in its column. |
| C64 | HTML report markup is balanced | partial | False of the code: the summary report leaves <div> elements open (c64_balanced_fails). The exact number left open is proved. |
| C65 | Beancount export opens accounts once and closes only finished ones | partial | Opening and closing dates proved (c65_open_close). False of the code: an account is closed while it still holds another currency (c65_closed_iff_zero_fails). |
| C66 | Import option strings round trip | partial | False of the code: a repeated flag-style key is accepted and an empty type loses its parameters. Parsing and the round trip otherwise proved. |
| C67 | A crash while saving never loses the state file | partial | False of the code: the file is truncated before anything is written (c67_crash_fails), an error loses the old contents (c67_error_keeps_old_fails), and the error of closing the compressor is dropped (c67_success_fails). The partial theorem says what holds at every crash point. |
| C68 | Syncing never drops downloaded transactions | proved | For Monzo, Starling and Nordigen, against arbitrary servers; the model ends where SaveToFile (C67) begins. |
| C69 | Downloading terminates | partial | False of the code when a hundred transactions fall within a minute (c69_burst_fails). Otherwise terminates and stores everything the server has. |
| C70 | Requests are throttled | partial | False of the code when a request goes out later than its slot (c70_late_request_fails). Exact bound proved. |
| C71 | Inferring rates terminates | partial | False of the code: the loop has no exit; proved for every compacted transaction. |
| C72 | A trade rate is inferred from a two-currency exchange | proved |  |
| C73 | A duplicated book is independent | partial | False of the code: Duplicate shares the numbers (c73_mapAmount_fails, c73_mapAccount_fails). c73_filters_partial: reading and filtering both copies in any interleaving is independent. |
| C74 | An existing configuration file is never overwritten | proved |  |
| C75 | IRR iteration is bounded and its result is a fixed point within tolerance | proved | c75_bounded is for any arithmetic, IEEE floats included; c75_real and c75_newton over the reals. |
| C76 | Exported prices can be loaded again | partial | False of the code: units and currencies of prices are written without the quotes they may need (the file then cannot be loaded), and prices are rounded to the decimals of the amounts in their currency (c76_*_fails). Proved for prices the export can express, for any order of the pairs, transactions included. |
| C77 | An account name is read whole | partial | False of names outside the loader's character set: the name is cut and the rest is read as an amount (c77_name_split_fails). Proved for all names of letters, digits, & ' : _, and that loaded accounts are always such names. |
| C78 | The text report shows every amount or explains why not | partial | False of the code: an empty report, an earlier transaction without a row of the last one, and an account whose name ends in the divider crash it (c78_*_fails; c78_crash says exactly when). Proved for all transactions with the same rows, hence for every summarised book with proper account names (c78_sum_partial). |
| C79 | HTML reports show the book's texts | partial | Texts are not escaped: a payee with '<' disappears from the page (c79_escape_fails). Proved for non-empty reports whose texts contain no '<'; character entities are not decoded by the specification. |
| C80 | Working in place gives the same as working on copies | proved | Refinement proof between the pointer-level model (Model/Heap.lean) and the list model used by all other theorems; operations with a second book are not included. |
| C81 | A web request answers only itself | partial | False of the code (the command is commented out of root.go): flags of earlier requests stick and simultaneous requests write to one output (c81_*_fails). c81_one_by_one says exactly what each request answered in turn gets; partial for requests repeating all earlier flags, and, for overlapping ones without flags, of the text computed. |
| C82 | A chosen type is the type used | partial | Flags: proved for every argument and case folding. False of values from the configuration file, which are not checked (c82_config_value_fails: the default file's type "Ansi" silently means Ledger). |
| C83 | A script sees the JSON file as it is | partial | False of the code: null entries of objects are dropped, text after the first JSON value is ignored, and the order of a script's loop over an object is Go's random map order (c83_*_fails). Proved: every other place of the data is seen exactly, whatever the map order. |
| C84 | Every CSV field reaches the script under its heading | partial | encoding/csv's splitting into records is a parameter. False for repeated headings: only the last column of a heading can be reached (c84_headings_exact says so for every table); proved for distinct headings, for files without headings, and that nothing crashes. |
| C85 | Scripts book exactly the amounts they give | partial | big.Rat.SetString is a parameter. False of NaN and infinite floats, which count as 0, and of amounts copied from the ledger, which scripts see as floats (c85_copied_amount_fails holds for any rounding to binary fractions). Otherwise proved end to end from the script's arguments to the reported transactions. |
| C86 | JSON output says what the book says | partial | The note of a posting is replaced by the transaction's note (posting.go:127): c86_note_fails. Everything else is proved; the text encoding of encoding/json is trusted. |
| C87 | The register shows each account's own postings | partial | The section's postings are selected by the unescaped pattern ^name$, so names with pattern characters (possible after map operations) show other accounts' postings (c87_dot_fails). Proved for plain names, hence for every account of a file without operations. |
| C88 | generate with dedup repeats nothing | partial | False if the script restricts or renames the ledger, because the comparison is with the ledger as the script left it (c88_since_fails; c88_exact says exactly what is shown). Proved for transactions whose date lies in every period the script restricted the ledger to, if it renames nothing. |
| C89 | CSV output reads back as the postings | partial | False for amounts with more than six decimals (c89_decimals_fails) and for transactions merged by operations from several with different notes (c89_note_fails). Proved for amounts in millionths below 2^52; for built books without a condition on notes. |
| C90 | A report shows exactly what was posted | proved | Whole command from file to the transactions handed to the printer. Reports with --sum are covered by C45-C49. |
| C91 | The configuration file the program writes is one it reads | partial | False of the code: the default file has report.macros, which the report settings lack, and left-over keys are rejected at the next start (c91_default_rejected_fails). Proved for any default text that decodes without left-over keys. |
| C92 | Converted amounts are the posted amounts at the recorded prices | partial | False of the code in two ways: a currency without a price is shown 1:1 without a word (c92_no_price_fails) and combined reports convert at the first day of the period, not at the posting's date (c92_period_start_fails). Proved: uncombined reports of currencies with recorded prices. |
| C93 | The Beancount output says what the book says | partial | Quotes in a payee are not escaped (c93_quote_fails), and names that differ only in capitals or spaces are merged (c93_merged_fails). Proved for payees without quotes or line ends, names that stay one word, and amounts that fit the currency's decimals, relative to the renaming. Price lines are written in the ledger syntax, which a Beancount reader does not accept; the specification's reader skips them. |
| C94 | Printed amounts are exact | partial | Proved exact below 2^52 units of the last decimal and within half a unit plus 2^-53 of the amount in general; false for larger amounts, for every rounding (c94_large_fails). |
| C95 | The register's CSV output is one table | partial | Without --combined a line with the account precedes each table, so the output is not one table (c95_sections_fails, for every report). Proved with --combined. |
| C96 | A ledger file is read as its lines say | proved | The well-formed lines are given as a grammar in Spec/File.lean. Postings with an `@` price (which the program reads and drops), amounts of 2^63 or more before the point is removed, and files without a final line feed are not among them. Files that include each other in a circle stand for no bookings and are not loaded (c96_loaded_book; C58 says they are read for ever). |
| C97 | What a bank sends is stored as it was sent | partial | False of numbers that are no float64, such as long integers: they go through float64 (c97_number_fails). Proved: what is in the file is read back (c97_monzo_file, c97_starling_file, c97_nordigen_file) for every state; and records are stored as sent if their numbers have at most fifteen digits (c97_stored_partial). |
| C98 | A login code is used only if it came with this run's state | partial | Two overlapping callback requests write code and state separately, so the state of one can be accepted with the code of the other (c98_mixed_requests_fails). Proved when requests do not overlap (c98_same_request_partial); in every run a code is used only if some request carried the state (c98_needs_state). |
| C99 | Requests carry an access token that has not expired | proved | The server's clock and lifetime announcements are inputs of the model. |
| C100 | The register on the screen shows the entries | partial | False of texts with an escape character, which hides what follows it (c100_register_text_fails); proved of all other texts, of screens on which the dates, amounts and balances fit, and of registers without holes (ascending order, c100_no_holes; descending order is C39). |
| C101 | Pending transactions do not matter | partial | False of the code: a pending transaction without transactionId makes the whole reply an error (c101_pending_fails). Proved: it holds exactly if every pending transaction has one. |
| C102 | A Monzo download that succeeds is complete | proved |  |
| C103 | Starling syncs miss no change | proved | The bank is assumed to answer a request for changes with all items last changed at or after that time, and to give later changes later times. |
| C104 | The language does not change what an export says | partial | False of the code: Dutch, German and French print a decimal comma, which the loader skips: 12,5 comes back as 125 (c104_language_fails). Proved: it holds for English (c104_language_partial); in the other languages amounts below 1000 come back multiplied by ten per decimal (c104_scaled), so unchanged exactly if there are no decimals (c104_other_iff). |
| C105 | Exporting an export writes the same file | partial | False of the first export of an export: amounts that were added up may need fewer decimals, 1.0 becomes 1 (c105_first_fails). Proved: from the second one on the texts are the same, for everything the format can express, in English. |
| C106 | A saved export is the book after the operations | partial | False of what the format cannot express, such as an account with a blank (c106_account_fails). Proved, for all operations, for books the format can express, in English (other languages: C104). |
| C107 | What import prints, appended to the ledger, adds the imported transactions | partial | False of the code in four ways, each proved: amounts are printed with the decimals of the main ledger, so with whole amounts there 12.50 becomes 12 (c107_decimals_fails); a printed message of two lines is read as ledger (c107_message_fails); an alias of the ledger renames an imported account (c107_alias_fails); a vanishing transaction of the same date and payee makes it "Lunch (2)" (c107_vanishing_fails). Proved otherwise, for every ledger, in English. |
| C108 | Importing the same files again after appending prints nothing | partial | False if the ledger has a transaction of the same date and payee that nets to nothing (c108_again_fails). Proved, exactly (only the script's messages are printed), under the conditions of C107. c108_program_partial: the same for the whole program, from the command line and configuration file to the status and output. |
| C109 | An import that fails has printed nothing | partial | False of the code: the transactions of the files before the failing one are printed (c109_nothing_fails). Proved: what is printed is exactly the output of the import of those files, and at most the messages of the failing script. |
| C110 | A script sees the book the reports show | partial | False of the amounts as such: they are float64 (c110_amount_fails). Proved: everything else exactly, the balance as sum of the amounts visited so far, amounts within half an ulp and recoverable by rounding up to 18 decimals and 2^52 units. |
| C111 | A list of transactions a script has taken stays as it is | partial | False of the code: data.transactions returns the book's own slices. After map the list shows other postings, even a transaction that does not balance (c111_map_fails); after since and another reading it shows other balances (c111_balance_fails). Proved: with reading, since and asof the transactions and postings stay (all but the balances), with reading only everything. |
| C112 | The list of accounts is the accounts of the file | partial | False without --all: Accounts() looks only at the balance of the account's last posting, so an account that holds euros is left out if its last posting is in dollars and its dollars are zero (c112_balance_fails). Proved: --all exactly, accounts of one currency exactly, no account without anything is listed (c112_balance_partial), the printed column (c112_text). |
| C113 | The list of currencies is the currencies of the file | proved | Proved for files of the grammar of C96. That the decimals may be too few to show an amount such as 1/8 is C19. |
| C114 | Nothing printed is lost in the pager | partial | False when a command fails after less was started: cobra does not call PersistentPostRun then, the pager's pipe is not closed and less not waited for (c114_waits_fails, a register whose second account is no regular expression after map). All else proved; waiting proved for commands that end without error, exactly (c114_waits_partial). |
| C115 | A Monzo login lasts | partial | False: a token that expires while a run goes on (or within ten seconds of its start) is renewed only in memory; the new refresh token is not saved and the old one is spent, so that every later run fails (c115_login_lasts_fails, c115_lost_for_ever). Proved: it is kept exactly unless that happens (c115_kept_iff), histories where it does not happen (c115_login_lasts_partial), banks that let refresh tokens be used again (c115_reusable). |
| C116 | A summary adds up the ledger file | proved | For the book after any operations (c116_summary) and for the file without operations (c116_file, grammar of C96). Which accounts are subtotal accounts is exact if no two names part at the divider (else C50 applies). A currency without a price counts with the rate that C28 gives. |
| C117 | The order of the transactions in the ledger does not matter | proved | c117_balance: balancing does not depend on the order. c117_order: any two ledgers with the same content, any two sorts and map orders, any operations and options: same end, same transactions (notes aside) or same summary rows. The divider must not be empty. The walk of the price map in mapccy is kept the same on both sides (C33). c117_register: the same of register (Props/OrderReg). |
| C118 | In a summary every indented row stands under the account it is named after | partial | False of the code (c118_nested_fails): rows are sorted by the values of the accounts above them, so when two sibling accounts have equal totals (Exp:Car and Exp:Food, both 10) their children are mixed and the car's expenses are listed under the food. Proved: without such ties (to six decimals, amounts up to ten billion, divider of one character) every row reads right, also with --credit and --hidden (c118_nested_partial); and always, every indented row comes somewhere after the row of the account it is named after, which is one step less indented (c118_after). |
| C119 | Reports name the account of each amount | partial | False of the code (c119_names_fails): the builder leaves the label of a posting empty, and only --sum (or an operation that renames accounts) sets it, so a text or HTML report without --sum has blank account names: proved for every ledger (c119_unsummed_blank). With --sum every row that is not indented is labelled with its account (c119_summed_partial); indented rows are C118. |
| C120 | In a summary the larger amounts come first | partial | False of the code (c120_largest_first_fails): above a thousand million the number in the sort key is negative and its text sorts the wrong way, so 2 000 000 000 comes before 3 000 000 000. Proved up to a thousand million, in the order before --credit and --hidden (c120_largest_first_partial). |
| C121 | The price given with a posting is used | partial | False as stated (c121_price_recorded_fails, c121_purchase_fails): the code has a TODO where the price would be used. What holds, for all files: c121_costs_dropped_partial (loading files with costs is loading them without), c121_line_partial (one line), c121_total_refused (`@@` refuses the file). |
| C122 | The change over a period is the difference of the balances | proved | Documented in the help of `report` (report.go:33-43). c122_listing (entry by entry), c122_balances (per account and currency), c122_summary (summary rows). |
| C123 | Operations that concern different things can be given in any order | proved | c123_swap (independent operations), c123_combine (combine by a finer period first; for real dates), c123_period (combine and a date that begins a period; for real dates), c123_dates (stricter date). Examples beside them show that the conditions are needed (date within a period; month 13). |
| C124 | The report of a ledger in parts is the sum of the reports of the parts | proved | c124_listing (reports that list transactions, any kind), c124_summary (summed reports that combine: each is a summary in the sense of C116 and subtree and account amounts add). part_demo shows three ledgers on one disk that meet the hypotheses. |
| C125 | The same command shows the same each time | partial | c125_again_partial: for operations whose currency renamings are clear for the prices (no two pairs of currencies with prices merge, new names are not renamed again). c125_merged_fails: with a mapccy that merges two currencies with prices the converted amounts depend on the map order. c125_register_partial: the same of register. |
| C126 | A saved export serves as the ledger | partial | c126_saved_partial: English number format and a book the format can express (Writable), renamings of currencies in the report clear in the sense of C125. c126_account_fails: an account renamed to one with a blank; c126_rounded_fails: amounts divided further than the decimals of the ledger are rounded in the file. |
| C127 | The Nordigen download over many runs | partial | c127_runs, c127_links, c127_syncs: the requests and the end of every run after every history, a crash exactly if the bank answers `null` to a request for transactions; c127_kept_partial, c127_stored_partial: what the file says (numbers of at most 15 digits, as in C97). c127_renewal_fails: an expired consent is never renewed. Not modelled: the token (C99), partly written files (C67). |
| C128 | A refused line is reported with its place | partial | c128_place_partial: the place is right, except that a stop at the end of a line is reported as column 0 of the next row (c128_row_fails: `2020/01` alone in row 1 is reported as 2:0), and except for errors without a place: unbalanced transactions (c128_place_fails), a denominator that overflows to zero, `include` without a name. c128_unbalanced: the message for an unbalanced transaction. The messages themselves are modelled but (but for that one) not claimed. |
| C129 | The text report shows the whole table | partial | c129_screen_partial: for transactions that have the same rows; c129_sum_partial: every summary (`--sum`) is such a table, so there the report neither crashes nor complains. Missing: labels with an escape character, which hides what follows it (c129_screen_fails); currencies with runes that cannot be printed; accounts with an empty name or one that ends in the divider (c78_divider_fails); reports without a summary whose transactions have different rows (C78). |
| C130 | The report command, from the ledger file to what is shown | partial | c130_text_partial: text, for summaries that are not empty and plain names; c130_json: JSON, summary or not; c130_html_partial: HTML, for texts without `<` (C79); c130_formats: the type (but Beancount) does not change the transactions reported; c130_style: the style sheet. Missing: a ledger with nothing to report, of which the text report crashes (c130_text_fails); names with escape characters or unprintable runes, accounts ending in the divider (C129); `<` in names (C79). |
| C131 | A report in ledger format is a ledger | partial | c131_saved_partial, c131_again_partial: for English number format, transactions the format can express (C57) and, for the second, real dates. Missing: summaries (`--sum`), whose subtotals are printed like postings, so that the file is refused (c131_sum_fails); other languages (C104). |
| C132 | The register command, from the ledger file to what is shown | partial | c132_text_partial, c132_json_partial, c132_csv_partial, c132_combined_partial, c132_only: ascending order, names the screen can show, English numbers (text), ordinary amounts (JSON), six decimals (CSV). Missing: descending order, which crashes (c132_descending_fails, C39); names that are regular expressions (C87). |
| C133 | The register and the report agree | partial | c133_agree_partial, c133_periods_partial: ascending order, accounts whose names have no special characters (C87), operations only without conversion. Missing: conversion together with operations, where the register converts before and the report after the operations (c133_convert_fails). |
| C134 | The command line comes before the configuration file, which comes before the built-in settings | proved | c134_report, c134_register, c134_export, c134_accts, c134_ccy: the whole run, from the command line to status and output. c134_refused, c134_help, c134_count, c134_bad_file, c134_no_file: the other ends. The flag library and TOML decoding are modelled by their documented behaviour; the command is the first word; of the configuration file the keys and typed values are the input (its text: C74, C91). |
| C135 | register --zero begins the balances at zero | partial | False of the code: the setting is read and never used (c135_zero_fails). c135_unused_partial: two command lines that differ in --zero alone have the same effect, for every ledger. |
| C136 | An import definition of the configuration file is the import command with its options set | partial | c136_definition_partial: the settings of `import NAME`, for names without blanks. c136_written_out: the same as `import` with the options written out. c136_plain, c136_defaults, c136_missing, c136_refused, c136_bad_file. False in full: --code (and --format) cannot be given where the definition has it (c136_code_fails), and a definition with a blank in its name is no command of that name (c136_name_fails). Flags before the definition's name are left to `other`. |
| C137 | What generate prints, appended to the ledger, adds exactly the generated transactions | partial | c137_as_import: generate prints what import prints for the same calls. c137_appended_partial: the appended ledger, for scripts that restrict the ledger only to periods in which all they add lies (always so for one that only reads), a ledger without vanishing transactions, printable transactions. False in full: data.since cuts the ledger itself (c137_since_fails), and amounts are printed with the decimals of the ledger (c137_decimals_fails). |
| C138 | Running generate again after appending its output prints nothing | partial | c138_generate_again_partial under the hypotheses of C137; false in full (c138_since_fails): after data.since the deduplication compares with the cut ledger. c138_program_partial: the same for the whole program. |
| C139 | A generate definition of the configuration file is the generate command with its options set | partial | c139_definition_partial: the settings of `generate NAME`, for names without blanks. c139_written_out: the same as `generate` with the options written out. c139_plain, c139_defaults, c139_missing, c139_refused. False in full: --code cannot be given where the definition has it (c139_code_fails). |
| C140 | A ledger that cannot be loaded ends every command with a non-zero status and without output | proved | c140_refused, c140_missing, c140_unbalanced, c140_done, c140_operations, c140_status, over the whole program (goledgerMain); definitions with names without blanks. |
| C141 | The order of the price lines does not matter | partial | c141_balance; c141_report_partial and c141_register_partial, for ledgers without two transactions of one date and payee and without two price lines of one date and pair of currencies, and currencies renamed clearly (see C125). False in full: of two prices of one day the later line counts (c141_same_day_fails). |
| C142 | Only what the lines of the ledger say matters | proved | c142_loads, c142_report, c142_register, c142_silent. What the lines of a file say is the relation FileSays of C96. |
| C143 | Moving part of the ledger to an included file changes nothing | partial | c143_says_partial (the two say the same), c143_report_partial, c143_register_partial: for blocks without alias lines, whose own includes mean the same files from both places. False in full (c143_alias_fails): the aliases of an included file end with it. |
| C144 | Later bookings do not change earlier reports | partial | False of an added price: rates between two prices are interpolated, so a later price changes the converted amounts of the days before (c144_price_fails). Proved for added transactions. A register that converts does so before the operations, so a later posting may make it crash; if both end, they show the same. |
| C145 | A combined report depends only on the amounts of each day, account and currency | proved | Proved for --combineby other than skip (c145_report) and for every report with a combine operation (c145_operation); c145_words and c145_reversal give instances of ledgers with the same daily amounts. |
| C146 | A report of a period depends only on the bookings of the period | partial | Proved for every report (c146_since, c146_period; c146_elsewhere: a transaction of another day put anywhere in the ledger) and for combined registers (c146_register_partial). False of a register with a section for each account (c146_register_fails): whether an account has one depends on its balance over all days, because FilterTransaction leaves the balances stored with the postings as they are and Accounts looks at them. |
| C147 | A ledger whose includes come back to a file is never accepted | proved | c147_loads gives the exact condition on the disk (IncludesEnd is accessibility of the include relation); c147_cycle and c147_command for the cyclic case. The model says non-termination by fuel: no depth is enough. In the program the recursion ends by exhausting memory or file handles, with a non-zero status. |
| C148 | A ledger can be moved together with the files it includes | proved | MovedTo is stated for any renaming of the files; tree_moved shows it of a directory moved elsewhere with filepath.Join as concatenation after the directory of the file (no '..' cleaning). |
| C149 | Renaming accounts by an operation, by an alias or in the ledger is the same | proved | Operations after the first are arbitrary. c149_register is for registers without conversion: with it the register converts before the operations and the postings of several currencies of an account are joined by map only. |
| C150 | What import and generate print is exactly what the scripts booked from the files | proved | c150_import and c150_generate are equivalences: status 0 and this output, or the conditions fail. The running of Starlark is a parameter (what calls a script makes of its data); deduplication and reclassification are importRun (C41, C44). c150_program, c150_generate_program: the same from the command line. |
| C151 | Only the amounts of a transaction matter, not the lines it is written in | proved | c151_loads, c151_report, c151_register; c151_split, c151_swap and c151_cancel give the ways of rewriting. Reports are compared up to the order of rows that sort alike (SameReport), as for C122. |
| C152 | Renaming currencies by an operation or in the ledger is the same | proved | c152_loads, c152_report (with the clearness condition ClearOps of C125; without it the order in which Go walks the price map decides, c125_merged_fails). SameShown: both show the same rows if both end well, and end alike unless the report converts without combining. |
| C153 | Which settings a download works with | proved | c153_monzo, c153_starling, c153_nordigen (the settings), c153_refused, c153_words, c153_help, c153_bad_file. What a download then does is a parameter (C68, C70, C97-C103, C115, C127). The flags of nordigen are really named `Client ID` and `Client Secret`, with the blank; their help texts are exchanged. |
| C154 | A bank is asked for what the program means to ask for | partial | c154_monzo, c154_login and c154_forms hold for all texts (the code escapes them). The other requests put the texts into the address as they are: c154_starling_partial, c154_nordigen_partial and c154_ids_partial are for texts without # % & + / = ?, and c154_starling_fails (a time with an offset: the + is read as a blank) and c154_nordigen_fails (a country with an &), c154_ids_fails (an id with a slash) are for others. net/url's Encode is modelled by its documented behaviour; reading an address is specified in Spec/Address. |
| C155 | A macro of the configuration file is the operations it stands for | proved | c155_report, c155_register, c155_export; c155_unknown; c155_itself. The macros are those of the table `macros` at the top of the file (the table `[report.macros]` that the help text shows is refused, C91). |
| C156 | Renamings, moves and depreciations that come to the same | proved | c156_move_all, c156_moves, c156_move_none, c156_maps, c156_back, c156_depreciate. The engine for expressions is arbitrary; where a renaming is compared it must leave a text without a match as it is (Go's does). |
| C157 | With all amounts multiplied, reports show the amounts multiplied | proved | c157_loads, c157_listing, c157_summary (the rows before --credit turns signs and --hidden leaves accounts out, as in C116). |
| C158 | Operations that come to the same, come to the same in the register | partial | c158_swap_partial, c158_dates_partial, c158_move_all_partial, c158_moves_partial, c158_move_none_partial, c158_maps_partial, c158_back_partial, c158_depreciate_partial: the combined register. Missing: the register with a section for each account, where it is false (c158_sections_fails): which accounts are left out as empty depends on the balances as of the last operation that compacts, so `since=2021-01-01 map=/Q/R/` lists accounts that `map=/Q/R/ since=2021-01-01` does not. |
| C159 | A report without words for the present shows the same on any day | proved | c159_report, c159_export, c159_register, c159_same_month, c159_plain; whole program, with flags and configuration file: c159_program_report, c159_program_export, c159_program_register, c159_program_lists. Combined by the present day (the default of a fresh configuration file), neither converted nor summed: the same lines but for their day, c159_today. The clock is a parameter of the operations (GetToday). What a word must not end in is a small grammar in Spec/OnDay; macros count by their words, at any depth. |
| C160 | Multiplied prices multiply what is converted | proved | c160_converted (the formula), c160_multiplied (all amounts in priced currencies: plainly k times), c160_unconverted, c160_summary (rows that both summaries have; that the unconverted listing used in the formula succeeds is proved). The reports compared are assumed to succeed. With mapccy the price table is changed by the operations and the set of priced currencies with it; not covered. |
| C161 | A new price touches only the days up to the neighbouring prices | proved | c161_listing, c161_summary, c161_unconverted. Real days only (a ledger file may name a day such as 2020/99/99, on which the lookup can panic), and no two prices of the pair for one day: which of two the binary search finds may change with the length of the list. |
<!-- /status -->

## 6. Axioms of the theorems
<!-- axioms -->
* **none** (4): `c02_one_filing`, `c67_error_keeps_old_fails`, `c67_success_fails`, `c82_config_value_fails`
* **propext** (13): `c09_zero`, `c112_json`, `c146_elsewhere`, `c21_day_zero`, `c23_other_words`, `c38_no_bounds`, `c63_layout_fails`, `c66_values`, `c74_env`, `c81_mixed_up_fails`, `c83_null_entry_fails`, `c83_rest_ignored_fails`, `c98_mixed_requests_fails`
* **propext, Quot.sound** (53): `c114_everything_in_order`, `c114_first_tall`, `c114_no_pager`, `c115_lost_for_ever`, `c154_ids_fails`, `c154_ids_partial`, `c154_nordigen_fails`, `c154_nordigen_partial`, `c154_starling_fails`, `c154_starling_partial`, `c15_dateRange`, `c26_invalid_date_accepted_fails`, `c33_order_fails`, `c39_ascending_partial`, `c39_descending_fails`, `c50_common_prefix_fails`, `c51_never_panics`, `c66_parse`, `c66_repeated_flag_fails`, `c66_repeated_value_rejected_partial`, `c66_roundtrip_empty_type_fails`, `c66_roundtrip_partial`, `c67_crash_fails`, `c67_save_partial`, `c68_monzo`, `c68_monzo_file`, `c68_monzo_ids`, `c68_nordigen`, `c68_starling`, `c74_default`, `c74_first_existing`, `c74_never_overwrites`, `c81_overlap_text_partial`, `c81_sticky_flag_fails`, `c82_enum`, `c82_enumSlice`, `c82_export_type`, `c82_report_type`, `c82_split_type`, `c83_any_order`, `c83_every_place_partial`, `c83_file_partial`, `c83_loop_order_fails`, `c84_no_headings`, `c85_exact_partial`, `c85_nan_fails`, `c86_note_fails`, `c89_fields_roundtrip`, `c91_default_rejected_fails`, `c91_later_starts_partial`, `c91_offending_key`, `c98_needs_state`, `c99_kept`
* **propext, Classical.choice, Quot.sound** (510): `c01_build_iff_balanced`, `c01_panics_at_closing_call`, `c02_book_entries`, `c02_name_chosen`, `c02_names_distinct`, `c02_search_terminates`, `c03_built_amounts`, `c03_read_amounts`, `c04_any_postings_canonical`, `c04_transactions_canonical`, `c05_order_independent`, `c05_permutation`, `c06_last_balance`, `c06_running_balances`, `c07_read_twice`, `c07_transactions_stable`, `c08_balanced_preserved`, `c08_double_entry`, `c09_asof`, `c09_interval`, `c09_partition`, `c09_postings_unchanged`, `c09_since`, `c100_no_holes`, `c100_register_text_fails`, `c100_register_text_partial`, `c100_sections_partial`, `c101_pending_fails`, `c101_pending_partial`, `c102_complete`, `c103_asked`, `c103_history`, `c103_nothing_missed`, `c104_language_fails`, `c104_language_partial`, `c104_other_iff`, `c104_scaled`, `c105_export_again_partial`, `c105_first_fails`, `c106_account_fails`, `c106_amounts_fit`, `c106_decimals`, `c106_export_saved_partial`, `c107_alias_fails`, `c107_appended_partial`, `c107_decimals_fails`, `c107_message_fails`, `c107_vanishing_fails`, `c108_again_fails`, `c108_import_again_partial`, `c108_program_partial`, `c109_failed_partial`, `c109_nothing_fails`, `c109_succeeds`, `c10_splitBy`, `c110_amount_fails`, `c110_asof`, `c110_balance`, `c110_map`, `c110_numbers`, `c110_recover`, `c110_since`, `c110_view`, `c111_balance_fails`, `c111_list_kept_partial`, `c111_map_fails`, `c111_reading`, `c112_all`, `c112_balance_fails`, `c112_balance_partial`, `c112_no_argument`, `c112_text`, `c113_currencies`, `c114_register`, `c114_waits_fails`, `c114_waits_partial`, `c115_kept_iff`, `c115_login_lasts_fails`, `c115_login_lasts_partial`, `c115_reusable`, `c115_served`, `c116_file`, `c116_summary`, `c117_balance`, `c117_order`, `c117_register`, `c118_after`, `c118_nested_fails`, `c118_nested_partial`, `c119_names_fails`, `c119_summed_partial`, `c119_unsummed_blank`, `c11_mapAccount`, `c11_regexAccounts`, `c120_largest_first_fails`, `c120_largest_first_partial`, `c121_costs_dropped_partial`, `c121_line_partial`, `c121_price_recorded_fails`, `c121_purchase_fails`, `c121_total_refused`, `c122_balances`, `c122_listing`, `c122_summary`, `c123_combine`, `c123_dates`, `c123_period`, `c123_swap`, `c124_listing`, `c124_summary`, `c125_again_partial`, `c125_merged_fails`, `c125_register_partial`, `c126_account_fails`, `c126_rounded_fails`, `c126_saved_partial`, `c127_kept_partial`, `c127_links`, `c127_renewal_fails`, `c127_runs`, `c127_stored_partial`, `c127_syncs`, `c128_place_fails`, `c128_place_partial`, `c128_row_fails`, `c128_unbalanced`, `c129_screen_fails`, `c129_screen_partial`, `c129_sum_partial`, `c12_adjustPost`, `c130_formats`, `c130_html_partial`, `c130_json`, `c130_style`, `c130_text_fails`, `c130_text_partial`, `c131_again_partial`, `c131_saved_partial`, `c131_sum_fails`, `c132_combined_partial`, `c132_csv_partial`, `c132_descending_fails`, `c132_json_partial`, `c132_only`, `c132_text_partial`, `c133_agree_partial`, `c133_convert_fails`, `c133_periods_partial`, `c134_accts`, `c134_bad_file`, `c134_ccy`, `c134_count`, `c134_export`, `c134_help`, `c134_no_file`, `c134_refused`, `c134_register`, `c134_report`, `c135_unused_partial`, `c135_zero_fails`, `c136_bad_file`, `c136_code_fails`, `c136_defaults`, `c136_definition_partial`, `c136_missing`, `c136_name_fails`, `c136_plain`, `c136_refused`, `c136_written_out`, `c137_appended_partial`, `c137_as_import`, `c137_decimals_fails`, `c137_since_fails`, `c138_generate_again_partial`, `c138_program_partial`, `c138_since_fails`, `c139_code_fails`, `c139_defaults`, `c139_definition_partial`, `c139_missing`, `c139_plain`, `c139_refused`, `c139_written_out`, `c13_depreciate`, `c13_dueDates`, `c13_no_periods`, `c13_totals_kept`, `c140_done`, `c140_missing`, `c140_operations`, `c140_refused`, `c140_status`, `c140_unbalanced`, `c141_balance`, `c141_register_partial`, `c141_report_partial`, `c141_same_day_fails`, `c142_loads`, `c142_register`, `c142_report`, `c142_silent`, `c143_alias_fails`, `c143_register_partial`, `c143_report_partial`, `c143_says_partial`, `c144_lines_partial`, `c144_price_fails`, `c144_register_partial`, `c144_report_partial`, `c145_operation`, `c145_report`, `c145_reversal`, `c145_words`, `c146_period`, `c146_register_fails`, `c146_register_partial`, `c146_since`, `c147_command`, `c147_cycle`, `c147_loads`, `c148_command`, `c148_generate`, `c148_import`, `c148_load`, `c149_alias`, `c149_loads`, `c149_register`, `c149_report`, `c14_mapAmount`, `c14_regexCCY`, `c150_generate`, `c150_generate_program`, `c150_import`, `c150_program`, `c150_stops`, `c151_cancel`, `c151_loads`, `c151_register`, `c151_report`, `c151_split`, `c151_swap`, `c152_loads`, `c152_report`, `c153_bad_file`, `c153_help`, `c153_monzo`, `c153_nordigen`, `c153_refused`, `c153_starling`, `c153_words`, `c154_forms`, `c154_login`, `c154_monzo`, `c155_export`, `c155_itself`, `c155_register`, `c155_report`, `c155_unknown`, `c156_back`, `c156_depreciate`, `c156_maps`, `c156_move_all`, `c156_move_none`, `c156_moves`, `c157_listing`, `c157_loads`, `c157_summary`, `c158_back_partial`, `c158_dates_partial`, `c158_depreciate_partial`, `c158_maps_partial`, `c158_move_all_partial`, `c158_move_none_partial`, `c158_moves_partial`, `c158_sections_fails`, `c158_swap_partial`, `c159_export`, `c159_plain`, `c159_program_export`, `c159_program_lists`, `c159_program_register`, `c159_program_report`, `c159_register`, `c159_report`, `c159_same_month`, `c159_today`, `c15_adjustBy`, `c15_none`, `c15_zero_span`, `c160_converted`, `c160_multiplied`, `c160_summary`, `c160_unconverted`, `c161_listing`, `c161_summary`, `c161_unconverted`, `c16_filterByAccount`, `c16_filterByAccount_index`, `c17_filterReverse_fails`, `c17_filterReverse_partial`, `c17_next_filter_undoes_fails`, `c18_accounts_exact`, `c18_accounts_fails`, `c18_accounts_partial`, `c19_decimals_fails`, `c19_decimals_partial`, `c20_date_days_date`, `c20_days_date_days`, `c21_daysSince_after`, `c21_daysSince_before`, `c21_every_later_date`, `c21_next_day`, `c21_strictly_increasing`, `c22_addDays_add`, `c22_addDays_daysSince`, `c22_addDays_later`, `c22_addDays_zero`, `c23_floor_is_period_start`, `c23_floor_laws`, `c24_floorDiff_additive`, `c24_floorDiff_moves_k_periods`, `c25_ledger_roundtrip`, `c25_string_roundtrip`, `c26_means_partial`, `c26_refused_partial`, `c27_asYears_ignores_day_fails`, `c27_asYears_monotone_partial`, `c28_earliest`, `c28_latest`, `c28_lookup`, `c28_lookup_any_date`, `c29_between_neighbours`, `c29_never_panics`, `c30_order_irrelevant`, `c30_permuted_calls`, `c31_inverse`, `c31_inverse_nonzero`, `c31_mixed_sign_fails`, `c32_iterator`, `c33_collision_fails`, `c33_rename_partial`, `c34_no_crash`, `c34_no_crash_prices`, `c35_allocation`, `c36_running_totals`, `c37_base_amounts_fails`, `c37_base_amounts_partial`, `c38_register_ordered`, `c38_window`, `c40_exact_difference`, `c40_reported`, `c41_no_duplicates`, `c42_append_then_reimport_partial`, `c42_reimport_emits_nothing`, `c42_reimport_fails`, `c43_only_counter_account`, `c44_chosen_account_partial`, `c44_most_common_fails`, `c45_no_crash`, `c45_script_builds`, `c46_completes`, `c46_completes_prices`, `c46_other_rows`, `c46_summary_totals`, `c46_which_accounts`, `c47_one_per_transaction`, `c47_rectangular`, `c47_reference_column`, `c48_accounts`, `c48_fill`, `c49_credit_hidden`, `c50_always`, `c50_common_prefix_partial`, `c50_exact`, `c51_level_and_term`, `c52_siblings_partial`, `c52_sort_order_fails`, `c52_sort_order_partial`, `c53_book_unchanged_fails`, `c53_book_unchanged_partial`, `c53_report_unaffected`, `c53_unbalanced_after_fails`, `c54_amount_exact_partial`, `c54_large_amount_fails`, `c55_elided_amount_balances`, `c56_amount_ignored_fails`, `c56_posting_line_exact_partial`, `c56_posting_stored_partial`, `c57_amount_rounded_fails`, `c57_export_reload_partial`, `c57_text_roundtrip_partial`, `c58_acyclic_terminates_partial`, `c58_cyclic_include_fails`, `c59_crash_only_last_partial`, `c59_last_unbalanced_fails`, `c59_loaded_book_balanced_partial`, `c59_unbalanced_before_another_partial`, `c60_file_partial`, `c60_line_by_line_partial`, `c60_nul_fails`, `c60_reads_on_partial`, `c61_days`, `c61_double_entry`, `c61_error_names`, `c61_macro_is_expansion`, `c61_self_macro_diverges`, `c61_stops_at_first_error`, `c61_syntax`, `c61_terminates`, `c62_padString_exact`, `c62_width`, `c62_width_right`, `c63_layout_partial`, `c63_layout_unchanged`, `c63_table_partial`, `c64_balanced_fails`, `c64_balanced_iff_partial`, `c64_open_at_end_partial`, `c64_page_partial`, `c65_closed_iff_zero_fails`, `c65_closed_iff_zero_partial`, `c65_open_close`, `c66_switch`, `c69_burst_fails`, `c69_terminates_partial`, `c70_late_request_fails`, `c70_throttled_partial`, `c71_inferRates_fails`, `c72_inferRate`, `c72_rate_positive`, `c73_filters_partial`, `c73_mapAccount_fails`, `c73_mapAmount_fails`, `c75_bounded`, `c75_newton`, `c75_no_crash`, `c75_real`, `c75_years`, `c76_export_reload_partial`, `c76_rounded_fails`, `c76_unquoted_fails`, `c77_accounts_plain_partial`, `c77_name_read_whole_partial`, `c77_name_split_fails`, `c78_crash`, `c78_crash_fails`, `c78_divider_fails`, `c78_empty_fails`, `c78_reports_missing`, `c78_sum_partial`, `c78_table_partial`, `c79_escape_fails`, `c79_shown_partial`, `c80_build`, `c80_in_place`, `c80_report`, `c81_isolated_partial`, `c81_one_by_one`, `c84_every_field_partial`, `c84_headings_exact`, `c84_no_crash`, `c84_repeated_heading_fails`, `c85_booked_partial`, `c85_copied_amount_fails`, `c86_amount_recovered`, `c86_export_partial`, `c86_register`, `c87_dot_fails`, `c87_file_accounts_partial`, `c87_sections_partial`, `c88_exact`, `c88_no_duplicates_partial`, `c88_since_fails`, `c89_built_rows_partial`, `c89_decimals_fails`, `c89_export_rows_partial`, `c89_note_fails`, `c89_register_rows_partial`, `c90_account_totals`, `c90_file_amounts`, `c90_report_exact`, `c91_indentation`, `c92_converted_partial`, `c92_no_price_fails`, `c92_period_start_fails`, `c93_export_partial`, `c93_merged_fails`, `c93_quote_fails`, `c93_report_partial`, `c94_large_fails`, `c94_printed_close`, `c94_printed_exact_partial`, `c95_combined_partial`, `c95_sections_fails`, `c96_balanced_loads`, `c96_loaded_book`, `c96_one_reading`, `c96_parsed`, `c96_unbalanced_refused`, `c97_ids`, `c97_monzo_file`, `c97_nordigen_file`, `c97_number_fails`, `c97_reload_monzo`, `c97_reload_nordigen`, `c97_reload_starling`, `c97_starling_file`, `c97_stored_partial`, `c98_same_request_partial`, `c99_not_expired`
<!-- /axioms -->
