import Verif.Basic

/-! # Dates: /repo/book/date.go

`Date` is an `int` yyyymmdd.  Go's integer `/` and `%` truncate towards zero
(`Int.tdiv`, `Int.tmod`).  64-bit overflow is not modelled. -/

namespace Verif

/-- `date/10000` (used throughout date.go). -/
def yearOf (d : Int) : Int := d.tdiv 10000
/-- `(date/100)%100`. -/
def monthOf (d : Int) : Int := (d.tdiv 100).tmod 100
/-- `date%100`. -/
def dayOf (d : Int) : Int := d.tmod 100

/-- date.go:149-152 `GetDate`. -/
def getDate (year month day : Int) : Int := year * 10000 + month * 100 + day

/-- date.go:39-41 `FloorYear`. -/
def floorYear (d : Int) (diff : Int) : Int := (yearOf d + diff) * 10000 + 101

/-- date.go:50-53, 68-71: `for month > 11 { month -= 12; year++ }` with fuel. -/
def normUp : Nat → Int → Int → Int × Int
  | 0, year, month => (year, month)
  | f + 1, year, month => if month > 11 then normUp f (year + 1) (month - 12) else (year, month)

/-- date.go:54-57, 72-75: `for month < 0 { month += 12; year-- }` with fuel. -/
def normDown : Nat → Int → Int → Int × Int
  | 0, year, month => (year, month)
  | f + 1, year, month => if month < 0 then normDown f (year - 1) (month + 12) else (year, month)

/-- date.go:50-58, 68-76: both loops (each runs at most `|month|` times, so the fuel is
ample) and the final encoding. -/
def normMonth (year month : Int) : Int :=
  let ym := normUp month.natAbs year month
  let ym := normDown ym.2.natAbs ym.1 ym.2
  ym.1 * 10000 + (ym.2 + 1) * 100 + 1

/-- date.go:47-59 `FloorMonth`. -/
def floorMonth (d : Int) (diff : Int) : Int := normMonth (yearOf d) (monthOf d - 1 + diff)

/-- date.go:65-77 `FloorQuarter`. -/
def floorQuarter (d : Int) (diff : Int) : Int :=
  normMonth (yearOf d) (((monthOf d - 1).tdiv 3 + diff) * 3)

/-- date.go:25-37 `FloorDiff`; `today` stands for `GetToday()` (the clock). -/
def floorDiff (today : Int) (d : Int) (by_ : Str) (diff : Int) : Int :=
  if by_ = b!"yearly" then floorYear d diff
  else if by_ = b!"quarterly" then floorQuarter d diff
  else if by_ = b!"monthly" then floorMonth d diff
  else if by_ = b!"today" then today
  else d

/-- date.go:21-23 `Floor`. -/
def floorBy (today : Int) (d : Int) (by_ : Str) : Int := floorDiff today d by_ 0

/-- date.go:162-163 `monthDays`. -/
def monthDays : List Int := [31, 28, 31, 30, 31, 30, 31, 31, 30, 31, 30, 31]

/-- date.go:232-235 `YearIsLeapYear` (zero-based year). -/
def yearIsLeapYear (year : Int) : Bool :=
  decide ((year + 1).tmod 4 = 0) &&
    (decide ((year + 1).tmod 100 ≠ 0) || decide ((year + 1).tmod 400 = 0))

/-- date.go:215-224, 247-256: `for i := 0; i < month; i++` adding the month lengths; `k` is
the number of iterations left.  `none` is the index-out-of-range panic of `monthDays[i]`. -/
def monthLoop (leap : Bool) : Nat → Nat → Int → Option Int
  | 0, _, days => some days
  | k + 1, i, days =>
    match monthDays[i]? with
    | none => none
    | some md =>
      monthLoop leap k (i + 1) (days + md + (if decide (i = 1) && leap then 1 else 0))

/-- date.go:205-230 `AsDays`; `none` = panic. -/
def asDays (d : Int) : Option Int :=
  let year := yearOf d - 1
  let month := monthOf d - 1
  let day := dayOf d - 1
  let days := year * 365 + year.tdiv 4 + year.tdiv 400 - year.tdiv 100
  match monthLoop (yearIsLeapYear year) month.toNat 0 days with
  | none => none
  | some days => some (days + day)

/-- date.go:154-156 `DaysSince`; `none` = panic. -/
def daysSince (d d2 : Int) : Option Int :=
  match asDays d, asDays d2 with
  | some a, some b => some (a - b)
  | _, _ => none

/-- date.go:168-176: the descending year search; returns the year and the days left. -/
def yearSearch : Nat → Int → Int → Option (Int × Int)
  | 0, _, _ => none
  | f + 1, year, days =>
    let leapDays := year.tdiv 4 + year.tdiv 400 - year.tdiv 100
    if year * 365 + leapDays ≤ days then some (year, days - (year * 365 + leapDays))
    else yearSearch f (year - 1) days

/-- date.go:180-200: subtracting the months, from index `month`; `none` = the panic when
the index runs past the table.  (The table has 12 entries, hence fuel 13.) -/
def monthSearch (leap : Bool) : Nat → Nat → Int → Option (Nat × Int)
  | 0, _, _ => none
  | f + 1, month, days =>
    match monthDays[month]? with
    | none => none
    | some md =>
      let dim := md + (if decide (month = 1) && leap then 1 else 0)
      if days < dim then some (month, days) else monthSearch leap f (month + 1) (days - dim)

/-- date.go:165-203 `GetDateFromDays`; `none` = panic (or, never, out of fuel). -/
def getDateFromDays (days : Int) : Option Int :=
  match yearSearch (days.natAbs + 2) (days.tdiv 365) days with
  | none => none
  | some (year, left) =>
    match monthSearch (yearIsLeapYear year) 13 0 left with
    | none => none
    | some (month, left) => some (getDate (year + 1) ((month : Int) + 1) (left + 1))

/-- date.go:158-160 `AddDays`. -/
def addDays (d : Int) (n : Int) : Option Int :=
  match asDays d with
  | none => none
  | some a => getDateFromDays (a + n)

/-- date.go:238-264 `AsYears` with exact rationals for the floats.  Note line 246: the day
of the month is overwritten with 0. -/
def asYears (d : Int) : Option Rat :=
  let year := yearOf d - 1
  let month := monthOf d - 1
  let leap := yearIsLeapYear year
  match monthLoop leap month.toNat 0 0 with
  | none => none
  | some day => some ((year : Rat) + (day : Rat) / (if leap then 366 else 365))

/-- date.go:271-276 `String`. -/
def dateString (d : Int) : Str :=
  if d = 0 then List.replicate 10 32
  else intPad 4 (yearOf d) ++ [47] ++ intPad 2 (monthOf d) ++ [47] ++ intPad 2 (dayOf d)

/-! ## DateFromString: date.go:79-142

Go's regexp prefers, like Perl, the leftmost match with greedy operators first.  A pattern
is a function from the remaining input to the list of its matches in order of preference;
`FindStringSubmatch` of an anchored pattern returns the first match that consumes all. -/

/-- A backtracking matcher: matches in order of preference. -/
abbrev Pat (α : Type) := Str → List (α × Str)

/-- one `[0-9]` -/
def pDigit : Pat Str
  | c :: cs => if isDigit c then [([c], cs)] else []
  | [] => []

/-- concatenation of the captured text -/
def pSeq (p q : Pat Str) : Pat Str := fun s =>
  (p s).flatMap fun r => (q r.2).map fun r' => (r.1 ++ r'.1, r'.2)

/-- greedy `p?` -/
def pOpt (p : Pat Str) : Pat Str := fun s => p s ++ [([], s)]

/-- `[/.-]` -/
def pSep : Pat Str
  | c :: cs => if c = 45 ∨ c = 47 ∨ c = 46 then [([c], cs)] else []
  | [] => []

/-- `[0-9]?[0-9]` -/
def pOneTwo : Pat Str := pSeq (pOpt pDigit) pDigit
/-- `[0-9][0-9][0-9][0-9]` -/
def pFour : Pat Str := pSeq pDigit (pSeq pDigit (pSeq pDigit pDigit))

/-- date.go:79 `^([0-9]{4})[/.-]?([0-9]?[0-9])?[/.-]?([0-9]?[0-9])?$`: the submatches 1-3. -/
def reYMD (s : Str) : Option (Str × Str × Str) :=
  (((pFour s).flatMap fun y => (pOpt pSep y.2).flatMap fun s1 =>
    (pOpt pOneTwo s1.2).flatMap fun m => (pOpt pSep m.2).flatMap fun s2 =>
    (pOpt pOneTwo s2.2).map fun d => ((y.1, m.1, d.1), d.2)).find? (fun r => r.2.isEmpty)).map (·.1)

/-- date.go:80 `^([0-9]?[0-9])[/.-]?([0-9]?[0-9])[/.-]?([0-9]{4})$`: the submatches 1-3. -/
def reDMY (s : Str) : Option (Str × Str × Str) :=
  (((pOneTwo s).flatMap fun d => (pOpt pSep d.2).flatMap fun s1 =>
    (pOneTwo s1.2).flatMap fun m => (pOpt pSep m.2).flatMap fun s2 =>
    (pFour s2.2).map fun y => ((d.1, m.1, y.1), y.2)).find? (fun r => r.2.isEmpty)).map (·.1)

/-- date.go:81 `^(this|last|next)[._ \t]+(month|year|quarter)$`: the submatches 1-2. -/
def reDesc (s : Str) : Option (Str × Str) :=
  let w := s.take 4
  let rest := s.drop 4
  let isSp := fun c : Nat => decide (c = 46) || decide (c = 95) || decide (c = 32) || decide (c = 9)
  let sps := rest.takeWhile isSp
  let u := rest.dropWhile isSp
  if (w = b!"this" ∨ w = b!"last" ∨ w = b!"next") ∧ sps ≠ [] ∧
      (u = b!"month" ∨ u = b!"year" ∨ u = b!"quarter") then some (w, u) else none

/-- `strconv.Atoi`: optional sign, at least one digit, nothing else, in the int64 range. -/
def atoi (s : Str) : Option Int :=
  let neg := s.head? == some 45
  let ds := if s.head? = some 45 ∨ s.head? = some 43 then s.tail else s
  if ds ≠ [] ∧ ds.all isDigit then
    let v : Int := if neg then -(digitsVal ds : Int) else (digitsVal ds : Int)
    if -(2 : Int) ^ 63 ≤ v ∧ v < (2 : Int) ^ 63 then some v else none
  else none

/-- `x, _ := strconv.Atoi(s)`: 0 on error (only the empty submatch can fail here). -/
def atoi0 (s : Str) : Int := (atoi s).getD 0

/-- date.go:92-142 `DateFromString`. -/
def dateFromString (today : Int) (s : Str) : Int :=
  match reYMD s with
  | some (y, m, d) =>
    let month := if atoi0 m = 0 then 1 else atoi0 m
    let day := if atoi0 d = 0 then 1 else atoi0 d
    atoi0 y * 10000 + month * 100 + day
  | none =>
    match reDMY s with
    | some (d, m, y) => atoi0 y * 10000 + atoi0 m * 100 + atoi0 d
    | none =>
      match reDesc s with
      | some (w, u) =>
        let diff : Int := if w = b!"last" then -1 else if w = b!"next" then 1 else 0
        if u = b!"year" then floorYear today diff
        else if u = b!"quarter" then floorQuarter today diff
        else floorMonth today diff
      | none =>
        match atoi s with
        | some i => i
        | none => 0

end Verif
