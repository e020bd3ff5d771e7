import Verif.Basic

/-! # Flags with a fixed set of values, and the choice of the report: /repo/cmd/utils/types.go, /repo/cmd/reports/report.go,
/repo/cmd/export/export.go -/

namespace Verif

/-- types.go:63-71 `Enum.Set`: the new value and whether it was accepted.  `eqf` is `strings.EqualFold`. -/
def enumSet (eqf : Str → Str → Bool) (valid : List Str) (old value : Str) : Str × Bool :=
  match valid.find? fun v => eqf v value with
  | some v => (v, true)
  | none => (old, false)

/-- types.go:26-38 `EnumSlice.Set` (the slice is there; types.go:27-29 would crash otherwise). -/
def enumSliceSet (eqf : Str → Str → Bool) (valid : List Str) (old : List Str) (value : Str) : List Str × Bool :=
  match valid.find? fun v => eqf v value with
  | some v => (old ++ [v], true)
  | none => (old, false)

/-- report.go:75 -/
def reportTypes : List Str := [b!"Text", b!"Ledger", b!"Json", b!"HTML", b!"Beancount"]

/-- export.go:31 -/
def exportTypes : List Str := [b!"Ledger", b!"Json", b!"Beancount", b!"CSV"]

/-- report.go:73 and date.go:19 -/
def splitTypes : List Str := [b!"yearly", b!"quarterly", b!"monthly", b!"today", b!"none", b!"skip"]

/-- The report functions. -/
inductive Shown
  | text | ledger | json | html | beancount | csv
deriving DecidableEq

/-- report.go:144-155: which report is printed. -/
def reportShown (type : Str) : Shown :=
  if type = b!"Text" then .text
  else if type = b!"Json" then .json
  else if type = b!"HTML" then .html
  else if type = b!"Beancount" then .beancount
  else .ledger

/-- export.go:62-71: which export is printed. -/
def exportShown (type : Str) : Shown :=
  if type = b!"Json" then .json
  else if type = b!"Beancount" then .beancount
  else if type = b!"CSV" then .csv
  else .ledger

end Verif
