import Verif.Model.Export

/-! # The language of the printed numbers: /repo/cmd/app/print.go:51-70, /repo/cmd/app/app.go:37, 51-56 -/

namespace Verif

/-- print.go:54-59: the languages a printer is made for.  (`MatchLanguage(app.Lang)`, print.go:62, picks one of them, English if none
fits; `app.Lang` is the `lang` setting, by default the environment variable LANG (app.go:51-56).  The matching is not modelled.) -/
inductive Lang
  | english
  | dutch
  | german
  | french

/-- The decimal sign `golang.org/x/text/message` prints in `%.*f` (print.go:267), from the CLDR tables. -/
def Lang.point : Lang → Nat
  | .english => 46
  | .dutch => 44
  | .german => 44
  | .french => 44

/-- The thousands separator, from the same tables (French: a no-break space, U+00A0). -/
def Lang.separator : Lang → Str
  | .english => [44]
  | .dutch => [46]
  | .german => [46]
  | .french => [160]

/-- Digits in groups of three from the right; the first argument bounds the number of groups. -/
def grouped (sep : Str) : Nat → Str → Str
  | 0, s => s
  | n + 1, s => if s.length ≤ 3 then s else grouped sep n (s.take (s.length - 3)) ++ (sep ++ s.drop (s.length - 3))

/-- print.go:51-70 `NewBookPrinter`: the printer of a language, given the decimals of the currencies. -/
def langFmt (l : Lang) (letter : Nat → Bool) (fl : Rat → Rat) (rd : Rat → Nat) (decs : Str → Option Nat) : Fmt where
  letter := letter
  grp := fun s => grouped l.separator s.length s
  decs := decs
  fl := fl
  rd := rd
  point := l.point

end Verif
