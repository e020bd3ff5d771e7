import Verif.Spec.Chars
import Verif.Model.Loader

/-! # The model's character tests are those of the specification -/

namespace Verif

open Spec

theorem digitChar_eq : digitChar = isDigit := rfl
theorem spaceChar_eq : spaceChar = isSpace := rfl
theorem blankChar_eq : blankChar = isBlank := rfl
theorem lineChar_eq : lineChar = inLine := rfl
theorem acctChar_eq : acctChar = isAcctRune := rfl
theorem ccyChar_eq : ccyChar = isCCYRune := rfl

end Verif
