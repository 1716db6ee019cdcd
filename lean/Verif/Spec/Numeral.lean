import Mathlib.Data.Rat.Floor
import Verif.Spec.Grouping

/-!
# Reading decimal numerals, independently of the program
-/

namespace Verif.Spec

/-- The number that `digits.digits` stands for, with at least one digit on either side of the point; `none` for any other text. -/
def numeralValue (t : List Char) : Option ℚ :=
  match t.span (· ≠ '.') with
  | (i, '.' :: f) =>
    if i ≠ [] ∧ f ≠ [] ∧ i.all Char.isDigit ∧ f.all Char.isDigit then some ((decimalValue (i ++ f) : ℚ) / 10 ^ f.length) else none
  | _ => none

end Verif.Spec
