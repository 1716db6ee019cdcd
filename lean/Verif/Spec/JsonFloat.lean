import Verif.Spec.Json
import Verif.Spec.Double
import Verif.Spec.Grouping

/-!
# Texts of numbers
-/

namespace Verif.Spec
open Verif.Json

/-- The text of a number without sign, and the number that it stands for: digits before the point, a fraction, a power of ten. -/
def DecimalText (t : Text) (q : ℚ) : Prop :=
  ∃ (i d x : Text) (n : ℤ), t = i ++ (if d = [] then [] else '.' :: d) ++ x ∧
    Digits i ∧ (i = ['0'] ∨ i.head? ≠ some '0') ∧ (∀ c ∈ d, c.isDigit = true) ∧
    ((x = [] ∧ n = 0) ∨ ∃ g, Digits g ∧
      ((x = 'e' :: g ∧ n = decimalValue g) ∨ (x = 'e' :: '+' :: g ∧ n = decimalValue g) ∨ (x = 'e' :: '-' :: g ∧ n = -(decimalValue g : ℤ)))) ∧
    (d ≠ [] ∨ x ≠ []) ∧ q = decimalValue (i ++ d) * 10 ^ (n - d.length)

end Verif.Spec
