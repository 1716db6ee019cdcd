import Mathlib.Data.Rat.Floor
import Mathlib.Data.Int.Log

/-!
# Numbers of IEEE 754 binary64

Infinite values and NaN are left out, and there is no largest number: a calculation that overflows has another result than here.
-/

namespace Verif.Spec

/-- A number that a double can hold: an integer of at most 53 bits times a power of two. -/
def IsDouble (q : ℚ) : Prop := ∃ m e : ℤ, |m| < 2 ^ 53 ∧ -1074 ≤ e ∧ q = m * 2 ^ e

/-- `r` is a double, and none is nearer to `q`. -/
def NearestDouble (q r : ℚ) : Prop := IsDouble r ∧ ∀ d, IsDouble d → |r - q| ≤ |d - q|

end Verif.Spec
