import Mathlib.Data.Real.Basic
import Mathlib.Algebra.BigOperators.Group.List.Basic

/-!
# Sums of arrays, for C228
-/

namespace Verif.Spec

/-- A function that adds numbers up to a hundred times the error of one operation. -/
def AddsTo (u : ℝ) (sum : List ℚ → ℚ) : Prop :=
  ∀ l : List ℚ, |(sum l : ℝ) - (l.map fun x : ℚ => (x : ℝ)).sum| ≤ 100 * u * (l.map fun x : ℚ => |(x : ℝ)|).sum

end Verif.Spec
