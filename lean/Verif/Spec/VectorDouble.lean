import Verif.Model.VectorDouble
import Verif.Spec.Double
import Mathlib.Analysis.Real.Sqrt

/-!
# Vectors of doubles, for C195
-/

namespace Verif.Spec
open Verif.Dbl

/-- The components are doubles. -/
def DoubleVector (a : D3) : Prop := IsDouble a.x ∧ IsDouble a.y ∧ IsDouble a.z

/-- The components are whole numbers of at most `n`. -/
def WholeVector (n : ℤ) (a : D3) : Prop := ∃ i j k : ℤ, a = ⟨i, j, k⟩ ∧ |i| ≤ n ∧ |j| ≤ n ∧ |k| ≤ n

/-- What is asked of `x**2`: a double, the same for `-x`, right to one unit in the last place unless it is very small, and zero if it is less than half the
smallest double by far. -/
structure Squares (sq : ℚ → ℚ) : Prop where
  double : ∀ x, IsDouble x → IsDouble (sq x)
  nonneg : ∀ x, 0 ≤ sq x
  even : ∀ x, sq (-x) = sq x
  near : ∀ x : ℚ, 2 ^ (-1022 : ℤ) ≤ x ^ 2 → |sq x - x ^ 2| ≤ x ^ 2 / 2 ^ 52
  tiny : ∀ x : ℚ, x ^ 2 ≤ 2 ^ (-1076 : ℤ) → sq x = 0

/-- The exact length of a vector. -/
noncomputable def exactLength (x y z : ℚ) : ℝ := √((x : ℝ) ^ 2 + (y : ℝ) ^ 2 + (z : ℝ) ^ 2)

/-- A component whose square is no very small number. -/
def Sizable (x : ℚ) : Prop := x = 0 ∨ 2 ^ (-511 : ℤ) ≤ |x|

end Verif.Spec
