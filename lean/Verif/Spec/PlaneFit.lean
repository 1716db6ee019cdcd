import Mathlib.Data.Matrix.Mul
import Mathlib.Data.Real.Basic
import Mathlib.Data.Matrix.Diagonal

/-!
# Planes that fit points
-/

namespace Verif.Spec
open Matrix

/-- `u` is the first factor of a singular value decomposition of `m`: orthogonal, with the singular values in descending
order. -/
def FirstFactor (m u : Matrix (Fin 3) (Fin 3) ℝ) : Prop :=
  ∃ (s : Fin 3 → ℝ) (v : Matrix (Fin 3) (Fin 3) ℝ), m = u * diagonal s * v ∧ u * uᵀ = 1 ∧ uᵀ * u = 1 ∧ v * vᵀ = 1 ∧
    vᵀ * v = 1 ∧ (∀ i, 0 ≤ s i) ∧ s 0 ≥ s 1 ∧ s 1 ≥ s 2

/-- The sum of the squared distances of points from the plane through `c` with the unit normal `w`. -/
def planeError (pts : List (Fin 3 → ℝ)) (c w : Fin 3 → ℝ) : ℝ := (pts.map fun p => (w ⬝ᵥ (p - c)) ^ 2).sum

end Verif.Spec
