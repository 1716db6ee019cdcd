import Mathlib.Data.Real.Basic

/-!
# Longitudes in degrees
-/

namespace Verif.Spec

/-- The same meridian. -/
def SameMeridian (a b : ℝ) : Prop := ∃ k : ℤ, b = a + 360 * k

/-- Every longitude lies on the arc that begins at `west` and runs `width` degrees to the east. -/
def OnArc (west width : ℝ) (lons : List ℝ) : Prop :=
  ∀ lon ∈ lons, ∃ t, 0 ≤ t ∧ t ≤ width ∧ SameMeridian lon (west + t)

/-- The smallest arc to the east from one of the longitudes to another that holds all of them. -/
structure Tight (west east : ℝ) (lons : List ℝ) (width : ℝ) : Prop where
  west_mem : west ∈ lons
  east_mem : east ∈ lons
  east_eq : SameMeridian east (west + width)
  all : OnArc west width lons

end Verif.Spec
