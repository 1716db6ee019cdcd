import Mathlib.Geometry.Euclidean.Angle.Unoriented.TriangleInequality
import Mathlib.Analysis.InnerProductSpace.PiL2

/-!
# A sphere of 6371 km

Points on the sphere are unit vectors of three-dimensional space; the great-circle distance is the radius times the angle
between them. Angles in degrees.
-/

namespace Verif.Spec
open Real

/-- Degrees to radians. -/
noncomputable def rad (x : ℝ) : ℝ := x * (π / 180)

/-- The unit vector to a longitude and latitude. -/
noncomputable def onSphere (lon lat : ℝ) : EuclideanSpace ℝ (Fin 3) :=
  !₂[cos (rad lat) * cos (rad lon), cos (rad lat) * sin (rad lon), sin (rad lat)]

/-- The direction to the east at a longitude. -/
noncomputable def eastAt (lon : ℝ) : EuclideanSpace ℝ (Fin 3) := !₂[-sin (rad lon), cos (rad lon), 0]

/-- The direction to the north at a longitude and latitude. -/
noncomputable def northAt (lon lat : ℝ) : EuclideanSpace ℝ (Fin 3) :=
  !₂[-(sin (rad lat) * cos (rad lon)), -(sin (rad lat) * sin (rad lon)), cos (rad lat)]

/-- The great-circle distance in km. -/
noncomputable def greatCircle (lon1 lat1 lon2 lat2 : ℝ) : ℝ :=
  6371 * InnerProductGeometry.angle (onSphere lon1 lat1) (onSphere lon2 lat2)

/-- The components of a second point along east and north at the first one. -/
noncomputable def eastOf (lon1 lon2 lat2 : ℝ) : ℝ := inner ℝ (eastAt lon1) (onSphere lon2 lat2)
noncomputable def northOf (lon1 lat1 lon2 lat2 : ℝ) : ℝ := inner ℝ (northAt lon1 lat1) (onSphere lon2 lat2)

end Verif.Spec
