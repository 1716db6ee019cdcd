import Verif.Spec.Sphere

/-!
# Going a distance along a great circle
-/

namespace Verif.Spec
open Real

/-- The unit vector reached from a point by going `d` km along the great circle that starts in the direction `az`,
clockwise from north, in degrees. -/
noncomputable def arrive (lon lat az d : ℝ) : EuclideanSpace ℝ (Fin 3) :=
  cos (d / 6371) • onSphere lon lat +
    sin (d / 6371) • (sin (rad az) • eastAt lon + cos (rad az) • northAt lon lat)

/-- A function that finds the longitude and latitude of the point reached, from a point that is not a pole. -/
def FindsPoint (f : ℝ → ℝ → ℝ → ℝ → ℝ × ℝ) : Prop :=
  ∀ lon lat az d, -90 < lat → lat < 90 →
    onSphere (f lon lat az d).1 (f lon lat az d).2 = arrive lon lat az d ∧
    -180 ≤ (f lon lat az d).1 ∧ (f lon lat az d).1 ≤ 180 ∧
    -90 ≤ (f lon lat az d).2 ∧ (f lon lat az d).2 ≤ 90

end Verif.Spec
