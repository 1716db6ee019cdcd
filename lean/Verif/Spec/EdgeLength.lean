import Verif.Spec.EdgeArea
import Verif.Spec.Sphere
import Verif.Model.EdgeLength

/-!
# Lengths of the tops of ruptures along the surface, for C223
-/

namespace Verif.Spec
open Verif.Dbl (GeoPoint)
open Verif.Rup (Quad)

/-- The great-circle distance in kilometres between the places over the two upper corners. -/
noncomputable def overTop (q : Quad GeoPoint) : ℝ := greatCircle q.p0.lon q.p0.lat q.p1.lon q.p1.lat

/-- The upper corners are places of the earth, at most `Λ` kilometres apart along the surface. -/
def TopUpTo (Λ : ℝ) (q : Quad GeoPoint) : Prop := PlaceOnEarth q.p0 ∧ PlaceOnEarth q.p1 ∧ overTop q ≤ Λ

end Verif.Spec
