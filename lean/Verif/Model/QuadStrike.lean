import Verif.Model.QuadLength
import Verif.Model.OqDouble

/-!
# Strikes of ruptures of quadrilaterals in binary arithmetic (impactutils/rupture/quad_rupture.py)

`Verif.QuadR.getStrike` is the same function with exact real numbers. `sum` is `np.sum` of an array, whose order of operations is not specified.
-/

namespace Verif.Dbl
open Verif.Rup (Quad)

/-- `P0.azimuth(P1)` (impactutils/rupture/quad_rupture.py:701-703). -/
def quadAzimuth (L : MathLib) (atan2 : ℚ → ℚ → ℚ) (q : Quad GeoPoint) : ℚ := azimuth L atan2 q.p0.lon q.p0.lat q.p1.lon q.p1.lat

/-- `QuadRupture.getStrike` (impactutils/rupture/quad_rupture.py:697-709); `none` is not a number: the quotient of two zeros. -/
def quadStrike (L : MathLib) (atan2 : ℚ → ℚ → ℚ) (sum : List ℚ → ℚ) (qs : List (Quad GeoPoint)) : Option ℚ :=
  let lengths := sum (qs.map (quadLength L))
  let x := sum (qs.map fun q => rnd (L.sin (npRadians (quadAzimuth L atan2 q)) * quadLength L q))
  let y := sum (qs.map fun q => rnd (L.cos (npRadians (quadAzimuth L atan2 q)) * quadLength L q))
  if lengths = 0 then none else some (npDegrees (atan2 (rnd (x / lengths)) (rnd (y / lengths))))

end Verif.Dbl
