import Verif.Model.VectorDouble

/-!
# Great-circle distances in binary arithmetic (impactutils/extern/openquake/geodetic.py)

`Verif.Oq` has the same functions with exact real numbers. Here every operation is rounded, as in `Verif.Dbl`. The functions of the C library are parameters.
-/

namespace Verif.Dbl

/-- `numpy.sin`, `numpy.cos`, `x ** 2` and `numpy.arcsin` of a number from -1 to 1. -/
structure MathLib where
  sin : ℚ → ℚ
  cos : ℚ → ℚ
  sq : ℚ → ℚ
  asin : ℚ → ℚ

/-- The double `NPY_PI` of numpy. -/
def npyPi : ℚ := 884279719003555 / 2 ^ 48

/-- `numpy.radians` (called in impactutils/extern/openquake/geodetic.py:109-113): the product with the double nearest to `NPY_PI / 180`. -/
def npRadians (x : ℚ) : ℚ := rnd (x * rnd (npyPi / 180))

/-- The sum under the root (impactutils/extern/openquake/geodetic.py:54-56). -/
def haversine (L : MathLib) (lon1 lat1 lon2 lat2 : ℚ) : ℚ :=
  let f1 := npRadians lat1
  let f2 := npRadians lat2
  let s := L.sin (rnd (rnd (f1 - f2) / 2))
  let t := L.sin (rnd (rnd (npRadians lon1 - npRadians lon2) / 2))
  rnd (L.sq s + rnd (rnd (L.cos f1 * L.cos f2) * L.sq t))

/-- `numpy.arcsin`: `nan`, here `none`, for numbers outside of -1 to 1. -/
def npArcsin (L : MathLib) (x : ℚ) : Option ℚ := if -1 ≤ x ∧ x ≤ 1 then some (L.asin x) else none

/-- `geodetic_distance` with the default diameter (impactutils/extern/openquake/geodetic.py:38-58) of two points. -/
def geodeticDistance (L : MathLib) (lon1 lat1 lon2 lat2 : ℚ) : Option ℚ :=
  (npArcsin L (sqrtRnd (haversine L lon1 lat1 lon2 lat2))).map fun d => rnd (12742 * d)

/-- `distance` (impactutils/extern/openquake/geodetic.py:84-100). -/
def depthDistance (L : MathLib) (lon1 lat1 dep1 lon2 lat2 dep2 : ℚ) : Option ℚ :=
  (geodeticDistance L lon1 lat1 lon2 lat2).map fun h => sqrtRnd (rnd (L.sq h + L.sq (rnd (dep1 - dep2))))

/-- `numpy.degrees`: the product with the double nearest to `180 / NPY_PI`. -/
def npDegrees (x : ℚ) : ℚ := rnd (x * rnd (180 / npyPi))

/-- `x % 360` of numpy for numbers that are not negative: the remainder of C, which is exact. -/
def remainder (x : ℚ) : ℚ := x - 360 * ⌊x / 360⌋

/-- `azimuth` (impactutils/extern/openquake/geodetic.py:61-81). -/
def azimuth (L : MathLib) (atan2 : ℚ → ℚ → ℚ) (lon1 lat1 lon2 lat2 : ℚ) : ℚ :=
  let l1 := npRadians lon1
  let f1 := npRadians lat1
  let l2 := npRadians lon2
  let f2 := npRadians lat2
  let course := npDegrees (atan2 (rnd (L.sin (rnd (l1 - l2)) * L.cos f2))
    (rnd (rnd (L.cos f1 * L.sin f2) - rnd (rnd (L.sin f1 * L.cos f2) * L.cos (rnd (l1 - l2))))))
  remainder (rnd (360 - course))

end Verif.Dbl
