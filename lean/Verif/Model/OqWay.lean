import Verif.Model.OqPoints

/-!
# The rest of impactutils/extern/openquake/point.py: points on the way to another point

`geodetic.intervals_between` and `npoints_towards` are functions of the `openquake` library, not of the repository; `intervalsBetween` follows their
algorithm with exact numbers. `rnd` is the rounding to a nearest integer, of `numpy.round` and `round`. `at_` is the way along a great circle, as in
`Pt.pointAt`; `npoints_towards` uses the formulas of `geodetic.point_at` for all points but the first.
-/

namespace Verif.Oq
open Real

/-- The number of intervals, from the distance rounded to seven decimals (`geodetic.intervals_between`, called at
impactutils/extern/openquake/point.py:251-255). -/
noncomputable def roundedDistance (rnd : ℝ → ℤ) (p q : Pt) : ℝ := (rnd (p.dist q * 10 ^ 7) : ℝ) / 10 ^ 7

/-- `int(round(total_distance / length))`, as above. -/
noncomputable def numIntervals (rnd : ℝ → ℤ) (p q : Pt) (length : ℝ) : ℕ := (rnd (roundedDistance rnd p q / length)).toNat

/-- The longitudes, latitudes and depths of `geodetic.intervals_between` (called at impactutils/extern/openquake/point.py:251-255), for a positive
length. -/
noncomputable def intervalsBetween (rnd : ℝ → ℤ) (at_ : ℝ → ℝ → ℝ → ℝ → ℝ × ℝ) (p q : Pt) (length : ℝ) : List (ℝ × ℝ × ℝ) :=
  let n := numIntervals rnd p q length
  let f := length * n / roundedDistance rnd p q
  let az := azimuth p.lon p.lat q.lon q.lat
  let h := geodeticDistance p.lon p.lat q.lon q.lat * f
  let v := (q.depth - p.depth) * f
  (p.lon, p.lat, p.depth) :: (List.range n).map fun (i : ℕ) =>
    let a := at_ p.lon p.lat az (((i : ℝ) + 1) * (h / n))
    (a.1, a.2, p.depth + ((i : ℝ) + 1) * (v / n))

/-- `Point.equally_spaced_points` (impactutils/extern/openquake/point.py:233-256); a length that is not positive is an AssertionError of the library,
here "length". -/
noncomputable def Pt.equallySpacedPoints (rnd : ℝ → ℤ) (at_ : ℝ → ℝ → ℝ → ℝ → ℝ × ℝ) (p q : Pt) (length : ℝ) : Except String (List Pt) :=
  open Classical in
  if 0 < length then (intervalsBetween rnd at_ p q length).mapM fun t => mkPoint t.1 t.2.1 t.2.2
  else .error "length"

/-- `Point.on_surface` (impactutils/extern/openquake/point.py:224-231), as a proposition. -/
def Pt.onSurface (p : Pt) : Prop := p.depth = 0

/-- `Point.from_vector` (impactutils/extern/openquake/point.py:304-315). -/
noncomputable def fromVector (v : Vec.V3) : Except String Pt :=
  let s := cartesianToSpherical v
  mkPoint s.lon s.lat s.depth

end Verif.Oq
