import Verif.Model.Vector
import Mathlib.Analysis.SpecialFunctions.Trigonometric.Inverse

/-!
# Model of impactutils/extern/openquake: geodetic.py, point.py, utils.py

Floats are real numbers, so there is no rounding. Arrays that the code treats element by element are modelled
by one element; the shape checks of `_prepare_coords` are not modelled.
-/

namespace Verif.Oq
open Real
open Verif.Vec (V3 arctan2 npMod)

/-- `EARTH_RADIUS` (impactutils/extern/openquake/geodetic.py:32). -/
noncomputable def earthRadius : ℝ := 6371

/-- `EARTH_ELEVATION` (impactutils/extern/openquake/geodetic.py:35). -/
noncomputable def earthElevation : ℝ := -8.848

/-- `np.radians`. -/
noncomputable def radians (x : ℝ) : ℝ := x * (π / 180)

/-- `np.degrees`. -/
noncomputable def degrees (x : ℝ) : ℝ := x * (180 / π)

/-- `geodetic_distance` with the default diameter (impactutils/extern/openquake/geodetic.py:38-58). -/
noncomputable def geodeticDistance (lon1 lat1 lon2 lat2 : ℝ) : ℝ :=
  2 * earthRadius * arcsin (√(sin ((radians lat1 - radians lat2) / 2) ^ 2 +
    cos (radians lat1) * cos (radians lat2) * sin ((radians lon1 - radians lon2) / 2) ^ 2))

/-- `azimuth` (impactutils/extern/openquake/geodetic.py:61-81). -/
noncomputable def azimuth (lon1 lat1 lon2 lat2 : ℝ) : ℝ :=
  let trueCourse := degrees (arctan2 (sin (radians lon1 - radians lon2) * cos (radians lat2))
    (cos (radians lat1) * sin (radians lat2) -
      sin (radians lat1) * cos (radians lat2) * cos (radians lon1 - radians lon2)))
  npMod (360 - trueCourse) 360

/-- `distance` (impactutils/extern/openquake/geodetic.py:84-100). -/
noncomputable def distance (lon1 lat1 dep1 lon2 lat2 dep2 : ℝ) : ℝ :=
  √(geodeticDistance lon1 lat1 lon2 lat2 ^ 2 + (dep1 - dep2) ^ 2)

/-! ### point.py -/

/-- A point as a user gives it: longitude, latitude, depth. -/
@[ext] structure Pt where
  lon : ℝ
  lat : ℝ
  depth : ℝ

/-- `Point.__init__` (impactutils/extern/openquake/point.py:52-70): the point, or the `ValueError` with the part of the
point it names. The code imports the functions of `openquake` itself, of which geodetic.py is a copy. -/
noncomputable def mkPoint (lon lat depth : ℝ) : Except String Pt :=
  if ¬ depth < earthRadius then .error "depth"
  else if ¬ depth > earthElevation then .error "depth"
  else if ¬ (-180 ≤ lon ∧ lon ≤ 180) then .error "longitude"
  else if ¬ (-90 ≤ lat ∧ lat ≤ 90) then .error "latitude"
  else .ok ⟨lon, lat, depth⟩

/-- `Point.distance` (impactutils/extern/openquake/point.py:139-158). -/
noncomputable def Pt.dist (p q : Pt) : ℝ := distance p.lon p.lat p.depth q.lon q.lat q.depth

/-- `Point.__eq__` for another point (impactutils/extern/openquake/point.py:204-220), as a proposition. -/
def Pt.Same (p q : Pt) : Prop := |p.dist q| ≤ 1e-3

open Classical in
/-- The loop of `clean_points` (impactutils/extern/openquake/utils.py:94-96): `last` is `result[-1]`, and the points
appended are returned. -/
noncomputable def cleanLoop : Pt → List Pt → List Pt
  | _, [] => []
  | last, p :: ps => if p.Same last then cleanLoop last ps else p :: cleanLoop p ps

/-- `clean_points` (impactutils/extern/openquake/utils.py:85-97). -/
noncomputable def cleanPoints : List Pt → List Pt
  | [] => []
  | p :: ps => p :: cleanLoop p (p :: ps)

/-! ### utils.py: longitudes -/

/-- `get_longitudinal_extent` (impactutils/extern/openquake/utils.py:139-150). -/
noncomputable def longitudinalExtent (lon1 lon2 : ℝ) : ℝ := npMod (lon2 - lon1 + 180) 360 - 180

/-- `numpy.min` of a list that is not empty. -/
noncomputable def npMin (a : ℝ) (l : List ℝ) : ℝ := l.foldl min a
/-- `numpy.max` of a list that is not empty. -/
noncomputable def npMax (a : ℝ) (l : List ℝ) : ℝ := l.foldl max a

/-- `min` of a generator: `none` is the `ValueError` for an empty one. -/
noncomputable def pyMin : List ℝ → Option ℝ
  | [] => none
  | a :: l => some (npMin a l)
/-- `max` of a generator: `none` is the `ValueError` for an empty one. -/
noncomputable def pyMax : List ℝ → Option ℝ
  | [] => none
  | a :: l => some (npMax a l)

/-- The ways a bounding box can fail. -/
inductive BoxErr where
  | assertion | value
  deriving DecidableEq

open Classical in
/-- The longitudes of `get_spherical_bounding_box` (impactutils/extern/openquake/utils.py:170-184): west and east. The
latitudes are only the largest and the smallest. An empty list makes `numpy.min` raise `ValueError`. -/
noncomputable def boundingLons (lons : List ℝ) : Except BoxErr (ℝ × ℝ) :=
  match pyMin lons, pyMax lons with
  | some west, some east =>
    if ¬ ((-180 ≤ west ∧ west ≤ 180) ∧ (-180 ≤ east ∧ east ≤ 180)) then .error .assertion
    else if longitudinalExtent west east < 0 then
      match pyMin (lons.filter fun l => decide (l > 0)), pyMax (lons.filter fun l => decide (l < 0)) with
      | some west, some east =>
        if ¬ ∀ lon ∈ lons, longitudinalExtent west lon ≥ 0 ∧ longitudinalExtent lon east ≥ 0 then .error .value
        else .ok (west, east)
      | _, _ => .error .value
    else .ok (west, east)
  | _, _ => .error .value

open Classical in
/-- `cross_idl` (impactutils/extern/openquake/utils.py:436-460). -/
noncomputable def crossIdl (lon1 lon2 : ℝ) : Bool := decide (lon1 * lon2 < 0 ∧ |lon1 - lon2| > 180)

open Classical in
/-- `fix_lons_idl` (impactutils/extern/openquake/utils.py:483-494); `none` is the `ValueError` of `min` of an empty array. -/
noncomputable def fixLonsIdl (lons : List ℝ) : Option (List ℝ × Bool) :=
  match pyMin lons, pyMax lons with
  | some lo, some hi =>
    if crossIdl lo hi then some (lons.map fun l => if l < 0 then l + 360 else l, true) else some (lons, false)
  | _, _ => none

/-- A bounding box: `min_lon, min_lat, max_lon, max_lat`. -/
@[ext] structure Box where
  minLon : ℝ
  minLat : ℝ
  maxLon : ℝ
  maxLat : ℝ

open Classical in
/-- `fix_bounding_box_idl` (impactutils/extern/openquake/utils.py:497-515); `none` is Python's `None`, which the function
returns if no branch applies. -/
noncomputable def fixBoxIdl (bb : Box) (fixIdl : Bool) : Option Box :=
  if crossIdl bb.minLon bb.maxLon ∨ fixIdl then
    if bb.minLon < 0 ∧ bb.maxLon > 0 then some ⟨bb.maxLon, bb.minLat, bb.minLon + 360, bb.maxLat⟩
    else if bb.minLon < 0 ∧ bb.maxLon < 0 then some ⟨bb.minLon + 360, bb.minLat, bb.maxLon + 360, bb.maxLat⟩
    else if bb.minLon > 0 ∧ bb.maxLon > 0 then some ⟨bb.minLon, bb.minLat, bb.maxLon, bb.maxLat⟩
    else if bb.minLon > 0 ∧ bb.maxLon < 0 then some ⟨bb.maxLon + 360, bb.minLat, bb.minLon, bb.maxLat⟩
    else none
  else some bb

/-! ### utils.py: coordinates -/

/-- `spherical_to_cartesian` (impactutils/extern/openquake/utils.py:309-341). -/
noncomputable def sphericalToCartesian (p : Pt) : V3 :=
  let rr := earthRadius - p.depth
  let ct := rr * cos (radians p.lat)
  ⟨ct * cos (radians p.lon), ct * sin (radians p.lon), rr * sin (radians p.lat)⟩

/-- `cartesian_to_spherical` (impactutils/extern/openquake/utils.py:344-365). The zero vector gives `nan` in the code. -/
noncomputable def cartesianToSpherical (v : V3) : Pt :=
  let rr := √(v.x * v.x + v.y * v.y + v.z * v.z)
  ⟨degrees (arctan2 v.y v.x), degrees (arcsin (max (-1) (min (v.z / rr) 1))), earthRadius - rr⟩

/-- `triangle_area` (impactutils/extern/openquake/utils.py:368-388). -/
noncomputable def triangleArea (e1 e2 e3 : V3) : ℝ :=
  let l1 := √(e1.x * e1.x + e1.y * e1.y + e1.z * e1.z)
  let l2 := √(e2.x * e2.x + e2.y * e2.y + e2.z * e2.z)
  let l3 := √(e3.x * e3.x + e3.y * e3.y + e3.z * e3.z)
  let s := (l1 + l2 + l3) / 2
  √(s * (s - l1) * (s - l2) * (s - l3))

/-- `normalized` (impactutils/extern/openquake/utils.py:391-404). The zero vector gives `nan` in the code and 0 here. -/
noncomputable def normalized (v : V3) : V3 :=
  let length := √(v.x * v.x + v.y * v.y + v.z * v.z)
  ⟨v.x / length, v.y / length, v.z / length⟩

/-- An `OrthographicProjection` (impactutils/extern/openquake/utils.py:187-209), given by its centre in radians. The code
computes the centre from the corners of a box with `get_middle_point`, which is not modelled. -/
structure Proj where
  lambda0 : ℝ
  phi0 : ℝ

/-- The test and the result of the forward projection of one point (impactutils/extern/openquake/utils.py:211-228): `none`
is the `ValueError`, which the code raises for the whole array. -/
noncomputable def Proj.forward (c : Proj) (lon lat : ℝ) : Option (ℝ × ℝ) :=
  let phi := radians lat
  let lam := radians lon - c.lambda0
  let sinDist := √(sin ((c.phi0 - phi) / 2) ^ 2 + cos c.phi0 * cos phi * sin (lam / 2) ^ 2)
  if sinDist > √2 / 2 then none
  else some (cos phi * sin lam * earthRadius, (cos c.phi0 * sin phi - sin c.phi0 * cos phi * cos lam) * earthRadius)

/-- The shift of longitudes after the reverse projection (impactutils/extern/openquake/utils.py:242-245). -/
noncomputable def wrapLon (x : ℝ) : ℝ :=
  let x := if x ≥ 180 then x - 360 else x
  if x ≤ -180 then x + 360 else x

/-- The reverse projection of one point (impactutils/extern/openquake/utils.py:229-246). -/
noncomputable def Proj.reverse (c : Proj) (x y : ℝ) : ℝ × ℝ :=
  let xx := x / earthRadius
  let yy := y / earthRadius
  let cosC := √(1 - (xx ^ 2 + yy ^ 2))
  let phi := arcsin (cosC * sin c.phi0 + yy * cos c.phi0)
  let lam := arctan2 xx (cos c.phi0 * cosC - yy * sin c.phi0)
  (wrapLon (degrees (c.lambda0 + lam)), degrees phi)

end Verif.Oq
