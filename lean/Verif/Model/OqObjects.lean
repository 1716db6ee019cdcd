import Verif.Model.Openquake
import Verif.Model.OqPoints

/-!
# Model of the searches of impactutils/extern/openquake/utils.py

The index of `rtree`, `min_idx_dst` and the geometry of `shapely` are parameters.
-/

namespace Verif.Oq
open Real

/-- `OrthographicProjection.from_lons_lats` (impactutils/extern/openquake/utils.py:197-206) with the latitudes of
`get_spherical_bounding_box` (l.170). -/
noncomputable def projOf (at_ : ℝ → ℝ → ℝ → ℝ → ℝ × ℝ) (lons lats : List ℝ) : Except BoxErr Proj :=
  match pyMax lats, pyMin lats, boundingLons lons with
  | some north, some south, .ok (west, east) =>
    let m := middlePoint at_ west north east south
    .ok ⟨radians m.1, radians m.2⟩
  | _, _, .error e => .error e
  | _, _, _ => .error .value

/-- The projection of an array: `ValueError` if one of the points is on the other side of the earth. -/
noncomputable def Proj.forwardAll (c : Proj) : List (ℝ × ℝ) → Except BoxErr (List (ℝ × ℝ))
  | [] => .ok []
  | (lon, lat) :: ps =>
    match c.forward lon lat, c.forwardAll ps with
    | some q, .ok qs => .ok (q :: qs)
    | _, _ => .error .value

/-- `GeographicObjects.__init__` and `get_closest` with `rtree` (impactutils/extern/openquake/utils.py:49-77, 82); an object is its place in the
list `places` of longitudes and latitudes; `nearest` is the index of `rtree`. -/
noncomputable def closestTree (at_ : ℝ → ℝ → ℝ → ℝ → ℝ × ℝ) (nearest : List (ℝ × ℝ) → ℝ × ℝ → ℕ) (places : List (ℝ × ℝ)) (lon lat : ℝ) :
    Except BoxErr (ℕ × ℝ) := do
  let proj ← projOf at_ (places.map Prod.fst) (places.map Prod.snd)
  let pts ← proj.forwardAll places
  match proj.forward lon lat with
  | none => throw .value
  | some q =>
    let idx := nearest pts q
    let p := places.getD idx (0, 0)
    return (idx, geodeticDistance lon lat p.1 p.2)

/-- `get_closest` without `rtree` (impactutils/extern/openquake/utils.py:78-82); `minIdx` is `min_idx_dst`, given the places, their depths and
the place looked for. -/
noncomputable def closestScan (minIdx : List (ℝ × ℝ) → ℝ × ℝ → ℕ × ℝ) (places : List (ℝ × ℝ)) (lon lat : ℝ) : ℕ × ℝ :=
  minIdx places (lon, lat)

/-- `line_intersects_itself` (impactutils/extern/openquake/utils.py:100-136) for lists of one length; `simple` is `is_simple` of a
`shapely` line. -/
noncomputable def lineIntersectsItself (at_ : ℝ → ℝ → ℝ → ℝ → ℝ × ℝ) (simple : List (ℝ × ℝ) → Bool) (places : List (ℝ × ℝ)) (closed : Bool) :
    Except BoxErr Bool :=
  if places.length ≤ 3 then .ok false
  else do
    let proj ← projOf at_ (places.map Prod.fst) (places.map Prod.snd)
    let pts ← proj.forwardAll places
    if !simple pts then return true
    if closed then
      let rolled ← proj.forwardAll (places.rotate (places.length - 1))
      if !simple rolled then return true
    return false

/-- `point_to_polygon_distance` (impactutils/extern/openquake/utils.py:407-433) for a list of points; `dist` is the distance of `shapely`
between the polygon and a point. -/
def pointToPolygonDistance (dist : ℝ × ℝ → ℝ) (pts : List (ℝ × ℝ)) : List ℝ := pts.map dist

end Verif.Oq
