import Mathlib.Data.Matrix.Mul
import Verif.Model.Openquake

/-!
# More of impactutils/extern/openquake/point.py and utils.py

`at_` stands for `geodetic.point_at` of the `openquake` library: longitude, latitude, azimuth and distance to longitude
and latitude. It is not part of the repository.
-/

namespace Verif.Oq
open Real

/-- `Point.point_at` (impactutils/extern/openquake/point.py:94-120). -/
noncomputable def Pt.pointAt (at_ : ℝ → ℝ → ℝ → ℝ → ℝ × ℝ) (p : Pt) (horizontal vertical az : ℝ) : Except String Pt :=
  let q := at_ p.lon p.lat az horizontal
  mkPoint q.1 q.2 (p.depth + vertical)

/-- A mesh: longitudes and latitudes, and depths if there are any. -/
structure Mesh where
  places : List (ℝ × ℝ)
  depths : Option (List ℝ)

/-- The points of a mesh with their depths, 0 if there are none
(impactutils/extern/openquake/point.py:177-181, 301). -/
def Mesh.points (m : Mesh) : List Pt :=
  match m.depths with
  | none => m.places.map fun q => ⟨q.1, q.2, 0⟩
  | some ds => List.zipWith (fun q d => ⟨q.1, q.2, d⟩) m.places ds

/-- `Point.distance_to_mesh` (impactutils/extern/openquake/point.py:160-186). -/
noncomputable def Pt.distanceToMesh (p : Pt) (m : Mesh) (withDepths : Bool) : List ℝ :=
  if withDepths then m.points.map fun q => distance p.lon p.lat p.depth q.lon q.lat q.depth
  else m.places.map fun q => geodeticDistance p.lon p.lat q.1 q.2

/-- `Point.closer_than` (impactutils/extern/openquake/point.py:282-302). -/
noncomputable def Pt.closerThan (p : Pt) (m : Mesh) (radius : ℝ) : List Bool :=
  open Classical in
  m.points.map fun q => decide (distance p.lon p.lat p.depth q.lon q.lat q.depth ≤ radius)

/-- `get_middle_point` (impactutils/extern/openquake/utils.py:292-306). -/
noncomputable def middlePoint (at_ : ℝ → ℝ → ℝ → ℝ → ℝ × ℝ) (lon1 lat1 lon2 lat2 : ℝ) : ℝ × ℝ :=
  if lon1 = lon2 ∧ lat1 = lat2 then (lon1, lat1)
  else at_ lon1 lat1 (azimuth lon1 lat1 lon2 lat2) (geodeticDistance lon1 lat1 lon2 lat2 / 2)

/-- The centre of a list of points, `points.mean(axis=1)`. -/
noncomputable def centre (pts : List (Fin 3 → ℝ)) : Fin 3 → ℝ := fun i => (pts.map (· i)).sum / pts.length

/-- The matrix `M` of `plane_fit` (impactutils/extern/openquake/utils.py:477-479). -/
noncomputable def scatter (pts : List (Fin 3 → ℝ)) : Matrix (Fin 3) (Fin 3) ℝ :=
  Matrix.of fun i j => (pts.map fun p => (p i - centre pts i) * (p j - centre pts j)).sum

/-- `plane_fit` (impactutils/extern/openquake/utils.py:463-480) for points with three coordinates: the centre and the
last column of the first factor of `numpy.linalg.svd`, which is the function `svd`. Three or fewer points are an
`AssertionError`. -/
noncomputable def planeFit (svd : Matrix (Fin 3) (Fin 3) ℝ → Matrix (Fin 3) (Fin 3) ℝ) (pts : List (Fin 3 → ℝ)) :
    Option ((Fin 3 → ℝ) × (Fin 3 → ℝ)) :=
  if 3 < pts.length then some (centre pts, fun i => svd (scatter pts) i 2) else none

end Verif.Oq
