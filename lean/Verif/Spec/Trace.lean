import Verif.Model.RuptureUtils
import Verif.Spec.Sphere

/-!
# Quadrilaterals built from a top edge

Points are compared in the plane that touches the sphere at (`lon0`, `lat0`): east and north there, in km.
-/

namespace Verif.Spec
open Real Verif.Rup

/-- East and north of a point, seen from far above (`lon0`, `lat0`), in km. -/
noncomputable def eastKm (lon0 : ℝ) (p : Point) : ℝ := 6371 * eastOf lon0 p.lon p.lat
noncomputable def northKm (lon0 lat0 : ℝ) (p : Point) : ℝ := 6371 * northOf lon0 lat0 p.lon p.lat

/-- A point is on the half of the earth around (`lon0`, `lat0`). -/
noncomputable def Near (lon0 lat0 : ℝ) (p : Point) : Prop := greatCircle lon0 lat0 p.lon p.lat ≤ 6371 * (π / 2)

/-- `q` lies down dip of `p` for a strike and dip in degrees: `width` km along a line that dips at `dip` to the right
of the strike. -/
def DownDip (lon0 lat0 strike dip width : ℝ) (p q : Point) : Prop :=
  Near lon0 lat0 q ∧
  eastKm lon0 q = eastKm lon0 p + width * cos (rad dip) * sin (rad (strike + 90)) ∧
  northKm lon0 lat0 q = northKm lon0 lat0 p + width * cos (rad dip) * cos (rad (strike + 90)) ∧
  q.depth = p.depth + width * sin (rad dip)

/-- There is such a point on the half of the earth: the place is inside the disk. -/
def HasRoom (lon0 lat0 strike dip width : ℝ) (p : Point) : Prop :=
  (eastKm lon0 p + width * cos (rad dip) * sin (rad (strike + 90))) ^ 2 +
  (northKm lon0 lat0 p + width * cos (rad dip) * cos (rad (strike + 90))) ^ 2 ≤ 6371 ^ 2

/-- The strike of the edge from `p` to `q`. -/
def EdgeStrike (lon0 lat0 : ℝ) (p q : Point) (strike : ℝ) : Prop :=
  ∃ L : ℝ, 0 ≤ L ∧ eastKm lon0 q - eastKm lon0 p = L * sin (rad strike) ∧
    northKm lon0 lat0 q - northKm lon0 lat0 p = L * cos (rad strike)

end Verif.Spec
