import Verif.Spec.Geometry
import Verif.Model.RuptureUtils

/-!
# The surface of a rupture of quadrilaterals

Of the model only positions, their ECEF coordinates (`fromPoint`, see C58 and C59) and vector arithmetic are
used here.
-/

namespace Verif.Spec
open Verif.Vec Verif.Rup

/-- The surface of a quadrilateral in ECEF coordinates. -/
def surfaceAt (q : Quad Point) : Set V3 :=
  surfaceOf (fromPoint q.p0) (fromPoint q.p1) (fromPoint q.p2) (fromPoint q.p3)

/-- The quadrilateral moved to depth 0. -/
def atSurface (q : Quad Point) : Quad Point :=
  ⟨⟨q.p0.lon, q.p0.lat, 0⟩, ⟨q.p1.lon, q.p1.lat, 0⟩, ⟨q.p2.lon, q.p2.lat, 0⟩, ⟨q.p3.lon, q.p3.lat, 0⟩⟩

/-- The corners of a quadrilateral are in a plane and turn the same way. -/
def ConvexAt (q : Quad Point) : Prop :=
  ConvexPlanar (fromPoint q.p0) (fromPoint q.p1) (fromPoint q.p2) (fromPoint q.p3)

/-- The line through a point at right angles to a quadrilateral meets it. -/
def Over (q : Quad Point) (x : V3) : Prop :=
  ∃ k : ℝ, x.add ((((fromPoint q.p1).sub (fromPoint q.p0)).cross
    ((fromPoint q.p3).sub (fromPoint q.p0))).mul k) ∈ surfaceAt q

/-- The area of a quadrilateral in a plane, in square km: half the cross product of its diagonals. -/
noncomputable def areaKm (q : Quad Point) : ℝ :=
  (((fromPoint q.p2).sub (fromPoint q.p0)).cross ((fromPoint q.p3).sub (fromPoint q.p1))).mag / 2 / 10 ^ 6

/-- The distance of two positions in km. -/
noncomputable def kmBetween (a b : Point) : ℝ := √(distSq (fromPoint a) (fromPoint b)) / 1000

end Verif.Spec
