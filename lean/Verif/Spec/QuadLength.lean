import Verif.Spec.EcefDouble
import Verif.Model.QuadLength

/-!
# Lengths of top edges, for C205
-/

namespace Verif.Spec
open Verif.Dbl (GeoPoint)
open Verif.Rup (Quad)

/-- `ℓ` is the length in kilometres of the straight line between the first two corners of a quadrilateral. -/
def TopEdge (q : Quad GeoPoint) (ℓ : ℝ) : Prop :=
  ∃ x y z x' y' z' : ℝ, Geodetic q.p0.lat q.p0.lon q.p0.depth x y z ∧ Geodetic q.p1.lat q.p1.lon q.p1.depth x' y' z' ∧
    1000 * ℓ = √((x' - x) ^ 2 + (y' - y) ^ 2 + (z' - z) ^ 2)

/-- A point of a rupture: a latitude, a longitude and a depth of up to 1000 km. -/
def PlaceOnEarth (p : GeoPoint) : Prop := |p.lat| ≤ 90 ∧ |p.lon| ≤ 180 ∧ |p.depth| ≤ 1000

/-- The quadrilateral on the other side of the equator. -/
def mirrored (q : Quad GeoPoint) : Quad GeoPoint :=
  ⟨{ q.p0 with lat := -q.p0.lat }, { q.p1 with lat := -q.p1.lat }, { q.p2 with lat := -q.p2.lat }, { q.p3 with lat := -q.p3.lat }⟩

end Verif.Spec
