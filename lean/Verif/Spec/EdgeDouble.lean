import Verif.Spec.QuadLength
import Verif.Spec.Geometry

/-!
# Points of quadrilaterals between places of the earth, for C207
-/

namespace Verif.Spec
open Verif.Dbl (GeoPoint)
open Verif.Rup (Quad)
open Verif.Vec (V3)

/-- The place of a longitude, a latitude and a depth, in metres from the centre of the earth. -/
def PlacedAt (p : GeoPoint) (v : V3) : Prop := Geodetic p.lat p.lon p.depth v.x v.y v.z

/-- The places of the four corners. -/
def CornersAt (q : Quad GeoPoint) (c : Quad V3) : Prop := PlacedAt q.p0 c.p0 ∧ PlacedAt q.p1 c.p1 ∧ PlacedAt q.p2 c.p2 ∧ PlacedAt q.p3 c.p3

/-- All corners are places of the earth. -/
def QuadOnEarth (q : Quad GeoPoint) : Prop := PlaceOnEarth q.p0 ∧ PlaceOnEarth q.p1 ∧ PlaceOnEarth q.p2 ∧ PlaceOnEarth q.p3

/-- The same longitudes and latitudes with depth 0. -/
def MovedUp (q r : Quad GeoPoint) : Prop := ∀ a b, (a, b) ∈ [(q.p0, r.p0), (q.p1, r.p1), (q.p2, r.p2), (q.p3, r.p3)] → b.lon = a.lon ∧ b.lat = a.lat ∧ b.depth = 0

/-- The point at the part `t` of the way from the point at the part `s` of the top edge to that at the part `s` of the bottom edge. -/
noncomputable def sweptPoint (c : Quad V3) (s t : ℝ) : V3 := mean4 c.p0 c.p1 c.p2 c.p3 ((1 - t) * (1 - s)) ((1 - t) * s) (t * s) (t * (1 - s))

/-- The distance of two points in kilometres. -/
noncomputable def kilometres (a b : V3) : ℝ := √(distSq a b) / 1000

/-- The lengths in kilometres of the longer ones of two opposite sides: along the strike and down the dip. -/
noncomputable def longSide (c : Quad V3) : ℝ := max (kilometres c.p0 c.p1) (kilometres c.p3 c.p2)
noncomputable def deepSide (c : Quad V3) : ℝ := max (kilometres c.p0 c.p3) (kilometres c.p1 c.p2)

/-- A function that gives the mean of nonnegative numbers up to a hundred times the error of one operation. -/
def MeanTo (u : ℝ) (mean : List ℚ → ℚ) : Prop :=
  ∀ l : List ℚ, l ≠ [] → (∀ x ∈ l, 0 ≤ x) → 0 ≤ mean l ∧ |(mean l : ℝ) - (l.map fun x : ℚ => (x : ℝ)).sum / l.length| ≤ 100 * u * ((l.map fun x : ℚ => (x : ℝ)).sum / l.length) + u

end Verif.Spec
