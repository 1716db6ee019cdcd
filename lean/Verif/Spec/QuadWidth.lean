import Verif.Spec.QuadDistDouble
import Verif.Model.QuadWidth

/-!
# Widths of quadrilaterals, for C220
-/

namespace Verif.Spec
open Verif.Dbl (GeoPoint D3)
open Verif.Rup (Quad)

/-- `w` is the distance in kilometres of the last corner from the straight line through the first two. -/
def WidthIs (q : Quad GeoPoint) (w : ℝ) : Prop := 0 ≤ w ∧ ∃ c, CornersAt q c ∧ IsMinDistSq (line c.p0 c.p1) c.p3 ((1000 * w) ^ 2)

/-- A quadrilateral on the earth with a top edge and a width of at least one metre: with the top edge `a` and the edge `b` to the last corner, (a + b)b is at most
`k` times a times the width. Of a rectangle twice as long as wide, `k` is 3/2. -/
def Proportions (k : ℝ) (q : Quad GeoPoint) : Prop :=
  QuadOnEarth q ∧ ∀ c, CornersAt q c → 1 ≤ √(distSq c.p0 c.p1) ∧ ∀ y ∈ line c.p0 c.p1, 1 ≤ √(distSq c.p3 y) ∧
    (√(distSq c.p0 c.p1) + √(distSq c.p0 c.p3)) * √(distSq c.p0 c.p3) ≤ k * (√(distSq c.p0 c.p1) * √(distSq c.p3 y))

/-- An inner product of the library: the products are added in some order, and may be rounded before. -/
def InnerProduct (dot : D3 → D3 → ℚ) : Prop := ∀ a b, dot a b ∈ a.dots b

end Verif.Spec
