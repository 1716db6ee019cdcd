import Verif.Spec.EdgeDouble
import Verif.Model.EdgeArea

/-!
# Areas of quadrilaterals that need not be plane, for C222
-/

namespace Verif.Spec
open Verif.Dbl (GeoPoint)
open Verif.Rup (Quad)
open Verif.Vec (V3)

/-- `A` is the area of the triangle with these corners: half the product of a side and the height over it. -/
def TriangleArea (a b c : V3) (A : ℝ) : Prop := ∃ h, 0 ≤ h ∧ IsMinDistSq (line a b) c (h ^ 2) ∧ A = √(distSq a b) * h / 2

/-- The sum of the three sides. -/
noncomputable def perimeter (a b c : V3) : ℝ := √(distSq a b) + √(distSq b c) + √(distSq c a)

/-- `A` is the area in square kilometres of the two triangles on the sides of the diagonal from the first corner to the third. -/
def FoldedArea (q : Quad GeoPoint) (A : ℝ) : Prop :=
  ∃ c S T, CornersAt q c ∧ TriangleArea c.p0 c.p1 c.p2 S ∧ TriangleArea c.p0 c.p2 c.p3 T ∧ A = (S + T) / 1000000

/-- The corners are places of the earth, and the sides of each of the two triangles sum to at least one metre and at most `B` kilometres. -/
def PerimetersUpTo (B : ℝ) (q : Quad GeoPoint) : Prop :=
  QuadOnEarth q ∧ ∀ c, CornersAt q c → (1 ≤ perimeter c.p0 c.p1 c.p2 ∧ perimeter c.p0 c.p1 c.p2 ≤ 1000 * B) ∧ 1 ≤ perimeter c.p0 c.p2 c.p3 ∧ perimeter c.p0 c.p2 c.p3 ≤ 1000 * B

/-- In each of the two triangles the square of the perimeter is at most `k` times the area. Of an equilateral triangle `k` is about 21, of half a square about 23. -/
def Stout (k : ℝ) (q : Quad GeoPoint) : Prop :=
  ∀ c, CornersAt q c → (∀ S, TriangleArea c.p0 c.p1 c.p2 S → perimeter c.p0 c.p1 c.p2 ^ 2 ≤ k * S) ∧ ∀ T, TriangleArea c.p0 c.p2 c.p3 T → perimeter c.p0 c.p2 c.p3 ^ 2 ≤ k * T

end Verif.Spec
