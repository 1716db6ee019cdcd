import Verif.Spec.EdgeDouble

/-!
# Sums of three numbers, vectors of doubles as real vectors and quadrilaterals of a good shape, for C208 and C209
-/

namespace Verif.Spec
open Verif.Dbl (D3 GeoPoint)
open Verif.Rup (Quad)
open Verif.Vec (V3)

/-- The real vector with these components. -/
noncomputable def exactly (d : D3) : V3 := ⟨d.x, d.y, d.z⟩

/-- The distance of a point from the origin. -/
noncomputable def fromOrigin (v : V3) : ℝ := √(v.x ^ 2 + v.y ^ 2 + v.z ^ 2)

/-- A function that adds three numbers with the errors of a few roundings, and zeros without error. -/
def SumTo (u : ℝ) (sum : ℚ → ℚ → ℚ → ℚ) : Prop :=
  sum 0 0 0 = 0 ∧ ∀ a b c : ℚ, |(sum a b c : ℝ) - (a + b + c)| ≤ 3 * u * (|(a : ℝ)| + |(b : ℝ)| + |(c : ℝ)|) + 2 ^ (-1073 : ℤ)

/-- No component is larger than `M` in absolute value. -/
def Within (M : ℝ) (d : D3) : Prop := |(d.x : ℝ)| ≤ M ∧ |(d.y : ℝ)| ≤ M ∧ |(d.z : ℝ)| ≤ M

/-- The corners lie in a plane and turn the same way; somewhere in the surface there is room for a disc of radius `r`; the sides, and the heights of the triangle of
the first three corners, are at least `r`; no two points of the surface are farther apart than `l`. -/
structure WellShaped (r l : ℝ) (q : Quad V3) : Prop where
  convex : ConvexPlanar q.p0 q.p1 q.p2 q.p3
  room : ∃ z ∈ plane q.p0 q.p1 q.p2, ∀ y ∈ plane q.p0 q.p1 q.p2, √(distSq z y) ≤ r → y ∈ surfaceOf q.p0 q.p1 q.p2 q.p3
  sides : r ≤ √(distSq q.p0 q.p1) ∧ r ≤ √(distSq q.p1 q.p2) ∧ r ≤ √(distSq q.p2 q.p3) ∧ r ≤ √(distSq q.p3 q.p0)
  heights : (∀ y ∈ line q.p0 q.p1, r ≤ √(distSq q.p2 y)) ∧ ∀ y ∈ line q.p0 q.p2, r ≤ √(distSq q.p1 y)
  size : ∀ y ∈ surfaceOf q.p0 q.p1 q.p2 q.p3, ∀ z ∈ surfaceOf q.p0 q.p1 q.p2 q.p3, √(distSq y z) ≤ l

/-- `c` is a flat quadrilateral of a good shape with corners at most `e` metres from the places of the corners of `q`. -/
def FlatWithin (e r l : ℝ) (q : Quad GeoPoint) (c : Quad V3) : Prop :=
  QuadOnEarth q ∧ WellShaped r l c ∧
    ∃ p, CornersAt q p ∧ √(distSq p.p0 c.p0) ≤ e ∧ √(distSq p.p1 c.p1) ≤ e ∧ √(distSq p.p2 c.p2) ≤ e ∧ √(distSq p.p3 c.p3) ≤ e

/-- No corner is farther than `X` metres from a point. -/
def CornersIn (X : ℝ) (y : V3) (c : Quad V3) : Prop := √(distSq y c.p0) ≤ X ∧ √(distSq y c.p1) ≤ X ∧ √(distSq y c.p2) ≤ X ∧ √(distSq y c.p3) ≤ X

/-- The foot of the perpendicular from `y` to the plane of the quadrilateral: the point of the plane that is nearest. -/
def FootOf (c : Quad V3) (y f : V3) : Prop := f ∈ plane c.p0 c.p1 c.p2 ∧ ∀ p ∈ plane c.p0 c.p1 c.p2, distSq y f ≤ distSq y p

/-- The foot of the perpendicular is at most `t` metres from the surface. -/
def NearlyOver (t : ℝ) (c : Quad V3) (y : V3) : Prop := ∃ f, FootOf c y f ∧ ∃ z ∈ surfaceOf c.p0 c.p1 c.p2 c.p3, √(distSq f z) ≤ t

/-- All points of the plane that are at most `t` metres from the foot of the perpendicular belong to the surface. -/
def WellOver (t : ℝ) (c : Quad V3) (y : V3) : Prop := ∃ f, FootOf c y f ∧ ∀ p ∈ plane c.p0 c.p1 c.p2, √(distSq f p) ≤ t → p ∈ surfaceOf c.p0 c.p1 c.p2 c.p3

end Verif.Spec
