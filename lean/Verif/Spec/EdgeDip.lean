import Verif.Spec.EdgeArea
import Verif.Spec.QuadDip
import Verif.Model.EdgeDip

/-!
# The mean dip of quadrilaterals that need not be plane, for C224
-/

namespace Verif.Spec
open Verif.Dbl (GeoPoint)
open Verif.Rup (Quad)
open Verif.Vec (V3)

/-- A vector at right angles to the triangle, as long as the triangle is large. `C224_normal` proves that this is so. -/
noncomputable def areaVector (a b c : V3) : V3 := ((c.sub a).cross (b.sub a)).mul (1 / 2)

/-- `N` is the sum of the normals of all triangles, each as long as the triangle is large, and `U` the sum of the directions up at one corner of each triangle, each times the area. -/
inductive NormalAndUp : List (Quad GeoPoint) → V3 → V3 → Prop
  | nil : NormalAndUp [] ⟨0, 0, 0⟩ ⟨0, 0, 0⟩
  | cons {q c S T qs N U} : CornersAt q c → TriangleArea c.p0 c.p1 c.p2 S → TriangleArea c.p0 c.p2 c.p3 T → NormalAndUp qs N U →
      NormalAndUp (q :: qs) (((areaVector c.p0 c.p1 c.p2).add (areaVector c.p0 c.p2 c.p3)).add N) ((((upAt q.p1).mul S).add ((upAt q.p3).mul T)).add U)

/-- `θ` is the angle in degrees, of at most 90, between the lines along `N` and `U`. -/
def AngleOfLines (N U : V3) (θ : ℝ) : Prop := 0 ≤ θ ∧ θ ≤ 90 ∧ Real.cos (θ * (Real.pi / 180)) * (√(innerOf N N) * √(innerOf U U)) = |innerOf N U|

/-- Each of the two triangles is at least one square metre large, and the corners where up is measured are neither high in the air, nor at the centre of the earth, nor at the north pole. -/
def Roomy (q : Quad GeoPoint) : Prop :=
  (∀ c, CornersAt q c → (∀ S, TriangleArea c.p0 c.p1 c.p2 S → 1 ≤ S) ∧ ∀ T, TriangleArea c.p0 c.p2 c.p3 T → 1 ≤ T) ∧
    ∀ p, p = q.p1 ∨ p = q.p3 → -7 ≤ p.depth ∧ p.depth ≤ 998 ∧ p.lat ≤ 89

end Verif.Spec
