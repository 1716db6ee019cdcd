import Verif.Spec.QuadWidth
import Verif.Model.QuadDip

/-!
# Directions and dips of quadrilaterals, for C221
-/

namespace Verif.Spec
open Verif.Dbl (GeoPoint D3)
open Verif.Rup (Quad)
open Verif.Vec (V3)

/-- The inner product. -/
def innerOf (a b : V3) : ℝ := a.x * b.x + a.y * b.y + a.z * b.z

/-- The determinant of three vectors: positive if they are right-handed. -/
def det (a b c : V3) : ℝ := a.x * (b.y * c.z - b.z * c.y) - a.y * (b.x * c.z - b.z * c.x) + a.z * (b.x * c.y - b.y * c.x)

/-- Each component of `a` is that of `b` up to `e`. -/
def AgreesTo (e : ℝ) (a : D3) (b : V3) : Prop := |(a.x : ℝ) - b.x| ≤ e ∧ |(a.y : ℝ) - b.y| ≤ e ∧ |(a.z : ℝ) - b.z| ≤ e

/-- The direction from one point to another. -/
def DirectionOf (a b d : V3) : Prop := innerOf d d = 1 ∧ ∃ t : ℝ, 0 < t ∧ b.sub a = d.mul t

/-- The unit vector at right angles to the plane of the corners `p0`, `p1` and `p3`, on the side from which the way from `p3` by `p0` to `p1` turns right. -/
def NormalOf (c : Quad V3) (n : V3) : Prop :=
  innerOf n n = 1 ∧ innerOf n (c.p1.sub c.p0) = 0 ∧ innerOf n (c.p3.sub c.p0) = 0 ∧ 0 < det (c.p3.sub c.p0) (c.p1.sub c.p0) n

/-- The unit vector in the plane of these corners that is at right angles to the top edge and leads to the side of `p3`. -/
def DownDipOf (c : Quad V3) (d : V3) : Prop :=
  innerOf d d = 1 ∧ innerOf d (c.p1.sub c.p0) = 0 ∧ (∃ s t : ℝ, 0 < t ∧ d = ((c.p1.sub c.p0).mul s).add ((c.p3.sub c.p0).mul t))

/-- Up, at a place. -/
noncomputable def upAt (p : GeoPoint) : V3 := ⟨(vertical p.lat p.lon).1, (vertical p.lat p.lon).2.1, (vertical p.lat p.lon).2.2⟩

/-- `θ` is the angle in degrees between the normal and the vertical of the first corner. -/
def DipIs (q : Quad GeoPoint) (θ : ℝ) : Prop :=
  0 ≤ θ ∧ θ ≤ 180 ∧ ∃ c n, CornersAt q c ∧ NormalOf c n ∧ Real.cos (θ * (Real.pi / 180)) = innerOf n (upAt q.p0)

/-- The edge from the first to the last corner is at least `b` metres long, and the first corner is not too far from the surface to move up a kilometre. -/
def SideAtLeast (b : ℝ) (q : Quad GeoPoint) : Prop := |q.p0.depth| ≤ 998 ∧ ∀ c, CornersAt q c → b ≤ √(distSq c.p0 c.p3)

/-- An arc cosine that is right to `u` times 4. -/
def ArcCosine (u : ℝ) (acos : ℚ → ℚ) : Prop := ∀ x : ℚ, |x| ≤ 1 → |(acos x : ℝ) - Real.arccos x| ≤ 4 * u

end Verif.Spec
