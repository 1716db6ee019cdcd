import Verif.Model.Vector

/-!
# Distances to sets of points

Only the coordinates of `V3` are used here, none of its operations.
-/

namespace Verif.Spec
open Verif.Vec Real

/-- Squared Euclidean distance. -/
noncomputable def distSq (a b : V3) : ℝ := (a.x - b.x) ^ 2 + (a.y - b.y) ^ 2 + (a.z - b.z) ^ 2

/-- `d` is the squared distance from `x` to the nearest point of the set `S`. -/
def IsMinDistSq (S : Set V3) (x : V3) (d : ℝ) : Prop :=
  (∃ y ∈ S, distSq x y = d) ∧ ∀ y ∈ S, d ≤ distSq x y

/-- The point `a + s(b - a) + t(c - a)`. -/
noncomputable def combine (a b c : V3) (s t : ℝ) : V3 :=
  ⟨a.x + s * (b.x - a.x) + t * (c.x - a.x), a.y + s * (b.y - a.y) + t * (c.y - a.y),
   a.z + s * (b.z - a.z) + t * (c.z - a.z)⟩

/-- The plane through three points. -/
def plane (a b c : V3) : Set V3 := {p | ∃ s t : ℝ, p = combine a b c s t}

/-- The line through two points. -/
def line (a b : V3) : Set V3 := {p | ∃ s : ℝ, p = combine a b a s 0}

/-- The segment between two points. -/
def segment (a b : V3) : Set V3 := {p | ∃ s : ℝ, 0 ≤ s ∧ s ≤ 1 ∧ p = combine a b a s 0}

/-- The points are not on a line. -/
def NonCollinear (a b c : V3) : Prop := ∀ s t : ℝ, combine a b c s t = a → s = 0 ∧ t = 0

/-- The weighted mean of four points. -/
noncomputable def mean4 (a b c d : V3) (w0 w1 w2 w3 : ℝ) : V3 :=
  ⟨w0 * a.x + w1 * b.x + w2 * c.x + w3 * d.x, w0 * a.y + w1 * b.y + w2 * c.y + w3 * d.y,
   w0 * a.z + w1 * b.z + w2 * c.z + w3 * d.z⟩

/-- The surface spanned by four corners: all their weighted means. -/
def surfaceOf (a b c d : V3) : Set V3 :=
  {p | ∃ w0 w1 w2 w3 : ℝ, 0 ≤ w0 ∧ 0 ≤ w1 ∧ 0 ≤ w2 ∧ 0 ≤ w3 ∧ w0 + w1 + w2 + w3 = 1 ∧
    p = mean4 a b c d w0 w1 w2 w3}

/-- The corners `a`, `b`, `c`, `d`, taken around, lie in a plane and each of the corners turns the same
way: seen from `a`, with `b - a` and `d - a` as directions, the corner `c` lies beyond the line through `b`
and `d`, between the two directions. -/
def ConvexPlanar (a b c d : V3) : Prop :=
  NonCollinear a b d ∧ ∃ α β : ℝ, 0 < α ∧ 0 < β ∧ 1 < α + β ∧ c = combine a b d α β

end Verif.Spec
