import Mathlib.Analysis.Convex.Segment
import Mathlib.Data.Real.Basic

/-!
# Lines and polygons that do not cross themselves, nearest points

Points of the plane are pairs of real numbers.
-/

namespace Verif.Spec

/-- Two different edges of the line through the points meet only where the second follows the first, in their common point. A line whose last
point is its first one may meet itself there. -/
def SimpleLine (pts : List (ℝ × ℝ)) : Prop :=
  ∀ (i j : ℕ) (a b c d x : ℝ × ℝ), pts[i]? = some a → pts[i + 1]? = some b → pts[j]? = some c → pts[j + 1]? = some d → i < j →
    x ∈ segment ℝ a b → x ∈ segment ℝ c d → (j = i + 1 ∧ x = c) ∨ (i = 0 ∧ j + 2 = pts.length ∧ x = a ∧ a = d)

/-- Two different edges of the polygon with these corners, the last of which is followed by the first, meet only in a common corner. -/
def SimplePolygon (pts : List (ℝ × ℝ)) : Prop :=
  ∀ (i j : ℕ) (a b c d x : ℝ × ℝ), pts[i]? = some a → pts[(i + 1) % pts.length]? = some b → pts[j]? = some c →
    pts[(j + 1) % pts.length]? = some d → i < j → x ∈ segment ℝ a b → x ∈ segment ℝ c d →
    (j = i + 1 ∧ x = c) ∨ (i = 0 ∧ j + 1 = pts.length ∧ x = a)

/-- No point is followed by itself. -/
def NoRepeat (pts : List (ℝ × ℝ)) : Prop := ∀ (i : ℕ) (a : ℝ × ℝ), pts[i]? = some a → pts[i + 1]? ≠ some a

/-- A test that finds out whether a line without repeated points crosses itself. -/
def DecidesSimple (simple : List (ℝ × ℝ) → Bool) : Prop := ∀ pts, NoRepeat pts → (simple pts = true ↔ SimpleLine pts)

/-- The number of a point nearest to `q`. -/
def IsNearest (pts : List (ℝ × ℝ)) (q : ℝ × ℝ) (i : ℕ) : Prop :=
  ∃ p, pts[i]? = some p ∧ ∀ p' ∈ pts, (p.1 - q.1) ^ 2 + (p.2 - q.2) ^ 2 ≤ (p'.1 - q.1) ^ 2 + (p'.2 - q.2) ^ 2

end Verif.Spec
