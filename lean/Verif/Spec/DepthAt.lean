import Mathlib.Data.Real.Basic
import Mathlib.Analysis.Real.Sqrt

/-!
# Distance from an edge in a plane
-/

namespace Verif.Spec

/-- `d` is the distance of `x` from the line through `a` and `b`, negative on the other side of the line than `c`. -/
def SideDistance (a b c x : ℝ × ℝ) (d : ℝ) : Prop :=
  ∃ n : ℝ × ℝ, n.1 ^ 2 + n.2 ^ 2 = 1 ∧ n.1 * (b.1 - a.1) + n.2 * (b.2 - a.2) = 0 ∧
    0 < n.1 * (c.1 - a.1) + n.2 * (c.2 - a.2) ∧ d = n.1 * (x.1 - a.1) + n.2 * (x.2 - a.2)

/-- `a`, `b`, `c` are not on a line of the plane. -/
def Triangle (a b c : ℝ × ℝ) : Prop := (b.1 - a.1) * (c.2 - a.2) ≠ (b.2 - a.2) * (c.1 - a.1)

end Verif.Spec
