import Verif.Model.Cities
import Verif.Spec.Double

/-!
# Cells of a grid up to a margin

A grid of `n` strips over the interval from `lo` to `hi` has the borders `lo + (hi - lo) * j / n`.
-/

namespace Verif.Spec
open Verif.Cities

/-- Border number `j` of `n` equal strips from `lo` to `hi`. -/
def border (lo hi : ℚ) (n j : ℕ) : ℚ := lo + (hi - lo) * j / n

/-- `x` lies in strip `j`, its borders moved outwards by `e` (inwards if `e` is negative); the lower border of the first strip stays where it is. -/
def InStrip (e lo hi : ℚ) (n j : ℕ) (x : ℚ) : Prop :=
  border lo hi n j - (if j = 0 then 0 else e) < x ∧ x ≤ border lo hi n (j + 1) + e

/-- The rectangle that limitByGrid divides, and the numbers of columns and rows. -/
structure Grid where
  xmin : ℚ
  xmax : ℚ
  ymin : ℚ
  ymax : ℚ
  nx : ℕ
  ny : ℕ

/-- The city lies in row `i` and column `j` of the grid, up to a margin of `e` degrees. -/
def Grid.has (g : Grid) (e : ℚ) (i j : ℕ) (c : City) : Prop := InStrip e g.xmin g.xmax g.nx j c.lon ∧ InStrip e g.ymin g.ymax g.ny i c.lat

/-- No border but the lower one of the first strip is within `e` of `x`, and `x` is above that one. -/
def ClearOf (e lo hi : ℚ) (n : ℕ) (x : ℚ) : Prop := lo < x ∧ x ≤ hi ∧ ∀ j, 1 ≤ j → j ≤ n → e < |x - border lo hi n j|

/-- The coordinates of the cities are doubles of at most 360 degrees. -/
def DoubleTable (t : Table) : Prop := ∀ c ∈ t.rows, IsDouble c.lon ∧ IsDouble c.lat ∧ |c.lon| ≤ 360 ∧ |c.lat| ≤ 360

end Verif.Spec
