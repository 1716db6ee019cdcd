import Mathlib.Data.Rat.Floor

/-!
# The compass rose, independently of the program
-/

namespace Verif.Spec

/-- Short name, long name and bearing in degrees of the sixteen compass points. -/
def rose16 : List (String × String × ℚ) :=
  [("N", "North", 0), ("NNE", "North-northeast", 45 / 2), ("NE", "Northeast", 45),
   ("ENE", "East-northeast", 135 / 2), ("E", "East", 90), ("ESE", "East-southeast", 225 / 2),
   ("SE", "Southeast", 135), ("SSE", "South-southeast", 315 / 2), ("S", "South", 180),
   ("SSW", "South-southwest", 405 / 2), ("SW", "Southwest", 225),
   ("WSW", "West-southwest", 495 / 2), ("W", "West", 270), ("WNW", "West-northwest", 585 / 2),
   ("NW", "Northwest", 315), ("NNW", "North-northwest", 675 / 2)]

/-- Degrees between neighbouring points of a resolution. -/
def roseStep (resolution : String) : Option ℚ :=
  if resolution = "cardinal" then some 90
  else if resolution = "intercardinal" then some 45
  else if resolution = "meteorological" then some (45 / 2)
  else none

/-- `name` is the name, in the given format, of the point at `bearing` in the rose of the given
resolution. -/
def InRose (resolution format name : String) (bearing : ℚ) : Prop :=
  ∃ step, roseStep resolution = some step ∧ (∃ k : ℕ, bearing = k * step) ∧
    ∃ short long, (short, long, bearing) ∈ rose16 ∧
      ((format = "short" ∧ name = short) ∨ (format = "long" ∧ name = long))

/-- `d` is the angle between two directions (least absolute difference modulo 360). -/
def IsAngleBetween (a b d : ℚ) : Prop :=
  (∃ k : ℤ, d = |a - b + 360 * k|) ∧ ∀ k : ℤ, d ≤ |a - b + 360 * k|

end Verif.Spec
