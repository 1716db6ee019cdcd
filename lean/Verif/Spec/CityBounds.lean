import Verif.Model.Cities

/-!
# The smallest box around cities
-/

namespace Verif.Spec
open Verif.Cities

/-- All cities lie in the box, on its edges or within. -/
def AllIn (cs : List City) (xmin xmax ymin ymax : ℚ) : Prop := ∀ c ∈ cs, xmin ≤ c.lon ∧ c.lon ≤ xmax ∧ ymin ≤ c.lat ∧ c.lat ≤ ymax

/-- The box is inside every box with all the cities, and has them all itself. -/
def SmallestBox (cs : List City) (xmin xmax ymin ymax : ℚ) : Prop :=
  AllIn cs xmin xmax ymin ymax ∧ ∀ a b c d, AllIn cs a b c d → a ≤ xmin ∧ xmax ≤ b ∧ c ≤ ymin ∧ ymax ≤ d

end Verif.Spec
