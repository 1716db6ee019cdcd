import Mathlib.Data.Real.Basic


/-!
# Arrays with gaps
-/

namespace Verif.Spec

/-- An array that holds these groups of numbers, each with a `nan` at its end. -/
def Holds (xs : List (Option ℝ)) (groups : List (List ℝ)) : Prop := xs = (groups.map fun g => g.map some ++ [none]).flatten

/-- A depth of a point on the straight line between two vertices of an edge that follow each other. -/
def OnEdge (depths : List ℝ) (d : ℝ) : Prop := ∃ a b t, [a, b] <:+: depths ∧ 0 ≤ t ∧ t ≤ 1 ∧ d = (1 - t) * a + t * b

end Verif.Spec
