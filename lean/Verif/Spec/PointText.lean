import Verif.Model.Openquake
import Verif.Model.PyNumber

/-!
# Points with floats as coordinates, for C213
-/

namespace Verif.Spec
open Verif.Json (PyFloat)

/-- The floats `lon`, `lat` and `depth` are finite, a point can be made of them, and it is `p`. -/
def FloatPoint (lon lat depth : PyFloat) (p : Oq.Pt) : Prop :=
  ∃ a b c : ℚ, Num.finite lon = some a ∧ Num.finite lat = some b ∧ Num.finite depth = some c ∧ Oq.mkPoint a b c = .ok p

end Verif.Spec
