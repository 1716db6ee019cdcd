import Verif.Model.PyNumber
import Verif.Model.Openquake

/-!
# The texts of a point of impactutils/extern/openquake/point.py
-/

namespace Verif.Oq
open Verif.Json (Text PyFloat floatText)

/-- `f'{x:.kf}'` of a float (impactutils/extern/openquake/point.py:195). -/
def fixedFloat (k : ℕ) : PyFloat → Text
  | .nan => "nan".toList
  | .inf neg => (if neg then ['-'] else []) ++ "inf".toList
  | .fin neg x _ => (if neg then ['-'] else []) ++ Time.fixedText k x

/-- `Point.__str__` and `Point.__repr__` (impactutils/extern/openquake/point.py:188-202) of a point with floats. -/
def pointText (lon lat depth : PyFloat) : Text :=
  "<Latitude=".toList ++ fixedFloat 6 lat ++ ", Longitude=".toList ++ fixedFloat 6 lon ++ ", Depth=".toList ++ fixedFloat 4 depth ++ ">".toList

/-- `Point.wkt2d` (impactutils/extern/openquake/point.py:86-92) of a point with floats, which are finite in a point. -/
def wkt2d (lon lat : PyFloat) : Text := "POINT(".toList ++ floatText lon ++ ' ' :: floatText lat ++ ")".toList

end Verif.Oq
