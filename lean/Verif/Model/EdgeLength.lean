import Verif.Model.EdgeArea
import Verif.Model.OqDouble

/-!
# Lengths and widths of ruptures of edges in binary arithmetic (impactutils/rupture/edge_rupture.py)

`Verif.EdgeR.getLength` and `Verif.EdgeR.getWidth` are the same functions with exact real numbers.
-/

namespace Verif.Dbl
open Verif.Rup (Quad)

/-- `P0.distance(P1)` of the points without depth over the two upper corners (impactutils/rupture/edge_rupture.py:202-204); `none` is not a number. -/
def surfaceStep (L : MathLib) (q : Quad GeoPoint) : Option ℚ := depthDistance L q.p0.lon q.p0.lat 0 q.p1.lon q.p1.lat 0

/-- The sum of `EdgeRupture.getLength` (impactutils/rupture/edge_rupture.py:183-206) over the quadrilaterals that it visits; `none` is not a number. -/
def edgeLength (L : MathLib) (qs : List (Quad GeoPoint)) : Option ℚ :=
  qs.foldl (fun s q => s.bind fun s => (surfaceStep L q).map fun d => rnd (s + d)) (some 0)

/-- `EdgeRupture.getWidth` (impactutils/rupture/edge_rupture.py:208-218). Without quadrilaterals, area and length are the integer 0, and `.error ()` is the `ZeroDivisionError`;
`.ok none` is infinite or not a number. -/
def edgeWidth (L : MathLib) (qs : List (Quad GeoPoint)) : Except Unit (Option ℚ) :=
  if qs.length = 0 then .error ()
  else .ok ((edgeArea L qs).bind fun area => (edgeLength L qs).bind fun length => if length = 0 then none else some (rnd (area / length)))

end Verif.Dbl
