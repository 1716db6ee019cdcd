import Verif.Model.QuadDistDouble

/-!
# Widths and areas of ruptures in binary arithmetic (impactutils/rupture/utils.py, impactutils/rupture/quad_rupture.py)

`Verif.Rup.quadWidth` and `Verif.Rup.getWidth` are the same functions with exact real numbers. `dot` is the inner product of the library, one of the values in
`D3.dots`.
-/

namespace Verif.Dbl
open Verif.Rup (Quad)

/-- `get_quad_width` (impactutils/rupture/utils.py:76-85); `none` if the length of the vector is zero: the result is then not a number. -/
def quadWidth (L : MathLib) (dot : D3 → D3 → ℚ) (q : Quad GeoPoint) : Option ℚ :=
  let p0 := fromPoint L q.p0
  let p1 := fromPoint L q.p1
  let p3 := fromPoint L q.p3
  let AB := p0.sub p1
  let AC := p0.sub p3
  (((AB.cross AC).cross AB).norm L.sq).map fun t1 => rnd (dot t1 AC / 1000)

/-- `QuadRupture.getIndividualWidths` (impactutils/rupture/quad_rupture.py:750-755); `none` is not a number. -/
def eachWidth (L : MathLib) (dot : D3 → D3 → ℚ) (qs : List (Quad GeoPoint)) : List (Option ℚ) := qs.map (quadWidth L dot)

/-- The loop of `QuadRupture.getWidth` (impactutils/rupture/quad_rupture.py:177-179); `none` is not a number. -/
def widthSum (L : MathLib) (dot : D3 → D3 → ℚ) (qs : List (Quad GeoPoint)) (s : Option ℚ) : Option ℚ :=
  qs.foldl (fun s q => s.bind fun s => (quadWidth L dot q).map fun w => rnd (s + w)) s

/-- `QuadRupture.getWidth` (impactutils/rupture/quad_rupture.py:177-181); `.error ()` is the `ZeroDivisionError` of a rupture without quadrilaterals, `.ok none` is not
a number. -/
def ruptureWidth (L : MathLib) (dot : D3 → D3 → ℚ) (qs : List (Quad GeoPoint)) : Except Unit (Option ℚ) :=
  if qs.length = 0 then .error () else .ok ((widthSum L dot qs (some 0)).map fun s => rnd (s / qs.length))

/-- `QuadRupture.getArea` (impactutils/rupture/quad_rupture.py:191-196); `none` is not a number. -/
def ruptureArea (L : MathLib) (dot : D3 → D3 → ℚ) (qs : List (Quad GeoPoint)) : Option ℚ :=
  qs.foldl (fun s q => s.bind fun s => (quadWidth L dot q).map fun w => rnd (s + rnd (w * quadLength L q))) (some 0)

end Verif.Dbl
