import Verif.Model.QuadLength

/-!
# Areas of ruptures of edges in binary arithmetic (impactutils/rupture/edge_rupture.py)

`Verif.EdgeR.heron` and `Verif.EdgeR.getArea` are the same functions with exact real numbers. Here every operation is rounded.
-/

namespace Verif.Dbl
open Verif.Rup (Quad)

/-- Heron's formula (impactutils/rupture/edge_rupture.py:260-261 and 271-272); `none` for the root of a negative number, which is not a number. -/
def heronArea (a b c : ℚ) : Option ℚ :=
  let s := rnd (rnd (rnd (a + b) + c) / 2)
  let x := rnd (rnd (rnd (s * rnd (s - a)) * rnd (s - b)) * rnd (s - c))
  if x < 0 then none else some (sqrtRnd x)

/-- The length of the side from `q` to `p` (impactutils/rupture/edge_rupture.py:251-259 and 262-270). -/
def sideLength (L : MathLib) (p q : D3) : ℚ := (p.sub q).mag L.sq

/-- `(A1 + A2) / 1000 / 1000` of one quadrilateral (impactutils/rupture/edge_rupture.py:239-273), in square kilometres; `none` is not a number. -/
def pairArea (L : MathLib) (q : Quad GeoPoint) : Option ℚ :=
  let p0 := latlon2ecef L q.p0.lat q.p0.lon q.p0.depth
  let p1 := latlon2ecef L q.p1.lat q.p1.lon q.p1.depth
  let p2 := latlon2ecef L q.p2.lat q.p2.lon q.p2.depth
  let p3 := latlon2ecef L q.p3.lat q.p3.lon q.p3.depth
  (heronArea (sideLength L p1 p0) (sideLength L p2 p0) (sideLength L p2 p1)).bind fun A1 =>
    (heronArea (sideLength L p0 p3) (sideLength L p2 p3) (sideLength L p0 p2)).map fun A2 => rnd (rnd (rnd (A1 + A2) / 1000) / 1000)

/-- The sum of `EdgeRupture.getArea` (impactutils/rupture/edge_rupture.py:220-274) over the quadrilaterals that it visits; `none` is not a number. -/
def edgeArea (L : MathLib) (qs : List (Quad GeoPoint)) : Option ℚ :=
  qs.foldl (fun s q => s.bind fun s => (pairArea L q).map fun a => rnd (s + a)) (some 0)

end Verif.Dbl
