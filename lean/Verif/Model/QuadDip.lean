import Verif.Model.QuadWidth

/-!
# Directions and dips of quadrilaterals in binary arithmetic (impactutils/rupture/utils.py, impactutils/rupture/quad_rupture.py)

`Verif.Rup.quadNormal`, `Verif.Rup.verticalVector` and `Verif.Rup.quadDip` are the same functions with exact real numbers. `acos` is the arc cosine of numpy.
A vector that is `none` has components that are not numbers.
-/

namespace Verif.Dbl
open Verif.Rup (Quad)

/-- `get_quad_normal` (impactutils/rupture/utils.py:347-354). -/
def unitNormal (L : MathLib) (q : Quad GeoPoint) : Option D3 :=
  let p0 := fromPoint L q.p0
  let p1 := fromPoint L q.p1
  let p3 := fromPoint L q.p3
  let v1 := p1.sub p0
  let v2 := p3.sub p0
  (v2.cross v1).norm L.sq

/-- `get_quad_strike_vector` (impactutils/rupture/utils.py:368-372). -/
def strikeVector (L : MathLib) (q : Quad GeoPoint) : Option D3 := ((fromPoint L q.p1).sub (fromPoint L q.p0)).norm L.sq

/-- `get_quad_down_dip_vector` (impactutils/rupture/utils.py:387-393). -/
def downDipVector (L : MathLib) (q : Quad GeoPoint) : Option D3 :=
  (unitNormal L q).bind fun n => (((fromPoint L q.p1).sub (fromPoint L q.p0)).cross n).norm L.sq

/-- `get_vertical_vector` (impactutils/rupture/utils.py:408-414). -/
def verticalVector (L : MathLib) (q : Quad GeoPoint) : Option D3 :=
  let up : GeoPoint := { q.p0 with depth := rnd (q.p0.depth - 1) }
  ((fromPoint L up).sub (fromPoint L q.p0)).norm L.sq

/-- `get_quad_dip` (impactutils/rupture/utils.py:330-333); `none` is not a number: the arc cosine of a number above 1 or below -1. -/
def quadDip (L : MathLib) (dot : D3 → D3 → ℚ) (acos : ℚ → ℚ) (q : Quad GeoPoint) : Option ℚ :=
  (unitNormal L q).bind fun n => (verticalVector L q).bind fun v => if |dot n v| ≤ 1 then some (npDegrees (acos (dot n v))) else none

/-- The loop of `QuadRupture.getDip` (impactutils/rupture/quad_rupture.py:734-738). -/
def dipSum (L : MathLib) (dot : D3 → D3 → ℚ) (acos : ℚ → ℚ) (qs : List (Quad GeoPoint)) (s : Option ℚ) : Option ℚ :=
  qs.foldl (fun s q => s.bind fun s => (quadDip L dot acos q).map fun d => rnd (s + d)) s

/-- `QuadRupture.getDip` (impactutils/rupture/quad_rupture.py:734-740); `.error ()` is the `ZeroDivisionError` of a rupture without quadrilaterals, `.ok none` is not a
number. -/
def ruptureDip (L : MathLib) (dot : D3 → D3 → ℚ) (acos : ℚ → ℚ) (qs : List (Quad GeoPoint)) : Except Unit (Option ℚ) :=
  if qs.length = 0 then .error () else .ok ((dipSum L dot acos qs (some 0)).map fun s => rnd (s / qs.length))

end Verif.Dbl
