import Verif.Model.EdgeDouble

/-!
# Distances to segments and quadrilaterals in binary arithmetic (impactutils/rupture/utils.py, impactutils/rupture/quad_rupture.py)

`Verif.Rup.distanceSqToSegment` and `Verif.Rup.quadDistSq` are the same functions with exact real numbers. Here every operation is rounded. The order in which
`np.sum` adds three numbers, and the sign of a sum that is zero, are parameters.
-/

namespace Verif.Dbl
open Verif.Rup (Quad)

/-- `np.sum(a * b, axis=1)` for one row (impactutils/rupture/utils.py:463-466, 474, 569 and 573). -/
def rowSum (sum : ℚ → ℚ → ℚ → ℚ) (a b : D3) : ℚ := sum (rnd (a.x * b.x)) (rnd (a.y * b.y)) (rnd (a.z * b.z))

/-- `d[0]**2 + d[1]**2 + d[2]**2` for one row (impactutils/rupture/utils.py:556-557, 571, 575-576, 583-584): `**2` of an array rounds the products. -/
def squares (d : D3) : ℚ := rnd (rnd (rnd (d.x * d.x) + rnd (d.y * d.y)) + rnd (d.z * d.z))

/-- `_distance_sq_to_segment` (impactutils/rupture/utils.py:534-587) for one row. The assignments to `dist` are made in this order, later ones replace earlier
ones. -/
def segmentSq (sum : ℚ → ℚ → ℚ → ℚ) (p0 p1 : D3) : ℚ :=
  let v := p1.sub p0
  let c1 := -rowSum sum p0 v
  let c2 := rowSum sum v v
  let dist1 := if p0 = p1 then sqrtRnd (squares p0) else 0
  let dist2 := if c1 ≤ 0 then squares p0 else dist1
  let dist3 := if c2 ≤ c1 then squares p1 else dist2
  if ¬ (c1 ≤ 0 ∨ p0 = p1 ∨ c2 ≤ c1) then squares (p0.add (v.mul (rnd (c1 / c2)))) else dist3

/-- `normalVector` (impactutils/rupture/utils.py:448-449); `none` if the length is zero. -/
def quadNormal (L : MathLib) (q : Quad D3) : Option D3 := ((q.p1.sub q.p0).cross (q.p2.sub q.p0)).norm L.sq

/-- `np.signbit` of a sum; `zero` is the sign of a sum that is zero. -/
def signBit (zero : Bool) (x : ℚ) : Bool := if x = 0 then zero else decide (x < 0)

/-- `inside_idx` (impactutils/rupture/utils.py:453-468) for one point. -/
def insideQuad (sum : ℚ → ℚ → ℚ → ℚ) (zeros : Quad Bool) (n : D3) (q : Quad D3) (x : D3) : Bool :=
  let sgn0 := signBit zeros.p0 (rowSum sum ((q.p1.sub q.p0).cross n) (q.p0.sub x))
  let sgn1 := signBit zeros.p1 (rowSum sum ((q.p2.sub q.p1).cross n) (q.p1.sub x))
  let sgn2 := signBit zeros.p2 (rowSum sum ((q.p3.sub q.p2).cross n) (q.p2.sub x))
  let sgn3 := signBit zeros.p3 (rowSum sum ((q.p0.sub q.p3).cross n) (q.p3.sub x))
  (sgn0 == sgn1) && (sgn1 == sgn2) && (sgn2 == sgn3)

/-- `smin` (impactutils/rupture/utils.py:476-481) for one point. -/
def edgesSq (sum : ℚ → ℚ → ℚ → ℚ) (q : Quad D3) (x : D3) : ℚ :=
  min (min (segmentSq sum (q.p0.sub x) (q.p1.sub x)) (segmentSq sum (q.p1.sub x) (q.p2.sub x)))
    (min (segmentSq sum (q.p2.sub x) (q.p3.sub x)) (segmentSq sum (q.p3.sub x) (q.p0.sub x)))

/-- `_quad_distance` (impactutils/rupture/utils.py:444-490) for one point and a quadrilateral in earth-centred coordinates. `np.power` is the square of the
library. Simplified: `none` stands for what happens without a normal; the code then computes with numbers that are not numbers. -/
def quadDistance (L : MathLib) (sum : ℚ → ℚ → ℚ → ℚ) (zeros : Quad Bool) (horizontal : Bool) (q : Quad D3) (x : D3) : Option ℚ :=
  (quadNormal L q).map fun n =>
    let dist :=
      if insideQuad sum zeros n q x then (if horizontal then 0 else L.sq |rowSum sum (q.p0.sub x) n|)
      else edgesSq sum q x
    rnd (sqrtRnd dist / 1000)

/-- The corners in earth-centred coordinates (impactutils/rupture/utils.py:441-445). -/
def corners (L : MathLib) (q : Quad GeoPoint) : Quad D3 := ⟨fromPoint L q.p0, fromPoint L q.p1, fromPoint L q.p2, fromPoint L q.p3⟩

/-- The loop over the quadrilaterals, starting from 1e16 (impactutils/rupture/quad_rupture.py:1054-1071 and 1106-1111). The signs of sums that are zero may differ for
each quadrilateral; `zeros` gives them. -/
def leastDistance (L : MathLib) (sum : ℚ → ℚ → ℚ → ℚ) (zeros : Quad D3 → Quad Bool) (horizontal : Bool) (x : D3) : List (Quad D3) → ℚ → Option ℚ
  | [], least => some least
  | q :: qs, least =>
    match quadDistance L sum (zeros q) horizontal q x with
    | none => none
    | some d => leastDistance L sum zeros horizontal x qs (min least d)

/-- `QuadRupture.computeRrup` (impactutils/rupture/quad_rupture.py:1076-1114) for one site. -/
def quadRrup (L : MathLib) (sum : ℚ → ℚ → ℚ → ℚ) (zeros : Quad D3 → Quad Bool) (qs : List (Quad GeoPoint)) (site : GeoPoint) : Option ℚ :=
  leastDistance L sum zeros false (latlon2ecef L site.lat site.lon site.depth) (qs.map (corners L)) (10 ^ 16)

/-- `QuadRupture.computeRjb` (impactutils/rupture/quad_rupture.py:1026-1074) for one site. -/
def quadRjb (L : MathLib) (sum : ℚ → ℚ → ℚ → ℚ) (zeros : Quad D3 → Quad Bool) (qs : List (Quad GeoPoint)) (site : GeoPoint) : Option ℚ :=
  leastDistance L sum zeros true (latlon2ecef L site.lat site.lon site.depth) (qs.map fun q => corners L (flattened q)) (10 ^ 16)

end Verif.Dbl
