import Verif.Model.EdgeDip

/-!
# Strikes of ruptures of edges in binary arithmetic (impactutils/rupture/edge_rupture.py)

`Verif.EdgeR.addSums` and `Verif.EdgeR.strikeDip` are the same computation with exact real numbers. Here every operation is rounded. Simplified as in
`Verif.Model.EdgeDip`; the loop that adds the vectors to the north is apart from the one that adds normals and vectors up, and the sums do not depend on each other. `atan2` is
the function of numpy.
-/

namespace Verif.Dbl
open Verif.Rup (Quad)

/-- `(p1N - p1).norm()` (impactutils/rupture/edge_rupture.py:406-408 and 450, 412-414 and 451); the double nearest to 0.001 is added to the latitude. -/
def northward (L : MathLib) (p : GeoPoint) : Option D3 :=
  let north : GeoPoint := { p with lat := rnd (p.lat + rnd (1 / 1000)) }
  ((fromPoint L north).sub (fromPoint L p)).norm L.sq

/-- One turn of the loop (impactutils/rupture/edge_rupture.py:392-455): the sum `north_vec`; `none` is not a number. -/
def addNorths (L : MathLib) (s : D3) (q : Quad GeoPoint) : Option D3 :=
  let p0 := fromPoint L q.p0
  let p1 := fromPoint L q.p1
  let p2 := fromPoint L q.p2
  let p3 := fromPoint L q.p3
  let s01 := p1.sub p0
  let s02 := p2.sub p0
  let s03 := p3.sub p0
  let s21 := p1.sub p2
  let s23 := p3.sub p2
  (heronArea (s01.mag L.sq) (s02.mag L.sq) (s21.mag L.sq)).bind fun A1 =>
  (heronArea (s03.mag L.sq) (s23.mag L.sq) (s02.mag L.sq)).bind fun A2 =>
  (northward L q.p1).bind fun p1N =>
  (northward L q.p3).bind fun p3N =>
    some ((s.add (p1N.mul (rnd (A1 / 1000)))).add (p3N.mul (rnd (A2 / 1000))))

/-- The strike that `_computeStrikeDip` computes (impactutils/rupture/edge_rupture.py:383-480) and `getStrike` (impactutils/rupture/edge_rupture.py:276-284) returns, from the
quadrilaterals of the loop; `none` is not a number. -/
def edgeStrike (L : MathLib) (dot : D3 → D3 → ℚ) (atan2 : ℚ → ℚ → ℚ) (qs : List (Quad GeoPoint)) : Option ℚ :=
  (qs.foldl (fun s q => s.bind fun s => addNormals L s q) (some (⟨0, 0, 0⟩, ⟨0, 0, 0⟩))).bind fun s =>
  (qs.foldl (fun s q => s.bind fun s => addNorths L s q) (some ⟨0, 0, 0⟩)).bind fun north =>
  (s.1.norm L.sq).bind fun unitNormal =>
  (north.norm L.sq).bind fun northVec =>
  (s.2.norm L.sq).bind fun upVec =>
    let normVec := unitNormal.mul (signOf (dot upVec unitNormal))
    ((normVec.sub (upVec.mul (dot upVec normVec))).norm L.sq).bind fun nvph =>
      let cp := nvph.cross northVec
      let sign := signOf (dot cp upVec)
      let dp := dot nvph northVec
      let strike := rnd (rnd (rnd (atan2 (rnd (sign * cp.mag L.sq)) dp * 180) / npyPi) - 90)
      some (if strike < -180 then rnd (strike + 360) else strike)

end Verif.Dbl
