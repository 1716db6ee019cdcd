import Verif.Model.QuadDip
import Verif.Model.EdgeArea

/-!
# Dips of ruptures of edges in binary arithmetic (impactutils/rupture/edge_rupture.py)

`Verif.EdgeR.addSums` and `Verif.EdgeR.strikeDip` are the same computation with exact real numbers. Here every operation is rounded. Simplified: the checks of `Point`
and the vectors to the north, which only the strike depends on, are left out. A vector that is `none` has components that are not numbers.
-/

namespace Verif.Dbl
open Verif.Rup (Quad)

/-- `(p1up - p1).norm()` (impactutils/rupture/edge_rupture.py:403-405 and 448, 409-411 and 449). -/
def upward (L : MathLib) (p : GeoPoint) : Option D3 :=
  let up : GeoPoint := { p with depth := rnd (p.depth - 1) }
  ((fromPoint L up).sub (fromPoint L p)).norm L.sq

/-- One turn of the loop (impactutils/rupture/edge_rupture.py:392-456): the sums `norm_vec` and `up_vec`; `none` is not a number. -/
def addNormals (L : MathLib) (s : D3 × D3) (q : Quad GeoPoint) : Option (D3 × D3) :=
  let p0 := fromPoint L q.p0
  let p1 := fromPoint L q.p1
  let p2 := fromPoint L q.p2
  let p3 := fromPoint L q.p3
  let s01 := p1.sub p0
  let s02 := p2.sub p0
  let s03 := p3.sub p0
  let s21 := p1.sub p2
  let s23 := p3.sub p2
  ((s02.cross s01).norm L.sq).bind fun t1norm =>
  (heronArea (s01.mag L.sq) (s02.mag L.sq) (s21.mag L.sq)).bind fun A1 =>
  ((s03.cross s02).norm L.sq).bind fun t2norm =>
  (heronArea (s03.mag L.sq) (s23.mag L.sq) (s02.mag L.sq)).bind fun A2 =>
  (upward L q.p1).bind fun p1up =>
  (upward L q.p3).bind fun p3up =>
    some ((s.1.add (t1norm.mul (rnd (A1 / 1000)))).add (t2norm.mul (rnd (A2 / 1000))), (s.2.add (p1up.mul (rnd (A1 / 1000)))).add (p3up.mul (rnd (A2 / 1000))))

/-- `np.sign` (impactutils/rupture/edge_rupture.py:464). -/
def signOf (x : ℚ) : ℚ := if 0 < x then 1 else if x < 0 then -1 else 0

/-- The dip that `_computeStrikeDip` computes (impactutils/rupture/edge_rupture.py:383-468) and `getDip` (impactutils/rupture/edge_rupture.py:286-294) returns, from the
quadrilaterals of the loop; `none` is not a number, also the arc sine of a number above 1. -/
def edgeDip (L : MathLib) (dot : D3 → D3 → ℚ) (qs : List (Quad GeoPoint)) : Option ℚ :=
  (qs.foldl (fun s q => s.bind fun s => addNormals L s q) (some (⟨0, 0, 0⟩, ⟨0, 0, 0⟩))).bind fun s =>
  (s.1.norm L.sq).bind fun normVec =>
  (s.2.norm L.sq).bind fun upVec =>
    let flip := signOf (dot upVec normVec)
    let x := (upVec.cross (normVec.mul flip)).mag L.sq
    if x ≤ 1 then some (rnd (rnd (L.asin x * 180) / npyPi)) else none

end Verif.Dbl
