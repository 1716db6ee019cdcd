import Verif.Model.EcefDouble
import Verif.Model.RuptureUtils

/-!
# Lengths of ruptures in binary arithmetic (impactutils/rupture/utils.py, impactutils/rupture/quad_rupture.py)

`Verif.Rup.quadLength` and `Verif.Rup.getLength` are the same functions with exact real numbers.
-/

namespace Verif.Dbl
open Verif.Rup (Quad)

/-- A `Point` of three floats: longitude, latitude and depth. -/
structure GeoPoint where
  lon : ℚ
  lat : ℚ
  depth : ℚ
deriving DecidableEq

/-- `Vector.fromPoint` (impactutils/vectorutils/vector.py:47-49). -/
def fromPoint (L : MathLib) (p : GeoPoint) : D3 := latlon2ecef L p.lat p.lon p.depth

/-- `get_quad_length` (impactutils/rupture/utils.py:312-316). -/
def quadLength (L : MathLib) (q : Quad GeoPoint) : ℚ := rnd (((fromPoint L q.p1).sub (fromPoint L q.p0)).mag L.sq / 1000)

/-- `QuadRupture.getLength` (impactutils/rupture/quad_rupture.py:164-167). -/
def ruptureLength (L : MathLib) (qs : List (Quad GeoPoint)) : ℚ := qs.foldl (fun s q => rnd (s + quadLength L q)) 0

/-- `QuadRupture.getIndividualTopLengths` (impactutils/rupture/quad_rupture.py:764-772). -/
def topLengths (L : MathLib) (qs : List (Quad GeoPoint)) : List ℚ :=
  qs.map fun q => rnd (((fromPoint L q.p1).sub (fromPoint L q.p0)).mag L.sq / 1000)

/-- `reverse_quad` (impactutils/rupture/utils.py:256-268): the corners `p1`, `p0`, `p3`, `p2`. -/
def reverseQuad (q : Quad GeoPoint) : Quad GeoPoint := ⟨q.p1, q.p0, q.p3, q.p2⟩

end Verif.Dbl
