import Verif.Model.QuadLength

/-!
# Distances to ruptures of edges in binary arithmetic (impactutils/rupture/utils.py, impactutils/rupture/edge_rupture.py)

`Verif.Rup.meshNode` and `Verif.EdgeR.computeRrup` are the same functions with exact real numbers. Here every operation is rounded. `np.mean`, whose order of
summation depends on the number of entries, is a parameter.
-/

namespace Verif.Dbl
open Verif.Rup (Quad)

/-- `np.linspace(0, 1, n)[i]` (impactutils/rupture/utils.py:119 and 128) for at least two numbers: multiples of the rounded step, and 1 at the end. -/
def unitStep (n i : ℕ) : ℚ := if i + 1 = n then 1 else rnd (i * rnd (1 / ((n : ℚ) - 1)))

/-- `int(np.max([round(length / dx, 0) + 1, 2]))` (impactutils/rupture/utils.py:116 and 127). Simplified: the sum with 1 is exact, as it is below 2^53. -/
def nodeCount (length dx : ℚ) : ℕ := (max (Py.round (rnd (length / dx)) + 1) 2).toNat

/-- `p + (q - p) * a` for vectors (impactutils/rupture/utils.py:120, 121 and 134). -/
def D3.between (p q : D3) (a : ℚ) : D3 := p.add ((q.sub p).mul a)

/-- `nx` (impactutils/rupture/utils.py:115-116). -/
def alongCount (L : MathLib) (dx : ℚ) (q : Quad GeoPoint) : ℕ := nodeCount (quadLength L q) dx

/-- `topp[i]` (impactutils/rupture/utils.py:119-120). -/
def topNode (L : MathLib) (q : Quad GeoPoint) (nx i : ℕ) : D3 := (fromPoint L q.p0).between (fromPoint L q.p1) (unitStep nx i)

/-- `botp[i]` (impactutils/rupture/utils.py:121). -/
def bottomNode (L : MathLib) (q : Quad GeoPoint) (nx i : ℕ) : D3 := (fromPoint L q.p3).between (fromPoint L q.p2) (unitStep nx i)

/-- `ylen_km` (impactutils/rupture/utils.py:124-126). -/
def downLengths (L : MathLib) (q : Quad GeoPoint) (nx : ℕ) : List ℚ :=
  (List.range nx).map fun i => rnd (((topNode L q nx i).sub (bottomNode L q nx i)).mag L.sq / 1000)

/-- `ny` (impactutils/rupture/utils.py:127). -/
def downCount (L : MathLib) (mean : List ℚ → ℚ) (dx : ℚ) (q : Quad GeoPoint) : ℕ := nodeCount (mean (downLengths L q (alongCount L dx q))) dx

/-- The point in row `j` and column `i` of the mesh (impactutils/rupture/utils.py:131-137). -/
def gridNode (L : MathLib) (q : Quad GeoPoint) (nx ny j i : ℕ) : D3 := (topNode L q nx i).between (bottomNode L q nx i) (unitStep ny j)

/-- The points of the mesh of `get_quad_mesh` (impactutils/rupture/utils.py:88-137), row by row. -/
def gridNodes (L : MathLib) (mean : List ℚ → ℚ) (dx : ℚ) (q : Quad GeoPoint) : List D3 :=
  (List.range (downCount L mean dx q)).flatMap fun j =>
    (List.range (alongCount L dx q)).map fun i => gridNode L q (alongCount L dx q) (downCount L mean dx q) j i

/-- `np.sqrt(np.sum(dif * dif, axis=0))` (impactutils/rupture/edge_rupture.py:591-592 and 668-669) for one point of the mesh: the products are rounded and added in order. -/
def nodeDistance (site node : D3) : ℚ := (site.sub node).mag fun x => rnd (x * x)

/-- `np.min`; `none` for an empty array (`ValueError`). -/
def smallest : List ℚ → Option ℚ
  | [] => none
  | a :: l => some (l.foldl min a)

/-- `EdgeRupture.computeRrup` (impactutils/rupture/edge_rupture.py:522-597) for one site. -/
def edgeRrup (L : MathLib) (mean : List ℚ → ℚ) (dx : ℚ) (qs : List (Quad GeoPoint)) (site : GeoPoint) : Option ℚ :=
  (smallest ((qs.flatMap (gridNodes L mean dx)).map (nodeDistance (latlon2ecef L site.lat site.lon site.depth)))).map fun d => rnd (d / 1000)

/-- The corners with depth 0 (impactutils/rupture/edge_rupture.py:643-655). -/
def flattened (q : Quad GeoPoint) : Quad GeoPoint :=
  ⟨{ q.p0 with depth := 0 }, { q.p1 with depth := 0 }, { q.p2 with depth := 0 }, { q.p3 with depth := 0 }⟩

/-- `EdgeRupture.computeRjb` (impactutils/rupture/edge_rupture.py:599-674) for one site. -/
def edgeRjb (L : MathLib) (mean : List ℚ → ℚ) (dx : ℚ) (qs : List (Quad GeoPoint)) (site : GeoPoint) : Option ℚ :=
  edgeRrup L mean dx (qs.map flattened) site

end Verif.Dbl
