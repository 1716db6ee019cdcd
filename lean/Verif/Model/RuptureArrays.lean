import Verif.Model.EdgeRupture

/-!
# The arrays that ruptures give away

Numbers are reals or `nan`, here `none`.
-/

namespace Verif.QuadR
open Verif.Vec Verif.Rup Verif.EdgeR

/-- The arrays of longitudes, latitudes and depths. -/
structure Arrays where
  lon : List (Option ℝ)
  lat : List (Option ℝ)
  depth : List (Option ℝ)

/-- A vertex of a polygon as it is in the dictionary: the numbers may be `nan` there, too. -/
abbrev Vertex := Option ℝ × Option ℝ × Option ℝ

/-- A turn of the loop of the constructor (impactutils/rupture/quad_rupture.py:56-63). -/
def addVertices (a : Arrays) (p : List Vertex) : Arrays :=
  let pLons := (p.map fun pt => pt.1).dropLast
  let pLats := (p.map fun pt => pt.2.1).dropLast
  let pDepths := (p.map fun pt => pt.2.2).dropLast
  ⟨a.lon ++ (pLons ++ [none]), a.lat ++ (pLats ++ [none]), a.depth ++ (pDepths ++ [none])⟩

/-- `getRuptureAsArrays` (impactutils/rupture/quad_rupture.py:1003-1014) of a rupture made from these polygons: the arrays of the constructor
(impactutils/rupture/quad_rupture.py:51-63, 75-77, 803-805). -/
def getRuptureAsArrays (polys : List (List Vertex)) : Arrays := polys.foldl addVertices ⟨[], [], []⟩

/-- `getDeps` (impactutils/rupture/quad_rupture.py:975-982). -/
def getDeps (polys : List (List Vertex)) : List (Option ℝ) := (getRuptureAsArrays polys).depth

/-- `n_groups` of `_setQuadrilaterals` (impactutils/rupture/quad_rupture.py:808-809). -/
def groupEnds (polys : List (List Vertex)) : ℕ := ((getRuptureAsArrays polys).lon.filter Option.isNone).length

/-- `lats`, `lons` and `depths` of a `QuadRupture` (impactutils/rupture/quad_rupture.py:877-909, 910-941, 942-973) as a whole; `f` is the coordinate. -/
noncomputable def outlineArray (f : Point → ℝ) (polys : List (List Point)) : List (Option ℝ) :=
  let quads := quadrilaterals polys
  let groups := groupIndex polys
  (uniqueNat groups).flatMap fun g => (groupOutline f (atIdx quads (members groups g))).map some ++ [none]

end Verif.QuadR

namespace Verif.EdgeR
open Verif.Vec Verif.Rup

/-- `lats`, `lons` and `depths` of an `EdgeRupture` (impactutils/rupture/edge_rupture.py:296-318, 319-341, 342-363) as a whole. -/
def outlineArray (f : Point → ℝ) (e : Edges Point) : List (Option ℝ) := (outlines f e).flatMap fun l => l.map some ++ [none]

/-- `getDepthToTop` of an `EdgeRupture` (impactutils/rupture/edge_rupture.py:482-487). -/
noncomputable def getDepthToTop (e : Edges Point) : Option ℝ := npMin (e.top.map Point.depth)

end Verif.EdgeR
