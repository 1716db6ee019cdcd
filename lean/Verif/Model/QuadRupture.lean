import Mathlib.Data.Finset.Sort
import Verif.Model.RuptureUtils

/-!
# Ruptures of quadrilaterals: `impactutils/rupture/quad_rupture.py`

Coordinates are real numbers. Sites are treated one at a time; the code does the same to every element of
its arrays.
-/

namespace Verif.QuadR
open Verif.Vec Verif.Rup Real

/-! ### Construction -/

/-- The arrays `_lon`, `_lat`, `_depth` of the constructor (impactutils/rupture/quad_rupture.py:52-65): the
points of each polygon without the last, then a row of `nan`, here `none`. -/
def flatten (polys : List (List Point)) : List (Option Point) :=
  polys.flatMap fun p => p.dropLast.map some ++ [none]

/-- The rows between the rows of `nan` (impactutils/rupture/quad_rupture.py:807-830, 863); `cur` is the part
of the segment read so far. Rows after the last `nan` are in no segment. -/
def segments (cur : List Point) : List (Option Point) → List (List Point)
  | [] => []
  | none :: rows => cur :: segments [] rows
  | some p :: rows => segments (cur ++ [p]) rows

/-- `nquads = int((npoints - 4) / 2) + 1` (impactutils/rupture/quad_rupture.py:837), 0 when negative:
`range` of a negative number is empty. -/
def nQuads (npoints : ℕ) : ℕ := (Int.tdiv ((npoints : ℤ) - 4) 2 + 1).toNat

/-- A point at an index that is in range. -/
noncomputable def ptAt (seg : List Point) (i : ℕ) : Point := seg.getD i ⟨0, 0, 0⟩

/-- `quad` of the loop (impactutils/rupture/quad_rupture.py:838-853); `quad_start` is `j` and `quad_end` is
`-1 - j`. -/
noncomputable def rawQuad (seg : List Point) (j : ℕ) : Quad Point :=
  ⟨ptAt seg j, ptAt seg (j + 1), ptAt seg (seg.length - (j + 2)), ptAt seg (seg.length - (j + 1))⟩

/-- `_fixStrikeDirection` (impactutils/rupture/quad_rupture.py:774-794). -/
noncomputable def fixStrikeDirection (q : Quad Point) : Quad Point :=
  open Classical in
  let p0 := fromPoint q.p0
  let qnv := (((fromPoint q.p2).sub p0).cross ((fromPoint q.p1).sub p0)).norm
  let tmp := toPoint (p0.add qnv)
  if tmp.depth - q.p0.depth < 1e-6 then q else reverseQuad q

/-- `fixed_quad` (impactutils/rupture/quad_rupture.py:858-861). -/
noncomputable def fixQuad (q : Quad Point) : Quad Point := fixStrikeDirection (isQuad q).2

/-- The quadrilaterals of a segment. -/
noncomputable def segQuads (seg : List Point) : List (Quad Point) :=
  (List.range (nQuads seg.length)).map fun j => fixQuad (rawQuad seg j)

/-- `_quadrilaterals` (impactutils/rupture/quad_rupture.py:796-865). -/
noncomputable def quadrilaterals (polys : List (List Point)) : List (Quad Point) :=
  (segments [] (flatten polys)).flatMap segQuads

/-- `_group_index` from a first index (impactutils/rupture/quad_rupture.py:864-865). -/
def groupIndexFrom (i : ℕ) : List (List Point) → List ℕ
  | [] => []
  | seg :: segs => List.replicate (nQuads seg.length) i ++ groupIndexFrom (i + 1) segs

/-- `_group_index`. -/
def groupIndex (polys : List (List Point)) : List ℕ := groupIndexFrom 0 (segments [] (flatten polys))

/-! ### Outline -/

/-- The part of `lats`, `lons` and `depths` for the quadrilaterals of one group
(impactutils/rupture/quad_rupture.py:894-909, 926-941, 958-973), without the final `nan`; `f` is the
coordinate. `top0` of an empty group does not occur. -/
def groupOutline {α β : Type} (f : α → β) : List (Quad α) → List β
  | [] => []
  | q :: qs =>
    let top := [f q.p0] ++ (q :: qs).map fun x => f x.p1
    let bot := [f q.p3] ++ (q :: qs).map fun x => f x.p2
    top ++ bot.reverse ++ [f q.p0]

/-! ### `fromVertices` -/

/-- The polygon of one group (impactutils/rupture/quad_rupture.py:614-643): `p0` of the first, all `p1`, all
`p2` backwards, `p3` of the first (the last of the reversed array), `p0` of the first. -/
def groupPolygon {α : Type} : List (Quad α) → List α
  | [] => []
  | q :: qs =>
    [q.p0] ++ (q :: qs).map (·.p1) ++ ((q :: qs).map (·.p2)).reverse ++ [q.p3] ++ [q.p0]

/-- `np.unique` of the group indices: sorted without repetition. -/
def uniqueGroups (idx : List ℤ) : List ℤ := idx.toFinset.sort

/-- The quadrilaterals with a group index (`np.where(u_groups[i] == group_index)`). -/
def ofGroup {α : Type} (quads : List (Quad α)) (idx : List ℤ) (g : ℤ) : List (Quad α) :=
  ((quads.zip idx).filter fun p => p.2 = g).map (·.1)

/-- The polygons of `fromVertices` (impactutils/rupture/quad_rupture.py:584-645); `none` is the default
`group_index`, which counts the quadrilaterals. The arguments are given quadrilateral by quadrilateral. An
error stands for `ConsistentLengthError`. -/
def fromVertices {α : Type} (quads : List (Quad α)) (index : Option (List ℤ)) : Option (List (List α)) :=
  match index with
  | some idx =>
    if idx.length ≠ quads.length then none
    else some ((uniqueGroups idx).map fun g => groupPolygon (ofGroup quads idx g))
  | none =>
    let idx := (List.range quads.length).map Int.ofNat
    some ((uniqueGroups idx).map fun g => groupPolygon (ofGroup quads idx g))

/-! ### Summaries -/

/-- `getLength` (impactutils/rupture/quad_rupture.py:156-167). -/
noncomputable def getLength (qs : List (Quad Point)) : ℝ := qs.foldl (fun a q => a + quadLength q.ecef) 0

/-- `getWidth` (impactutils/rupture/quad_rupture.py:169-181); no quadrilateral: `ZeroDivisionError`. -/
noncomputable def getWidth (qs : List (Quad Point)) : Option ℝ :=
  if qs.length = 0 then none
  else some (qs.foldl (fun a q => a + quadWidth q.ecef) 0 / qs.length)

/-- `getArea` (impactutils/rupture/quad_rupture.py:183-196). -/
noncomputable def getArea (qs : List (Quad Point)) : ℝ :=
  qs.foldl (fun a q => a + quadWidth q.ecef * quadLength q.ecef) 0

/-- The smallest depth of four corners. -/
noncomputable def minDepth (q : Quad Point) : ℝ := min (min q.p0.depth q.p1.depth) (min q.p2.depth q.p3.depth)

/-- `getDepthToTop` (impactutils/rupture/quad_rupture.py:711-724). -/
noncomputable def getDepthToTop (qs : List (Quad Point)) : ℝ :=
  open Classical in
  qs.foldl (fun m q => if minDepth q < m then minDepth q else m) 9999999

/-- `getDip` (impactutils/rupture/quad_rupture.py:726-740). -/
noncomputable def getDip (qs : List (Quad Point)) : Option ℝ :=
  if qs.length = 0 then none else some (qs.foldl (fun a q => a + quadDip q) 0 / qs.length)

/-- `getStrike` (impactutils/rupture/quad_rupture.py:685-709) for the strikes and lengths of the
quadrilaterals; the strikes are azimuths in degrees computed by the `openquake` library. -/
noncomputable def getStrike (sl : List (ℝ × ℝ)) : ℝ :=
  let tot := (sl.map (·.2)).sum
  let xbar := (sl.map fun p => sin (radians p.1) * p.2).sum / tot
  let ybar := (sl.map fun p => cos (radians p.1) * p.2).sum / tot
  arctan2 xbar ybar * (180 / π)

/-- `computeRrup` (impactutils/rupture/quad_rupture.py:1076-1117) for a site in ECEF coordinates. -/
noncomputable def computeRrup (qs : List (Quad Point)) (x : V3) : ℝ :=
  qs.foldl (fun m q => min m (quadDistance q x false)) (10 ^ 16)

/-- `computeRjb` (impactutils/rupture/quad_rupture.py:1026-1074): the corners are moved to depth 0 by the
caller and again by `_quad_distance`. -/
noncomputable def computeRjb (qs : List (Quad Point)) (x : V3) : ℝ :=
  qs.foldl (fun m q =>
    min m (quadDistance ⟨surface q.p0, surface q.p1, surface q.p2, surface q.p3⟩ x true)) (10 ^ 16)

/-! ### Depth at a point -/

/-- The end of `getDepthAtPoint` (impactutils/rupture/quad_rupture.py:138-154): `sxdd` is the distance of
the point down dip from the top edge in the projection, in km; `width` is `get_quad_width` in km. -/
noncomputable def depthAt (sxdd width dip top bottom : ℝ) : ℝ :=
  let w := width * 1000
  let ws := w * cos (radians dip)
  let wtt := (ws - sxdd) / ws
  let wtb := sxdd / ws
  wtt * top + wtb * bottom * 1000

/-! ### `fromTrace` -/

/-- A point of the projection. -/
structure P2 where
  x : ℝ
  y : ℝ

/-- `np.dot(R, p)` for the rotation by an angle (impactutils/rupture/quad_rupture.py:295-304, 316-319). -/
noncomputable def rotate (theta : ℝ) (p : P2) : P2 :=
  ⟨cos theta * p.x + -sin theta * p.y, sin theta * p.x + cos theta * p.y⟩

/-- `theta` (impactutils/rupture/quad_rupture.py:285-289) when no strike is given. -/
noncomputable def traceAngle (p0 p1 : P2) : ℝ := arctan2 (p1.x - p0.x) (p1.y - p0.y)

/-- The lower corner below an upper one, in the projection (impactutils/rupture/quad_rupture.py:295-323). -/
noncomputable def lowerCorner (theta dip width : ℝ) (p : P2) : P2 :=
  let q := rotate theta p
  rotate (-theta) ⟨q.x + cos dip * width, q.y⟩

/-- `zpdown` (impactutils/rupture/quad_rupture.py:306, 333). -/
noncomputable def lowerDepth (dip width top : ℝ) : ℝ := top + sin dip * width

/-- The polygons of `fromTrace` (impactutils/rupture/quad_rupture.py:252-253, 339-367) from the finished
quadrilaterals: the length of the group index is not compared with anything. An entry beyond the last
quadrilateral gives `IndexError`, here `none`. -/
def traceGroups {α : Type} (quads : List (Quad α)) (index : Option (List ℤ)) : Option (List (List α)) :=
  match index with
  | some idx =>
    if quads.length < idx.length then none
    else some ((uniqueGroups idx).map fun g => groupPolygon (ofGroup quads idx g))
  | none =>
    let idx := (List.range quads.length).map Int.ofNat
    some ((uniqueGroups idx).map fun g => groupPolygon (ofGroup quads idx g))

/-! ### Writing text -/

/-- `writeTextFile` (impactutils/rupture/quad_rupture.py:394-421): the lines; `fmt` is the format `.4f`. -/
def writeText (fmt : ℝ → List Char) (reference : List Char) (qs : List (Quad Point)) : List (List Char) :=
  let line := fun p : Point => fmt p.lat ++ [' '] ++ fmt p.lon ++ [' '] ++ fmt p.depth ++ ['\n']
  ('#' :: reference ++ ['\n']) ::
    qs.flatMap fun q => [line q.p0, line q.p1, line q.p2, line q.p3, line q.p0, ['>', '\n']]

end Verif.QuadR
