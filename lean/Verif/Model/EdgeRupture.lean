import Verif.Model.QuadRupture

/-!
# Ruptures of edges: `impactutils/rupture/edge_rupture.py`

Coordinates are real numbers. Sites are treated one at a time. Points made with coordinates out of range
(`ValueError` of the `openquake` library) are not modelled.
-/

namespace Verif.EdgeR
open Verif.Vec Verif.Rup Verif.QuadR Real

/-- The arrays of a rupture: `_toplons`, `_toplats`, `_topdeps`; `_botlons` and so on; `_group_index`. -/
structure Edges (α : Type) where
  top : List α
  bot : List α
  group : List ℕ

/-- One turn of the loop of the constructor (impactutils/rupture/edge_rupture.py:55-79) for polygon `p` with
group number `i`. -/
def addPolygon {α : Type} (e : Edges α) (i : ℕ) (p : List α) : Edges α :=
  let nPairs := (p.length - 1) / 2
  let body := p.dropLast
  ⟨e.top ++ body.take nPairs, e.bot ++ (body.drop nPairs).reverse, e.group ++ List.replicate nPairs i⟩

/-- The loop of the constructor from group number `i` on. -/
def addPolygons {α : Type} (e : Edges α) (i : ℕ) : List (List α) → Edges α
  | [] => e
  | p :: ps => addPolygons (addPolygon e i p) (i + 1) ps

/-- The constructor (impactutils/rupture/edge_rupture.py:45-105). -/
def ofPolygons {α : Type} (ps : List (List α)) : Edges α := addPolygons ⟨[], [], []⟩ 0 ps

/-- `np.unique` of the group numbers: sorted without repetition. -/
def uniqueNat (idx : List ℕ) : List ℕ := idx.toFinset.sort

/-- `np.where(g == seg)[0]`: the positions of group `g`. -/
def members (idx : List ℕ) (g : ℕ) : List ℕ := (List.range idx.length).filter fun i => idx[i]? = some g

/-- The elements of an array at given positions. -/
def atIdx {α : Type} (l : List α) (ind : List ℕ) : List α := ind.filterMap fun i => l[i]?

/-- The polygons of `fromArrays` (impactutils/rupture/edge_rupture.py:130-155): `none` for a group index that
is not given. -/
def fromArrays {α : Type} (top bot : List α) (index : Option (List ℕ)) : List (List α) :=
  let idx := index.getD (List.replicate top.length 0)
  (uniqueNat idx).map fun g =>
    atIdx top (members idx g) ++ (atIdx bot (members idx g)).reverse ++ (atIdx top (members idx g)).head?.toList

/-- The outline of each group (`lats`, `lons`, `depths`; impactutils/rupture/edge_rupture.py:297-318, 320-341,
343-363), without the `nan` at its end; `f` is the coordinate. -/
def outlines {α β : Type} (f : α → β) (e : Edges α) : List (List β) :=
  (uniqueNat e.group).map fun g =>
    let top := (atIdx e.top (members e.group g)).map f
    let bot := (atIdx e.bot (members e.group g)).map f
    top ++ bot.reverse ++ top.head?.toList

/-- The quadrilateral between positions `i` and `k`; `none` when there is no such position (`IndexError`). -/
def quadBetween {α : Type} (e : Edges α) (i k : ℕ) : Option (Quad α) :=
  match e.top[i]?, e.top[k]?, e.bot[k]?, e.bot[i]? with
  | some a, some b, some c, some d => some ⟨a, b, c, d⟩
  | _, _, _, _ => none

/-- The quadrilaterals at `ind = group_segments[j]` and `ind + 1` for all `j < nseg`, as in `getLength`,
`getArea` and `_computeStrikeDip` (impactutils/rupture/edge_rupture.py:191-206, 230-250, 380-402). -/
def segQuads {α : Type} (e : Edges α) : List (Option (Quad α)) :=
  (uniqueNat e.group).flatMap fun g =>
    let m := members e.group g
    (List.range (m.length - 1)).map fun j => quadBetween e (m.getD j 0) (m.getD j 0 + 1)

/-- The quadrilaterals at `g_ind[i]` and `g_ind[i + 1]`, as in `computeRrup` and `computeRjb`
(impactutils/rupture/edge_rupture.py:556-575, 633-652). -/
def meshQuads {α : Type} (e : Edges α) : List (Option (Quad α)) :=
  (uniqueNat e.group).flatMap fun g =>
    let m := members e.group g
    (List.range (m.length - 1)).map fun j => quadBetween e (m.getD j 0) (m.getD (j + 1) 0)

/-- `getQuadrilaterals` (impactutils/rupture/edge_rupture.py:489-520): the positions used are `j` and
`j + 1`. -/
def getQuadrilaterals {α : Type} (e : Edges α) : List (Option (Quad α)) :=
  (uniqueNat e.group).flatMap fun g =>
    (List.range ((members e.group g).length - 1)).map fun j => quadBetween e j (j + 1)

/-! ### Length, area, depth -/

/-- `getLength` (impactutils/rupture/edge_rupture.py:183-206); `dist` is `Point.distance` of the `openquake`
library for points at depth 0. -/
def getLength (dist : Point → Point → ℝ) (qs : List (Quad Point)) : ℝ :=
  qs.foldl (fun s q => s + dist (surface q.p0) (surface q.p1)) 0

/-- Heron's formula (impactutils/rupture/edge_rupture.py:260-261, 271-272). -/
noncomputable def heron (a b c : ℝ) : ℝ :=
  let s := (a + b + c) / 2
  √(s * (s - a) * (s - b) * (s - c))

/-- `A1` (impactutils/rupture/edge_rupture.py:251-261), in square metres. -/
noncomputable def area1 (q : Quad V3) : ℝ :=
  heron (q.p1.distance q.p0) (q.p2.distance q.p0) (q.p2.distance q.p1)

/-- `A2` (impactutils/rupture/edge_rupture.py:262-272), in square metres. -/
noncomputable def area2 (q : Quad V3) : ℝ :=
  heron (q.p0.distance q.p3) (q.p2.distance q.p3) (q.p0.distance q.p2)

/-- `getArea` (impactutils/rupture/edge_rupture.py:220-274). -/
noncomputable def getArea (qs : List (Quad Point)) : ℝ :=
  qs.foldl (fun s q => s + (area1 q.ecef + area2 q.ecef) / 1000 / 1000) 0

/-- `getWidth` (impactutils/rupture/edge_rupture.py:208-218). -/
noncomputable def getWidth (dist : Point → Point → ℝ) (qs : List (Quad Point)) : ℝ :=
  getArea qs / getLength dist qs

/-! ### Distances -/

/-- `nx` of `get_quad_mesh` (impactutils/rupture/utils.py:115-116). -/
noncomputable def meshNx (q : Quad V3) (dx : ℝ) : ℕ := meshCount (quadLength q) dx

/-- `ny` of `get_quad_mesh` (impactutils/rupture/utils.py:124-127). -/
noncomputable def meshNy (q : Quad V3) (dx : ℝ) : ℕ :=
  let nx := meshNx q dx
  meshCount (((List.range nx).map fun i => ((topPoint q nx i).sub (bottomPoint q nx i)).mag / 1000).sum / nx) dx

/-- The nodes of the mesh of a quadrilateral. -/
noncomputable def meshNodes (dx : ℝ) (q : Quad V3) : List V3 :=
  (List.range (meshNy q dx)).flatMap fun j =>
    (List.range (meshNx q dx)).map fun i => meshNode q (meshNx q dx) (meshNy q dx) j i

/-- `np.min` of an array; `none` for an empty one (`ValueError`). -/
noncomputable def npMin : List ℝ → Option ℝ
  | [] => none
  | a :: l => some (l.foldl min a)

/-- `computeRrup` (impactutils/rupture/edge_rupture.py:522-597) for a site in ECEF coordinates. -/
noncomputable def computeRrup (dx : ℝ) (qs : List (Quad Point)) (x : V3) : Option ℝ :=
  (npMin ((qs.flatMap fun q => meshNodes dx q.ecef).map fun y => x.distance y)).map (· / 1000)

/-- `computeRjb` (impactutils/rupture/edge_rupture.py:599-674). -/
noncomputable def computeRjb (dx : ℝ) (qs : List (Quad Point)) (x : V3) : Option ℝ :=
  computeRrup dx (qs.map fun q => ⟨surface q.p0, surface q.p1, surface q.p2, surface q.p3⟩) x

/-! ### Strike and dip -/

/-- `norm_vec`, `north_vec` and `up_vec`. -/
structure Sums where
  norm : V3
  north : V3
  up : V3

/-- The point 0.001 degrees further north. -/
noncomputable def northOf (p : Point) : Point := ⟨p.lon, p.lat + 0.001, p.depth⟩

/-- The point 1 km higher. -/
noncomputable def above (p : Point) : Point := ⟨p.lon, p.lat, p.depth - 1⟩

/-- One turn of the loop (impactutils/rupture/edge_rupture.py:389-456). -/
noncomputable def addSums (s : Sums) (q : Quad Point) : Sums :=
  let p0 := fromPoint q.p0
  let p1 := fromPoint q.p1
  let p2 := fromPoint q.p2
  let p3 := fromPoint q.p3
  let s01 := p1.sub p0
  let s02 := p2.sub p0
  let s03 := p3.sub p0
  let s21 := p1.sub p2
  let s23 := p3.sub p2
  let t1norm := (s02.cross s01).norm
  let A1 := heron s01.mag s02.mag s21.mag / 1000
  let t2norm := (s03.cross s02).norm
  let A2 := heron s03.mag s23.mag s02.mag / 1000
  let p1up := ((fromPoint (above q.p1)).sub p1).norm
  let p3up := ((fromPoint (above q.p3)).sub p3).norm
  let p1N := ((fromPoint (northOf q.p1)).sub p1).norm
  let p3N := ((fromPoint (northOf q.p3)).sub p3).norm
  ⟨(s.norm.add (t1norm.mul A1)).add (t2norm.mul A2), (s.north.add (p1N.mul A1)).add (p3N.mul A2),
   (s.up.add (p1up.mul A1)).add (p3up.mul A2)⟩

/-- `np.sign`. -/
noncomputable def npSign (x : ℝ) : ℝ := open Classical in if 0 < x then 1 else if x < 0 then -1 else 0

/-- The last part of `_computeStrikeDip` (impactutils/rupture/edge_rupture.py:458-480): strike and dip from
the three sums. The length of a zero vector gives `nan` in the code and 0 here. -/
noncomputable def strikeDip (s : Sums) : ℝ × ℝ :=
  open Classical in
  let normVec := s.norm.norm
  let northVec := s.north.norm
  let upVec := s.up.norm
  let n := normVec.mul (npSign (upVec.dot normVec))
  let dip := arcsin (upVec.cross n).mag * 180 / π
  let nvph := (n.sub (upVec.mul (upVec.dot n))).norm
  let cp := nvph.cross northVec
  let sign := npSign (cp.dot upVec)
  let dp := nvph.dot northVec
  let strike := arctan2 (sign * cp.mag) dp * 180 / π - 90
  (if strike < -180 then strike + 360 else strike, dip)

/-- `_computeStrikeDip` (impactutils/rupture/edge_rupture.py:375-480). -/
noncomputable def computeStrikeDip (qs : List (Quad Point)) : ℝ × ℝ :=
  strikeDip (qs.foldl addSums ⟨zeroV, zeroV, zeroV⟩)
where
  /-- `Vector(0, 0, 0)`. -/
  zeroV : V3 := ⟨0, 0, 0⟩

end Verif.EdgeR
