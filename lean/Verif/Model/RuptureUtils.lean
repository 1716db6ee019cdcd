import Verif.Model.Vector

/-!
# Model of impactutils/rupture/utils.py

Floats are real numbers. Functions on arrays of points are modelled for one point.
-/

namespace Verif.Rup
open Verif.Vec Real

/-- `OFFPLANE_TOLERANCE` (impactutils/rupture/constants.py:11). -/
noncomputable def offplaneTolerance : ℝ := 0.05

/-- `DEPTH_TOL` (impactutils/rupture/constants.py:6). -/
noncomputable def depthTol : ℝ := 0.05

/-- OpenQuake's `Point`: longitude, latitude (degrees), depth (km). Its range checks are not
modelled. -/
@[ext] structure Point where
  lon : ℝ
  lat : ℝ
  depth : ℝ

/-- `Vector.fromPoint` (impactutils/vectorutils/vector.py:33-48). -/
noncomputable def fromPoint (p : Point) : V3 := latlon2ecef p.lat p.lon p.depth

/-- `Vector.toPoint` (impactutils/vectorutils/vector.py:248-257). -/
noncomputable def toPoint (v : V3) : Point := ⟨(ecef2latlon v).2.1, (ecef2latlon v).1, (ecef2latlon v).2.2⟩

/-- Determinant of a 3×3 matrix given by its rows, as computed by `np.linalg.det` without rounding. -/
noncomputable def det3 (a b c : V3) : ℝ :=
  a.x * (b.y * c.z - b.z * c.y) - a.y * (b.x * c.z - b.z * c.x) + a.z * (b.x * c.y - b.y * c.x)

/-- `get_distance_to_plane` (impactutils/rupture/utils.py:493-531). With `d = -1` the factor `-d / D` is
`1 / D`. -/
noncomputable def distanceToPlane (p0 p1 p2 other : V3) : ℝ :=
  open Classical in
  let D := det3 p0 p1 p2
  if D ≠ 0 then
    let d : ℝ := -1
    let a := (-d / D) * det3 ⟨1, p0.y, p0.z⟩ ⟨1, p1.y, p1.z⟩ ⟨1, p2.y, p2.z⟩
    let b := (-d / D) * det3 ⟨p0.x, 1, p0.z⟩ ⟨p1.x, 1, p1.z⟩ ⟨p2.x, 1, p2.z⟩
    let c := (-d / D) * det3 ⟨p0.x, p0.y, 1⟩ ⟨p1.x, p1.y, 1⟩ ⟨p2.x, p2.y, 1⟩
    |a * other.x + b * other.y + c * other.z + d| / √(a ^ 2 + b ^ 2 + c ^ 2)
  else 0

/-- A quadrilateral: four points in the order top start, top end, bottom end, bottom start. -/
structure Quad (α : Type) where
  p0 : α
  p1 : α
  p2 : α
  p3 : α

/-- The corners in ECEF coordinates. -/
noncomputable def Quad.ecef (q : Quad Point) : Quad V3 :=
  ⟨fromPoint q.p0, fromPoint q.p1, fromPoint q.p2, fromPoint q.p3⟩

/-- `d` of `is_quad`: length of the bottom edge (impactutils/rupture/utils.py:40). -/
noncomputable def bottomLength (q : Quad V3) : ℝ := (q.p3.sub q.p2).mag

/-- `new_p2` of `is_quad` (impactutils/rupture/utils.py:37-44). -/
noncomputable def newP2 (q : Quad V3) : V3 :=
  q.p3.add (((q.p1.sub q.p0).norm).mul (bottomLength q))

/-- `on_plane` of `is_quad` (impactutils/rupture/utils.py:46-54). A bottom edge of length 0 gives `nan`
or `inf` in the code and 0 here. -/
noncomputable def onPlane (q : Quad V3) : Bool :=
  open Classical in
  decide ¬ (distanceToPlane q.p0 q.p1 q.p2 q.p2 / bottomLength q > offplaneTolerance)

/-- `is_quad` (impactutils/rupture/utils.py:16-62). -/
noncomputable def isQuad (q : Quad Point) : Bool × Quad Point :=
  (onPlane q.ecef, ⟨toPoint q.ecef.p0, toPoint q.ecef.p1, toPoint (newP2 q.ecef), toPoint q.ecef.p3⟩)

/-- `get_quad_width` (impactutils/rupture/utils.py:65-85), on ECEF coordinates. -/
noncomputable def quadWidth (q : Quad V3) : ℝ :=
  let AB := q.p0.sub q.p1
  let AC := q.p0.sub q.p3
  (((AB.cross AC).cross AB).norm).dot AC / 1000

/-- `get_quad_length` (impactutils/rupture/utils.py:301-316), on ECEF coordinates. -/
noncomputable def quadLength (q : Quad V3) : ℝ := (q.p1.sub q.p0).mag / 1000

/-- `reverse_quad` (impactutils/rupture/utils.py:256-268). -/
def reverseQuad {α : Type} (q : Quad α) : Quad α := ⟨q.p1, q.p0, q.p3, q.p2⟩

/-- `get_quad_normal` (impactutils/rupture/utils.py:336-354), on ECEF coordinates. -/
noncomputable def quadNormal (q : Quad V3) : V3 := ((q.p3.sub q.p0).cross (q.p1.sub q.p0)).norm

/-- `get_quad_strike_vector` (impactutils/rupture/utils.py:357-372), on ECEF coordinates. -/
noncomputable def quadStrikeVector (q : Quad V3) : V3 := (q.p1.sub q.p0).norm

/-- `get_quad_down_dip_vector` (impactutils/rupture/utils.py:375-393), on ECEF coordinates. -/
noncomputable def quadDownDipVector (q : Quad V3) : V3 := ((q.p1.sub q.p0).cross (quadNormal q)).norm

/-- `get_vertical_vector` (impactutils/rupture/utils.py:396-414). -/
noncomputable def verticalVector (q : Quad Point) : V3 :=
  ((fromPoint ⟨q.p0.lon, q.p0.lat, q.p0.depth - 1⟩).sub (fromPoint q.p0)).norm

/-- `get_quad_dip` (impactutils/rupture/utils.py:319-333), in degrees. -/
noncomputable def quadDip (q : Quad Point) : ℝ :=
  arccos ((quadNormal q.ecef).dot (verticalVector q)) * (180 / π)

/-! ### Slip vectors -/

/-- `np.radians`. -/
noncomputable def radians (x : ℝ) : ℝ := x * (π / 180)

/-- `get_local_unit_slip_vector` (impactutils/rupture/utils.py:179-203). -/
noncomputable def slip (strike dip rake : ℝ) : V3 :=
  ⟨sin (radians rake) * cos (radians dip) * cos (radians strike) + cos (radians rake) * sin (radians strike),
   sin (radians rake) * cos (radians dip) * sin (radians strike) + cos (radians rake) * cos (radians strike),
   sin (radians rake) * sin (radians dip)⟩

/-- `get_local_unit_slip_vector_DS` (impactutils/rupture/utils.py:206-228). -/
noncomputable def slipDS (strike dip rake : ℝ) : V3 :=
  ⟨sin (radians rake) * cos (radians dip) * cos (radians strike),
   sin (radians rake) * cos (radians dip) * sin (radians strike),
   sin (radians rake) * sin (radians dip)⟩

/-- `get_local_unit_slip_vector_SS` (impactutils/rupture/utils.py:231-253). -/
noncomputable def slipSS (strike _dip rake : ℝ) : V3 :=
  ⟨cos (radians rake) * sin (radians strike), cos (radians rake) * cos (radians strike), 0⟩

/-! ### Distances -/

/-- Sum of the products of the components, `np.sum(a * b, axis=1)`. -/
noncomputable def sumProd (a b : V3) : ℝ := a.x * b.x + a.y * b.y + a.z * b.z

/-- `_distance_sq_to_segment` (impactutils/rupture/utils.py:534-587) for one row. The assignments to
`dist` are made in this order, later ones replace earlier ones. -/
noncomputable def distanceSqToSegment (p0 p1 : V3) : ℝ :=
  open Classical in
  let v := p1.sub p0
  let c1 := -1 * sumProd p0 v
  let c2 := sumProd v v
  let equal := p0.x = p1.x ∧ p0.y = p1.y ∧ p0.z = p1.z
  let neg := c1 ≤ 0
  let less := c2 ≤ c1
  let other := ¬ (neg ∨ equal ∨ less)
  let dist0 : ℝ := 0
  let dist1 := if equal then √(p0.x ^ 2 + p0.y ^ 2 + p0.z ^ 2) else dist0
  let dist2 := if neg then p0.x ^ 2 + p0.y ^ 2 + p0.z ^ 2 else dist1
  let dist3 := if less then p1.x ^ 2 + p1.y ^ 2 + p1.z ^ 2 else dist2
  let t1 := c1 / c2
  let tmp := p0.add (v.mul t1)
  if other then tmp.x ^ 2 + tmp.y ^ 2 + tmp.z ^ 2 else dist3

/-- `np.signbit`; negative zero is not modelled. -/
noncomputable def signbit (x : ℝ) : Bool := open Classical in decide (x < 0)

/-- `normalVector` of `_quad_distance` (impactutils/rupture/utils.py:448-449). -/
noncomputable def outerNormal (q : Quad V3) : V3 := ((q.p1.sub q.p0).cross (q.p2.sub q.p0)).norm

/-- `inside_idx` of `_quad_distance` (impactutils/rupture/utils.py:453-470) for one point. -/
noncomputable def inside (q : Quad V3) (x : V3) : Bool :=
  let n := outerNormal q
  let sgn0 := signbit (sumProd ((q.p1.sub q.p0).cross n) (q.p0.sub x))
  let sgn1 := signbit (sumProd ((q.p2.sub q.p1).cross n) (q.p1.sub x))
  let sgn2 := signbit (sumProd ((q.p3.sub q.p2).cross n) (q.p2.sub x))
  let sgn3 := signbit (sumProd ((q.p0.sub q.p3).cross n) (q.p3.sub x))
  (sgn0 == sgn1) && (sgn1 == sgn2) && (sgn2 == sgn3)

/-- `smin` of `_quad_distance` (impactutils/rupture/utils.py:478-483) for one point. -/
noncomputable def edgeDistSq (q : Quad V3) (x : V3) : ℝ :=
  min (min (distanceSqToSegment (q.p0.sub x) (q.p1.sub x)) (distanceSqToSegment (q.p1.sub x) (q.p2.sub x)))
    (min (distanceSqToSegment (q.p2.sub x) (q.p3.sub x)) (distanceSqToSegment (q.p3.sub x) (q.p0.sub x)))

/-- The squared distance of `_quad_distance` (impactutils/rupture/utils.py:470-484) for one point and a
quadrilateral in ECEF coordinates. -/
noncomputable def quadDistSq (q : Quad V3) (x : V3) (horizontal : Bool) : ℝ :=
  if inside q x then
    if horizontal then 0 else |sumProd (q.p0.sub x) (outerNormal q)| ^ 2
  else edgeDistSq q x

/-- The corner projected to the surface (impactutils/rupture/utils.py:437-440). -/
def surface (p : Point) : Point := ⟨p.lon, p.lat, 0⟩

/-- `_quad_distance` (impactutils/rupture/utils.py:417-490) for one point, in km. With real numbers no
distance is `nan`, so the exception at line 488 does not occur. -/
noncomputable def quadDistance (q : Quad Point) (x : V3) (horizontal : Bool) : ℝ :=
  let q' := if horizontal then ⟨surface q.p0, surface q.p1, surface q.p2, surface q.p3⟩ else q
  √(quadDistSq q'.ecef x horizontal) / 1000

/-! ### Mechanism -/

/-- Mechanisms. -/
inductive Mech where
  | SS | NM | RS | ALL
deriving DecidableEq, Repr

/-- `rake_to_mech` (impactutils/rupture/utils.py:590-610). -/
noncomputable def rakeToMech (rake : Option ℝ) : Mech :=
  open Classical in
  match rake with
  | none => .ALL
  | some r =>
    let m1 := if (r ≥ -180 ∧ r ≤ -150) ∨ (r ≥ -30 ∧ r ≤ 30) ∨ (r ≥ 150 ∧ r ≤ 180) then Mech.SS else .ALL
    let m2 := if r ≥ -120 ∧ r ≤ -60 then .NM else m1
    if r ≥ 60 ∧ r ≤ 120 then .RS else m2

/-! ### Mesh -/

/-- `np.linspace(0, 1, n)[i]`. -/
noncomputable def linspace01 (n i : ℕ) : ℝ := (i : ℝ) / ((n : ℝ) - 1)

/-- `topp[i]` of `get_quad_mesh` (impactutils/rupture/utils.py:119-120), for `nx` columns. -/
noncomputable def topPoint (q : Quad V3) (nx i : ℕ) : V3 := q.p0.add ((q.p1.sub q.p0).mul (linspace01 nx i))

/-- `botp[i]` of `get_quad_mesh` (impactutils/rupture/utils.py:121). -/
noncomputable def bottomPoint (q : Quad V3) (nx i : ℕ) : V3 := q.p3.add ((q.p2.sub q.p3).mul (linspace01 nx i))

/-- Node in row `j` and column `i` of the mesh (impactutils/rupture/utils.py:128-136), for `ny` rows. -/
noncomputable def meshNode (q : Quad V3) (nx ny j i : ℕ) : V3 :=
  (topPoint q nx i).add (((bottomPoint q nx i).sub (topPoint q nx i)).mul (linspace01 ny j))

/-- Corners of the cell in row `i` and column `j` (impactutils/rupture/utils.py:138-150, 160-168), as
upper left, upper right, lower right, lower left. -/
noncomputable def meshCell (q : Quad V3) (nx ny i j : ℕ) : Quad V3 :=
  ⟨meshNode q nx ny i j, meshNode q nx ny i (j + 1), meshNode q nx ny (i + 1) (j + 1),
   meshNode q nx ny (i + 1) j⟩

/-- Centre of a cell (impactutils/rupture/utils.py:169-175). -/
noncomputable def cellCentre (c : Quad V3) : V3 :=
  let mp0 := c.p0.add ((c.p1.sub c.p0).mul (1 / 2))
  let mp1 := c.p3.add ((c.p2.sub c.p3).mul (1 / 2))
  mp0.add ((mp1.sub mp0).mul (1 / 2))

/-- Python's `round(x, 0)` for a real number: nearest integer, ties to the even one. -/
noncomputable def roundHalfEven (x : ℝ) : ℤ :=
  open Classical in
  if x - ⌊x⌋ < 1 / 2 then ⌊x⌋
  else if 1 / 2 < x - ⌊x⌋ then ⌊x⌋ + 1
  else if ⌊x⌋ % 2 = 0 then ⌊x⌋ else ⌊x⌋ + 1

/-- Number of points for an edge of this length (km) and this spacing (impactutils/rupture/utils.py:116
and 127). -/
noncomputable def meshCount (length dx : ℝ) : ℕ := (max (roundHalfEven (length / dx) + 1) 2).toNat

end Verif.Rup
