import Verif.Model.QuadRupture
import Verif.Model.OqPoints

/-!
# `QuadRupture.fromTrace` and `fromOrientation` as a whole

`at_` stands for `geodetic.point_at` of the `openquake` library, as in `Verif.Model.OqPoints`.
-/

namespace Verif.QuadR
open Real Verif.Rup Verif.Vec Verif.Oq

/-- `OrthographicProjection(west, east, north, south)` (impactutils/extern/openquake/utils.py:199-209). -/
noncomputable def projOf (at_ : ℝ → ℝ → ℝ → ℝ → ℝ × ℝ) (west east north south : ℝ) : Proj :=
  let m := middlePoint at_ west north east south
  ⟨Oq.radians m.1, Oq.radians m.2⟩

/-- The arrays given to `fromTrace`, without `strike` and `group_index`. -/
structure Trace where
  xp0 : List ℝ
  yp0 : List ℝ
  xp1 : List ℝ
  yp1 : List ℝ
  zp : List ℝ
  widths : List ℝ
  dips : List ℝ

/-- The exceptions of `fromTrace`. -/
inductive TraceError
  | consistentLength | typeError | valueError | indexError
deriving DecidableEq

/-- `np.min((a.min(), b.min()))` of two arrays that are not empty. -/
noncomputable def minOf (a b : List ℝ) : ℝ := min (a.tail.foldl min (a.headD 0)) (b.tail.foldl min (b.headD 0))

/-- `np.max((a.max(), b.max()))` of two arrays that are not empty. -/
noncomputable def maxOf (a b : List ℝ) : ℝ := max (a.tail.foldl max (a.headD 0)) (b.tail.foldl max (b.headD 0))

/-- The projection of `fromTrace` (impactutils/rupture/quad_rupture.py:267-274). -/
noncomputable def traceProj (at_ : ℝ → ℝ → ℝ → ℝ → ℝ × ℝ) (t : Trace) : Proj :=
  projOf at_ (minOf t.xp0 t.xp1) (maxOf t.xp0 t.xp1) (maxOf t.yp0 t.yp1) (minOf t.yp0 t.yp1)

/-- The angle `theta` (impactutils/rupture/quad_rupture.py:285-293). -/
noncomputable def theta (strike : Option (List ℝ)) (i : ℕ) (p0 p1 : P2) : ℝ :=
  match strike with
  | none => traceAngle p0 p1
  | some s => if s.length = 1 then Oq.radians (s.getD 0 0) else Oq.radians (s.getD i 0)

/-- One turn of the loop (impactutils/rupture/quad_rupture.py:280-333): the corners of one quadrilateral. A top corner
too far from the centre of the projection gives `ValueError`, here `none`. A lower corner outside the disk of the
projection is `nan` in the code; here it is a point on the edge of the disk. -/
noncomputable def traceQuad (c : Proj) (t : Trace) (strike : Option (List ℝ)) (i : ℕ) : Option (Quad Point) := do
  let a ← c.forward (t.xp0.getD i 0) (t.yp0.getD i 0)
  let b ← c.forward (t.xp1.getD i 0) (t.yp1.getD i 0)
  let p0 : P2 := ⟨a.1, a.2⟩
  let p1 : P2 := ⟨b.1, b.2⟩
  let th := theta strike i p0 p1
  let dip := Oq.radians (t.dips.getD i 0)
  let width := t.widths.getD i 0
  let top := t.zp.getD i 0
  let p3 := lowerCorner th dip width p0
  let p2 := lowerCorner th dip width p1
  let ll3 := c.reverse p3.x p3.y
  let ll2 := c.reverse p2.x p2.y
  return ⟨⟨t.xp0.getD i 0, t.yp0.getD i 0, top⟩, ⟨t.xp1.getD i 0, t.yp1.getD i 0, top⟩,
    ⟨ll2.1, ll2.2, lowerDepth dip width top⟩, ⟨ll3.1, ll3.2, lowerDepth dip width top⟩⟩

/-- The quadrilaterals of `fromTrace`, in the order of the loop; `none` is the `ValueError` of the projection. -/
noncomputable def traceQuads (c : Proj) (t : Trace) (strike : Option (List ℝ)) : Option (List (Quad Point)) :=
  (List.range t.xp0.length).mapM (traceQuad c t strike)

/-- `fromTrace` (impactutils/rupture/quad_rupture.py:241-367) up to the polygons given to the constructor. The minimum of
an empty array is a `ValueError`. -/
noncomputable def fromTrace (at_ : ℝ → ℝ → ℝ → ℝ → ℝ × ℝ) (t : Trace) (strike : Option (List ℝ))
    (index : Option (List ℤ)) : Except TraceError (List (List Point)) :=
  let n := t.xp0.length
  if ¬ (n = t.yp0.length ∧ t.yp0.length = t.xp1.length ∧ t.xp1.length = t.yp1.length ∧ t.yp1.length = t.zp.length ∧
      t.zp.length = t.dips.length ∧ t.dips.length = t.widths.length) then .error .consistentLength
  else if (strike.any fun s => n ≠ s.length ∧ s.length ≠ 1) = true then .error .typeError
  else if n = 0 then .error .valueError
  else
    match traceQuads (traceProj at_ t) t strike with
    | none => .error .valueError
    | some quads =>
      match traceGroups quads index with
      | none => .error .indexError
      | some polys => .ok polys

/-- The arrays given to `fromOrientation`. -/
structure Orientation where
  px : List ℝ
  py : List ℝ
  pz : List ℝ
  dx : List ℝ
  dy : List ℝ
  length : List ℝ
  width : List ℝ
  strike : List ℝ
  dip : List ℝ

/-- The first top corner (impactutils/rupture/quad_rupture.py:502-504, 511-515). -/
noncomputable def cornerP1 (at_ : ℝ → ℝ → ℝ → ℝ → ℝ × ℝ) (px py dx dy strike dip : ℝ) : ℝ × ℝ :=
  let theta := Oq.degrees (arctan2 (dy * cos (Oq.radians dip)) dx)
  at_ px py (strike + 180 + theta) √(dx ^ 2 + (dy * cos (Oq.radians dip)) ^ 2)

/-- The trace of `fromOrientation` (impactutils/rupture/quad_rupture.py:502-523). -/
noncomputable def orientationTrace (at_ : ℝ → ℝ → ℝ → ℝ → ℝ × ℝ) (o : Orientation) : Trace :=
  let p1 := (List.range o.px.length).map fun i => cornerP1 at_ (o.px.getD i 0) (o.py.getD i 0) (o.dx.getD i 0)
    (o.dy.getD i 0) (o.strike.getD i 0) (o.dip.getD i 0)
  let p2 := (List.range o.px.length).map fun i => at_ (p1.getD i (0, 0)).1 (p1.getD i (0, 0)).2 (o.strike.getD i 0)
    (o.length.getD i 0)
  { xp0 := p1.map (·.1), yp0 := p1.map (·.2), xp1 := p2.map (·.1), yp1 := p2.map (·.2)
    zp := (List.range o.px.length).map fun i =>
      o.pz.getD i 0 - |o.dy.getD i 0 * sin (Oq.radians (o.dip.getD i 0))|
    widths := o.width, dips := o.dip }

/-- `fromOrientation` (impactutils/rupture/quad_rupture.py:424-529). -/
noncomputable def fromOrientation (at_ : ℝ → ℝ → ℝ → ℝ → ℝ × ℝ) (o : Orientation) :
    Except TraceError (List (List Point)) :=
  if o.px.length = o.py.length ∧ o.py.length = o.pz.length ∧ o.pz.length = o.dx.length ∧ o.dx.length = o.dy.length ∧
      o.dy.length = o.length.length ∧ o.length.length = o.width.length ∧ o.width.length = o.strike.length ∧
      o.strike.length = o.dip.length then
    fromTrace at_ (orientationTrace at_ o) (some o.strike) none
  else .error .consistentLength

end Verif.QuadR
