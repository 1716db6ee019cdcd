import Verif.Model.FromTrace

/-!
# `QuadRupture.getDepthAtPoint` as a whole, the sizes of single quadrilaterals, and `get_quad_slip`

`at_` stands for `geodetic.point_at` of the `openquake` library, as in `Verif.Model.OqPoints`.
-/

namespace Verif.QuadR
open Real Verif.Rup Verif.Vec Verif.Oq

/-- `SMALL_DISTANCE` (impactutils/rupture/quad_rupture.py:82), in km. -/
noncomputable def smallDistance : ℝ := 2e-3

/-- The loop that looks for the nearest quadrilateral (impactutils/rupture/quad_rupture.py:90-100): `best` is the
quadrilateral with index `imin`, if there is one, and `dmin` its distance. -/
noncomputable def nearestLoop (x : V3) (best : Option (Quad Point)) (dmin : ℝ) : List (Quad Point) → Option (Quad Point)
  | [] => best
  | q :: qs =>
    open Classical in
    if quadDistance q x true < dmin then nearestLoop x (some q) (quadDistance q x true) qs else nearestLoop x best dmin qs

/-- `self._quadrilaterals[imin]` (impactutils/rupture/quad_rupture.py:90-102): with `imin = -1` that is the last one. -/
noncomputable def nearestQuad (qs : List (Quad Point)) (x : V3) : Option (Quad Point) :=
  match nearestLoop x none 9999999999999999 qs with
  | some q => some q
  | none => qs.getLast?

/-- The projection of a quadrilateral (impactutils/rupture/quad_rupture.py:106-110). -/
noncomputable def quadProj (at_ : ℝ → ℝ → ℝ → ℝ → ℝ × ℝ) (q : Quad Point) : Proj :=
  projOf at_ (min (min q.p0.lon q.p1.lon) (min q.p2.lon q.p3.lon)) (max (max q.p0.lon q.p1.lon) (max q.p2.lon q.p3.lon))
    (max (max q.p0.lat q.p1.lat) (max q.p2.lat q.p3.lat)) (min (min q.p0.lat q.p1.lat) (min q.p2.lat q.p3.lat))

/-- `sxdd` from the projected corners `s0`, `s1`, `s3` and the projected point `sx`
(impactutils/rupture/quad_rupture.py:119-139). -/
noncomputable def downDipDistance (s0 s1 s3 sx : ℝ × ℝ) : ℝ :=
  let v := fun s : ℝ × ℝ => (⟨s.1, s.2, 0⟩ : V3)
  let s0s1 := (v s1).sub (v s0)
  let s0s3 := (v s3).sub (v s0)
  let s0sx := (v sx).sub (v s0)
  ((s0s1.cross (s0s3.cross s0s1)).norm).dot s0sx

/-- The part of `getDepthAtPoint` for one quadrilateral (impactutils/rupture/quad_rupture.py:102-154); `none` is the
`ValueError` of the projection for a point too far away. -/
noncomputable def quadDepth (at_ : ℝ → ℝ → ℝ → ℝ → ℝ × ℝ) (q : Quad Point) (lat lon : ℝ) : Option ℝ := do
  let c := quadProj at_ q
  let s0 ← c.forward q.p0.lon q.p0.lat
  let s1 ← c.forward q.p1.lon q.p1.lat
  let _ ← c.forward q.p2.lon q.p2.lat
  let s3 ← c.forward q.p3.lon q.p3.lat
  let sx ← c.forward lon lat
  return depthAt (downDipDistance s0 s1 s3 sx) (quadWidth q.ecef) (quadDip q) q.p0.depth q.p3.depth

/-- The results of `getDepthAtPoint`. -/
inductive DepthResult where
  | nan
  | depth (d : ℝ)
  | valueError
  | indexError

/-- `getDepthAtPoint` (impactutils/rupture/quad_rupture.py:81-154). -/
noncomputable def getDepthAtPoint (at_ : ℝ → ℝ → ℝ → ℝ → ℝ × ℝ) (qs : List (Quad Point)) (lat lon : ℝ) : DepthResult :=
  open Classical in
  let x := fromPoint ⟨lon, lat, 0⟩
  if computeRjb qs x > smallDistance then .nan
  else
    match nearestQuad qs x with
    | none => .indexError
    | some q =>
      match quadDepth at_ q lat lon with
      | none => .valueError
      | some d => .depth d

/-- `getIndividualWidths` (impactutils/rupture/quad_rupture.py:742-755). -/
noncomputable def individualWidths (qs : List (Quad Point)) : List ℝ := qs.map fun q => quadWidth q.ecef

/-- `getIndividualTopLengths` (impactutils/rupture/quad_rupture.py:757-772). -/
noncomputable def individualTopLengths (qs : List (Quad Point)) : List ℝ :=
  qs.map fun q => ((fromPoint q.p1).sub (fromPoint q.p0)).mag / 1000

/-- `getNumGroups` (impactutils/rupture/quad_rupture.py:984-992). -/
def numGroups (polys : List (List Point)) : ℕ := (groupIndex polys).dedup.length

/-- `getNumQuads` (impactutils/rupture/quad_rupture.py:994-1001). -/
noncomputable def numQuads (polys : List (List Point)) : ℕ := (quadrilaterals polys).length

/-- `get_quad_slip` (impactutils/rupture/utils.py:271-298). The smallest latitude is given as the north of the
projection and the largest as its south. -/
noncomputable def quadSlip (at_ : ℝ → ℝ → ℝ → ℝ → ℝ × ℝ) (q : Quad Point) (rake : ℝ) : V3 :=
  let strike := azimuth q.p0.lon q.p0.lat q.p1.lon q.p1.lat
  let s1 := slip strike (quadDip q) rake
  let proj := projOf at_ (min (min q.p0.lon q.p1.lon) (min q.p2.lon q.p3.lon))
    (max (max q.p0.lon q.p1.lon) (max q.p2.lon q.p3.lon)) (min (min q.p0.lat q.p1.lat) (min q.p2.lat q.p3.lat))
    (max (max q.p0.lat q.p1.lat) (max q.p2.lat q.p3.lat))
  let l1 := proj.reverse s1.x s1.y
  let l0 := proj.reverse 0 0
  ((latlon2ecef l1.2 l1.1 s1.z).sub (latlon2ecef l0.2 l0.1 0)).norm

end Verif.QuadR
