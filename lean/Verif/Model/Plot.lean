import Verif.Model.EdgeRupture
import Verif.Model.QuadRupture

/-!
# Pictures of ruptures: `impactutils/rupture/plotrupture.py`

Matplotlib is outside the model: a picture is the lines that are drawn and the extent of the map.
-/

namespace Verif.Plot
open Verif.Rup

/-- The exceptions. -/
inductive Err where
  | typeError
  | valueError
deriving DecidableEq

/-- What a rupture gives to the drawing functions: a point rupture has `None` for its quadrilaterals and two numbers for `lats` and `lons`
(impactutils/rupture/point_rupture.py:110-125); the others have quadrilaterals and the outlines of their groups. -/
inductive Shape where
  | point (p : Point)
  | surface (quads : List (Quad Point)) (outlines : List (List Point))

/-- The line of one quadrilateral (impactutils/rupture/plotrupture.py:34-40). -/
noncomputable def wire (q : Quad Point) : List (ℝ × ℝ × ℝ) :=
  let x := [q.p0.lon, q.p1.lon, q.p2.lon, q.p3.lon]
  let y := [q.p0.lat, q.p1.lat, q.p2.lat, q.p3.lat]
  let z := [-q.p0.depth, -q.p1.depth, -q.p2.depth, -q.p3.depth]
  (x ++ [q.p0.lon]).zip ((y ++ [q.p0.lat]).zip (z ++ [-q.p0.depth]))

/-- `plot_rupture_wire3d` (impactutils/rupture/plotrupture.py:13-45): the lines; `threeD` tells whether the given axes are three-dimensional, and is
`none` if no axes are given. -/
noncomputable def wire3d (threeD : Option Bool) : Shape → Except Err (List (List (ℝ × ℝ × ℝ)))
  | .point _ => .error .typeError
  | .surface quads _ => if threeD = some false then .error .typeError else .ok (quads.map wire)

/-- `rupture.lats` and `rupture.lons`: the outlines, each with a `nan` at its end, here `none` (impactutils/rupture/quad_rupture.py:909-910, 941-942,
impactutils/rupture/edge_rupture.py:317-318, 340-341). -/
def coords (f : Point → ℝ) (outlines : List (List Point)) : List (Option ℝ) := outlines.flatMap fun o => o.map (fun p => some (f p)) ++ [none]

/-- `a[~np.isnan(a)]` (impactutils/rupture/plotrupture.py:60-61). -/
def dropNan (a : List (Option ℝ)) : List ℝ := a.filterMap id

/-- `np.nanmin`: ValueError for an empty array. An array of nothing but `nan` does not occur, since outlines are not empty. -/
noncomputable def nanmin (a : List (Option ℝ)) : Except Err ℝ :=
  match dropNan a with
  | [] => .error .valueError
  | x :: xs => .ok (xs.foldl min x)

/-- `np.nanmax`. -/
noncomputable def nanmax (a : List (Option ℝ)) : Except Err ℝ :=
  match dropNan a with
  | [] => .error .valueError
  | x :: xs => .ok (xs.foldl max x)

/-- A map: its extent and the line on it, as longitudes and latitudes. -/
structure MapPicture where
  west : ℝ
  east : ℝ
  south : ℝ
  north : ℝ
  line : List (ℝ × ℝ)

/-- `map_rupture` (impactutils/rupture/plotrupture.py:48-82). `bufx` and `bufy` of lines 69 and 73 are overwritten in lines 76-77 with half of `MAP_WIDTH` = 10.
The arrays of a point rupture are numbers, which cannot be indexed (l.60). -/
noncomputable def mapRupture : Shape → Except Err MapPicture
  | .point _ => .error .typeError
  | .surface _ outlines => do
    let lats := coords Point.lat outlines
    let lons := coords Point.lon outlines
    let rlats := dropNan lats
    let rlons := dropNan lons
    let lat1 ← nanmin lats
    let lat2 ← nanmax lats
    let lon1 ← nanmin lons
    let lon2 ← nanmax lons
    return ⟨lon1 - 10 / 2, lon2 + 10 / 2, lat1 - 10 / 2, lat2 + 10 / 2, rlons.zip rlats⟩

end Verif.Plot
