import Verif.Model.Cities

/-!
# Model of the label collision filter in impactutils/mapping/mercatormap.py

Rendering a label (matplotlib) is a parameter: `extents row` is the label's box in data units.
-/

namespace Verif.Collision
open Verif.Cities

/-- A rectangle given by its edges. -/
structure Box where
  left : ℚ
  right : ℚ
  bottom : ℚ
  top : ℚ
deriving DecidableEq

/-- `MercatorMap.getCityEdges` (impactutils/mapping/mercatormap.py:339-364): the label's extents
widened by `padding` times its width and height on each side. -/
def cityEdges (extents : City → Box) (padding : ℚ) (row : City) : Box :=
  let b := extents row
  let xpad := (b.right - b.left) * padding
  let ypad := (b.top - b.bottom) * padding
  ⟨b.left - xpad, b.right + xpad, b.bottom - ypad, b.top + ypad⟩

/-- The off-map test (impactutils/mapping/mercatormap.py:330). `ax` is the extent of the map. -/
def offMap (ax b : Box) : Bool :=
  decide (b.left < ax.left) || decide (b.right > ax.right) || decide (b.bottom < ax.bottom) ||
    decide (b.top > ax.top)

/-- `MercatorMap.getCityBoundingBoxes` (impactutils/mapping/mercatormap.py:291-337): one entry per
row, `none` (NaN) for a label that leaves the map; the first row is not tested (l.316-321). An empty
table makes `df.iloc[0]` raise IndexError; `drawCities` does not call it then (l.214). -/
def boundingBoxes (edges : City → Box) (ax : Box) : List City → List (City × Option Box)
  | [] => []
  | r :: rs => (r, some (edges r)) ::
      rs.map (fun r => (r, if offMap ax (edges r) then none else some (edges r)))

/-- Boxes that are clear of each other (impactutils/mapping/mercatormap.py:275-277). -/
def clear (b e : Box) : Bool :=
  (decide (b.left > e.right) || decide (b.right < e.left)) ||
  (decide (b.top < e.bottom) || decide (b.bottom > e.top))

/-- The loop over the boxes (impactutils/mapping/mercatormap.py:261-279). `seen` are the boxes
`0..i-1`, whether kept or not. -/
def keepLoop : List Box → List (City × Box) → List (City × Box)
  | _, [] => []
  | seen, (r, b) :: rest =>
    if seen.all (fun e => clear b e) then (r, b) :: keepLoop (seen ++ [b]) rest
    else keepLoop (seen ++ [b]) rest

/-- `ikeep = [0]` followed by the loop (impactutils/mapping/mercatormap.py:260-279). -/
def keepNonOverlapping : List (City × Box) → List (City × Box)
  | [] => []
  | (r, b) :: rest => (r, b) :: keepLoop [b] rest

/-- `MercatorMap.limitByMapCollision` (impactutils/mapping/mercatormap.py:229-289): rows of the new
table with their boxes. `sort` is `sort_values(by='pop', ascending=False)`. -/
def limitByMapCollision (sort : List City → List City) (edges : City → Box) (ax : Box)
    (rows : List City) : List (City × Box) :=
  keepNonOverlapping ((boundingBoxes edges ax (sort rows)).filterMap
    (fun p => p.2.map (fun b => (p.1, b))))

end Verif.Collision
