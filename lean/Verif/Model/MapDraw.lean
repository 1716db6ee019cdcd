import Verif.Model.Collision

/-!
# Model of MercatorMap as a whole (impactutils/mapping/mercatormap.py)

The projection and the size of a rendered text are parameters. `sx` and `sy` are the lengths of a pixel of the axes in the units of the
projection.
-/

namespace Verif.Collision
open Verif.Cities

/-- The cities of a new map, `cities.limitByBounds(bounds)` (impactutils/mapping/mercatormap.py:67). -/
def newMap (t : Table) (xmin xmax ymin ymax : ℚ) : Except Err Table := limitByBounds t xmin xmax ymin ymax

/-- The central longitude of the projection (impactutils/mapping/mercatormap.py:68-71). -/
def centralLongitude (xmin xmax : ℚ) : ℚ := if xmax < 0 ∧ xmax < xmin then (xmin + (xmax + 360)) / 2 else (xmin + xmax) / 2

/-- The extents of the text made by `renderRow` (impactutils/mapping/mercatormap.py:382-411, 356-358): it begins `XOFFSET` = 4 pixels to the
right of the city and is centred vertically; `size` is its width and height in pixels. -/
def labelBox (proj size : City → ℚ × ℚ) (sx sy : ℚ) (c : City) : Box :=
  let x := (proj c).1 + 4 * sx
  let y := (proj c).2
  ⟨x, x + (size c).1 * sx, y - (size c).2 * sy / 2, y + (size c).2 * sy / 2⟩

/-- What `drawCities` puts on the axes. -/
inductive Mark where
  | dot (lon lat : ℚ)
  | label (name : String) (lon lat : ℚ)
deriving DecidableEq

/-- The loop that draws (impactutils/mapping/mercatormap.py:219-225). -/
def drawRows (dots : Bool) : List City → List Mark
  | [] => []
  | c :: cs => (if dots then [.dot c.lon c.lat] else []) ++ .label c.name c.lon c.lat :: drawRows dots cs

/-- `MercatorMap.drawCities` (impactutils/mapping/mercatormap.py:186-227): the cities of the map afterwards, which are also returned, and what
was drawn. `limitByMapCollision` adds four columns (l.284-287). -/
def drawCities (sort : List City → List City) (edges : City → Box) (ax : Box) (dots : Bool) (t : Table) : Except Err (Table × List Mark) := do
  let t1 ← limitByGrid sort t 2 2 15
  let t2 ← if t1.rows.isEmpty then pure t1 else
    mk ⟨t1.columns ++ ["top", "bottom", "left", "right"], (limitByMapCollision sort edges ax t1.rows).map Prod.fst⟩
  let t3 ← mk t2
  return (t3, drawRows dots t2.rows)

end Verif.Collision
