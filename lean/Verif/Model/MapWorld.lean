import Verif.Model.MapDraw

/-!
# Maps and matplotlib's figures (impactutils/mapping/mercatormap.py)

`MapDraw` has one map alone. Here there are any number of maps and of the caller's own figures, all in matplotlib's one list of open figures with its current axes.
Figures are not closed. What makes `set_extent` fail is a parameter: a function of the central longitude and the bounds, as it only looks at the projection and the
extent.
-/

namespace Verif.MapWorld
open Verif.Cities Verif.Collision

/-- The sides of a map: `xmin, xmax, ymin, ymax` (impactutils/mapping/mercatormap.py:68). -/
structure Bounds where
  xmin : ℚ
  xmax : ℚ
  ymin : ℚ
  ymax : ℚ
deriving DecidableEq

/-- What the libraries do. `geo` and `projected` say whether `set_extent` works with geographic and with projected coordinates, `edges` are the edges of a label with
its padding in a font, `extent` those of the hidden axes, and `installed` are the fonts. -/
structure Library where
  geo : ℚ → Bounds → Bool
  projected : ℚ → Bounds → Bool
  sort : List City → List City
  edges : ℚ → Bounds → String → City → Box
  extent : ℚ → Bounds → Box
  installed : List String

/-- The attributes of a `MercatorMap` that matter here (impactutils/mapping/mercatormap.py:67-107): its cities, its bounds, and the numbers of its axes `_ax` and of its
hidden axes `_ax_clone`. -/
structure MapObj where
  cities : Table
  bounds : Bounds
  ax : ℕ
  hidden : ℕ
deriving DecidableEq

/-- The state of pyplot and of the caller's program: how many figures are open, for each axes its figure and what was drawn on it, the current axes, and the maps. -/
structure World where
  figures : ℕ
  axes : List (ℕ × List Mark)
  current : Option ℕ
  maps : List MapObj

/-- Before the first call. -/
def World.start : World := ⟨0, [], none, []⟩

/-- `plt.figure()` followed by `add_axes` (impactutils/mapping/mercatormap.py:88-89, 100-102). -/
def World.newAxes (w : World) : World := { w with figures := w.figures + 1, axes := w.axes ++ [(w.figures, [])], current := some w.axes.length }

/-- Putting marks on axes. -/
def World.put (w : World) (a : ℕ) (marks : List Mark) : World := { w with axes := w.axes.modify a fun x => (x.1, x.2 ++ marks) }

/-- What the caller can do. -/
inductive Call where
  | figure
  | sca (a : ℕ)
  | text (a : ℕ) (mark : Mark)
  | new (cities : Table) (bounds : Bounds)
  | draw (k : ℕ) (font : String) (dots : Bool)
  | axesClone (k : ℕ)
  | fonts (k : ℕ)

/-- What comes of it. -/
inductive Event where
  | opened (a : ℕ)
  | chosen
  | typed (a : ℕ) (mark : Mark)
  | made (k : ℕ)
  | drawn (k : ℕ) (dots : Bool) (cities : Table)
  | fontList (l : List String)
  | keyError
  | attributeError
  /-- whatever `set_extent` raises -/
  | extentError
  /-- the call names an object that is not there -/
  | noObject
deriving DecidableEq

/-- `MercatorMap(bounds, figsize, cities)` (impactutils/mapping/mercatormap.py:67-112). The first `set_extent` has a second try with projected coordinates (l.90-96), that of the
hidden axes has none (l.103-104). -/
def newMap (L : Library) (w : World) (t : Table) (b : Bounds) : World × Event :=
  match Collision.newMap t b.xmin b.xmax b.ymin b.ymax with
  | .error _ => (w, .keyError)
  | .ok cities =>
    let c := centralLongitude b.xmin b.xmax
    let w1 := w.newAxes
    if !L.geo c b && !L.projected c b then (w1, .extentError)
    else
      let w2 := w1.newAxes
      if !L.geo c b then (w2, .extentError)
      else ({ w2 with current := some w.axes.length, maps := w2.maps ++ [⟨cities, b, w.axes.length, w.axes.length + 1⟩] }, .made w.maps.length)

/-- A label on the hidden axes, `renderRow` with `test=True` (impactutils/mapping/mercatormap.py:354). -/
def trial (c : City) : Mark := .label c.name c.lon c.lat

/-- `MercatorMap.drawCities` (impactutils/mapping/mercatormap.py:186-227): the hidden axes become the current ones (l.210), the labels are tried out there (l.215-216, 252-253)
and are left there, then the axes of the map become the current ones again (l.219). An exception of `limitByGrid` (l.212) comes before that. -/
def draw (L : Library) (w : World) (k : ℕ) (m : MapObj) (font : String) (dots : Bool) : World × Event :=
  let c := centralLongitude m.bounds.xmin m.bounds.xmax
  let w1 := { w with current := some m.hidden }
  match limitByGrid L.sort m.cities 2 2 15 with
  | .error _ => (w1, .keyError)
  | .ok t1 =>
    match drawCities L.sort (L.edges c m.bounds font) (L.extent c m.bounds) dots m.cities with
    | .error _ => (w1, .keyError)
    | .ok (t, marks) =>
      let w2 := w1.put m.hidden ((L.sort t1.rows).map trial)
      let w3 := ({ w2 with current := some m.ax } : World).put m.ax marks
      ({ w3 with maps := w3.maps.set k { m with cities := t } }, .drawn k dots t)

/-- The attributes that `__init__` sets (impactutils/mapping/mercatormap.py:67-110). -/
def attributes : List String := ["_cities", "_proj", "_geoproj", "_figure", "_ax", "_figure_clone", "_ax_clone", "_fontlist", "_padding"]

/-- `getAxesClone` (impactutils/mapping/mercatormap.py:176) asks for the attribute `_axes_clone`. -/
def axesClone (m : MapObj) : Event := if "_axes_clone" ∈ attributes then .opened m.hidden else .attributeError

/-- The fonts (impactutils/mapping/mercatormap.py:107-108, 184). -/
def fontList (L : Library) : List String := L.installed.mergeSort fun a b => decide (a ≤ b)

/-- One call. -/
def step (L : Library) (w : World) : Call → World × Event
  | .figure => (w.newAxes, .opened w.axes.length)
  | .sca a => if a < w.axes.length then ({ w with current := some a }, .chosen) else (w, .noObject)
  | .text a mark => if a < w.axes.length then (w.put a [mark], .typed a mark) else (w, .noObject)
  | .new t b => newMap L w t b
  | .draw k font dots =>
    match w.maps[k]? with
    | none => (w, .noObject)
    | some m => draw L w k m font dots
  | .axesClone k =>
    match w.maps[k]? with
    | none => (w, .noObject)
    | some m => (w, axesClone m)
  | .fonts k =>
    match w.maps[k]? with
    | none => (w, .noObject)
    | some _ => (w, .fontList (fontList L))

/-- A program: the calls one after the other, going on after exceptions. -/
def run (L : Library) : World → List Call → World × List Event
  | w, [] => (w, [])
  | w, c :: cs => ((run L (step L w c).1 cs).1, (step L w c).2 :: (run L (step L w c).1 cs).2)

end Verif.MapWorld
