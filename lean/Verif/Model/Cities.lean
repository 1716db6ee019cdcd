import Mathlib.Algebra.Order.Ring.Rat
import Mathlib.Data.List.MinMax

/-!
# Model of impactutils/mapping/city.py

A city table is its list of column names and its rows. Only the columns the modelled methods read
are fields of a row (`name`, `lat`, `lon`, `pop`); the `pop` field is meaningful only when `"pop"`
is one of the columns. Missing values (NaN) are outside the model. Floats are exact rationals.
-/

namespace Verif.Cities

/-- One row of the table (impactutils/mapping/city.py:44-60, columns of the data frame). -/
structure City where
  name : String
  lat : ℚ
  lon : ℚ
  pop : ℚ
deriving DecidableEq

/-- The data frame inside a `Cities` object (impactutils/mapping/city.py:69). -/
structure Table where
  columns : List String
  rows : List City
deriving DecidableEq

/-- The exceptions raised by the modelled methods. -/
inductive Err where
  | keyError
  | valueError
  | attributeError
deriving DecidableEq

/-- `Cities.REQFIELDS` (impactutils/mapping/city.py:41). -/
def reqFields : List String := ["name", "lat", "lon"]

/-- `Cities.__init__` (impactutils/mapping/city.py:67-69): KeyError unless at least three of the
required column names are present. -/
def mk (t : Table) : Except Err Table :=
  if (reqFields.filter (fun f => decide (f ∈ t.columns))).length < 3 then .error .keyError
  else .ok t

/-- `Cities.limitByBounds` (impactutils/mapping/city.py:220-234). `bounds` is
`(xmin, xmax, ymin, ymax)`. -/
def limitByBounds (t : Table) (xmin xmax ymin ymax : ℚ) : Except Err Table :=
  mk { t with rows := t.rows.filter (fun c =>
        decide (c.lat > ymin) && decide (c.lat ≤ ymax) &&
        decide (c.lon > xmin) && decide (c.lon ≤ xmax)) }

/-- `Cities.limitByRadius` (impactutils/mapping/city.py:236-255). The great-circle distance
`geodetic_distance(lon1, lat1, lon2, lat2)` is a parameter. The helper column `dist` is added and
deleted again (l.252, 254), which removes a `dist` column that was there before. -/
def limitByRadius (dist : ℚ → ℚ → ℚ → ℚ → ℚ) (t : Table) (lat lon radius : ℚ) :
    Except Err Table :=
  mk { columns := t.columns.filter (· ≠ "dist")
       rows := t.rows.filter (fun c => decide (dist lon lat c.lon c.lat ≤ radius)) }

/-- `Cities.limitByPopulation` (impactutils/mapping/city.py:257-279). -/
def limitByPopulation (t : Table) (pop minpop : ℚ) : Except Err Table :=
  if "pop" ∉ t.columns then .error .keyError
  else if minpop ≥ pop then .error .valueError
  else mk { t with rows := t.rows.filter (fun c => decide (c.pop ≥ pop)) }

/-- Python slice `xs[0:k]` with an integer `k` (used at impactutils/mapping/city.py:325): a negative
`k` counts from the end. -/
def sliceTo {α : Type} (xs : List α) (k : ℤ) : List α :=
  if 0 ≤ k then xs.take k.toNat else xs.take (xs.length - (-k).toNat)

/-- Column minimum, `Series.min()` (impactutils/mapping/city.py:301,303). On an empty column pandas
gives NaN and every later comparison is false; since there are no rows the value is never used, so
0 stands for it. -/
def colMin (xs : List ℚ) : ℚ := (xs.min?).getD 0

/-- Column maximum, `Series.max()` (impactutils/mapping/city.py:302,304); see `colMin`. -/
def colMax (xs : List ℚ) : ℚ := (xs.max?).getD 0

/-- Rows that grid cell `(i, j)` contributes (impactutils/mapping/city.py:311-325). `sort` stands
for `DataFrame.sort_values(by='pop', ascending=False)`, whose treatment of ties is unspecified
(the default algorithm is not stable). -/
def gridCell (sort : List City → List City) (t : Table) (xmin ymin dx dy : ℚ) (k : ℤ)
    (i j : ℕ) : Except Err (List City) := do
  let cellymin := ymin + (i * dy)
  let cellymax := cellymin + dy
  let cellxmin := xmin + (j * dx)
  let cellxmax := cellxmin + dx
  let tcities ← limitByBounds t cellxmin cellxmax cellymin cellymax
  return sliceTo (sort tcities.rows) k

/-- `Cities.limitByGrid` (impactutils/mapping/city.py:281-330). `range(0, ny)` and `range(0, nx)`
with non-negative counts; with no cell at all `newdf` stays `None` and the constructor fails. -/
def limitByGrid (sort : List City → List City) (t : Table) (nx ny : ℕ) (k : ℤ) :
    Except Err Table := do
  if "pop" ∉ t.columns then throw .keyError
  let xmin := colMin (t.rows.map City.lon)
  let xmax := colMax (t.rows.map City.lon)
  let ymin := colMin (t.rows.map City.lat)
  let ymax := colMax (t.rows.map City.lat)
  let dx := (xmax - xmin) / nx
  let dy := (ymax - ymin) / ny
  if nx = 0 ∨ ny = 0 then throw .attributeError
  let blocks ← (List.range ny).mapM (fun i =>
    (List.range nx).mapM (fun j => gridCell sort t xmin ymin dx dy k i j))
  mk { t with rows := (blocks.flatten).flatten }

/-- `Cities.getBounds` (impactutils/mapping/city.py:352-363): `(xmin, xmax, ymin, ymax)`; `none` for
an empty table (pandas gives NaN). -/
def getBounds (t : Table) : Option (ℚ × ℚ × ℚ × ℚ) :=
  match (t.rows.map City.lon).min?, (t.rows.map City.lon).max?,
        (t.rows.map City.lat).min?, (t.rows.map City.lat).max? with
  | some a, some b, some c, some d => some (a, b, c, d)
  | _, _, _, _ => none

end Verif.Cities
