import Verif.Model.Cities
import Verif.Model.Double

/-!
# limitByGrid of impactutils/mapping/city.py in binary arithmetic

`Verif.Cities` has exact numbers. Here the differences, quotients, products and sums of numpy floats are rounded to the nearest double. Comparisons, and
the least and greatest element of a column, are exact. Overflow and NaN are not modelled.
-/

namespace Verif.Dbl
open Verif.Cities

/-- The width of the cells (impactutils/mapping/city.py:305-306): the difference of two floats, divided by an `int`. -/
def cellWidth (lo hi : ℚ) (n : ℕ) : ℚ := rnd (rnd (hi - lo) / rnd n)

/-- The lower limit of a cell (impactutils/mapping/city.py:311, 314): an `int` times a float, added to a float. -/
def cellMin (lo d : ℚ) (i : ℕ) : ℚ := rnd (lo + rnd (rnd i * d))

/-- The upper limit of a cell (impactutils/mapping/city.py:312, 315). -/
def cellMax (lo d : ℚ) (i : ℕ) : ℚ := rnd (cellMin lo d i + d)

/-- Rows that grid cell `(i, j)` contributes (impactutils/mapping/city.py:311-325), as in `Cities.gridCell`. -/
def gridCell (sort : List City → List City) (t : Table) (xmin ymin dx dy : ℚ) (k : ℤ) (i j : ℕ) : Except Err (List City) := do
  let tcities ← limitByBounds t (cellMin xmin dx j) (cellMax xmin dx j) (cellMin ymin dy i) (cellMax ymin dy i)
  return sliceTo (sort tcities.rows) k

/-- `Cities.limitByGrid` (impactutils/mapping/city.py:281-330), as in `Cities.limitByGrid`. -/
def limitByGrid (sort : List City → List City) (t : Table) (nx ny : ℕ) (k : ℤ) : Except Err Table := do
  if "pop" ∉ t.columns then throw .keyError
  let xmin := colMin (t.rows.map City.lon)
  let xmax := colMax (t.rows.map City.lon)
  let ymin := colMin (t.rows.map City.lat)
  let ymax := colMax (t.rows.map City.lat)
  if nx = 0 ∨ ny = 0 then throw .attributeError
  let dx := cellWidth xmin xmax nx
  let dy := cellWidth ymin ymax ny
  let blocks ← (List.range ny).mapM (fun i => (List.range nx).mapM (fun j => gridCell sort t xmin ymin dx dy k i j))
  mk { t with rows := (blocks.flatten).flatten }

end Verif.Dbl
