import Verif.Model.CityCsv
import Mathlib.Algebra.Order.Ring.Rat

/-!
# City tables with all their columns, as objects (impactutils/mapping/city.py)

`Verif.Cities` has the columns that the methods read, and tables are values there. Here a table has any columns, with any values, also missing
ones (NaN), and lives in memory: frames are objects that a program can change, and `Cities` objects have frames of their own.

The comparisons of values with numbers, the distance and the search in names are parameters; comparisons with NaN are false. `limitByGrid` is in
`Verif.Cities`. The arrays that `getCities` returns are views of the columns, as in pandas without copy-on-write.
-/

namespace Verif.CityHeap
open Verif.Csv

variable {V : Type}

/-- Exceptions. -/
inductive Fault where
  | key
  | value
  | type
deriving DecidableEq

/-- What pandas does with values. -/
structure Cells (V : Type) where
  /-- `x > q`, `x <= q`, `x >= q` -/
  gt : V → ℚ → Bool
  le : V → ℚ → Bool
  ge : V → ℚ → Bool
  /-- `geodetic_distance(lon, lat, x, y)` -/
  dist : ℚ → ℚ → V → V → V
  /-- `str.contains` of a name -/
  contains : Text → V → Bool
  /-- the map projection, of longitudes and latitudes -/
  basemap : List V → List V → List V × List V

/-- The items where the mask is true. -/
def pick {α : Type} (mask : List Bool) (xs : List α) : List α := (xs.zip mask).filterMap fun p => if p.2 then some p.1 else none

/-- `df[mask]` and `df.loc[mask]`. -/
def rowsWhere (f : Frame V) (mask : List Bool) : Frame V := ⟨pick mask f.index, f.cols.map fun c => (c.1, pick mask c.2)⟩

/-- `del df[name]`. -/
def deleteColumn (f : Frame V) (name : Text) : Frame V := { f with cols := f.cols.filter fun c => decide (c.1 ≠ name) }

/-- `df[name]` of a column that may not be there. -/
def column (f : Frame V) (name : String) : Except Fault (List V) :=
  match f.col name.toList with
  | some c => .ok c
  | none => .error .key

/-- `Cities.__init__` (impactutils/mapping/city.py:67-69). -/
def construct (f : Frame V) : Except Fault (Frame V) :=
  match cities f with
  | .ok g => .ok g
  | .error _ => .error .key

/-- `Cities.limitByBounds` (impactutils/mapping/city.py:220-234). -/
def limitByBounds (c : Cells V) (xmin xmax ymin ymax : ℚ) (f : Frame V) : Except Fault (Frame V) := do
  let lat ← column f "lat"
  let lon ← column f "lon"
  construct (rowsWhere f (List.zipWith (fun y x => c.gt y ymin && c.le y ymax && c.gt x xmin && c.le x xmax) lat lon))

/-- `Cities.limitByRadius` (impactutils/mapping/city.py:236-255). -/
def limitByRadius (c : Cells V) (lat lon radius : ℚ) (f : Frame V) : Except Fault (Frame V) := do
  let x ← column f "lon"
  let y ← column f "lat"
  let g := f.setCol "dist".toList (List.zipWith (c.dist lon lat) x y)
  let d ← column g "dist"
  construct (deleteColumn (rowsWhere g (d.map fun v => c.le v radius)) "dist".toList)

/-- `Cities.limitByPopulation` (impactutils/mapping/city.py:257-279). -/
def limitByPopulation (c : Cells V) (pop minpop : ℚ) (f : Frame V) : Except Fault (Frame V) :=
  if "pop".toList ∈ f.columns then
    if minpop ≥ pop then .error .value
    else do
      let p ← column f "pop"
      construct (rowsWhere f (p.map fun v => c.ge v pop))
  else .error .key

/-- `Cities.limitByName` (impactutils/mapping/city.py:331-343). -/
def limitByName (c : Cells V) (name : Text) (f : Frame V) : Except Fault (Frame V) := do
  let n ← column f "name"
  construct (rowsWhere f (n.map fun v => c.contains name v))

/-- `Cities.project` (impactutils/mapping/city.py:377-386). -/
def projected (c : Cells V) (f : Frame V) : Except Fault (Frame V) :=
  match project c.basemap f with
  | .ok g => .ok g
  | .error _ => .error .key

/-- The methods that make smaller tables. -/
inductive Limit where
  | bounds (xmin xmax ymin ymax : ℚ)
  | radius (lat lon r : ℚ)
  | population (pop minpop : ℚ)
  | name (n : Text)

/-- Their results (impactutils/mapping/city.py:220-343). -/
def limited (c : Cells V) : Limit → Frame V → Except Fault (Frame V)
  | .bounds a b x y => limitByBounds c a b x y
  | .radius lat lon r => limitByRadius c lat lon r
  | .population pop minpop => limitByPopulation c pop minpop
  | .name n => limitByName c n

/-! ### Objects -/

/-- The memory: the frames; for each variable of the program with a data frame, each `Cities` object and each variable with arrays of `getCities`, the
frame behind it. -/
structure Heap (V : Type) where
  frames : List (Frame V)
  dfs : List ℕ
  objs : List ℕ
  arrays : List ℕ

/-- What a program does, with its variables by number. -/
inductive Op (V : Type) where
  /-- makes a data frame, changes one -/
  | frame (f : Frame V)
  | change (k : ℕ) (f : Frame V)
  /-- `Cities(df)` -/
  | cities (k : ℕ)
  /-- `cities.limitBy...(...)` -/
  | limit (i : ℕ) (q : Limit)
  /-- `cities.getDataFrame()`, `cities.project(m)` -/
  | dataFrame (i : ℕ)
  | project (i : ℕ)
  /-- `cities.getCities()`, and writing into one of the arrays -/
  | arrays (i : ℕ)
  | write (k : ℕ) (name : Text) (values : List V)
  /-- looks at a data frame, at the table of a `Cities` object -/
  | lookFrame (k : ℕ)
  | look (i : ℕ)

/-- What a program sees of a step. -/
inductive Seen (V : Type) where
  | done
  | fault (e : Fault)
  | table (f : Frame V)
  /-- there is no such variable -/
  | unbound

/-- A new frame in memory. -/
def Heap.alloc (h : Heap V) (f : Frame V) : Heap V := { h with frames := h.frames ++ [f] }

/-- One step (impactutils/mapping/city.py:43-69, 220-386). The constructor, the filters and `getDataFrame` copy the frame. -/
def step (c : Cells V) (h : Heap V) : Op V → Heap V × Seen V
  | .frame f => ({ h.alloc f with dfs := h.dfs ++ [h.frames.length] }, .done)
  | .change k f =>
    match h.dfs[k]? with
    | some a => ({ h with frames := h.frames.set a f }, .done)
    | none => (h, .unbound)
  | .cities k =>
    match (h.dfs[k]?).bind (h.frames[·]?) with
    | some f =>
      match construct f with
      | .ok g => ({ h.alloc g with objs := h.objs ++ [h.frames.length] }, .done)
      | .error e => (h, .fault e)
    | none => (h, .unbound)
  | .limit i q =>
    match (h.objs[i]?).bind (h.frames[·]?) with
    | some f =>
      match limited c q f with
      | .ok g => ({ h.alloc g with objs := h.objs ++ [h.frames.length] }, .done)
      | .error e => (h, .fault e)
    | none => (h, .unbound)
  | .dataFrame i =>
    match (h.objs[i]?).bind (h.frames[·]?) with
    | some f => ({ h.alloc f with dfs := h.dfs ++ [h.frames.length] }, .done)
    | none => (h, .unbound)
  | .project i =>
    match h.objs[i]? with
    | some a =>
      match h.frames[a]? with
      | some f =>
        match projected c f with
        | .ok g => ({ h with frames := h.frames.set a g }, .done)
        | .error e => (h, .fault e)
      | none => (h, .unbound)
    | none => (h, .unbound)
  | .arrays i =>
    match h.objs[i]? with
    | some a => ({ h with arrays := h.arrays ++ [a] }, .done)
    | none => (h, .unbound)
  | .write k name values =>
    match h.arrays[k]? with
    | some a =>
      match h.frames[a]? with
      | some f => ({ h with frames := h.frames.set a (f.setCol name values) }, .done)
      | none => (h, .unbound)
    | none => (h, .unbound)
  | .lookFrame k =>
    match (h.dfs[k]?).bind (h.frames[·]?) with
    | some f => (h, .table f)
    | none => (h, .unbound)
  | .look i =>
    match (h.objs[i]?).bind (h.frames[·]?) with
    | some f => (h, .table f)
    | none => (h, .unbound)

/-- What a program sees of all its steps. -/
def run (c : Cells V) : Heap V → List (Op V) → List (Seen V)
  | _, [] => []
  | h, op :: ops => (step c h op).2 :: run c (step c h op).1 ops

end Verif.CityHeap
