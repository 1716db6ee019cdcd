import Verif.Model.Cities
import Verif.Model.Factory

/-!
# Model of the readers and the remaining searches of impactutils/mapping/city.py

`num` and `int` are the functions `float` and `int` on a text, with `none` for `ValueError`. A file is the text that `open(..., 'rt')`
presents: its lines end with `\n`.
-/

namespace Verif.Cities
open Verif.Factory (strip)

/-- `f.readlines()`: the lines with their ends; `cur` is the line being read, backwards. -/
def readlines (cur : List Char) : List Char → List (List Char)
  | [] => if cur.isEmpty then [] else [cur.reverse]
  | c :: cs => if c = '\n' then (c :: cur).reverse :: readlines [] cs else readlines (c :: cur) cs

/-- One row of the table made by `fromGeoNames` (impactutils/mapping/city.py:122-127). -/
structure Place where
  name : List Char
  ccode : List Char
  lat : ℚ
  lon : ℚ
  iscap : Bool
  pop : ℤ
deriving DecidableEq

/-- The exceptions of `fromGeoNames`. -/
inductive GeoErr where
  | indexError
  | valueError
deriving DecidableEq

/-- `parts[i].strip()` (impactutils/mapping/city.py:131, 138-141, 144). -/
def field (parts : List (List Char)) (i : ℕ) : Except GeoErr (List Char) :=
  match parts[i]? with
  | none => .error .indexError
  | some p => .ok (strip p)

/-- `float(...)` or `int(...)`. -/
def number {α : Type} (f : List Char → Option α) (s : List Char) : Except GeoErr α :=
  match f s with
  | none => .error .valueError
  | some x => .ok x

/-- One turn of the loop (impactutils/mapping/city.py:129-144); `none` for a line that is passed over. -/
def cityOfLine (num : List Char → Option ℚ) (int : List Char → Option ℤ) (line : List Char) : Except GeoErr (Option Place) := do
  let parts := line.splitOn '\t'
  let tname ← field parts 2
  if tname.isEmpty then return none
  if tname.any (fun c => decide (c.toNat > 127)) then return none
  let ccode ← field parts 8
  let lat ← number num (← field parts 4)
  let lon ← number num (← field parts 5)
  let capfield ← field parts 7
  let pop ← number int (← field parts 14)
  return some ⟨tname, ccode, lat, lon, capfield == "PPLC".toList || capfield == "PPLA".toList, pop⟩

/-- The loop over the lines (impactutils/mapping/city.py:129-144). -/
def citiesOfLines (num : List Char → Option ℚ) (int : List Char → Option ℤ) : List (List Char) → Except GeoErr (List Place)
  | [] => .ok []
  | l :: ls => do
    let p ← cityOfLine num int l
    let ps ← citiesOfLines num int ls
    return p.toList ++ ps

/-- `Cities.fromGeoNames` with a file (impactutils/mapping/city.py:104-152). The table has the columns `name`, `ccode`, `lat`, `lon`,
`iscap` and `pop`, so that the constructor accepts it. -/
def fromGeoNames (num : List Char → Option ℚ) (int : List Char → Option ℤ) (text : List Char) : Except GeoErr (List Place) :=
  citiesOfLines num int (readlines [] text)

/-- `Cities.fromGeoNames` without a file (impactutils/mapping/city.py:116-120, 129, 145-150): the text is the one downloaded into a new
folder; the second part tells whether the folder is still there afterwards. -/
def fromDownload (num : List Char → Option ℚ) (int : List Char → Option ℤ) (text : List Char) : Except GeoErr (List Place) × Bool :=
  match fromGeoNames num int text with
  | .ok ps => (.ok ps, false)
  | .error e => (.error e, true)

/-- `Cities.limitByName` (impactutils/mapping/city.py:332-343); `search pattern name` is the search of `Series.str.contains`. -/
def limitByName (search : String → String → Bool) (t : Table) (cityname : String) : Except Err Table :=
  mk { t with rows := t.rows.filter (fun c => search cityname c.name) }

/-- `Cities.getCities` (impactutils/mapping/city.py:366-375). -/
def getCities (t : Table) : List ℚ × List ℚ × List String := (t.rows.map City.lat, t.rows.map City.lon, t.rows.map City.name)

end Verif.Cities
