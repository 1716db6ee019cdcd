import Verif.Model.Palette
import Verif.Model.Factory

/-!
# Model of ColorPalette.fromFile

A file is the list of its lines, with their ends. `int` and `num` are the functions `int` and `float` on a text, with `none` for
`ValueError`; `num` reads the cells of the table also.
-/

namespace Verif.Colors
open Verif.Factory (strip splitWords)

/-- The exceptions of `fromFile`. -/
inductive FileErr where
  | indexError
  | valueError
  | attributeError
  /-- pandas finds no header. -/
  | emptyData
  /-- A row that is longer or shorter than the header, or a cell that is no number: what pandas makes of them is not modelled. -/
  | notModelled
  | constructor (e : Err)
deriving DecidableEq

/-- The variables set by the loop over the lines (impactutils/colors/cpalette.py:241-243). -/
structure Settings where
  nanColor : List ℤ
  name : List Char
  resolution : Option ℚ
deriving DecidableEq

/-- The start values (impactutils/colors/cpalette.py:241-243). -/
def startSettings : Settings := ⟨[0, 0, 0, 0], "generic".toList, none⟩

/-- `tline[2:].split(':')[1]` (impactutils/colors/cpalette.py:248-249, 253-254, 256-257). -/
def afterColon (tline : List Char) : Except FileErr (List Char) :=
  match ((tline.drop 2).splitOn ':')[1]? with
  | none => .error .indexError
  | some v => .ok v

/-- `[int(xpi) for xpi in value]` (impactutils/colors/cpalette.py:250). -/
def readInts (int : List Char → Option ℤ) : List (List Char) → Except FileErr (List ℤ)
  | [] => .ok []
  | v :: vs =>
    match int v with
    | none => .error .valueError
    | some n => (readInts int vs).map (n :: ·)

/-- One turn of the loop over the lines (impactutils/colors/cpalette.py:245-257). -/
def settingLine (int : List Char → Option ℤ) (num : List Char → Option ℚ) (s : Settings) (line : List Char) : Except FileErr Settings :=
  let tline := strip line
  if "#$nan_color".toList.isPrefixOf tline then do
    let v ← afterColon tline
    let c ← readInts int (v.splitOn ',')
    return { s with nanColor := c }
  else if "#$name".toList.isPrefixOf tline then do
    let v ← afterColon tline
    return { s with name := strip v }
  else if "#$resolution".toList.isPrefixOf tline then do
    let v ← afterColon tline
    match num (strip v) with
    | none => throw .valueError
    | some r => return { s with resolution := some r }
  else return s

/-- The loop over the lines (impactutils/colors/cpalette.py:245-257). -/
def settingLines (int : List Char → Option ℤ) (num : List Char → Option ℚ) (s : Settings) : List (List Char) → Except FileErr Settings
  | [] => .ok s
  | l :: ls => do
    let s' ← settingLine int num s l
    settingLines int num s' ls

/-- The rows that `pd.read_csv(filename, comment='#', sep=r'\s+', header=0)` sees (impactutils/colors/cpalette.py:259): the words before the
first `#` of a line, for the lines that have such words. The quotation marks of pandas are not modelled. -/
def wordRows (lines : List (List Char)) : List (List (List Char)) :=
  (lines.map fun l => splitWords [] (l.takeWhile (· ≠ '#'))).filter (fun ws => !ws.isEmpty)

/-- The cells of a row as numbers. -/
def readCells (num : List Char → Option ℚ) : List (List Char) → Option (List ℚ)
  | [] => some []
  | w :: ws =>
    match num w, readCells num ws with
    | some x, some xs => some (x :: xs)
    | _, _ => none

/-- The rows under the header, all of its length. -/
def readTable (num : List Char → Option ℚ) (width : ℕ) : List (List (List Char)) → Option (List (List ℚ))
  | [] => some []
  | r :: rs =>
    if r.length ≠ width then none
    else match readCells num r, readTable num width rs with
      | some x, some xs => some (x :: xs)
      | _, _ => none

/-- `df.<name>` (impactutils/colors/cpalette.py:260-262). Of columns with one name pandas renames all but the first. -/
def columnOf (header : List (List Char)) (rows : List (List ℚ)) (name : List Char) : Except FileErr (List ℚ) :=
  if name ∈ header then .ok (rows.map fun r => r.getD (header.idxOf name) 0) else .error .attributeError

/-- `ColorPalette.fromFile` (impactutils/colors/cpalette.py:211-263): the settings and the palette. -/
def fromFile (int : List Char → Option ℤ) (num : List Char → Option ℚ) (lines : List (List Char)) : Except FileErr (Settings × Palette) := do
  let s ← settingLines int num startSettings lines
  match wordRows lines with
  | [] => throw .emptyData
  | header :: body =>
    match readTable num header.length body with
    | none => throw .notModelled
    | some rows =>
      let r0 ← columnOf header rows "R0".toList
      let g0 ← columnOf header rows "G0".toList
      let b0 ← columnOf header rows "B0".toList
      let r1 ← columnOf header rows "R1".toList
      let g1 ← columnOf header rows "G1".toList
      let b1 ← columnOf header rows "B1".toList
      let z0 ← columnOf header rows "Z0".toList
      let z1 ← columnOf header rows "Z1".toList
      match construct ⟨z0, z1, r0.zip (g0.zip b0), r1.zip (g1.zip b1)⟩ s.resolution false with
      | .error e => throw (.constructor e)
      | .ok p => return (s, p)

end Verif.Colors
