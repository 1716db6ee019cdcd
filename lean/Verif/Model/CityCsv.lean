import Mathlib.Data.List.Basic

/-!
# Saving and loading of city tables: `impactutils/mapping/city.py`

The code calls `DataFrame.to_csv` and `pd.read_csv`. The texts that they write and read are modelled, with the quotation marks of the CSV format;
the conversion of values to text (`render`) and of columns of text to values (`convert`) is a parameter.
-/

namespace Verif.Csv

/-- Text. -/
abbrev Text := List Char

/-- A data frame: labels of the rows, and the columns by name. -/
structure Frame (V : Type) where
  index : List ℕ
  cols : List (Text × List V)

/-- `getColumns` (impactutils/mapping/city.py:212-218). -/
def Frame.columns {V : Type} (f : Frame V) : List Text := f.cols.map Prod.fst

/-- `df[name]`. -/
def Frame.col {V : Type} (f : Frame V) (name : Text) : Option (List V) := f.cols.lookup name

/-- Exceptions. -/
inductive Err where
  | key
  | type
  /-- The parser of pandas. -/
  | parser
  deriving DecidableEq

/-- `Cities.__init__` (impactutils/mapping/city.py:43-69) for a frame. -/
def cities {V : Type} (f : Frame V) : Except Err (Frame V) :=
  if ["name".toList, "lat".toList, "lon".toList].all fun n => decide (n ∈ f.columns) then .ok f else .error .key

/-! ### The text -/

/-- Quotation marks are doubled. -/
def escape : Text → Text
  | [] => []
  | c :: cs => if c = '"' then '"' :: '"' :: escape cs else c :: escape cs

/-- A field, in quotation marks if needed. -/
def writeField (f : Text) : Text :=
  if f.any fun c => c = ',' || c = '"' || c = '\n' then '"' :: (escape f ++ ['"']) else f

/-- The fields of a row, separated by commas. -/
def writeFields : List Text → Text
  | [] => []
  | [f] => writeField f
  | f :: fs => writeField f ++ ',' :: writeFields fs

/-- The rows. -/
def writeRows : List (List Text) → Text
  | [] => []
  | r :: rs => writeFields r ++ '\n' :: writeRows rs

/-- Where the parser is: at the start of a row or of a field, in a field, between quotation marks, after a quotation mark between such. -/
inductive St where
  | row | field | plain | quoted | quote

/-- The parser; `cur` is the field and `fs` the row being read, both backwards. Blank lines are passed over; `none` is the
`ParserError` for a text that ends between quotation marks. -/
def scan : St → Text → List Text → Text → Option (List (List Text))
  | .row, _, _, [] => some []
  | .quoted, _, _, [] => none
  | _, cur, fs, [] => some [(cur.reverse :: fs).reverse]
  | .quoted, cur, fs, c :: cs => if c = '"' then scan .quote cur fs cs else scan .quoted (c :: cur) fs cs
  | .row, cur, fs, c :: cs =>
    if c = '\n' || c = '\r' then scan .row [] [] cs
    else if c = ',' then scan .field [] (cur.reverse :: fs) cs
    else if c = '"' then scan .quoted cur fs cs
    else scan .plain (c :: cur) fs cs
  | .field, cur, fs, c :: cs =>
    if c = '\n' || c = '\r' then (scan .row [] [] cs).map ((cur.reverse :: fs).reverse :: ·)
    else if c = ',' then scan .field [] (cur.reverse :: fs) cs
    else if c = '"' then scan .quoted cur fs cs
    else scan .plain (c :: cur) fs cs
  | .plain, cur, fs, c :: cs =>
    if c = '\n' || c = '\r' then (scan .row [] [] cs).map ((cur.reverse :: fs).reverse :: ·)
    else if c = ',' then scan .field [] (cur.reverse :: fs) cs
    else scan .plain (c :: cur) fs cs
  | .quote, cur, fs, c :: cs =>
    if c = '\n' || c = '\r' then (scan .row [] [] cs).map ((cur.reverse :: fs).reverse :: ·)
    else if c = ',' then scan .field [] (cur.reverse :: fs) cs
    else if c = '"' then scan .quoted (c :: cur) fs cs
    else scan .plain (c :: cur) fs cs

/-! ### Tables -/

/-- The rows of the file that `to_csv` writes: the labels of the rows come first and have no name. -/
def fileRows {V : Type} (render : V → Text) (label : ℕ → Text) (f : Frame V) : List (List Text) :=
  ([] :: f.columns) ::
    (List.range f.index.length).map fun i =>
      label (f.index.getD i 0) :: f.cols.map fun c => ((c.2.map render)[i]?).getD []

/-- `save` (impactutils/mapping/city.py:174-183): the text of the file. -/
def save {V : Type} (render : V → Text) (label : ℕ → Text) (f : Frame V) : Text := writeRows (fileRows render label f)

/-- The name of a column: those without a name are numbered. -/
def columnName (label : ℕ → Text) (h : Text) (i : ℕ) : Text := if h = [] then "Unnamed: ".toList ++ label i else h

/-- `fromCSV` (impactutils/mapping/city.py:154-165) on the text of the file. `convert` makes the values of a column. That pandas renames columns with one name,
and takes rows longer than the first for rows with labels, is not modelled. -/
def fromCSV {V : Type} (convert : List Text → List V) (label : ℕ → Text) (text : Text) : Except Err (Frame V) :=
  match scan .row [] [] text with
  | none | some [] => .error .parser
  | some (header :: body) =>
    cities ⟨List.range body.length, header.mapIdx fun i h => (columnName label h i, convert (body.map fun r => r.getD i []))⟩

/-- `sortByColumns` (impactutils/mapping/city.py:185-210): the attribute `columns` is called, which is a `TypeError`. -/
def sortByColumns {V : Type} (f : Frame V) (_columns : List Text) (_ascending : Bool) : Frame V × Except Err Unit := (f, .error .type)

/-- `df[name] = values`. -/
def Frame.setCol {V : Type} (f : Frame V) (name : Text) (values : List V) : Frame V :=
  if name ∈ f.columns then { f with cols := f.cols.map fun c => if c.1 = name then (name, values) else c }
  else { f with cols := f.cols ++ [(name, values)] }

/-- `project` (impactutils/mapping/city.py:377-386); `basemap` takes longitudes and latitudes. -/
def project {V : Type} (basemap : List V → List V → List V × List V) (f : Frame V) : Except Err (Frame V) :=
  match f.col "lon".toList, f.col "lat".toList with
  | some lon, some lat =>
    let xy := basemap lon lat
    .ok ((f.setCol "x".toList xy.1).setCol "y".toList xy.2)
  | _, _ => .error .key

end Verif.Csv
