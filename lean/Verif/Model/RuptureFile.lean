import Verif.Model.Factory

/-!
# `validate_json` and `get_rupture` (impactutils/rupture/factory.py)

A JSON document is a value of the type `Json`. `true` and `false` are the numbers 1 and 0, which they equal in Python;
`NaN` and infinite numbers do not occur. A dictionary is the list of its keys and values.
-/

namespace Verif.Factory

inductive Json where
  | null
  | num (q : ℚ)
  | str (s : String)
  | arr (l : List Json)
  | obj (l : List (String × Json))

/-- `x[k]` for a text `k`; `none` is `KeyError` or `TypeError`. -/
def Json.item (k : String) : Json → Option Json
  | .obj l => l.lookup k
  | _ => none

/-- `x[i]` for an integer; `none` is `IndexError`, `KeyError` or `TypeError`. -/
def Json.at (i : ℤ) : Json → Option Json
  | .arr l => if 0 ≤ i then l[i.toNat]? else if -i ≤ l.length then l[(l.length + i).toNat]? else none
  | .str s =>
    let l := s.toList.map fun c => Json.str c.toString
    if 0 ≤ i then l[i.toNat]? else if -i ≤ l.length then l[(l.length + i).toNat]? else none
  | _ => none

/-- `len(x)`; `none` is `TypeError`. -/
def Json.len : Json → Option ℕ
  | .arr l => some l.length
  | .obj l => some l.length
  | .str s => some s.toList.length
  | _ => none

/-- `x.keys()`; `none` is `AttributeError`. -/
def Json.keys : Json → Option (List String)
  | .obj l => some (l.map (·.1))
  | _ => none

/-- `x >= y`: `other` stands for the comparison of values that are not both numbers; `none` is `TypeError`. -/
def Json.ge (other : Json → Json → Option Bool) : Json → Json → Option Bool
  | .num a, .num b => some (decide (b ≤ a))
  | x, y => other x y

/-- An operation that may fail with an exception other than `ValueError`. -/
def must {α : Type} : Option α → Except FErr α
  | some a => .ok a
  | none => .error .exception

open Classical in
/-- `if not p: raise` with the given exception. -/
noncomputable def ensure (p : Prop) (e : FErr) : Except FErr Unit := if p then .ok () else .error e

/-- One turn of the loop of `_check_polygon` (impactutils/rupture/factory.py:249-254). -/
noncomputable def checkPair (other : Json → Json → Option Bool) (p : Json) (j : ℕ) : Except FErr Unit := do
  let top ← must ((p.at j).bind (·.at 2))
  let bot ← must ((p.at (-(j + 2))).bind (·.at 2))
  let g ← must (Json.ge other top bot)
  ensure (g = false) .valueError

/-- `_check_polygon` (impactutils/rupture/factory.py:217-254) for any value. Values are compared as lists of keys and
values, where Python does not look at the order of the keys. -/
noncomputable def checkJsonPolygon (other : Json → Json → Option Bool) (p : Json) : Except FErr Unit := do
  let n ← must p.len
  ensure (n % 2 ≠ 0) .valueError
  let a ← must (p.at 0)
  let b ← must (p.at (-1))
  ensure (a = b) .valueError
  (List.range ((n - 1) / 2)).forM (checkPair other p)

/-- The polygons part of `validate_json` (impactutils/rupture/factory.py:434-439). -/
noncomputable def checkPolygons (other : Json → Json → Option Bool) (geomType polygons : Json) : Except FErr Unit :=
  open Classical in
  if geomType = .str "MultiPolygon" then do
    let n ← must polygons.len
    (List.range n).forM fun i => (must (polygons.at i)).bind (checkJsonPolygon other)
  else .ok ()

/-- `validate_json` (impactutils/rupture/factory.py:388-439). -/
noncomputable def validateJson (other : Json → Json → Option Bool) (d : Json) : Except FErr Unit := do
  let ty ← must (d.item "type")
  ensure (ty = .str "FeatureCollection") .exception
  let features ← must (d.item "features")
  let n ← must features.len
  ensure (n = 1) .exception
  let metadata ← must (d.item "metadata")
  let ks ← must metadata.keys
  ensure ("reference" ∈ ks) .exception
  let f ← must (features.at 0)
  let fty ← must (f.item "type")
  ensure (fty = .str "Feature") .exception
  let geom ← must (f.item "geometry")
  let gty ← must (geom.item "type")
  ensure (gty = .str "MultiPolygon" ∨ gty = .str "Point") .exception
  let gks ← must geom.keys
  ensure ("coordinates" ∈ gks) .exception
  let coords ← must (geom.item "coordinates")
  let polygons ← must (coords.at 0)
  checkPolygons other gty polygons

/-- The vertex of a list of three or more numbers. -/
def Json.vert : Json → Option Vert
  | .arr (.num a :: .num b :: .num c :: _) => some ⟨a, b, c⟩
  | _ => none

/-- The list of a list. -/
def Json.list : Json → Option (List Json)
  | .arr l => some l
  | _ => none

/-- The polygons of a dictionary that `validate_json` accepted, or `point` for a point. A polygon with an entry that is not a
list of three numbers fails here; the code fails only when it uses that entry. -/
noncomputable def Json.geom (d : Json) : Option Geom :=
  open Classical in
  ((d.item "features").bind (·.at 0)).bind fun f => (f.item "geometry").bind fun g =>
    if g.item "type" = some (.str "Point") then some .point
    else ((g.item "coordinates").bind (·.at 0)).bind fun ps => ps.list.bind fun l =>
      (l.mapM fun (p : Json) => p.list.bind fun vs => vs.mapM Json.vert).map .multiPolygon

/-- `rupture_from_dict_and_origin` (impactutils/rupture/factory.py:95-137) for any dictionary; `build` stands for the
constructors of the rupture classes. -/
noncomputable def fromJson {R : Type} (other : Json → Json → Option Bool) (build : RupKind → Except FErr R) (d : Json) :
    Except FErr R := do
  validateJson other d
  let g ← must d.geom
  let k ← fromDictAndOrigin g
  build k

/-- What `get_rupture` raises. -/
inductive GErr where
  | typeError | valueError | ioError
deriving DecidableEq, Repr

/-- The `file` argument: the path of a file, which may not exist, or another object - open for
reading, or a path that is not a `str` - with the given lines. -/
inductive Source where
  | path (content : Option (List Char))
  | object (lines : List (List Char))

/-- The lines of a file, each with its line end (`f.readlines()`). -/
def readLinesOf (cur : List Char) : List Char → List (List Char)
  | [] => if cur.isEmpty then [] else [cur.reverse]
  | c :: cs => if c = '\n' then (c :: cur).reverse :: readLinesOf [] cs else readLinesOf (c :: cur) cs

/-- The second attempt of `get_rupture` (impactutils/rupture/factory.py:78-90). A file that does not exist is a
`FileNotFoundError`. -/
noncomputable def getFromText {R : Type} (build : RupKind → Except FErr R) (num : List Char → Option ℚ) (newFormat : Bool)
    (lines : Option (List (List Char))) : Except GErr R :=
  let r : Except FErr R := do
    let ls ← must lines
    let d ← textToJson num newFormat ls
    let k ← fromDictAndOrigin (.multiPolygon d.2)
    build k
  match r with
  | .ok r => .ok r
  | .error .valueError => .error .valueError
  | .error .exception => .error .ioError

/-- The first attempt of `get_rupture` (impactutils/rupture/factory.py:58-69); `load` is `json.load`, with `none` for a
`JSONDecodeError`. The text of an object (`str(file)`) is like `<_io.StringIO object at 0x7f>`, or
the path itself for a `pathlib.Path`, and is not JSON. -/
noncomputable def getFromJson {R : Type} (other : Json → Json → Option Bool) (build : RupKind → Except FErr R)
    (load : List Char → Option Json) (file : Source) : Except FErr R :=
  match file with
  | .path content => do
    let text ← must content
    let d ← must (load text)
    fromJson other build d
  | .object _ => .error .exception

/-- `get_rupture` (impactutils/rupture/factory.py:22-92); `isOrigin` says whether the first argument is an `Origin`, and
`point` is `PointRupture(origin)`. -/
noncomputable def getRupture {R : Type} (other : Json → Json → Option Bool) (build : RupKind → Except FErr R) (point : R)
    (load : List Char → Option Json) (num : List Char → Option ℚ) (isOrigin : Bool) (file : Option Source)
    (newFormat : Bool) : Except GErr R :=
  if isOrigin = false then .error .typeError
  else
    match file with
    | none => .ok point
    | some src =>
      match getFromJson other build load src with
      | .ok r => .ok r
      | .error _ =>
        getFromText build num newFormat (match src with
          | .path content => content.map (readLinesOf [])
          | .object lines => some lines)

end Verif.Factory
