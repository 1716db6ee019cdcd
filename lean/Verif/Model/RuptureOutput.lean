import Verif.Model.Json
import Verif.Model.RuptureDict

/-!
# `writeGeoJson`: a rupture is written to a file

`json.dump` writes piece by piece, so that a file is left behind when it fails. Numbers are floating point numbers.
-/

namespace Verif.Json

variable {F : Type}

mutual
/-- What `json.dump` has written when it ends, and whether it ends without an exception (impactutils/rupture/base.py:49; the
Python library). -/
def stream (fl : Floats F) : Val F → Text × Bool
  | .none => ("null".toList, true)
  | .bool true => ("true".toList, true)
  | .bool false => ("false".toList, true)
  | .int i => (intText i, true)
  | .float f => (fl.text f, true)
  | .str s => (quoted s, true)
  | .list xs =>
    let r := streamItems fl true xs
    ('[' :: r.1 ++ if r.2 then [']'] else [], r.2)
  | .tuple xs =>
    let r := streamItems fl true xs
    ('[' :: r.1 ++ if r.2 then [']'] else [], r.2)
  | .dict ps =>
    let r := streamMembers fl true ps
    ('{' :: r.1 ++ if r.2 then ['}'] else [], r.2)
  | .other => ([], false)
/-- The items of a list; `first` says that no comma is needed. -/
def streamItems (fl : Floats F) (first : Bool) : List (Val F) → Text × Bool
  | [] => ([], true)
  | x :: xs =>
    let sep := if first then [] else [',', ' ']
    let a := stream fl x
    if a.2 then
      let b := streamItems fl false xs
      (sep ++ a.1 ++ b.1, b.2)
    else (sep ++ a.1, false)
/-- The items of a dictionary: a key that cannot be written fails before the comma. -/
def streamMembers (fl : Floats F) (first : Bool) : List (Key F × Val F) → Text × Bool
  | [] => ([], true)
  | (k, x) :: ps =>
    match keyText fl k with
    | none => ([], false)
    | some kt =>
      let sep := if first then [] else [',', ' ']
      let a := stream fl x
      if a.2 then
        let b := streamMembers fl false ps
        (sep ++ (quoted kt ++ ':' :: ' ' :: a.1) ++ b.1, b.2)
      else (sep ++ (quoted kt ++ ':' :: ' ' :: a.1), false)
end

/-- `x[key]`; `none` is an exception. -/
def Val.item (key : String) : Val F → Option (Val F)
  | .dict ps => (ps.find? fun p => match p.1 with
      | .str s => s = key.toList
      | _ => false).map Prod.snd
  | _ => .none

/-- `x[0]` of a list. -/
def Val.first : Val F → Option (Val F)
  | .list (x :: _) => some x
  | _ => .none

end Verif.Json

namespace Verif.RupDict
open Verif.Origin Verif.Factory Verif.Json

/-- A value of the metadata, as a Python value. -/
def metaVal : Origin.Val → Json.Val Fl
  | .null => .none
  | .str s => .str s.toList
  | .num x => .float x
  | .other _ => .other

/-- A polygon, as a list of lists of three numbers. -/
def polygonVal (p : List Vert) : Json.Val Fl :=
  .list (p.map fun v => .list [.float (.fin v.lon), .float (.fin v.lat), .float (.fin v.depth)])

/-- The dictionary with its prescribed form (impactutils/rupture/point_rupture.py:43-56, impactutils/rupture/factory.py:377-395,
impactutils/rupture/quad_rupture.py:369-382, impactutils/rupture/edge_rupture.py:157-170). -/
def docOf (type : String) (coords : Json.Val Fl) (metadata : Dict) : Json.Val Fl :=
  .dict [(.str "type".toList, .str "FeatureCollection".toList),
    (.str "metadata".toList, .dict (metadata.map fun p => (.str p.1.toList, metaVal p.2))),
    (.str "features".toList, .list [.dict
      [(.str "type".toList, .str "Feature".toList),
       (.str "properties".toList, .dict [(.str "rupture type".toList, .str "rupture extent".toList)]),
       (.str "geometry".toList, .dict [(.str "type".toList, .str type.toList), (.str "coordinates".toList, coords)])]])]

/-- The attribute of an origin, as a Python value. -/
def attr (origin : Dict) (k : String) : Json.Val Fl := ((origin.get k).map metaVal).getD .none

/-- The dictionary of a rupture, as a Python value; the coordinates of a point are those of the origin
(impactutils/rupture/point_rupture.py:41). -/
def document (r : Rup) : Json.Val Fl :=
  match r.geojson.geom with
  | .point => docOf "Point" (.list [attr r.origin "lon", attr r.origin "lat", attr r.origin "depth"]) r.geojson.metadata
  | .multiPolygon ps => docOf "MultiPolygon" (.list [.list (ps.map polygonVal)]) r.geojson.metadata

/-- `writeGeoJson` (impactutils/rupture/base.py:41-49): what the file holds afterwards, whatever it held, and whether the call returned
without an exception. -/
def writeGeoJson (fl : Floats Fl) (_old : Option Text) (r : Rup) : Text × Bool := stream fl (document r)

/-- A value that was read, as a value of the metadata. Lists and dictionaries do not occur in the metadata of this model. -/
def readVal : Json.Val Fl → Option Origin.Val
  | .none => some .null
  | .str s => some (.str (String.ofList s))
  | .float x => some (.num x)
  | .int i => some (.num (.fin i))
  | _ => none

/-- An item of the metadata that was read. -/
def readItem : Key Fl × Json.Val Fl → Option (String × Origin.Val)
  | (.str k, v) => (readVal v).map fun w => (String.ofList k, w)
  | _ => none

/-- A number that was read. -/
def readNum : Json.Val Fl → Option ℚ
  | .float (.fin q) => some q
  | .int i => some i
  | _ => none

/-- A vertex that was read. -/
def readVert : Json.Val Fl → Option Vert
  | .list [a, b, c] => do
    let lon ← readNum a
    let lat ← readNum b
    let depth ← readNum c
    return ⟨lon, lat, depth⟩
  | _ => none

/-- A polygon that was read. -/
def readPolygon : Json.Val Fl → Option (List Vert)
  | .list vs => vs.mapM readVert
  | _ => none

/-- The dictionary of a rupture that was read with `json.load` (impactutils/rupture/factory.py:139-182, 388-439). -/
def readDocument (v : Json.Val Fl) : Option RDict := do
  let metadata ← v.item "metadata"
  let m ← match metadata with
    | .dict ps => ps.mapM readItem
    | _ => none
  let feature ← (← v.item "features").first
  let geometry ← feature.item "geometry"
  match ← geometry.item "type" with
  | .str t =>
    if t = "Point".toList then return ⟨m, .point⟩
    else if t = "MultiPolygon".toList then
      match ← (← geometry.item "coordinates").first with
      | .list ps => do
        let polygons ← ps.mapM readPolygon
        return ⟨m, .multiPolygon polygons⟩
      | _ => none
    else none
  | _ => none

end Verif.RupDict
