import Verif.Model.RuptureFile

/-!
# Rupture dictionaries

The GeoJSON format of ruptures: a feature collection with one feature, metadata with a reference, and a geometry.
-/

namespace Verif.Spec
open Verif.Factory

/-- `d` is a feature collection with one feature, whose geometry has this type and these coordinates. -/
def RuptureDict (d geomType coords : Json) : Prop :=
  ∃ top metadata feature geom : List (String × Json), d = .obj top ∧
    top.lookup "type" = some (.str "FeatureCollection") ∧
    top.lookup "metadata" = some (.obj metadata) ∧ (∃ r, ("reference", r) ∈ metadata) ∧
    top.lookup "features" = some (.arr [.obj feature]) ∧
    feature.lookup "type" = some (.str "Feature") ∧
    feature.lookup "geometry" = some (.obj geom) ∧
    geom.lookup "type" = some geomType ∧ geom.lookup "coordinates" = some coords

/-- Polygons as lists of lists of numbers. -/
def vertJson (v : Vert) : Json := .arr [.num v.lon, .num v.lat, .num v.depth]
def polygonsJson (ps : List (List Vert)) : Json := .arr (ps.map fun p => .arr (p.map vertJson))

/-- The lines of a text, each with its line end; the last one may have none. -/
inductive LinesOf : List Char → List (List Char) → Prop
  | nil : LinesOf [] []
  | last {w} : w ≠ [] → '\n' ∉ w → LinesOf w [w]
  | line {w rest ls} : '\n' ∉ w → LinesOf rest ls → LinesOf (w ++ '\n' :: rest) ((w ++ ['\n']) :: ls)

end Verif.Spec
