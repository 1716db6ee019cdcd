import Verif.Model.Origin
import Verif.Model.Factory

/-!
# The dictionaries of ruptures: constructors and `rupture_from_dict`

The values of an origin and of the metadata are those of `Verif.Origin`; `Val.other` stands for times. `hist` says which of them are of the class
`HistoricTime`, `date` which are of the class `datetime`. Formatting and parsing of times are parameters. Of the geometry of a rupture
only the polygons are kept here.
-/

namespace Verif.RupDict
open Verif.Origin Verif.Factory

/-- The dictionary of a rupture: metadata and geometry (impactutils/rupture/point_rupture.py:43-56, impactutils/rupture/factory.py:169-180). -/
structure RDict where
  metadata : Dict
  geom : Geom

/-- The classes of ruptures. -/
inductive Kind where
  | quad | edge | point
  deriving DecidableEq

/-- A rupture object. The dictionary is the object that was given to the constructor, for a point one that the constructor made. -/
structure Rup where
  kind : Kind
  geom : Geom
  origin : Dict
  reference : Option Val
  geojson : RDict

/-- Exceptions. -/
inductive Err where
  | origin (e : Origin.Err)
  | key | type | value
  deriving DecidableEq

/-- A value of the origin in the metadata: times of the given class are formatted (impactutils/rupture/point_rupture.py:60-64,
impactutils/rupture/quad_rupture.py:66-70, impactutils/rupture/edge_rupture.py:85-89). -/
def stamp (isTime : ℕ → Bool) (fmt : ℕ → String) : Val → Val
  | .other n => if isTime n then .str (fmt n) else .other n
  | v => v

/-- The loop over the attributes of the origin (impactutils/rupture/point_rupture.py:59-64, impactutils/rupture/quad_rupture.py:64-70,
impactutils/rupture/edge_rupture.py:84-89). -/
def addOrigin (isTime : ℕ → Bool) (fmt : ℕ → String) (origin metadata : Dict) : Dict :=
  origin.foldl (fun m p => m.set p.1 (stamp isTime fmt p.2)) metadata

/-- The constructor of `PointRupture` (impactutils/rupture/point_rupture.py:26-66). -/
def pointRup (hist : ℕ → Bool) (fmt : ℕ → String) (origin : Dict) (reference : String := "Origin") : Rup :=
  ⟨.point, .point, origin, some (.str reference), ⟨addOrigin hist fmt origin [("reference", .str reference)], .point⟩⟩

/-- The constructor of `QuadRupture` (impactutils/rupture/quad_rupture.py:38-79): the reference is read after the loop. -/
def quadRup (date : ℕ → Bool) (fmt : ℕ → String) (d : RDict) (origin : Dict) : Except Err Rup :=
  let m := addOrigin date fmt origin d.metadata
  match m.get "reference" with
  | none => .error .key
  | some r => .ok ⟨.quad, d.geom, origin, some r, ⟨m, d.geom⟩⟩

/-- The constructor of `EdgeRupture` (impactutils/rupture/edge_rupture.py:29-104): the reference is read before the loop. -/
def edgeRup (hist : ℕ → Bool) (fmt : ℕ → String) (d : RDict) (origin : Dict) (meshDx : Val) : Except Err Rup :=
  match d.metadata.get "reference" with
  | none => .error .key
  | some r => .ok ⟨.edge, d.geom, origin, some r, ⟨(addOrigin hist fmt origin d.metadata).set "mesh_dx" meshDx, d.geom⟩⟩

/-- The time of the metadata (impactutils/rupture/factory.py:162-167); `strp` parses with the first and then with the second format. -/
def readTime (strp strpAlt : String → Option ℕ) (metadata : Dict) : Except Err Dict :=
  match metadata.get "time" with
  | none => .error .key
  | some (.str s) =>
    match strp s, strpAlt s with
    | some n, _ => .ok (metadata.set "time" (.other n))
    | none, some n => .ok (metadata.set "time" (.other n))
    | none, none => .error .value
  | some _ => .error .type

/-- `rupture_from_dict` (impactutils/rupture/factory.py:139-182) on a dictionary that `validate_json` accepts. The constructor of `Origin` may change
the metadata. -/
def ruptureFromDict (parse : String → Option Fl) (hist date : ℕ → Bool) (fmt : ℕ → String) (strp strpAlt : String → Option ℕ) (d : RDict) :
    Except Err Rup :=
  match readTime strp strpAlt d.metadata with
  | .error e => .error e
  | .ok m =>
    match construct parse m with
    | (.error e, _) => .error (.origin e)
    | (.ok origin, m') =>
      match d.geom with
      | .point => .ok (pointRup hist fmt origin)
      | .multiPolygon ps =>
        match m'.get "mesh_dx" with
        | some dx => edgeRup hist fmt ⟨m', .multiPolygon ps⟩ origin dx
        | none => quadRup date fmt ⟨m', .multiPolygon ps⟩ origin

/-- The numbers that ground motion models ask for. -/
structure Context where
  mag : Option Val
  strike : ℚ
  dip : ℚ
  ztor : ℚ
  width : ℚ
  rake : Option Val
  lat : Option Val
  lon : Option Val
  depth : Option Val

/-- `getStrike`, `getDip`, `getDepthToTop` and `getWidth` of a `PointRupture` (impactutils/rupture/point_rupture.py:75-113, impactutils/rupture/constants.py:15-20). -/
def pointShape : ℚ × ℚ × ℚ × ℚ := (0, 90, 0, 0)

/-- `getRuptureContext` (impactutils/rupture/base.py:135-175). `shape` stands for the four methods of finite ruptures (strike, dip, depth to the
top and width), which depend on the geometry and the mesh spacing. The rake of an origin that has none is in `Verif.Dist`. -/
def context (shape : Geom → Option Val → ℚ × ℚ × ℚ × ℚ) (r : Rup) : Context :=
  let s := match r.kind with
    | .point => pointShape
    | _ => shape r.geom (r.geojson.metadata.get "mesh_dx")
  { mag := r.origin.get "mag", strike := s.1, dip := s.2.1, ztor := s.2.2.1, width := s.2.2.2, rake := r.origin.get "rake",
    lat := r.origin.get "lat", lon := r.origin.get "lon", depth := r.origin.get "depth" }

/-- The exceptions of `Origin.fromFile`. -/
inductive FileErr where
  | origin (e : Origin.Err)
  /-- `NameError`: `read_moment_quakeml` is not defined. -/
  | name

/-- `dict.update`. -/
def update (ev params : Dict) : Dict := params.foldl (fun m p => m.set p.1 p.2) ev

/-- `Origin.fromFile` (impactutils/rupture/origin.py:116-136), given the event and the parameters of the two readers. -/
def originFromFile (parse : String → Option Fl) (event : Dict) (source : Option Dict) (moment : Bool) : Except FileErr Dict :=
  let ev := match source with
    | some params => update event params
    | none => event
  if moment then .error .name
  else match (construct parse ev).1 with
    | .ok o => .ok o
    | .error e => .error (.origin e)

end Verif.RupDict
