import Verif.Model.RuptureDict

/-!
# Ruptures as objects: which dictionaries and origins they share

`Verif.RupDict` gives the values that the constructors compute. Here dictionaries and origins are objects with addresses: a caller may
give one dictionary to several constructors, and may change it afterwards. A dictionary is one object, with its nested dictionaries and
lists; shallow copies, which share the nested ones, are not modelled. Of a constructor that fails, the change it has made to the
dictionary is kept.
-/

namespace Verif.RupHeap
open Verif.Origin Verif.Factory Verif.RupDict

/-- What the modelled functions need from outside: parsing of numbers, the classes of times, formatting and parsing of times. -/
structure Env where
  parse : String → Option Fl
  hist : ℕ → Bool
  date : ℕ → Bool
  fmt : ℕ → String
  strp : String → Option ℕ
  strpAlt : String → Option ℕ

/-- A rupture object (impactutils/rupture/quad_rupture.py:72-79, impactutils/rupture/edge_rupture.py:92-104,
impactutils/rupture/point_rupture.py:39-40, 66): the arrays are copies of the geometry, `_origin` and `_geojson` are references. -/
structure Obj where
  kind : Kind
  geom : Geom
  reference : Option Val
  origin : ℕ
  geojson : ℕ

/-- All dictionaries, origins and ruptures there are; `held` are the addresses of the dictionaries that the caller has. The dictionary
of a rupture cannot be had from the rupture. -/
structure Heap where
  dicts : List RDict
  held : List ℕ
  origins : List Dict
  rups : List Obj

/-- What a caller can do. -/
inductive Op where
  /-- A new dictionary, as read from a file. -/
  | newDict (d : RDict)
  /-- Any change of a dictionary the caller has. -/
  | editDict (a : ℕ) (d : RDict)
  /-- A new origin. -/
  | newOrigin (o : Dict)
  /-- Any change of the attributes of an origin: `setMechanism` (impactutils/rupture/origin.py:138-185) or assignments. -/
  | editOrigin (a : ℕ) (o : Dict)
  /-- `QuadRupture(d, origin)`. -/
  | quad (a o : ℕ)
  /-- `EdgeRupture(d, origin, mesh_dx)`. -/
  | edge (a o : ℕ) (dx : Val)
  /-- `PointRupture(origin, reference)`. -/
  | point (o : ℕ) (ref : String)
  /-- `rupture_from_dict(d)`. -/
  | fromDict (a : ℕ)
  /-- `rupture_from_dict_and_origin(d, origin, mesh_dx)`. -/
  | fromDictAndOrigin (a o : ℕ) (dx : Val)

/-- The constructor of `QuadRupture` (impactutils/rupture/quad_rupture.py:38-79): the attributes of the origin are written into the
dictionary of the caller, which becomes the dictionary of the rupture. They are there also if the constructor fails for want of a
reference. -/
def mkQuad (e : Env) (h : Heap) (a o : ℕ) : Heap :=
  match h.dicts[a]?, h.origins[o]? with
  | some d, some org =>
    let h' := { h with dicts := h.dicts.set a ⟨addOrigin e.date e.fmt org d.metadata, d.geom⟩ }
    match quadRup e.date e.fmt d org with
    | .ok r => { h' with rups := h.rups ++ [⟨.quad, r.geom, r.reference, o, a⟩] }
    | .error _ => h'
  | _, _ => h

/-- The constructor of `EdgeRupture` (impactutils/rupture/edge_rupture.py:29-104): as for `QuadRupture`, with `mesh_dx` in the metadata; a
missing reference is noticed before anything is written. -/
def mkEdge (e : Env) (h : Heap) (a o : ℕ) (dx : Val) : Heap :=
  match h.dicts[a]?, h.origins[o]? with
  | some d, some org =>
    match edgeRup e.hist e.fmt d org dx with
    | .ok r => { h with dicts := h.dicts.set a r.geojson, rups := h.rups ++ [⟨.edge, r.geom, r.reference, o, a⟩] }
    | .error _ => h
  | _, _ => h

/-- The constructor of `PointRupture` (impactutils/rupture/point_rupture.py:26-66): the dictionary is a new one. -/
def mkPoint (e : Env) (h : Heap) (o : ℕ) (ref : String) : Heap :=
  match h.origins[o]? with
  | some org =>
    let r := pointRup e.hist e.fmt org ref
    { h with dicts := h.dicts ++ [r.geojson], rups := h.rups ++ [⟨.point, r.geom, r.reference, o, h.dicts.length⟩] }
  | none => h

/-- `rupture_from_dict` (impactutils/rupture/factory.py:139-182): the dictionary is a deep copy, the origin is new; for a point the copy is dropped
and the constructor makes a dictionary. -/
def fromDict (e : Env) (h : Heap) (a : ℕ) : Heap :=
  match h.dicts[a]? with
  | some d =>
    match ruptureFromDict e.parse e.hist e.date e.fmt e.strp e.strpAlt d with
    | .ok r =>
      { h with
        dicts := h.dicts ++ [r.geojson]
        origins := h.origins ++ [r.origin]
        rups := h.rups ++ [⟨r.kind, r.geom, r.reference, h.origins.length, h.dicts.length⟩] }
    | .error _ => h
  | none => h

/-- `rupture_from_dict_and_origin` (impactutils/rupture/factory.py:124-137): the constructors are given the dictionary itself. -/
noncomputable def fromDictAndOrigin (e : Env) (h : Heap) (a o : ℕ) (dx : Val) : Heap :=
  match h.dicts[a]? with
  | some d =>
    if d.metadata.has "reference" then
      match Factory.fromDictAndOrigin d.geom with
      | .ok (.quad _) => mkQuad e h a o
      | .ok (.edge _) => mkEdge e h a o dx
      | .ok .point => mkPoint e h o "Origin"
      | .error _ => h
    else h
  | none => h

/-- One step of a caller. An address that the caller does not have is not used. -/
noncomputable def step (e : Env) (h : Heap) : Op → Heap
  | .newDict d => { h with dicts := h.dicts ++ [d], held := h.held ++ [h.dicts.length] }
  | .editDict a d => if a ∈ h.held then { h with dicts := h.dicts.set a d } else h
  | .newOrigin o => { h with origins := h.origins ++ [o] }
  | .editOrigin a o => { h with origins := h.origins.set a o }
  | .quad a o => if a ∈ h.held then mkQuad e h a o else h
  | .edge a o dx => if a ∈ h.held then mkEdge e h a o dx else h
  | .point o ref => mkPoint e h o ref
  | .fromDict a => if a ∈ h.held then fromDict e h a else h
  | .fromDictAndOrigin a o dx => if a ∈ h.held then fromDictAndOrigin e h a o dx else h

/-- A history. -/
noncomputable def run (e : Env) (h : Heap) (ops : List Op) : Heap := ops.foldl (step e) h

/-- Nothing has happened yet. -/
def empty : Heap := ⟨[], [], [], []⟩

/-- The dictionary that `writeGeoJson` of the rupture with a number writes (impactutils/rupture/base.py:41-49). -/
def writes (h : Heap) (n : ℕ) : Option RDict := (h.rups[n]?).bind fun r => h.dicts[r.geojson]?

/-- The attributes of `getOrigin()` (impactutils/rupture/base.py:119-125), on which `getRuptureContext` and the coordinates of a point rupture depend. -/
def originOf (h : Heap) (n : ℕ) : Option Dict := (h.rups[n]?).bind fun r => h.origins[r.origin]?

end Verif.RupHeap
