import Verif.Model.Openquake
import Verif.Model.Origin

/-!
# Model of impactutils/rupture/distance.py, and of impactutils/rupture/base.py and impactutils/rupture/point_rupture.py as far as distances go

A numpy array is its shape and its elements. The distances of finite ruptures are functions of the spacing of the mesh and the
arrays (they are modelled in QuadRupture.lean, EdgeRupture.lean and Gc2.lean); they may raise an exception.
-/

namespace Verif.Dist
open Verif.Oq (distance)

/-- A numpy array. -/
@[ext] structure Arr where
  shape : List ℕ
  data : List ℝ

/-- Exceptions; `measure n` is whatever a distance of the rupture raises. -/
inductive DErr where
  | notImplemented | lengths | attribute | type | key | unbound
  | measure (n : ℕ)
  deriving DecidableEq

/-- A dictionary of arrays in the order of insertion. -/
abbrev Dict := List (String × Arr)

/-- `d[k] = v`. -/
def Dict.put : Dict → String → Arr → Dict
  | [], k, v => [(k, v)]
  | (k', v') :: d, k, v => if k' = k then (k, v) :: d else (k', v') :: Dict.put d k v

/-- `d.update(d')`. -/
def Dict.update (d d' : Dict) : Dict := d'.foldl (fun acc p => acc.put p.1 p.2) d

/-- A rupture: whether it is an `EdgeRupture`, its `_mesh_dx`, and its distances as functions of the spacing of the mesh and
of longitudes, latitudes and depths. -/
structure Rupture where
  edge : Bool
  meshDx : ℝ
  rhyp : ℝ → Arr → Arr → Arr → Except DErr Arr
  repi : ℝ → Arr → Arr → Arr → Except DErr Arr
  rrup : ℝ → Arr → Arr → Arr → Except DErr (Arr × Arr)
  rjb : ℝ → Arr → Arr → Arr → Except DErr (Arr × Arr)
  gc2 : ℝ → Arr → Arr → Arr → Except DErr Dict

/-- `get_distance_measures` (impactutils/rupture/distance.py:108-119). -/
def distanceMeasures : List String := ["repi", "rhypo", "rjb", "rrup", "rx", "ry", "ry0", "U", "T", "rvolc"]

/-- `gc2_distances` (impactutils/rupture/distance.py:204). -/
def gc2Distances : List String := ["rx", "ry", "ry0", "U", "T"]

/-- The `methods` argument: a list of strings, one string, or something else that can or cannot be hashed. -/
inductive Req where
  | list (l : List String)
  | one (s : String)
  | other (hashable : Bool)

/-- One measure, if it is requested (impactutils/rupture/distance.py:195-199). -/
def addOne (ms : List String) (k : String) (m : Except DErr Arr) (d : Dict) : Except DErr Dict :=
  if ms.contains k then m.map fun a => d.put k a else .ok d

/-- One measure with its variance, if it is requested (impactutils/rupture/distance.py:205-211). -/
def addTwo (ms : List String) (k : String) (m : Except DErr (Arr × Arr)) (d : Dict) : Except DErr Dict :=
  if ms.contains k then m.map fun a => (d.put k a.1).put (k ++ "_var") a.2 else .ok d

/-- The generalized coordinates, if one of them is requested (impactutils/rupture/distance.py:213-215). -/
def addGc2 (ms : List String) (m : Except DErr Dict) (d : Dict) : Except DErr Dict :=
  if ms.any fun m => gc2Distances.contains m then m.map fun g => d.update g else .ok d

/-- The measures (impactutils/rupture/distance.py:195-220). -/
def measures (ms : List String) (r : Rupture) (lon lat dep : Arr) : Except DErr Dict := do
  let d ← addOne ms "rhypo" (r.rhyp r.meshDx lon lat dep) []
  let d ← addOne ms "repi" (r.repi r.meshDx lon lat dep) d
  let d ← addTwo ms "rrup" (r.rrup r.meshDx lon lat dep) d
  let d ← addTwo ms "rjb" (r.rjb r.meshDx lon lat dep) d
  let d ← addGc2 ms (r.gc2 r.meshDx lon lat dep) d
  if ms.contains "rvolc" then .ok (d.put "rvolc" ⟨lon.shape, lon.data.map fun _ => 0⟩) else .ok d

/-- `get_distance` (impactutils/rupture/distance.py:122-220): the result, and the rupture afterwards. `rupture = none` is Python's
`None`, which has no attribute to set. -/
def getDistance (req : Req) (lat lon dep : Arr) (rupture : Option Rupture) (dx : ℝ) : Except DErr Dict × Option Rupture :=
  match rupture with
  | none => (.error .attribute, none)
  | some r =>
    let r := { r with meshDx := dx }
    let check (ms : List String) : Except DErr Dict :=
      if ms.all fun m => distanceMeasures.contains m then
        if lat.shape ≠ lon.shape ∨ lat.shape ≠ dep.shape then .error .lengths else measures ms r lon lat dep
      else .error .notImplemented
    match req with
    | .list ms => (check ms, some r)
    | .one m => (check [m], some r)
    | .other true => (.error .notImplemented, some r)
    | .other false => (.error .type, some r)

/-- The default of `dx` (impactutils/rupture/distance.py:122). -/
noncomputable def defaultDx : ℝ := 1 / 2

/-- The union of two sets of strings, as lists without duplicates. The order of Python's sets is arbitrary; no result depends
on it. -/
def union (a b : List String) : List String := b.foldl (fun acc k => if acc.contains k then acc else acc ++ [k]) a

/-- The measures that are always required (impactutils/rupture/distance.py:84). -/
def always : List String := ["repi", "rhypo", "rrup", "rjb"]

/-- The loop over the GMPEs (impactutils/rupture/distance.py:86-91): `none` is an object that is not a GMPE, and `some l` a GMPE
with its `REQUIRES_DISTANCES`. -/
def requires : List String → List (Option (List String)) → Except DErr (List String)
  | acc, [] => .ok acc
  | _, none :: _ => .error .type
  | acc, some l :: gs => requires (union acc l) gs

/-- The copy into the context (impactutils/rupture/distance.py:100-103). -/
def fill (dd : Dict) : List String → Dict → Except DErr Dict
  | [], ctx => .ok ctx
  | m :: ms, ctx =>
    match dd.lookup m with
    | none => .error .key
    | some a =>
      if m = "rrup" ∨ m = "rjb" then
        match dd.lookup (m ++ "_var") with
        | none => .error .key
        | some v => fill dd ms ((ctx.put m a).put (m ++ "_var") v)
      else fill dd ms (ctx.put m a)

/-- The constructor of `Distance` (impactutils/rupture/distance.py:31-105): the context that `getDistanceContext` returns a copy
of, and the rupture afterwards. A single GMPE is given as a list of one. -/
noncomputable def distanceContext (gmpe : List (Option (List String))) (lon lat dep : Arr) (rupture : Option Rupture) :
    Except DErr Dict × Option Rupture :=
  match requires always gmpe with
  | .error e => (.error e, rupture)
  | .ok req =>
    let dx := match rupture with
      | some r => if r.edge then r.meshDx else defaultDx
      | none => defaultDx
    let (dd, r) := getDistance (.list req) lat lon dep rupture dx
    match dd with
    | .error e => (.error e, r)
    | .ok dd => (fill dd req [], r)

/-! ### base.py and point_rupture.py -/

/-- The hypocentre of an origin. -/
structure Hypo where
  lon : ℝ
  lat : ℝ
  depth : ℝ

/-- `geodetic.distance` of one place to three arrays; arrays of different lengths do not broadcast here. -/
noncomputable def distanceTo (x y z : ℝ) (lon lat dep : Arr) : List ℝ :=
  (lon.data.zip (lat.data.zip dep.data)).map fun p => distance x y z p.1 p.2.1 p.2.2

/-- `computeRhyp` (impactutils/rupture/base.py:177-195). The code calls the `openquake` library, of which geodetic.py is a
copy. -/
noncomputable def computeRhyp (o : Hypo) (lon lat dep : Arr) : Arr := ⟨lon.shape, distanceTo o.lon o.lat o.depth lon lat dep⟩

/-- `computeRepi` (impactutils/rupture/base.py:197-215). -/
noncomputable def computeRepi (o : Hypo) (lon lat dep : Arr) : Arr := ⟨lon.shape, distanceTo o.lon o.lat 0 lon lat dep⟩

/-- The choice of parameters for the library `ps2ff`: scaling relation, mechanism, aspect ratio, and least and greatest dip. -/
structure Scaling where
  mscale : String
  smech : String
  aspect : ℚ
  mindip : ℚ
  maxdip : ℚ
  deriving DecidableEq

/-- The parameters of `_computeRdist` (impactutils/rupture/point_rupture.py:185-240): `none` is the `UnboundLocalError` where no
branch sets the mechanism. `region = none` is an origin without `_tectonic_region`, `mech = none` one without `mech`. -/
def scaling (region mech : Option String) : Option Scaling :=
  let mech := mech.getD "ALL"
  match region with
  | none => some ⟨"WC94", "A", 17 / 10, 10, 90⟩
  | some region =>
    if region = "Active Shallow Crust" then
      if mech = "ALL" then some ⟨"WC94", "A", 17 / 10, 10, 90⟩
      else if mech = "RS" then some ⟨"HB08", "R", 17 / 10, 35, 50⟩
      else if mech = "NM" then some ⟨"HB08", "N", 17 / 10, 40, 60⟩
      else if mech = "SS" then some ⟨"HB08", "SS", 17 / 10, 75, 90⟩
      else none
    else if region = "Stable Shallow Crust" then
      if mech = "ALL" then some ⟨"S14", "A", 1, 10, 90⟩
      else if mech = "RS" then some ⟨"S14", "R", 1, 30, 60⟩
      else if mech = "NM" then some ⟨"S14", "N", 1, 40, 60⟩
      else if mech = "SS" then some ⟨"S14", "SS", 1, 60, 90⟩
      else none
    else some ⟨"WC94", "A", 17 / 10, 10, 90⟩

/-- `repis` (impactutils/rupture/point_rupture.py:245): the epicentral distances, at least 10 cm. -/
noncomputable def clipped (o : Hypo) (lon lat dep : Arr) : List ℝ := (computeRepi o lon lat dep).data.map fun x => max x 0.0001

/-- The range of the table of distances (impactutils/rupture/point_rupture.py:251-252), for at least one site. -/
noncomputable def tableRange : List ℝ → Option (ℝ × ℝ)
  | [] => none
  | a :: l => some (l.foldl min a - 0.00001, l.foldl max a + 0.1)

/-- `_computeRdist` (impactutils/rupture/point_rupture.py:164-270). `table` stands for `single_event_adjustment` of the library
`ps2ff` with linear interpolation: from the parameters and the range of distances, a function that gives the distance and its
variance, or `none` outside the table (`ValueError`). -/
noncomputable def computeRdist (table : Scaling → ℝ × ℝ → ℝ → Option (ℝ × ℝ)) (region mech : Option String) (o : Hypo)
    (lon lat dep : Arr) : Except DErr (Arr × Arr) :=
  match scaling region mech with
  | none => .error .unbound
  | some s =>
    let rs := clipped o lon lat dep
    match tableRange rs with
    | none => .error (.measure 0)
    | some range =>
      if (rs.all fun x => (table s range x).isSome) then
        let out := rs.filterMap fun x => table s range x
        .ok (⟨lon.shape, out.map (·.1)⟩, ⟨lon.shape, out.map (·.2)⟩)
      else .error (.measure 1)

/-- `PointRupture.computeGC2` (impactutils/rupture/point_rupture.py:272-295). -/
def zeroGC2 (lon : Arr) : Dict :=
  let z : Arr := ⟨lon.shape, lon.data.map fun _ => 0⟩
  [("rx", z), ("ry", z), ("ry0", z), ("U", z), ("T", z)]

/-- A `PointRupture`. -/
noncomputable def pointRupture (tjb trup : Scaling → ℝ × ℝ → ℝ → Option (ℝ × ℝ)) (region mech : Option String) (o : Hypo) : Rupture where
  edge := false
  meshDx := defaultDx
  rhyp := fun _ lon lat dep => .ok (computeRhyp o lon lat dep)
  repi := fun _ lon lat dep => .ok (computeRepi o lon lat dep)
  rrup := fun _ lon lat dep => computeRdist trup region mech o lon lat dep
  rjb := fun _ lon lat dep => computeRdist tjb region mech o lon lat dep
  gc2 := fun _ lon _ _ => .ok (zeroGC2 lon)

/-- The rake of `getRuptureContext` (impactutils/rupture/base.py:164-169) from the attributes of the origin: `none` is the
`KeyError`. -/
def contextRake (attrs : Origin.Dict) : Option Origin.Val :=
  match attrs.get "rake", attrs.get "mech" with
  | some r, _ => some r
  | none, some (.str m) => (Origin.rakeDict m).map fun r => match r with
    | some q => .num (.fin q)
    | none => .null
  | none, some _ => none
  | none, none => some .null

end Verif.Dist
