import Mathlib.Data.Rat.Defs
import Mathlib.Algebra.Order.Ring.Rat

/-!
# Origins: `impactutils/rupture/origin.py`

Finite floats are exact rational numbers; infinities and `nan` are modelled. Dictionaries are lists of pairs in
the order of insertion. `float` of a string is a parameter.
-/

namespace Verif.Origin

/-- A float. -/
inductive Fl where
  | fin (q : ℚ)
  | inf
  | ninf
  | nan
deriving DecidableEq

/-- `x < b` for a float and a number; false for `nan`. -/
def Fl.lt (x : Fl) (b : ℚ) : Bool :=
  match x with
  | .fin q => q < b
  | .inf => false
  | .ninf => true
  | .nan => false

/-- `x > b` for a float and a number; false for `nan`. -/
def Fl.gt (x : Fl) (b : ℚ) : Bool :=
  match x with
  | .fin q => b < q
  | .inf => true
  | .ninf => false
  | .nan => false

/-- `x + b`. -/
def Fl.plus (x : Fl) (b : ℚ) : Fl :=
  match x with
  | .fin q => .fin (q + b)
  | y => y

/-- The values in an event dictionary; `other` stands for times and other objects that are not numbers. -/
inductive Val where
  | null
  | str (s : String)
  | num (x : Fl)
  | other (n : ℕ)
deriving DecidableEq

/-- A dictionary. -/
abbrev Dict := List (String × Val)

/-- `d.get(k)`. -/
def Dict.get (d : Dict) (k : String) : Option Val := d.lookup k

/-- `k in d`. -/
def Dict.has (d : Dict) (k : String) : Bool := (d.lookup k).isSome

/-- `d[k] = v`: the place of a key that is there does not change. -/
def Dict.set : Dict → String → Val → Dict
  | [], k, v => [(k, v)]
  | (k', v') :: d, k, v => if k' = k then (k, v) :: d else (k', v') :: Dict.set d k v

/-- `del d[k]`. -/
def Dict.del (d : Dict) (k : String) : Dict := d.filter fun p => p.1 ≠ k

/-- The exceptions. -/
inductive Err where
  | key
  | type
  | value
deriving DecidableEq

/-- `float(v)`. -/
def toFloat (parse : String → Option Fl) : Val → Except Err Fl
  | .null => .error .type
  | .str s => match parse s with
    | some x => .ok x
    | none => .error .value
  | .num x => .ok x
  | .other _ => .error .type

/-- `ORIGIN_REQUIRED_KEYS` (impactutils/rupture/constants.py:22-23). -/
def requiredKeys : List String := ["id", "netid", "network", "lat", "lon", "depth", "locstring", "mag", "time"]

/-- `RAKEDICT` (impactutils/rupture/constants.py:13): `none` for other mechanisms. -/
def rakeDict : String → Option (Option ℚ)
  | "SS" => some (some 0)
  | "NM" => some (some (-90))
  | "RS" => some (some 90)
  | "ALL" => some none
  | _ => none

/-- The check of one coordinate (impactutils/rupture/origin.py:80-84). -/
def checkCoord (parse : String → Option Fl) (ev : Dict) (k : String) (limit : ℚ) : Except Err Unit :=
  match ev.get k with
  | none => .error .key
  | some v =>
    match toFloat parse v with
    | .error e => .error e
    | .ok x => if x.gt limit || x.lt (-limit) then .error .value else .ok ()

/-- `type` is used when there is no `mech` (impactutils/rupture/origin.py:86-88). -/
def moveType (ev : Dict) : Dict :=
  match ev.get "mech", ev.get "type" with
  | none, some v => (ev.set "mech" v).del "type"
  | _, _ => ev

/-- An empty `mech`, or none, is replaced (impactutils/rupture/origin.py:89-91, 94-95). -/
def fillMech (ev : Dict) : Dict :=
  match ev.get "mech" with
  | some v => if v = .str "" then ev.set "mech" (.str "ALL") else ev
  | none => ev.set "mech" (.str "ALL")

/-- The attributes set from the dictionary (impactutils/rupture/origin.py:100-104). -/
def setAttrs (parse : String → Option Fl) : Dict → Except Err Dict
  | [] => .ok []
  | (k, v) :: d =>
    match (if k = "rake" then (toFloat parse v).map Val.num else .ok v), setAttrs parse d with
    | .error e, _ => .error e
    | .ok _, .error e => .error e
    | .ok w, .ok d' => .ok ((k, w) :: d')

/-- The rake that goes with the mechanism when there is none (impactutils/rupture/origin.py:107-111). -/
def addRake (attrs : Dict) (default : Option ℚ) : Dict :=
  if attrs.has "rake" then attrs else attrs ++ [("rake", .num (.fin (default.getD 0)))]

/-- The constructor (impactutils/rupture/origin.py:41-113): the attributes of the origin or an exception, and the
dictionary given by the caller as it is afterwards. `nan` and infinite coordinates are as in the code. -/
def construct (parse : String → Option Fl) (ev : Dict) : Except Err Dict × Dict :=
  if requiredKeys.any fun k => !ev.has k then (.error .key, ev)
  else
    match ev.get "id" with
    | some (.num _) | some (.other _) => (.error .type, ev)
    | _ =>
      match checkCoord parse ev "lat" 90 with
      | .error e => (.error e, ev)
      | .ok _ =>
        match checkCoord parse ev "lon" 180 with
        | .error e => (.error e, ev)
        | .ok _ =>
          let ev' := fillMech (moveType ev)
          match ev'.get "mech" with
          | some (.str m) =>
            match rakeDict m with
            | none => (.error .value, ev')
            | some default =>
              match setAttrs parse ev' with
              | .error e => (.error e, ev')
              | .ok attrs => (.ok (addRake attrs default), ev')
          | _ => (.error .value, ev')

/-! ### Mechanism -/

/-- The part of an origin that `setMechanism` changes. -/
structure Mechanism where
  mech : String
  rake : Fl
  dip : Option Fl
deriving DecidableEq

/-- `mechs` (impactutils/rupture/origin.py:170-173): rake and dip. -/
def mechDefaults : String → Option (ℚ × ℚ)
  | "RS" => some (90, 40)
  | "NM" => some (-90, 50)
  | "SS" => some (0, 90)
  | "ALL" => some (45, 90)
  | _ => none

/-- The rake moved by a full turn (impactutils/rupture/origin.py:186-189). -/
def turnRake (r : Fl) : Fl :=
  let r := if r.lt (-180) then r.plus 360 else r
  if r.gt 180 then r.plus (-360) else r

/-- `setMechanism` (impactutils/rupture/origin.py:145-201): whether it raises `ValueError`, and the origin
afterwards. -/
def setMechanism (o : Mechanism) (mech : Option String) (rake dip : Option Fl) : Bool × Mechanism :=
  match mech.bind fun m => (mechDefaults m).map fun d => (m, d) with
  | none => (true, o)
  | some (m, rake0, dip0) =>
    match dip with
    | some d =>
      if d.lt 0 || d.gt 90 then (true, o)
      else setRake o m rake0 d
    | none => setRake o m rake0 (.fin dip0)
where
  /-- The check of the rake and the assignments (impactutils/rupture/origin.py:185-200). -/
  setRake (o : Mechanism) (m : String) (rake0 : ℚ) (d : Fl) : Bool × Mechanism :=
    match rake with
    | some r =>
      if (turnRake r).lt (-180) || (turnRake r).gt 180 then (true, o) else (false, ⟨m, turnRake r, some d⟩)
    | none => (false, ⟨m, .fin rake0, some d⟩)

end Verif.Origin
