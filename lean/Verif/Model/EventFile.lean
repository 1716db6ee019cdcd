import Verif.Model.Factory

/-!
# Event and source files: `impactutils/rupture/origin.py`

An XML file is its attributes here; `Model/EventXml.lean` models the text. Conversions between numbers, times and
text are parameters.
-/

namespace Verif.EventFile
open Verif.Factory (strip)

/-! ### `source.txt` -/

/-- `str.split('=')`: `cur` is the part being read, backwards. -/
def splitEq (cur : List Char) : List Char → List (List Char)
  | [] => [cur.reverse]
  | c :: cs => if c = '=' then cur.reverse :: splitEq [] cs else splitEq (c :: cur) cs

/-- A value of `read_source`. -/
inductive SVal where
  | int (n : ℤ)
  | num (q : ℚ)
  | str (s : List Char)
deriving DecidableEq

/-- The conversion of a value (impactutils/rupture/origin.py:431-438); `int` and `num` are the functions `int` and
`float` of the language. -/
def readValue (int : List Char → Option ℤ) (num : List Char → Option ℚ) (s : List Char) : SVal :=
  match int s with
  | some n => .int n
  | none =>
    match num s with
    | some q => .num q
    | none => .str s

/-- `params[key] = value`. -/
def setKey : List (List Char × SVal) → List Char → SVal → List (List Char × SVal)
  | [], k, v => [(k, v)]
  | (k', v') :: d, k, v => if k' = k then (k, v) :: d else (k', v') :: setKey d k v

/-- The loop over the lines (impactutils/rupture/origin.py:425-439); `none` is an `IndexError`. -/
def readLines (int : List Char → Option ℤ) (num : List Char → Option ℚ) (d : List (List Char × SVal)) :
    List (List Char) → Option (List (List Char × SVal))
  | [] => some d
  | l :: ls =>
    if l.head? = some '#' then readLines int num d ls
    else
      match splitEq [] l with
      | k :: v :: _ => readLines int num (setKey d (strip k) (readValue int num (strip v))) ls
      | _ => none

/-- `read_source` (impactutils/rupture/origin.py:409-442). -/
def readSource (int : List Char → Option ℤ) (num : List Char → Option ℚ) (lines : List (List Char)) :
    Option (List (List Char × SVal)) := readLines int num [] lines

/-! ### `event.xml` -/

/-- The dictionary given to `write_event_file`; `T` are the times. The required keys are there. -/
structure Event (T : Type) where
  id : String
  netid : String
  network : String
  lat : ℚ
  lon : ℚ
  depth : ℚ
  mag : ℚ
  time : T
  locstring : String
  mech : Option String
  reference : Option String
  productcode : Option String
  eventType : Option String

/-- The attributes of the element `earthquake`. -/
abbrev Attrs := List (String × String)

/-- The formats `.4f` and `.1f` and `strftime` with `ALT_TIMEFMT`, which can raise an exception. -/
structure Formats (T : Type) where
  f4 : ℚ → String
  f1 : ℚ → String
  strf : T → Option String

/-- The attributes that `write_event_file` sets (impactutils/rupture/origin.py:228-250): `none` if an exception is
raised. -/
def eventAttrs {T : Type} (f : Formats T) (e : Event T) : Option Attrs :=
  match f.strf e.time with
  | none => none
  | some t =>
    let opt := fun k (v : Option String) => match v with
      | some s => [(k, s)]
      | none => []
    let common := [("id", e.id), ("netid", e.netid), ("network", e.network), ("lat", f.f4 e.lat), ("lon", f.f4 e.lon),
      ("depth", f.f1 e.depth), ("mag", f.f1 e.mag), ("time", t), ("locstring", e.locstring)] ++
      opt "mech" e.mech ++ opt "reference" e.reference ++ opt "productcode" e.productcode
    match e.eventType with
    | some k => if k = "ACTUAL" ∨ k = "SCENARIO" then some (common ++ [("event_type", k)]) else none
    | none => some (common ++ [("event_type", "ACTUAL")])

/-- `write_event_file` (impactutils/rupture/origin.py:204-257): whether a message is returned, and the content of the file
afterwards. Failures of the file system are not modelled. -/
def writeEvent {T : Type} (f : Formats T) (e : Event T) (old : Option Attrs) : Bool × Option Attrs :=
  match eventAttrs f e with
  | none => (true, old)
  | some a => (false, some a)

/-- The exceptions of `read_event_file`. -/
inductive RErr where
  | key
  | value
  | attribute
deriving DecidableEq

/-- `float` and `strptime` with `TIMEFMT` and `ALT_TIMEFMT`. -/
structure Parsers (T : Type) where
  num : String → Option ℚ
  full : String → Option T
  alt : String → Option T

/-- The dictionary that `read_event_file` returns. -/
structure Read (T : Type) where
  id : String
  netid : String
  network : String
  lat : ℚ
  lon : ℚ
  depth : ℚ
  mag : ℚ
  time : T
  locstring : String
  mech : Option String
  type : Option String
  reference : Option String
  productcode : Option String
deriving DecidableEq

/-- `xmldict[k]`. -/
def need (a : Attrs) (k : String) : Except RErr String :=
  match a.lookup k with
  | some v => .ok v
  | none => .error .key

/-- `float(xmldict[k])`. -/
def needNum {T : Type} (p : Parsers T) (a : Attrs) (k : String) : Except RErr ℚ :=
  match a.lookup k with
  | some v => match p.num v with
    | some q => .ok q
    | none => .error .value
  | none => .error .key

/-- The time (impactutils/rupture/origin.py:365-390). `HistoricTime` has no attribute `datetime`. -/
def readTime {T : Type} (p : Parsers T) (a : Attrs) : Except RErr T :=
  match a.lookup "time" with
  | some s => match p.full s with
    | some t => .ok t
    | none => match p.alt s with
      | some t => .ok t
      | none => .error .value
  | none =>
    if ["year", "month", "day", "hour", "minute", "second"].all fun k => (a.lookup k).isSome then .error .attribute
    else .error .value

/-- `read_event_file` (impactutils/rupture/origin.py:260-406), for the attributes in a file (`path`) or in a file-like
object. -/
def readEvent {T : Type} (p : Parsers T) (path : Bool) (a : Attrs) : Except RErr (Read T) := do
  let id ← need a "id"
  let network := (a.lookup "network").getD ""
  let netid ← need a "netid"
  let productcode := match a.lookup "productcode" with
    | some c => some c
    | none => if path then some id else none
  let time ← readTime p a
  let lat ← needNum p a "lat"
  let lon ← needNum p a "lon"
  let depth ← needNum p a "depth"
  let mag ← needNum p a "mag"
  let locstring ← need a "locstring"
  return ⟨id, netid, network, lat, lon, depth, mag, time, locstring, a.lookup "mech", a.lookup "type",
    a.lookup "reference", productcode⟩

end Verif.EventFile
