import Verif.Model.PyBase

/-!
# Model of impactutils/time/timeutils.py and impactutils/time/ancient_time.py

Times are integers counting microseconds (elapsed times) or rationals counting seconds
(local times); calendar dates are a year, a month and a day.
-/

namespace Verif.Time
open Verif

/-- `_get_utm_zone`, impactutils/time/timeutils.py:79-81. -/
def utmZone (clon : ℚ) : ℤ := ⌊(clon + 180) / 6⌋ % 60 + 1

/-! ## Elapsed time -/

/-- The dictionary returned by `getTimeElapsed`, impactutils/time/timeutils.py:127-131. -/
structure Elapsed where
  weeks : ℤ
  days : ℤ
  hours : ℤ
  minutes : ℤ
  seconds : ℤ
  deriving DecidableEq, Repr

/-- The remainder expression `round(((n / u) - n // u) * u)` used at impactutils/time/timeutils.py:115,118,121,
124, in exact arithmetic. -/
def floatRem (n : ℤ) (u : ℤ) : ℤ := Py.round (((n : ℚ) / u - (n / u : ℤ)) * u)

/-- `getTimeElapsed`, impactutils/time/timeutils.py:88-133.  Times are microsecond counts; `none` is the raised
exception.  `td.seconds + td.days * 86400` is the floor of the difference in seconds. -/
def getTimeElapsed (time1 time2 : ℤ) : Option Elapsed :=
  if time2 < time1 then none
  else
    let nseconds := (time2 - time1) / 1000000
    if nseconds ≥ 60 then
      let nminutes := nseconds / 60
      let nseconds := floatRem nseconds 60
      if nminutes ≥ 60 then
        let nhours := nminutes / 60
        let nminutes := floatRem nminutes 60
        if nhours ≥ 24 then
          let ndays := nhours / 24
          let nhours := floatRem nhours 24
          if ndays ≥ 7 then
            let nweeks := ndays / 7
            let ndays := floatRem ndays 7
            some ⟨nweeks, ndays, nhours, nminutes, nseconds⟩
          else some ⟨0, ndays, nhours, nminutes, nseconds⟩
        else some ⟨0, 0, nhours, nminutes, nseconds⟩
      else some ⟨0, 0, 0, nminutes, nseconds⟩
    else some ⟨0, 0, 0, 0, nseconds⟩

/-- `periods`, impactutils/time/timeutils.py:185. -/
def periods : List String := ["second", "minute", "hour", "day", "week", "month", "year"]

/-- `periods[i]` with Python's negative indexing, impactutils/time/timeutils.py:189-190. -/
def periodAt (i : ℤ) : String :=
  periods.getD (if i < 0 then i + periods.length else i).toNat ""

/-- `getTimeStr`, impactutils/time/timeutils.py:173-195; `none` is the raised exception. -/
def getTimeStr (bigtime smalltime : ℤ) (unit : String) : Option (List Char) :=
  if unit ∉ periods then none
  else
    let bigunit := periodAt (periods.idxOf unit)
    let smallunit := periodAt ((periods.idxOf unit : ℤ) - 1)
    let bigunit := if bigtime ≠ 1 then bigunit ++ "s" else bigunit
    let smallunit := if smalltime ≠ 1 then smallunit ++ "s" else smallunit
    some (Py.intStr bigtime ++ [' '] ++ bigunit.toList ++ [',', ' '] ++ Py.intStr smalltime ++
      [' '] ++ smallunit.toList)

/-- `getElapsedString` with both times given, impactutils/time/timeutils.py:135-171. -/
def getElapsedString (thentime nowtime : ℤ) : Option (List Char) :=
  match getTimeElapsed thentime nowtime with
  | none => none
  | some e =>
    if e.weeks ≠ 0 then getTimeStr e.weeks e.days "week"
    else if e.days ≠ 0 then getTimeStr e.days e.hours "day"
    else if e.hours ≠ 0 then getTimeStr e.hours e.minutes "hour"
    else if e.minutes ≠ 0 then getTimeStr e.minutes e.seconds "minute"
    else if e.seconds ≠ 1 then some (Py.intStr e.seconds ++ " seconds".toList)
    else some "1 second".toList

/-! ## Time-zone raster -/

/-- Extents, resolution and shape of the raster (`_extents`, `_resolution`, `_shape`),
impactutils/time/timeutils.py:417-444. -/
structure Raster where
  minLon : ℚ
  maxLon : ℚ
  minLat : ℚ
  maxLat : ℚ
  resx : ℚ
  resy : ℚ
  rows : ℤ
  cols : ℤ

/-- The default raster, impactutils/time/timeutils.py:418-425. -/
def defaultRaster : Raster := ⟨-180, 180, -80, 83, 1 / 50, 1 / 50, 8150, 18000⟩

/-- Clamping at impactutils/time/timeutils.py:482-489. -/
def clamp (x lo hi : ℚ) : ℚ := if x > hi then hi else if x < lo then lo else x

/-- Rounding choice, impactutils/time/timeutils.py:499-508; `none` for an unsupported name
(UnsupportedArgumentError at 470-472). -/
def rounding (method : String) : Option (ℚ → ℤ) :=
  if method = "round" then some Py.round
  else if method = "floor" then some Int.floor
  else if method = "ceil" then some Int.ceil
  else none

/-- The row and column looked up by `get_timezone_code`, impactutils/time/timeutils.py:469-512. -/
def rasterCell (r : Raster) (lat lon : ℚ) (method : String) : Option (ℤ × ℤ) :=
  match rounding method with
  | none => none
  | some rnd =>
    let lon := clamp lon r.minLon r.maxLon
    let lat := clamp lat r.minLat r.maxLat
    let lon := if r.maxLon < r.minLon ∧ lon < r.minLon then lon + 360 else lon
    let col := rnd ((lon - r.minLon) / r.resx)
    let row := rnd ((r.maxLat - lat) / r.resy)
    let row := if row ≥ r.rows then r.rows - 1 else row
    let col := if col ≥ r.cols then r.cols - 1 else col
    some (row, col)

/-- Failures of `get_timezone_code`. -/
inductive TzErr where
  | unsupportedArgument
  | indexError
  deriving DecidableEq, Repr

/-- `get_timezone_code`, impactutils/time/timeutils.py:450-518.  `cells row col` is the raster content (numpy's
negative indices are not modelled: they are proved not to arise for ordinary rasters), `codes` the
coding file as (name, value) pairs; the first name with the cell's value is returned. -/
def getTimezoneCode (r : Raster) (cells : ℤ → ℤ → ℤ) (codes : List (String × ℤ)) (lat lon : ℚ)
    (method : String) : Except TzErr String :=
  match rasterCell r lat lon method with
  | none => .error .unsupportedArgument
  | some (row, col) =>
    match codes.find? (fun kv => kv.2 == cells row col) with
    | some kv => .ok kv.1
    | none => .error .indexError

/-- `to_localtime`, impactutils/time/timeutils.py:533-552; `convert` is pytz (zone name and UTC time to local
time).  The `rounding_method` argument is not forwarded. -/
def toLocaltime {T : Type} (convert : String → T → T) (r : Raster) (cells : ℤ → ℤ → ℤ)
    (codes : List (String × ℤ)) (utctime : T) (lat lon : ℚ) (_method : String) : Except TzErr T :=
  (getTimezoneCode r cells codes lat lon "floor").map (fun code => convert code utctime)

/-- `to_utctime`, impactutils/time/timeutils.py:553-575; `convert` is pytz (zone name and local time to UTC
time).  The `rounding_method` argument is not forwarded. -/
def toUtctime {T : Type} (convert : String → T → T) (r : Raster) (cells : ℤ → ℤ → ℤ)
    (codes : List (String × ℤ)) (localtime : T) (lat lon : ℚ) (_method : String) : Except TzErr T :=
  (getTimezoneCode r cells codes lat lon "floor").map (fun code => convert code localtime)

/-! ## LocalTime -/

/-- One feature of the time-zone shapefile, seen from the point asked about: `tzid`, bounds, and the
results of the two `contains` tests (`none` = the test raised). -/
structure Feature where
  tzid : String
  xmin : ℚ
  ymin : ℚ
  xmax : ℚ
  ymax : ℚ
  projected : Option Bool
  geographic : Option Bool
  /-- the `zone` property (hours), used by LocalTimeNE only -/
  zoneHours : ℚ

/-- A UTC offset as stored by the class: a timedelta (in seconds) or a bare Python int. -/
inductive Offset where
  | timedelta (seconds : ℚ)
  | int (n : ℤ)
  deriving DecidableEq

/-- Values of instance attributes. -/
inductive Attr where
  | time (t : ℚ)
  | str (s : String)
  | offset (o : Offset)
  deriving DecidableEq

/-- Exceptions of the LocalTime classes. -/
inductive LtErr where
  | unboundLocal
  | attributeError
  deriving DecidableEq, Repr

/-- Instance attributes in the order they were set (later entries win). -/
abbrev Obj := List (String × Attr)

/-- Attribute access. -/
def Obj.get (o : Obj) (name : String) : Except LtErr Attr :=
  match (o.reverse.find? (fun kv => kv.1 == name)) with
  | some kv => .ok kv.2
  | none => .error .attributeError

/-- `is_inside` with its two nested try blocks, impactutils/time/timeutils.py:237-243. -/
def isInside (f : Feature) : Bool :=
  match f.projected with
  | some b => b
  | none => match f.geographic with
    | some b => b
    | none => false

/-- The bounding-box `continue` at impactutils/time/timeutils.py:233-234. -/
def outsideBounds (f : Feature) (lat lon : ℚ) : Bool :=
  decide (lat < f.ymin) || decide (lat > f.ymax) || decide (lon < f.xmin) || decide (lon > f.xmax)

/-- The loop of `LocalTime._find_time_zone`, impactutils/time/timeutils.py:217-249: the last `timezone` bound
(if any) and, if a zone was found, its offset. -/
def scanZones (tzOffset : String → ℚ → ℚ) (utctime lat lon : ℚ) :
    List Feature → Option String → Option String × Option ℚ
  | [], last => (last, none)
  | f :: fs, _ =>
    if outsideBounds f lat lon then scanZones tzOffset utctime lat lon fs (some f.tzid)
    else if isInside f then (some f.tzid, some (tzOffset f.tzid utctime))
    else scanZones tzOffset utctime lat lon fs (some f.tzid)

/-- The end of `_find_time_zone`, impactutils/time/timeutils.py:250-256 (and 356-363): nautical fall-back and the
three attribute assignments; an unbound `timezone` raises. -/
def finishZone (utctime lon : ℚ) : Option String × Option ℚ → Except LtErr Obj
  | (tz, off) =>
    let (localTime, offset) : ℚ × Offset := match off with
      | some o => (utctime + o, .timedelta o)
      | none => (utctime + Py.round (lon / 15) * 3600, .int (Py.round (lon / 15)))
    match tz with
    | none => .error .unboundLocal
    | some z => .ok [("_local_time", .time localTime), ("_timezone_str", .str z),
        ("_utcoffset", .offset offset)]

/-- `LocalTime.__init__` / `update` up to the attributes read by the accessors,
impactutils/time/timeutils.py:199-256,279-283. -/
def localTime (tzOffset : String → ℚ → ℚ) (features : List Feature) (utctime lat lon : ℚ) :
    Except LtErr Obj :=
  finishZone utctime lon (scanZones tzOffset utctime lat lon features none)

/-- The loop of `LocalTimeNE._find_time_zone`, impactutils/time/timeutils.py:308-355: no bounding-box test;
`tzOffset` is `none` when pytz does not know the name, and then the `zone` hours are used and the
name becomes `'undefined'`. -/
def scanZonesNE (tzOffset : String → ℚ → Option ℚ) (utctime : ℚ) :
    List Feature → Option String → Option String × Option ℚ
  | [], last => (last, none)
  | f :: fs, _ =>
    if isInside f then
      match tzOffset f.tzid utctime with
      | some o => (some f.tzid, some o)
      | none => (some "undefined", some (f.zoneHours * 3600))
    else scanZonesNE tzOffset utctime fs (some f.tzid)

/-- `LocalTimeNE.__init__`, impactutils/time/timeutils.py:288-363. -/
def localTimeNE (tzOffset : String → ℚ → Option ℚ) (features : List Feature) (utctime lon : ℚ) :
    Except LtErr Obj :=
  finishZone utctime lon (scanZonesNE tzOffset utctime features none)

/-- `getLocalTime`, impactutils/time/timeutils.py:258-264. -/
def getLocalTime (o : Obj) : Except LtErr Attr := o.get "_local_time"

/-- `getUTCOffset`, impactutils/time/timeutils.py:266-272. -/
def getUTCOffset (o : Obj) : Except LtErr Attr := o.get "_utcoffset"

/-- `getTimeZone`, impactutils/time/timeutils.py:274-275. -/
def getTimeZone (o : Obj) : Except LtErr Attr := o.get "_timezone"

/-! ## HistoricTime -/

/-- Does the regex `(%*%X)` match here?  The number of percent signs, if so.
impactutils/time/ancient_time.py:13 (the greedy `%*` gives back one sign for the final `%X`). -/
def matchSpec (x : Char) (s : List Char) : Option ℕ :=
  let k := (s.takeWhile (· == '%')).length
  if 1 ≤ k ∧ (s.drop k).head? = some x then some k else none

theorem matchSpec_length {x : Char} {s : List Char} {k : ℕ} (h : matchSpec x s = some k) :
    (s.drop (k + 1)).length < s.length := by
  unfold matchSpec at h
  simp only at h
  split at h
  · rename_i hc
    cases h
    obtain ⟨h1, h2⟩ := hc
    have : s.drop (s.takeWhile (· == '%')).length ≠ [] := by
      intro h0; rw [h0] at h2; simp at h2
    have hl := List.length_pos_iff.2 this
    simp only [List.length_drop] at hl ⊢
    omega
  · cases h

/-- `Specifier.replace_in`, impactutils/time/ancient_time.py:20-28: `regex.sub` from left to right, replacing a
match with an odd number of percent signs. -/
def replaceIn (x : Char) (by_ : List Char) (s : List Char) : List Char :=
  match s with
  | [] => []
  | c :: t =>
    match _h : matchSpec x (c :: t) with
    | some n =>
      (if n % 2 = 1 then List.replicate (n - 1) '%' ++ by_
        else List.replicate n '%' ++ [x]) ++ replaceIn x by_ ((c :: t).drop (n + 1))
    | none => c :: replaceIn x by_ t
termination_by s.length
decreasing_by
  · exact matchSpec_length _h
  · simp

/-- `Specifier.ispresent_in`, impactutils/time/ancient_time.py:16-18: only the first match is examined. -/
def isPresentIn (x : Char) : List Char → Bool
  | [] => false
  | c :: t =>
    match matchSpec x (c :: t) with
    | some n => n % 2 == 1
    | none => isPresentIn x t

/-- A calendar date. -/
structure Date where
  year : ℤ
  month : ℕ
  day : ℕ
  deriving DecidableEq, Repr

/-- Results of `HistoricTime.strftime`. -/
inductive Strftime where
  | ok (s : List Char)
  | assertionError
  | nameError
  deriving DecidableEq, Repr

/-- `datetime.strftime` (C library): `%d` pairs are expanded by `interp`, other characters copied; a
final lone `%` is copied. -/
def expand (interp : Char → List Char) : List Char → List Char
  | [] => []
  | ['%'] => ['%']
  | '%' :: d :: t => interp d ++ expand interp t
  | c :: t => c :: expand interp t

/-- `future_year`, impactutils/time/ancient_time.py:37-38 (Python floor division). -/
def futureYear (year : ℤ) : ℤ := year + ((1900 - year - 1) / 400 + 1) * 400

/-- `HistoricTime.strftime`, impactutils/time/ancient_time.py:33-52.  `interp` expands one directive for a date
(the C library).  The name `force` is not defined, so the branch for `%c`/`%x` raises NameError. -/
def strftime (interp : Date → Char → List Char) (d : Date) (format : List Char) : Strftime :=
  if d.year ≥ 1900 then .ok (expand (interp d) format)
  else
    let future := futureYear d.year
    if ¬ future > 1900 then .assertionError
    else
      let format := replaceIn 'Y' (Py.intStr d.year) format
      let result := expand (interp { d with year := future }) format
      if isPresentIn 'c' format || isPresentIn 'x' format then .nameError
      else if ¬ future % 100 = d.year % 100 then .assertionError
      else .ok result

end Verif.Time
