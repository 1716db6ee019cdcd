import Verif.Model.Fs
import Verif.Model.PyBase

/-!
# Model of impactutils/comcat/query.py

Texts are lists of characters. The server is an arbitrary sequence of responses. A JSON document is
given by the fields the code reads; parsing is a parameter.
-/

namespace Verif.Comcat
open Verif.Fs

/-- The exceptions that occur. `plain` is `Exception`, `other` anything raised by `urlopen`, `read` or
`decode` that is not an `HTTPError`. -/
inductive Err where
  | valueError
  | nameError
  | typeError
  | plain
  | other
deriving DecidableEq, Repr

/-- What a request ends in: the decoded text, an `HTTPError` with its code, or another exception. -/
inductive Response where
  | data (t : Text)
  | httpError (code : ℕ)
  | failure
deriving DecidableEq, Repr

/-- `time.sleep(WAITSECS)` (impactutils/comcat/query.py:27): `time` is not imported by this module, so
the name is unbound. -/
def sleep : Except Err Unit := .error .nameError

/-- The second request, once the pause is over (impactutils/comcat/query.py:28-31). -/
def secondRequest : Response → Except Err (Option Text)
  | .data t => .ok (some t)
  | .httpError _ => .error .other
  | .failure => .error .other

/-- The `try` block of the handler (impactutils/comcat/query.py:26-34); any exception in it becomes an
`Exception`. The number of requests made in it comes with the result. -/
def retry (second : Response) : Except Err (Option Text) × ℕ :=
  match sleep with
  | .error _ => (.error .plain, 0)
  | .ok _ =>
    match secondRequest second with
    | .ok r => (.ok r, 1)
    | .error _ => (.error .plain, 1)

/-- `_get_url_data` (impactutils/comcat/query.py:18-34) against a server that gives these responses:
the result and the number of requests. Falling off the end gives `None`. -/
def getUrlData (server : ℕ → Response) : Except Err (Option Text) × ℕ :=
  match server 0 with
  | .data t => (.ok (some t), 1)
  | .failure => (.error .other, 1)
  | .httpError code =>
    if code = 503 then ((retry (server 1)).1, (retry (server 1)).2 + 1)
    else (.ok none, 1)

/-- `json.loads`: `None` is a `TypeError`, a text that is no JSON document a `ValueError`. -/
def loads {J : Type} (parse : Text → Option J) : Option Text → Except Err J
  | none => .error .typeError
  | some t =>
    match parse t with
    | none => .error .valueError
    | some j => .ok j

/-- `GeoServe._getJSONContent` (impactutils/comcat/query.py:118-121). -/
def getJSONContent {J : Type} (parse : Text → Option J) (server : ℕ → Response) : Except Err J :=
  match (getUrlData server).1 with
  | .error e => .error e
  | .ok d => loads parse d

/-- `ComCatInfo.__init__` (impactutils/comcat/query.py:125-135): every exception becomes an
`Exception`. -/
def comCatInfo {J : Type} (parse : Text → Option J) (server : ℕ → Response) : Except Err J :=
  match getJSONContent parse server with
  | .ok j => .ok j
  | .error _ => .error .plain

/-! ### Ids and sources -/

/-- `s.strip(',')`. -/
def stripCommas (s : Text) : Text :=
  ((s.dropWhile (· = ',')).reverse.dropWhile (· = ',')).reverse

/-- `s.split(',')`. -/
def splitCommas : Text → List Text
  | [] => [[]]
  | c :: t =>
    if c = ',' then [] :: splitCommas t
    else match splitCommas t with
      | [] => [[c]]
      | w :: ws => (c :: w) :: ws

/-- The fields of an event document that are read: `['properties']['ids']`,
`['properties']['sources']`, `['id']`. -/
structure Event where
  ids : Text
  sources : Text
  id : Text
deriving DecidableEq, Repr

/-- `ComCatInfo.getAssociatedIds` (impactutils/comcat/query.py:137-147). `list.remove` takes the first
occurrence out and raises `ValueError` when there is none. -/
def getAssociatedIds (e : Event) : Except Err (Text × List Text) :=
  if e.id ∈ splitCommas (stripCommas e.ids) then
    .ok (e.id, (splitCommas (stripCommas e.ids)).erase e.id)
  else .error .valueError

/-- The inner loop of `getAssociatedSources` (impactutils/comcat/query.py:168-173). -/
def slengths (eid : Text) (sources : List Text) : List ℕ :=
  sources.map fun s => if s.isPrefixOf eid then s.length else 0

/-- `allsources[slengths.index(max(slengths))]` (impactutils/comcat/query.py:174). `sources` is never
empty, being the result of `split`. -/
def pickSource (sources : List Text) (eid : Text) : Text :=
  sources.getD ((slengths eid sources).idxOf ((slengths eid sources).foldl max 0)) []

/-- `ComCatInfo.getAssociatedSources` (impactutils/comcat/query.py:149-179). -/
def getAssociatedSources (e : Event) : Except Err (Text × List Text) :=
  match getAssociatedIds e with
  | .error x => .error x
  | .ok (authid, allids) =>
    match (authid :: allids).map (pickSource (splitCommas (stripCommas e.sources))) with
    | [] => .error .other
    | authsource :: rest => .ok (authsource, (authsource :: rest).erase authsource)

/-! ### Other queries -/

/-- The time of `ComCatInfo.getEventParams` (impactutils/comcat/query.py:195-196), in seconds after
1970-01-01: `int(itime / 1000)` for `itime` in milliseconds. The division is exact here. -/
def eventSeconds (itime : ℤ) : ℤ := Py.trunc ((itime : ℚ) / 1000)

/-- The features of `['authoritative']['features']`: network and type of each. -/
abbrev Regions := List (Text × Text)

/-- `GeoServe.getAuthoritative` (impactutils/comcat/query.py:99-116). -/
def getAuthoritative : Regions → Text × Text
  | [] => ("US".toList, "NA".toList)
  | f :: _ => f

/-- `GeoServe.getRegions` (impactutils/comcat/query.py:89-97) on a dictionary with values of any kind:
the `get` in it has no effect. -/
def getRegions {V : Type} (regdict : List (Text × V)) : List (Text × V) := regdict

/-- `ComCatInfo.getShakeGrid` (impactutils/comcat/query.py:225-247). `url` is the address in the
document if there is one, `localFile` the name given, `file` the content of that file if it exists;
the result is what is returned and the content afterwards. The file is opened before `f.write(None)`
fails. Writing itself is taken to succeed. -/
def getShakeGrid (url : Option Text) (localFile : Option Text) (server : ℕ → Response)
    (file : Option Text) : Option Text × Option Text :=
  match url, localFile with
  | none, _ => (none, file)
  | some u, none => (some u, file)
  | some _, some name =>
    match (getUrlData server).1 with
    | .error _ => (none, file)
    | .ok none => (none, some [])
    | .ok (some d) => (some name, some d)

/-- `REGIONS_URL` (impactutils/comcat/query.py:10). -/
def regionsUrl : Text :=
  "http://earthquake.usgs.gov/ws/geoserve/regions.json?latitude=[LAT]&longitude=[LON]".toList

/-- `PLACES_URL` (impactutils/comcat/query.py:11-12). -/
def placesUrl : Text :=
  ("http://earthquake.usgs.gov/ws/geoserve/places.json?" ++
   "latitude=[LAT]&longitude=[LON]&maxradiuskm=[RADIUS]&minpopulation=[POP]&type=geonames").toList

/-- The address asked for regions by `GeoServe.__init__` (impactutils/comcat/query.py:58-59). -/
def regurl (lat lon : Text) : Text :=
  replaceAll "[LON]".toList lon (replaceAll "[LAT]".toList lat regionsUrl)

/-- The address asked for places by `GeoServe.__init__` (impactutils/comcat/query.py:60-63). -/
def placeurl (lat lon radius pop : Text) : Text :=
  replaceAll "[POP]".toList pop (replaceAll "[RADIUS]".toList radius
    (replaceAll "[LON]".toList lon (replaceAll "[LAT]".toList lat placesUrl)))

end Verif.Comcat
