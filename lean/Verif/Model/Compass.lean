import Verif.Model.PyBase

/-!
# Model of impactutils/mapping/compass.py
-/

namespace Verif.Compass
open Verif

/-- impactutils/mapping/compass.py:9-10. -/
def longCardinal : List String := ["North", "East", "South", "West", "North"]
/-- impactutils/mapping/compass.py:10. -/
def shortCardinal : List String := ["N", "E", "S", "W", "N"]
/-- impactutils/mapping/compass.py:12-13. -/
def longIntercardinal : List String :=
  ["North", "Northeast", "East", "Southeast", "South", "Southwest", "West", "Northwest", "North"]
/-- impactutils/mapping/compass.py:14. -/
def shortIntercardinal : List String := ["N", "NE", "E", "SE", "S", "SW", "W", "NW", "N"]
/-- impactutils/mapping/compass.py:16-20. -/
def longMeteorological : List String :=
  ["North", "North-northeast", "Northeast", "East-northeast",
   "East", "East-southeast", "Southeast", "South-southeast",
   "South", "South-southwest", "Southwest", "West-southwest",
   "West", "West-northwest", "Northwest", "North-northwest", "North"]
/-- impactutils/mapping/compass.py:21-24. -/
def shortMeteorological : List String :=
  ["N", "NNE", "NE", "ENE", "E", "ESE", "SE", "SSE", "S", "SSW", "SW", "WSW", "W", "WNW", "NW",
   "NNW", "N"]

/-- `np.arange(0, 360 + step, step)` for a step that divides 360 into `n` parts: `n + 1` angles,
impactutils/mapping/compass.py:67,73,79. -/
def angles (n : ℕ) : List ℚ := (List.range (n + 1)).map (fun i : ℕ => (i : ℚ) * (360 / n))

/-- The table chosen for a resolution and a format, and its number of parts,
impactutils/mapping/compass.py:62-84; `none` is the KeyError. -/
def table (resolution format : String) : Option (ℕ × List String) :=
  if format ∉ ["short", "long"] then none
  else if resolution ∉ ["cardinal", "intercardinal", "meteorological"] then none
  else if resolution = "cardinal" then
    some (4, if format = "long" then longCardinal else shortCardinal)
  else if resolution = "intercardinal" then
    some (8, if format = "long" then longIntercardinal else shortIntercardinal)
  else some (16, if format = "long" then longMeteorological else shortMeteorological)

/-- `get_compass_dir_azimuth`, impactutils/mapping/compass.py:48-86; `none` is the KeyError. -/
def compassDirAzimuth (azimuth : ℚ) (resolution format : String) : Option String :=
  let azimuth := if azimuth < 0 then azimuth + 360 else azimuth
  match table resolution format with
  | none => none
  | some (n, points) =>
    match Py.argmin ((angles n).map (fun a => |azimuth - a|)) with
    | none => none
    | some i => points[i]?

/-- `get_compass_dir`, impactutils/mapping/compass.py:27-45; `az` is the azimuth between the two points
(`geodetic.azimuth`).  The `format` argument is not forwarded, so the default `'short'` applies. -/
def compassDir (az : ℚ) (resolution _format : String) : Option String :=
  let az := if az < 0 then az + 360 else az
  compassDirAzimuth az resolution "short"

end Verif.Compass
