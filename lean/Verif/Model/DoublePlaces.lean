import Verif.Model.Double
import Verif.Model.Time
import Verif.Model.Compass

/-!
# Times, zones, directions and raster cells in binary arithmetic

The functions of `Verif.Time` and `Verif.Compass` that calculate with floats, with every operation on floats rounded to the nearest double. Whole numbers
of Python are exact until an operation makes them floats. Overflow and NaN are not modelled.
-/

namespace Verif.Dbl

/-- `_get_utm_zone` (impactutils/time/timeutils.py:79-81); `floor`, `%` and `+ 1` are exact on these numbers. -/
def utmZone (clon : ℚ) : ℤ := ⌊rnd (rnd (clon + 180) / 6)⌋ % 60 + 1

/-- The hours of nautical time, `round(lon / 15)` (impactutils/time/timeutils.py:252, 359). -/
def nautical (lon : ℚ) : ℤ := Py.round (rnd (lon / 15))

/-- `round(((n / u) - n // u) * u)` with a float `u` (impactutils/time/timeutils.py:115,118,121,124). -/
def floatRem (n u : ℤ) : ℤ := Py.round (rnd (rnd (rnd (rnd n / u) - rnd (n / u : ℤ)) * u))

/-- `getTimeElapsed` (impactutils/time/timeutils.py:88-133), as `Time.getTimeElapsed`. -/
def getTimeElapsed (time1 time2 : ℤ) : Option Time.Elapsed :=
  if time2 < time1 then none
  else
    let nseconds := (time2 - time1) / 1000000
    if nseconds ≥ 60 then
      let nminutes := nseconds / 60
      let nseconds := floatRem nseconds 60
      if nminutes ≥ 60 then
        let nhours := nminutes / 60
        let nminutes := floatRem nminutes 60
        if nhours ≥ 24 then
          let ndays := nhours / 24
          let nhours := floatRem nhours 24
          if ndays ≥ 7 then
            let nweeks := ndays / 7
            let ndays := floatRem ndays 7
            some ⟨nweeks, ndays, nhours, nminutes, nseconds⟩
          else some ⟨0, ndays, nhours, nminutes, nseconds⟩
        else some ⟨0, 0, nhours, nminutes, nseconds⟩
      else some ⟨0, 0, 0, nminutes, nseconds⟩
    else some ⟨0, 0, 0, 0, nseconds⟩

/-- `get_compass_dir_azimuth` (impactutils/mapping/compass.py:48-86), as `Compass.compassDirAzimuth`; the angles of `numpy.arange` are doubles. -/
def compassDirAzimuth (azimuth : ℚ) (resolution format : String) : Option String :=
  let azimuth := if azimuth < 0 then rnd (azimuth + 360) else azimuth
  match Compass.table resolution format with
  | none => none
  | some (n, points) =>
    match Py.argmin ((Compass.angles n).map (fun a => |rnd (azimuth - a)|)) with
    | none => none
    | some i => points[i]?

/-- The row and column of `get_timezone_code` (impactutils/time/timeutils.py:469-512), as `Time.rasterCell`; the numbers of the raster are doubles. -/
def rasterCell (r : Time.Raster) (lat lon : ℚ) (method : String) : Option (ℤ × ℤ) :=
  match Time.rounding method with
  | none => none
  | some f =>
    let lon := Time.clamp lon r.minLon r.maxLon
    let lat := Time.clamp lat r.minLat r.maxLat
    let lon := if r.maxLon < r.minLon ∧ lon < r.minLon then rnd (lon + 360) else lon
    let col := f (rnd (rnd (lon - r.minLon) / r.resx))
    let row := f (rnd (rnd (r.maxLat - lat) / r.resy))
    let row := if row ≥ r.rows then r.rows - 1 else row
    let col := if col ≥ r.cols then r.cols - 1 else col
    some (row, col)

end Verif.Dbl
