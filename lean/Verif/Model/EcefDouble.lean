import Verif.Model.OqDouble

/-!
# Earth-centred coordinates in binary arithmetic (impactutils/vectorutils/ecef.py)

`Verif.Vec.latlon2ecef` is the same function with exact real numbers. Here every operation is rounded, and the sine and the cosine are those of the library.
-/

namespace Verif.Dbl

/-- `WGS84_E`, the double nearest to the decimal number in the file (impactutils/vectorutils/ecef.py:9). -/
def eccentricity : ℚ := rnd (81819190842622 / 10 ^ 15)

/-- `WGS84_E * WGS84_E` (impactutils/vectorutils/ecef.py:97 and 101). -/
def eccentricitySquared : ℚ := rnd (eccentricity * eccentricity)

/-- `N` (impactutils/vectorutils/ecef.py:97) for a sine of the latitude. -/
def verticalRadius (s : ℚ) : ℚ := rnd (6378137 / sqrtRnd (rnd (1 - rnd (rnd (eccentricitySquared * s) * s))))

/-- `latlon2ecef` (impactutils/vectorutils/ecef.py:76-103) of one point. The product with `DEGREES_TO_RADIANS` (impactutils/vectorutils/ecef.py:5) is that of `npRadians`. -/
def latlon2ecef (L : MathLib) (lat lon dep : ℚ) : D3 :=
  let alt := rnd (-dep * 1000)
  let clat := L.cos (npRadians lat)
  let slat := L.sin (npRadians lat)
  let clon := L.cos (npRadians lon)
  let slon := L.sin (npRadians lon)
  let n := verticalRadius slat
  ⟨rnd (rnd (rnd (n + alt) * clat) * clon), rnd (rnd (rnd (n + alt) * clat) * slon), rnd (rnd (rnd (n * rnd (1 - eccentricitySquared)) + alt) * slat)⟩

end Verif.Dbl
