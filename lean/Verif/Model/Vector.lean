import Mathlib.Analysis.SpecialFunctions.Complex.Arg

/-!
# Model of impactutils/vectorutils: vector.py, ecef.py

Floats are real numbers, so there is no rounding. Type checks of the operators are in `VectorOps`.
-/

namespace Verif.Vec
open Real

/-- `Vector` (impactutils/vectorutils/vector.py:8-31). -/
@[ext] structure V3 where
  x : ℝ
  y : ℝ
  z : ℝ

/-- `Vector.__add__` (impactutils/vectorutils/vector.py:63-78). -/
noncomputable def V3.add (a b : V3) : V3 := ⟨a.x + b.x, a.y + b.y, a.z + b.z⟩

/-- `Vector.__sub__` (impactutils/vectorutils/vector.py:80-96). -/
noncomputable def V3.sub (a b : V3) : V3 := ⟨a.x - b.x, a.y - b.y, a.z - b.z⟩

/-- `Vector.__mul__` and `Vector.__rmul__` (impactutils/vectorutils/vector.py:98-136). -/
noncomputable def V3.mul (a : V3) (length : ℝ) : V3 := ⟨a.x * length, a.y * length, a.z * length⟩

/-- `Vector.distance` (impactutils/vectorutils/vector.py:158-175). -/
noncomputable def V3.distance (a b : V3) : ℝ :=
  √((a.x - b.x) ^ 2 + (a.y - b.y) ^ 2 + (a.z - b.z) ^ 2)

/-- `Vector.cross` (impactutils/vectorutils/vector.py:177-194), with `np.cross` written out. -/
noncomputable def V3.cross (a b : V3) : V3 :=
  ⟨a.y * b.z - a.z * b.y, a.z * b.x - a.x * b.z, a.x * b.y - a.y * b.x⟩

/-- `Vector.dot` (impactutils/vectorutils/vector.py:196-213), with `np.dot` written out. -/
noncomputable def V3.dot (a b : V3) : ℝ := a.x * b.x + a.y * b.y + a.z * b.z

/-- `Vector.mag` (impactutils/vectorutils/vector.py:240-246). -/
noncomputable def V3.mag (a : V3) : ℝ := √(a.x ^ 2 + a.y ^ 2 + a.z ^ 2)

/-- `Vector.norm` (impactutils/vectorutils/vector.py:229-238). Division by a zero length gives `nan` in
the code and 0 here. -/
noncomputable def V3.norm (a : V3) : V3 :=
  ⟨a.x / √(a.x ^ 2 + a.y ^ 2 + a.z ^ 2), a.y / √(a.x ^ 2 + a.y ^ 2 + a.z ^ 2),
   a.z / √(a.x ^ 2 + a.y ^ 2 + a.z ^ 2)⟩

/-! ### ECEF -/

/-- `WGS84_A` (impactutils/vectorutils/ecef.py:8) and `a` (impactutils/vectorutils/ecef.py:39). -/
noncomputable def wgsA : ℝ := 6378137

/-- `WGS84_E` (impactutils/vectorutils/ecef.py:9) and `e` (impactutils/vectorutils/ecef.py:40). -/
noncomputable def wgsE : ℝ := 8.1819190842622e-2

/-- `DEGREES_TO_RADIANS` (impactutils/vectorutils/ecef.py:5). -/
noncomputable def degToRad : ℝ := π / 180

/-- `RADIANS_TO_DEGREES` (impactutils/vectorutils/ecef.py:6). -/
noncomputable def radToDeg : ℝ := 180 / π

/-- `np.arctan2(y, x)`: the argument of `x + iy`. Signed zeros are not modelled. -/
noncomputable def arctan2 (y x : ℝ) : ℝ := Complex.arg ⟨x, y⟩

/-- `N` for a sine of the latitude (impactutils/vectorutils/ecef.py:97, and :52). -/
noncomputable def primeVertical (slat : ℝ) : ℝ := wgsA / √(1 - wgsE * wgsE * slat * slat)

/-- `latlon2ecef` (impactutils/vectorutils/ecef.py:76-103). -/
noncomputable def latlon2ecef (lat lon dep : ℝ) : V3 :=
  let alt := -dep * 1000
  let N := primeVertical (sin (lat * degToRad))
  ⟨(N + alt) * cos (lat * degToRad) * cos (lon * degToRad),
   (N + alt) * cos (lat * degToRad) * sin (lon * degToRad),
   (N * (1 - wgsE * wgsE) + alt) * sin (lat * degToRad)⟩

/-- `b` (impactutils/vectorutils/ecef.py:43). -/
noncomputable def wgsB : ℝ := √(wgsA ^ 2 * (1 - wgsE ^ 2))

/-- `ep` (impactutils/vectorutils/ecef.py:44). -/
noncomputable def wgsEp : ℝ := √((wgsA ^ 2 - wgsB ^ 2) / wgsB ^ 2)

/-- `th` (impactutils/vectorutils/ecef.py:45-46). -/
noncomputable def reduced (v : V3) : ℝ := arctan2 (wgsA * v.z) (wgsB * √(v.x ^ 2 + v.y ^ 2))

/-- `lat` in radians (impactutils/vectorutils/ecef.py:48-50). -/
noncomputable def latRad (v : V3) : ℝ :=
  arctan2 (v.z + wgsEp ^ 2 * wgsB * sin (reduced v) ^ 3)
    (√(v.x ^ 2 + v.y ^ 2) - wgsE ^ 2 * wgsA * cos (reduced v) ^ 3)

/-- `np.mod(u, m)` for positive `m`: the sign of the result is that of `m`. -/
noncomputable def npMod (u m : ℝ) : ℝ := u - m * ⌊u / m⌋

/-- The longitude in degrees (impactutils/vectorutils/ecef.py:47, 55, 65-66). -/
noncomputable def lonDeg (v : V3) : ℝ :=
  let lon := npMod (arctan2 v.y v.x) (2 * π) * radToDeg
  if lon > 180 then lon - 360 else lon

/-- The altitude (impactutils/vectorutils/ecef.py:51-52, 60-61). -/
noncomputable def altitude (v : V3) : ℝ :=
  open Classical in
  if |v.x| < 1 ∧ |v.y| < 1 then |v.z| - wgsB
  else √(v.x ^ 2 + v.y ^ 2) / cos (latRad v) - wgsA / √(1 - wgsE ^ 2 * sin (latRad v) ^ 2)

/-- `ecef2latlon` (impactutils/vectorutils/ecef.py:17-73): latitude, longitude, depth. -/
noncomputable def ecef2latlon (v : V3) : ℝ × ℝ × ℝ :=
  (latRad v * radToDeg, lonDeg v, -altitude v / 1000)

end Verif.Vec
