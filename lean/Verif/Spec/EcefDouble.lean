import Verif.Spec.OqDouble

/-!
# Points over the ellipsoid, for C203
-/

namespace Verif.Spec

/-- The half axes of the ellipsoid, in metres: the equatorial one and the square of the polar one, for the eccentricity that the file has. -/
noncomputable def equatorial : ℝ := 6378137
noncomputable def polarSquared : ℝ := equatorial ^ 2 * (1 - 0.081819190842622 ^ 2)

/-- The direction of the vertical at a latitude and a longitude in degrees. -/
noncomputable def vertical (lat lon : ℝ) : ℝ × ℝ × ℝ :=
  (Real.cos (lat * (Real.pi / 180)) * Real.cos (lon * (Real.pi / 180)), Real.cos (lat * (Real.pi / 180)) * Real.sin (lon * (Real.pi / 180)), Real.sin (lat * (Real.pi / 180)))

/-- `(x, y, z)` is, in metres, the point `dep` kilometres below the point of the ellipsoid that has this latitude and longitude: the outward normal of the ellipsoid there is the vertical. -/
def Geodetic (lat lon dep x y z : ℝ) : Prop :=
  ∃ X Y Z k : ℝ, (X ^ 2 + Y ^ 2) / equatorial ^ 2 + Z ^ 2 / polarSquared = 1 ∧ 0 < k ∧
    X / equatorial ^ 2 = k * (vertical lat lon).1 ∧ Y / equatorial ^ 2 = k * (vertical lat lon).2.1 ∧ Z / polarSquared = k * (vertical lat lon).2.2 ∧
    x = X - 1000 * dep * (vertical lat lon).1 ∧ y = Y - 1000 * dep * (vertical lat lon).2.1 ∧ z = Z - 1000 * dep * (vertical lat lon).2.2

end Verif.Spec
