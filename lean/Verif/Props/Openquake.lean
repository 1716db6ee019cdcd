import Verif.Model.Openquake
import Verif.Spec.Sphere
import Verif.Props.Vector

/-!
# Distances and azimuths on the sphere (C78)
-/

namespace Verif.Props
open Real Verif.Oq Verif.Spec
open Verif.Vec (V3 arctan2 npMod)
open InnerProductGeometry (angle)

theorem onSphere_inner (a b c d : ℝ) : inner ℝ (onSphere a b) (onSphere c d) =
    cos (rad b) * cos (rad d) * cos (rad a - rad c) + sin (rad b) * sin (rad d) := by
  rw [cos_sub]
  simp only [onSphere, PiLp.inner_apply, Fin.sum_univ_three]
  simp
  ring

theorem onSphere_norm (a b : ℝ) : ‖onSphere a b‖ = 1 := by
  have h : ‖onSphere a b‖ ^ 2 = 1 := by
    rw [← real_inner_self_eq_norm_sq, onSphere_inner]
    simp only [sub_self, cos_zero]
    linear_combination sin_sq_add_cos_sq (rad b)
  nlinarith [norm_nonneg (onSphere a b)]

/-- One minus twice the haversine of two points. -/
theorem haversine (φ ψ Δ : ℝ) : 1 - 2 * (sin ((φ - ψ) / 2) ^ 2 + cos φ * cos ψ * sin (Δ / 2) ^ 2) =
    cos φ * cos ψ * cos Δ + sin φ * sin ψ := by
  have h1 : cos (φ - ψ) = 1 - 2 * sin ((φ - ψ) / 2) ^ 2 := by
    rw [show φ - ψ = 2 * ((φ - ψ) / 2) by ring, cos_two_mul']
    rw [show 2 * ((φ - ψ) / 2) / 2 = (φ - ψ) / 2 by ring]
    linear_combination sin_sq_add_cos_sq ((φ - ψ) / 2)
  have h2 : cos Δ = 1 - 2 * sin (Δ / 2) ^ 2 := by
    conv_lhs => rw [show Δ = 2 * (Δ / 2) by ring, cos_two_mul']
    linear_combination sin_sq_add_cos_sq (Δ / 2)
  rw [cos_sub] at h1
  linear_combination -h1 - cos φ * cos ψ * h2

/-- The double of an arcsine of a square root. -/
theorem two_arcsin_sqrt {h : ℝ} (h0 : 0 ≤ h) (h1 : h ≤ 1) : 2 * arcsin (√h) = arccos (1 - 2 * h) := by
  have hs1 : √h ≤ 1 := by rw [sqrt_le_one]; exact h1
  have hs0 := sqrt_nonneg h
  have e : cos (2 * arcsin (√h)) = 1 - 2 * h := by
    rw [cos_two_mul, cos_arcsin, sq_sqrt, sq_sqrt h0]
    · ring
    · rw [sq_sqrt h0]; linarith
  rw [← e, arccos_cos]
  · have := arcsin_nonneg.mpr hs0; linarith
  · have := arcsin_le_pi_div_two (√h); linarith

theorem haversine_bounds (a b c d : ℝ) :
    0 ≤ sin ((radians b - radians d) / 2) ^ 2 + cos (radians b) * cos (radians d) * sin ((radians a - radians c) / 2) ^ 2 ∧
    sin ((radians b - radians d) / 2) ^ 2 + cos (radians b) * cos (radians d) * sin ((radians a - radians c) / 2) ^ 2 ≤ 1 := by
  have h := haversine (radians b) (radians d) (radians a - radians c)
  have hi := onSphere_inner a b c d
  have hc := abs_real_inner_le_norm (onSphere a b) (onSphere c d)
  rw [onSphere_norm, onSphere_norm, hi] at hc
  have := abs_le.mp hc
  unfold radians at *
  unfold rad at *
  constructor <;> linarith [this.1, this.2]

/-- **C78**, distance: `geodetic_distance` is the great-circle distance on a sphere of 6371 km, for all coordinates, also
outside the usual ranges. -/
theorem C78_great_circle (lon1 lat1 lon2 lat2 : ℝ) :
    geodeticDistance lon1 lat1 lon2 lat2 = greatCircle lon1 lat1 lon2 lat2 := by
  obtain ⟨h0, h1⟩ := haversine_bounds lon1 lat1 lon2 lat2
  unfold geodeticDistance greatCircle angle
  rw [mul_comm 2 earthRadius, mul_assoc, two_arcsin_sqrt h0 h1, haversine, onSphere_norm, onSphere_norm, onSphere_inner]
  simp only [mul_one, div_one]
  rfl

/-- **C78**, distance: it is a metric on the sphere, at most half the circumference. -/
theorem C78_metric :
    (∀ a b c d, geodeticDistance a b c d = geodeticDistance c d a b) ∧
    (∀ a b c d, 0 ≤ geodeticDistance a b c d ∧ geodeticDistance a b c d ≤ π * 6371) ∧
    (∀ a b c d, geodeticDistance a b c d = 0 ↔ onSphere a b = onSphere c d) ∧
    (∀ a b, geodeticDistance a b a b = 0) ∧
    (∀ a b c d e f, geodeticDistance a b e f ≤ geodeticDistance a b c d + geodeticDistance c d e f) ∧
    (∀ a b c d, ∀ k m : ℤ, geodeticDistance (a + 360 * k) b (c + 360 * m) d = geodeticDistance a b c d) := by
  have hz : ∀ a b c d, geodeticDistance a b c d = 0 ↔ onSphere a b = onSphere c d := by
    intro a b c d
    rw [C78_great_circle]
    unfold greatCircle
    rw [mul_eq_zero, or_iff_right (by norm_num), InnerProductGeometry.angle_eq_zero_iff]
    constructor
    · rintro ⟨-, r, hr, h⟩
      have := congrArg norm h
      rw [norm_smul, onSphere_norm, onSphere_norm, mul_one, Real.norm_of_nonneg hr.le] at this
      rw [h, ← this, one_smul]
    · intro h
      refine ⟨?_, 1, one_pos, by rw [h, one_smul]⟩
      intro h0
      have := onSphere_norm a b
      rw [h0, norm_zero] at this
      norm_num at this
  have hper : ∀ (a b : ℝ) (k : ℤ), onSphere (a + 360 * k) b = onSphere a b := by
    intro a b k
    unfold onSphere rad
    rw [show (a + 360 * (k : ℝ)) * (π / 180) = a * (π / 180) + k * (2 * π) by ring, cos_add_int_mul_two_pi,
      sin_add_int_mul_two_pi]
  refine ⟨?_, ?_, hz, fun a b => (hz a b a b).mpr rfl, ?_, ?_⟩
  · intro a b c d
    rw [C78_great_circle, C78_great_circle, greatCircle, greatCircle, InnerProductGeometry.angle_comm]
  · intro a b c d
    rw [C78_great_circle, greatCircle]
    have h1 := InnerProductGeometry.angle_nonneg (onSphere a b) (onSphere c d)
    have h2 := InnerProductGeometry.angle_le_pi (onSphere a b) (onSphere c d)
    constructor <;> nlinarith
  · intro a b c d e f
    simp only [C78_great_circle, greatCircle]
    have := InnerProductGeometry.angle_le_angle_add_angle (onSphere a b) (onSphere c d) (onSphere e f)
    nlinarith
  · intro a b c d k m
    simp only [C78_great_circle, greatCircle, hper]

theorem npMod_range (u : ℝ) {m : ℝ} (hm : 0 < m) : 0 ≤ npMod u m ∧ npMod u m < m := by
  unfold npMod
  have h1 := Int.floor_le (u / m)
  have h2 := Int.lt_floor_add_one (u / m)
  rw [le_div_iff₀ hm] at h1
  rw [div_lt_iff₀ hm] at h2
  constructor <;> nlinarith

/-- **C78**, azimuth: it lies in [0, 360), and it is the direction of the second point seen from the first one, clockwise
from north: its sine and cosine are proportional to the components of the second point along east and north. -/
theorem C78_azimuth (lon1 lat1 lon2 lat2 : ℝ) :
    0 ≤ azimuth lon1 lat1 lon2 lat2 ∧ azimuth lon1 lat1 lon2 lat2 < 360 ∧
    (∀ s, s = √(eastOf lon1 lon2 lat2 ^ 2 + northOf lon1 lat1 lon2 lat2 ^ 2) →
      s * sin (rad (azimuth lon1 lat1 lon2 lat2)) = eastOf lon1 lon2 lat2 ∧
      (s ≠ 0 → s * cos (rad (azimuth lon1 lat1 lon2 lat2)) = northOf lon1 lat1 lon2 lat2)) := by
  have hE : sin (radians lon1 - radians lon2) * cos (radians lat2) = -eastOf lon1 lon2 lat2 := by
    unfold eastOf eastAt onSphere
    simp only [PiLp.inner_apply, Fin.sum_univ_three]
    simp [rad, radians]
    rw [sin_sub]; ring
  have hN : cos (radians lat1) * sin (radians lat2) - sin (radians lat1) * cos (radians lat2) * cos (radians lon1 - radians lon2)
      = northOf lon1 lat1 lon2 lat2 := by
    unfold northOf northAt onSphere
    simp only [PiLp.inner_apply, Fin.sum_univ_three]
    simp [rad, radians]
    rw [cos_sub]; ring
  have haz : azimuth lon1 lat1 lon2 lat2 =
      npMod (360 - degrees (arctan2 (-eastOf lon1 lon2 lat2) (northOf lon1 lat1 lon2 lat2))) 360 := by
    unfold azimuth
    rw [hE, hN]
  set E := eastOf lon1 lon2 lat2
  set N := northOf lon1 lat1 lon2 lat2
  obtain ⟨r0, r1⟩ := npMod_range (360 - degrees (arctan2 (-E) N)) (m := 360) (by norm_num)
  rw [← haz] at r0 r1
  refine ⟨r0, r1, ?_⟩
  intro s hs
  set θ := arctan2 (-E) N with hθ
  have hr : rad (azimuth lon1 lat1 lon2 lat2) = -θ + ((1 - ⌊(360 - degrees θ) / 360⌋ : ℤ) : ℝ) * (2 * π) := by
    rw [haz]
    unfold npMod rad degrees
    have := pi_ne_zero
    push_cast
    field_simp
    ring
  have hnorm : ‖(⟨N, -E⟩ : ℂ)‖ = s := by
    rw [Complex.norm_def, Complex.normSq_mk, hs]
    congr 1; ring
  rw [hr, sin_add_int_mul_two_pi, cos_add_int_mul_two_pi, sin_neg, cos_neg]
  have hsin : s * sin θ = -E := by
    rw [← hnorm, hθ]; unfold arctan2
    exact Complex.norm_mul_sin_arg _
  constructor
  · linarith
  · intro _
    rw [← hnorm, hθ]; unfold arctan2
    exact Complex.norm_mul_cos_arg _

/-- Due east on the equator. -/
example : azimuth 0 0 90 0 = 90 ∧ geodeticDistance 0 0 90 0 = 6371 * (π / 2) := by
  constructor
  · unfold azimuth
    have h90 : radians 90 = π / 2 := by unfold radians; ring
    have h0 : radians 0 = 0 := by unfold radians; ring
    simp only [h90, h0, sin_zero, cos_zero]
    rw [show (0 : ℝ) - π / 2 = -(π / 2) by ring, sin_neg, cos_neg, sin_pi_div_two, cos_pi_div_two]
    have harg : arctan2 (-1 * 1) (1 * 0 - 0 * 1 * 0) = -(π / 2) := by
      have := arctan2_polar (r := 1) (θ := -(π / 2)) one_pos ⟨by linarith [pi_pos], by linarith [pi_pos]⟩
      rw [sin_neg, cos_neg, sin_pi_div_two, cos_pi_div_two] at this
      rw [← this]; norm_num
    rw [harg]
    have : degrees (-(π / 2)) = -90 := by
      unfold degrees
      have := pi_ne_zero
      field_simp
      norm_num
    rw [this]
    unfold npMod
    norm_num
  · rw [C78_great_circle, greatCircle, InnerProductGeometry.angle, onSphere_inner, onSphere_norm, onSphere_norm]
    have h90 : rad 90 = π / 2 := by unfold rad; ring
    have h0 : rad 0 = 0 := by unfold rad; ring
    rw [h90, h0, show (0 : ℝ) - π / 2 = -(π / 2) by ring, cos_neg, cos_pi_div_two]
    simp

end Verif.Props
