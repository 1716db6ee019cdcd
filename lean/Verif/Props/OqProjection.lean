import Verif.Props.OqPoints
import Verif.Spec.Longitude
import Mathlib.Analysis.SpecialFunctions.Trigonometric.Bounds

/-!
# The orthographic projection (C130)
-/

namespace Verif.Props
open Real Verif.Oq Verif.Spec
open Verif.Vec (V3 arctan2 npMod)

/-- The projection centred on a longitude and latitude in degrees. -/
noncomputable def centredOn (lon lat : ℝ) : Proj := ⟨rad lon, rad lat⟩

theorem sinDist_eq (lon0 lat0 lon lat : ℝ) :
    √(sin (((centredOn lon0 lat0).phi0 - radians lat) / 2) ^ 2 + cos (centredOn lon0 lat0).phi0 * cos (radians lat) *
      sin ((radians lon - (centredOn lon0 lat0).lambda0) / 2) ^ 2) =
    √(sin ((radians lat0 - radians lat) / 2) ^ 2 + cos (radians lat0) * cos (radians lat) *
      sin ((radians lon0 - radians lon) / 2) ^ 2) := by
  show √(sin ((radians lat0 - radians lat) / 2) ^ 2 + cos (radians lat0) * cos (radians lat) *
      sin ((radians lon - radians lon0) / 2) ^ 2) = _
  rw [show (radians lon - radians lon0) / 2 = -((radians lon0 - radians lon) / 2) by ring, sin_neg, neg_sq]

/-- The test for points that are too far. -/
theorem too_far_iff (lon0 lat0 lon lat : ℝ) :
    √(sin (((centredOn lon0 lat0).phi0 - radians lat) / 2) ^ 2 + cos (centredOn lon0 lat0).phi0 * cos (radians lat) *
      sin ((radians lon - (centredOn lon0 lat0).lambda0) / 2) ^ 2) > √2 / 2 ↔
    greatCircle lon0 lat0 lon lat > 6371 * (π / 2) := by
  obtain ⟨h0, h1⟩ := haversine_bounds lon0 lat0 lon lat
  rw [sinDist_eq, ← C78_great_circle]
  unfold geodeticDistance earthRadius
  set h := sin ((radians lat0 - radians lat) / 2) ^ 2 + cos (radians lat0) * cos (radians lat) *
      sin ((radians lon0 - radians lon) / 2) ^ 2
  have hs1 : √h ≤ 1 := by rw [sqrt_le_one]; exact h1
  have hs0 := sqrt_nonneg h
  have h2 : √2 / 2 ∈ Set.Icc (-1 : ℝ) 1 := by
    have := sqrt_nonneg 2
    have h2 := sq_sqrt (show (0 : ℝ) ≤ 2 by norm_num)
    constructor <;> nlinarith
  have hpi : arcsin (√2 / 2) = π / 4 := by
    rw [← sin_pi_div_four, arcsin_sin] <;> linarith [pi_pos]
  rw [gt_iff_lt, ← strictMonoOn_arcsin.lt_iff_lt h2 ⟨by linarith, hs1⟩, hpi]
  constructor <;> intro h <;> nlinarith

/-- What the projection returns: the components of the point along east and north at the centre, in km. -/
theorem forward_eq (lon0 lat0 lon lat x y : ℝ) (h : (centredOn lon0 lat0).forward lon lat = some (x, y)) :
    x = 6371 * eastOf lon0 lon lat ∧ y = 6371 * northOf lon0 lat0 lon lat ∧ greatCircle lon0 lat0 lon lat ≤ 6371 * (π / 2) := by
  unfold Proj.forward at h
  simp only at h
  split at h
  · cases h
  · rename_i hf
    rw [too_far_iff, not_lt] at hf
    simp only [Option.some.injEq, Prod.mk.injEq] at h
    obtain ⟨rfl, rfl⟩ := h
    refine ⟨?_, ?_, hf⟩
    · show cos (rad lat) * sin (rad lon - rad lon0) * earthRadius = _
      unfold eastOf eastAt onSphere earthRadius
      simp only [PiLp.inner_apply, Fin.sum_univ_three]
      simp
      rw [sin_sub]; ring
    · show (cos (rad lat0) * sin (rad lat) - sin (rad lat0) * cos (rad lat) * cos (rad lon - rad lon0)) * earthRadius = _
      unfold northOf northAt onSphere earthRadius
      simp only [PiLp.inner_apply, Fin.sum_univ_three]
      simp
      rw [cos_sub]; ring

theorem east_north_sq (lon0 lat0 lon lat : ℝ) :
    eastOf lon0 lon lat ^ 2 + northOf lon0 lat0 lon lat ^ 2 + (inner ℝ (onSphere lon0 lat0) (onSphere lon lat)) ^ 2 = 1 := by
  rw [onSphere_inner]
  have hE : eastOf lon0 lon lat = cos (rad lat) * sin (rad lon - rad lon0) := by
    unfold eastOf eastAt onSphere
    simp only [PiLp.inner_apply, Fin.sum_univ_three]
    simp
    rw [sin_sub]; ring
  have hN : northOf lon0 lat0 lon lat = cos (rad lat0) * sin (rad lat) - sin (rad lat0) * cos (rad lat) * cos (rad lon - rad lon0) := by
    unfold northOf northAt onSphere
    simp only [PiLp.inner_apply, Fin.sum_univ_three]
    simp
    rw [cos_sub]; ring
  rw [hE, hN, show rad lon0 - rad lon = -(rad lon - rad lon0) by ring, cos_neg]
  set D := rad lon - rad lon0
  linear_combination cos (rad lat) ^ 2 * sin_sq_add_cos_sq D + (sin (rad lat) ^ 2 + cos (rad lat) ^ 2 * cos D ^ 2) * sin_sq_add_cos_sq (rad lat0) +
    sin_sq_add_cos_sq (rad lat)

theorem wrapLon_spec {x : ℝ} (h0 : -540 < x) (h1 : x ≤ 540) : -180 < wrapLon x ∧ wrapLon x ≤ 180 ∧ SameMeridian x (wrapLon x) := by
  unfold wrapLon
  simp only
  by_cases h : x ≥ 180
  · rw [if_pos h]
    by_cases h' : x - 360 ≤ -180
    · rw [if_pos h']; exact ⟨by linarith, by linarith, 0, by push_cast; ring⟩
    · rw [if_neg h']; exact ⟨by linarith, by linarith, -1, by push_cast; ring⟩
  · rw [if_neg h]
    by_cases h' : x ≤ -180
    · rw [if_pos h']; exact ⟨by linarith, by linarith, 1, by push_cast; ring⟩
    · rw [if_neg h']; exact ⟨by linarith, by linarith, 0, by push_cast; ring⟩

/-- Two longitudes of the range on the same meridian are equal. -/
theorem meridian_unique {a b : ℝ} (h : SameMeridian a b) (a0 : -180 < a) (a1 : a ≤ 180) (b0 : -180 < b) (b1 : b ≤ 180) : b = a := by
  obtain ⟨k, hk⟩ := h
  have e1 : (k : ℝ) < 1 := by linarith
  have e2 : (-1 : ℝ) < k := by linarith
  have e1' : k < 1 := by exact_mod_cast e1
  have e2' : -1 < k := by exact_mod_cast e2
  have : k = 0 := by omega
  rw [hk, this]; simp

/-- **C130**, forward: the projection refuses exactly the points more than a quarter of the circumference away from the
centre; otherwise it returns the components of the point along east and north at the centre. -/
theorem C130_forward (lon0 lat0 lon lat : ℝ) :
    ((centredOn lon0 lat0).forward lon lat = none ↔ greatCircle lon0 lat0 lon lat > 6371 * (π / 2)) ∧
    (greatCircle lon0 lat0 lon lat ≤ 6371 * (π / 2) → (centredOn lon0 lat0).forward lon lat =
      some (6371 * eastOf lon0 lon lat, 6371 * northOf lon0 lat0 lon lat)) := by
  have hn : (centredOn lon0 lat0).forward lon lat = none ↔ greatCircle lon0 lat0 lon lat > 6371 * (π / 2) := by
    rw [← too_far_iff]
    unfold Proj.forward
    simp only
    split <;> simp_all
  refine ⟨hn, ?_⟩
  intro h
  cases hf : (centredOn lon0 lat0).forward lon lat with
  | none => exact absurd (hn.mp hf) (not_lt.mpr h)
  | some p =>
    obtain ⟨x, y⟩ := p
    obtain ⟨rfl, rfl, -⟩ := forward_eq _ _ _ _ _ _ hf
    rfl

/-- **C130**, distances: the projection of two points is never farther apart than the points on the sphere. -/
theorem C130_contraction {lon0 lat0 lon1 lat1 lon2 lat2 x1 y1 x2 y2 : ℝ}
    (h1 : (centredOn lon0 lat0).forward lon1 lat1 = some (x1, y1)) (h2 : (centredOn lon0 lat0).forward lon2 lat2 = some (x2, y2)) :
    √((x1 - x2) ^ 2 + (y1 - y2) ^ 2) ≤ greatCircle lon1 lat1 lon2 lat2 := by
  obtain ⟨rfl, rfl, -⟩ := forward_eq _ _ _ _ _ _ h1
  obtain ⟨rfl, rfl, -⟩ := forward_eq _ _ _ _ _ _ h2
  have hE : ∀ u : EuclideanSpace ℝ (Fin 3), inner ℝ (eastAt lon0) u ^ 2 + inner ℝ (northAt lon0 lat0) u ^ 2 ≤ ‖u‖ ^ 2 := by
    intro u
    rw [← real_inner_self_eq_norm_sq]
    unfold eastAt northAt
    simp only [PiLp.inner_apply, Fin.sum_univ_three]
    simp
    set a := u.ofLp 0
    set b := u.ofLp 1
    set c := u.ofLp 2
    have s1 := sin_sq_add_cos_sq (rad lon0)
    have s2 := sin_sq_add_cos_sq (rad lat0)
    set sl := sin (rad lon0)
    set cl := cos (rad lon0)
    set sp := sin (rad lat0)
    set cp := cos (rad lat0)
    have e : a * a + b * b + c * c = (-(a * sl) + b * cl) ^ 2 + (-(a * (sp * cl)) + -(b * (sp * sl)) + c * cp) ^ 2 +
        (a * (cp * cl) + b * (cp * sl) + c * sp) ^ 2 := by
      linear_combination (-(a ^ 2) - b ^ 2) * s1 - ((a * cl + b * sl) ^ 2 + c ^ 2) * s2
    nlinarith [sq_nonneg (a * (cp * cl) + b * (cp * sl) + c * sp)]
  have hchord : √((6371 * eastOf lon0 lon1 lat1 - 6371 * eastOf lon0 lon2 lat2) ^ 2 +
      (6371 * northOf lon0 lat0 lon1 lat1 - 6371 * northOf lon0 lat0 lon2 lat2) ^ 2) ≤
      6371 * ‖onSphere lon1 lat1 - onSphere lon2 lat2‖ := by
    apply sqrt_le_iff.mpr
    refine ⟨by positivity, ?_⟩
    have := hE (onSphere lon1 lat1 - onSphere lon2 lat2)
    rw [inner_sub_right, inner_sub_right] at this
    unfold eastOf northOf
    nlinarith
  refine hchord.trans ?_
  unfold greatCircle
  have harc : ‖onSphere lon1 lat1 - onSphere lon2 lat2‖ ≤ InnerProductGeometry.angle (onSphere lon1 lat1) (onSphere lon2 lat2) := by
    set θ := InnerProductGeometry.angle (onSphere lon1 lat1) (onSphere lon2 lat2) with hθ
    have h0 : 0 ≤ θ := InnerProductGeometry.angle_nonneg _ _
    have hsq : ‖onSphere lon1 lat1 - onSphere lon2 lat2‖ ^ 2 = 2 - 2 * cos θ := by
      rw [norm_sub_sq_real, onSphere_norm, onSphere_norm, hθ, InnerProductGeometry.cos_angle, onSphere_norm, onSphere_norm]
      ring
    have hc := one_sub_sq_div_two_le_cos (x := θ)
    apply le_of_sq_le_sq _ h0
    rw [hsq]; nlinarith
  nlinarith

/-- **C130**, round trip: a point away from the poles and at most a quarter of the circumference from the centre is projected
and projected back to itself, if its longitude is in (-180, 180]. -/
theorem C130_roundtrip {lon0 lat0 lon lat x y : ℝ} (c0 : -180 ≤ lon0) (c1 : lon0 ≤ 180)
    (h0 : -180 < lon) (h1 : lon ≤ 180) (h2 : -90 < lat) (h3 : lat < 90)
    (h : (centredOn lon0 lat0).forward lon lat = some (x, y)) : (centredOn lon0 lat0).reverse x y = (lon, lat) := by
  obtain ⟨hx, hy, hd⟩ := forward_eq _ _ _ _ _ _ h
  have hc := cos_lat_pos h2 h3
  obtain ⟨b1, b2⟩ := lat_bounds h2.le h3.le
  set C := inner ℝ (onSphere lon0 lat0) (onSphere lon lat) with hC
  have hCpos : 0 ≤ C := by
    unfold greatCircle at hd
    have : InnerProductGeometry.angle (onSphere lon0 lat0) (onSphere lon lat) ≤ π / 2 := by linarith
    have h4 := cos_nonneg_of_mem_Icc ⟨by linarith [InnerProductGeometry.angle_nonneg (onSphere lon0 lat0) (onSphere lon lat), pi_pos], this⟩
    rw [InnerProductGeometry.cos_angle, onSphere_norm, onSphere_norm] at h4
    simpa using h4
  have hxr : x / earthRadius = eastOf lon0 lon lat := by rw [hx]; unfold earthRadius; ring
  have hyr : y / earthRadius = northOf lon0 lat0 lon lat := by rw [hy]; unfold earthRadius; ring
  have hcos : √(1 - (eastOf lon0 lon lat ^ 2 + northOf lon0 lat0 lon lat ^ 2)) = C := by
    have := east_north_sq lon0 lat0 lon lat
    rw [show 1 - (eastOf lon0 lon lat ^ 2 + northOf lon0 lat0 lon lat ^ 2) = C ^ 2 by rw [hC]; linarith, sqrt_sq hCpos]
  have hE : eastOf lon0 lon lat = cos (rad lat) * sin (rad lon - rad lon0) := by
    unfold eastOf eastAt onSphere
    simp only [PiLp.inner_apply, Fin.sum_univ_three]
    simp
    rw [sin_sub]; ring
  have hN : northOf lon0 lat0 lon lat = cos (rad lat0) * sin (rad lat) - sin (rad lat0) * cos (rad lat) * cos (rad lon - rad lon0) := by
    unfold northOf northAt onSphere
    simp only [PiLp.inner_apply, Fin.sum_univ_three]
    simp
    rw [cos_sub]; ring
  have hC' : C = cos (rad lat0) * cos (rad lat) * cos (rad lon - rad lon0) + sin (rad lat0) * sin (rad lat) := by
    rw [hC, onSphere_inner, show rad lon0 - rad lon = -(rad lon - rad lon0) by ring, cos_neg]
  have s0 := sin_sq_add_cos_sq (rad lat0)
  set Δ := rad lon - rad lon0 with hΔ
  unfold Proj.reverse
  simp only
  rw [hxr, hyr, hcos]
  show (wrapLon (degrees (rad lon0 + arctan2 (eastOf lon0 lon lat) (cos (rad lat0) * C - northOf lon0 lat0 lon lat * sin (rad lat0)))),
    degrees (arcsin (C * sin (rad lat0) + northOf lon0 lat0 lon lat * cos (rad lat0)))) = _
  have e1 : C * sin (rad lat0) + northOf lon0 lat0 lon lat * cos (rad lat0) = sin (radians lat) := by
    rw [hC', hN]
    show _ = sin (rad lat)
    linear_combination sin (rad lat) * s0
  have e2 : cos (rad lat0) * C - northOf lon0 lat0 lon lat * sin (rad lat0) = cos (rad lat) * cos Δ := by
    rw [hC', hN]
    linear_combination cos (rad lat) * cos Δ * s0
  rw [e1, e2, hE, arcsin_sin b1 b2, degrees_radians]
  have hpolar : arctan2 (cos (rad lat) * sin Δ) (cos (rad lat) * cos Δ) = toIocMod two_pi_pos (-π) Δ := by
    have hm := toIocMod_mem_Ioc two_pi_pos (-π) Δ
    have hk : toIocMod two_pi_pos (-π) Δ = Δ - toIocDiv two_pi_pos (-π) Δ • (2 * π) := rfl
    have hs : sin (toIocMod two_pi_pos (-π) Δ) = sin Δ := by
      rw [hk, zsmul_eq_mul]; exact sin_sub_int_mul_two_pi _ _
    have hc' : cos (toIocMod two_pi_pos (-π) Δ) = cos Δ := by
      rw [hk, zsmul_eq_mul]; exact cos_sub_int_mul_two_pi _ _
    rw [← hs, ← hc']
    exact arctan2_polar hc ⟨hm.1, by linarith [hm.2]⟩
  rw [hpolar]
  have hm := toIocMod_mem_Ioc two_pi_pos (-π) Δ
  set θ := toIocMod two_pi_pos (-π) Δ with hθ
  have hk : θ = Δ - toIocDiv two_pi_pos (-π) Δ • (2 * π) := rfl
  set k := toIocDiv two_pi_pos (-π) Δ
  have hp := pi_pos
  have hdeg : degrees (rad lon0 + θ) = lon - 360 * k := by
    rw [hk, hΔ, zsmul_eq_mul]
    unfold degrees rad
    have := pi_ne_zero
    field_simp
    ring
  have hθ1 : -180 < degrees θ := by unfold degrees; rw [mul_div_assoc', lt_div_iff₀ hp]; nlinarith [hm.1]
  have hθ2 : degrees θ ≤ 180 := by unfold degrees; rw [mul_div_assoc', div_le_iff₀ hp]; nlinarith [hm.2]
  have hsum : degrees (rad lon0 + θ) = lon0 + degrees θ := by
    unfold degrees rad
    have := pi_ne_zero
    field_simp
  obtain ⟨w1, w2, w3⟩ := wrapLon_spec (x := degrees (rad lon0 + θ)) (by rw [hsum]; linarith) (by rw [hsum]; linarith)
  congr 1
  apply meridian_unique _ h0 h1 w1 w2
  obtain ⟨m, hm'⟩ := w3
  exact ⟨m - k, by rw [hm', hdeg]; push_cast; ring⟩

/-- A point is projected from a centre across the date line and back. -/
example : ∃ x y, (centredOn 179 0).forward (-179) 0 = some (x, y) ∧ (centredOn 179 0).reverse x y = (-179, 0) := by
  have hd : greatCircle 179 0 (-179) 0 ≤ 6371 * (π / 2) := by
    unfold greatCircle InnerProductGeometry.angle
    rw [onSphere_inner, onSphere_norm, onSphere_norm]
    have h0 : rad 0 = 0 := by unfold rad; ring
    have h2 : rad 179 - rad (-179) = 2 * π - π / 90 := by unfold rad; ring
    rw [h0, h2, cos_two_pi_sub]
    simp only [cos_zero, sin_zero, mul_one, one_mul, mul_zero, add_zero, div_one]
    rw [arccos_cos (by positivity) (by linarith [pi_pos])]
    linarith [pi_pos]
  have h := (C130_forward 179 0 (-179) 0).2 hd
  exact ⟨_, _, h, C130_roundtrip (by norm_num) (by norm_num) (by norm_num) (by norm_num) (by norm_num) (by norm_num) h⟩

end Verif.Props
