import Verif.Props.QuadDepth

/-!
# The slip vector of a quadrilateral in ECEF coordinates (C161)
-/

namespace Verif.Props
open Real Verif.Vec Verif.Rup Verif.QuadR Verif.Spec
open Verif.Oq (middlePoint azimuth)

/-- The direction away from the earth at a position. -/
noncomputable def upAt (lon lat : ℝ) : V3 := ⟨cos (rad lat) * cos (rad lon), cos (rad lat) * sin (rad lon), sin (rad lat)⟩

/-- The middle that `get_quad_slip` uses: of the box around a quadrilateral, from its south-west to its north-east corner. -/
def SlipMiddle (at_ : ℝ → ℝ → ℝ → ℝ → ℝ × ℝ) (q : Quad Point) (lon0 lat0 : ℝ) : Prop :=
  ∃ west east north south, IsLeast {x | x = q.p0.lon ∨ x = q.p1.lon ∨ x = q.p2.lon ∨ x = q.p3.lon} west ∧
    IsGreatest {x | x = q.p0.lon ∨ x = q.p1.lon ∨ x = q.p2.lon ∨ x = q.p3.lon} east ∧
    IsGreatest {x | x = q.p0.lat ∨ x = q.p1.lat ∨ x = q.p2.lat ∨ x = q.p3.lat} north ∧
    IsLeast {x | x = q.p0.lat ∨ x = q.p1.lat ∨ x = q.p2.lat ∨ x = q.p3.lat} south ∧
    middlePoint at_ west south east north = (lon0, lat0)

theorem quadSlip_eq {at_ : ℝ → ℝ → ℝ → ℝ → ℝ × ℝ} {q : Quad Point} {lon0 lat0 : ℝ} (h : SlipMiddle at_ q lon0 lat0) (rake : ℝ) :
    quadSlip at_ q rake =
      let s := slip (azimuth q.p0.lon q.p0.lat q.p1.lon q.p1.lat) (quadDip q) rake
      let l1 := (centredOn lon0 lat0).reverse s.x s.y
      let l0 := (centredOn lon0 lat0).reverse 0 0
      ((latlon2ecef l1.2 l1.1 s.z).sub (latlon2ecef l0.2 l0.1 0)).norm := by
  obtain ⟨west, east, north, south, h1, h2, h3, h4, h5⟩ := h
  unfold quadSlip
  rw [min4_eq h1, max4_eq h2, max4_eq h3, min4_eq h4]
  unfold projOf
  rw [h5]
  rfl

theorem frame_coords (l0 p0 : ℝ) (a b c : ℝ) :
    let U := cos p0 * cos l0 * a + cos p0 * sin l0 * b + sin p0 * c
    let E := -sin l0 * a + cos l0 * b
    let N := -(sin p0 * cos l0) * a + -(sin p0 * sin l0) * b + cos p0 * c
    a = U * (cos p0 * cos l0) - E * sin l0 - N * (sin p0 * cos l0) ∧
    b = U * (cos p0 * sin l0) + E * cos l0 - N * (sin p0 * sin l0) ∧
    c = U * sin p0 + N * cos p0 ∧ a ^ 2 + b ^ 2 + c ^ 2 = U ^ 2 + E ^ 2 + N ^ 2 := by
  intro U E N
  have h1 := sin_sq_add_cos_sq l0
  have h2 := sin_sq_add_cos_sq p0
  have ha : a = U * (cos p0 * cos l0) - E * sin l0 - N * (sin p0 * cos l0) := by
    simp only [U, E, N]
    linear_combination (-a) * h1 - (a * cos l0 ^ 2 + b * sin l0 * cos l0) * h2
  have hb : b = U * (cos p0 * sin l0) + E * cos l0 - N * (sin p0 * sin l0) := by
    simp only [U, E, N]
    linear_combination (-b) * h1 - (b * sin l0 ^ 2 + a * sin l0 * cos l0) * h2
  have hc : c = U * sin p0 + N * cos p0 := by
    simp only [U, N]
    linear_combination (-c) * h2
  refine ⟨ha, hb, hc, ?_⟩
  simp only [U, E, N]
  linear_combination (-a ^ 2 - b ^ 2) * h1 - (c ^ 2 + (a * cos l0 + b * sin l0) ^ 2) * h2

/-- The places of the middle and of a second position. -/
theorem sphere_place (lon0 lat0 lon lat : ℝ) :
    eastOf lon0 lon lat = -sin (rad lon0) * (upAt lon lat).x + cos (rad lon0) * (upAt lon lat).y ∧
    northOf lon0 lat0 lon lat = -(sin (rad lat0) * cos (rad lon0)) * (upAt lon lat).x +
      -(sin (rad lat0) * sin (rad lon0)) * (upAt lon lat).y + cos (rad lat0) * (upAt lon lat).z := by
  unfold eastOf northOf eastAt northAt onSphere upAt
  simp only [PiLp.inner_apply, Fin.sum_univ_three]
  simp
  constructor <;> ring

theorem upAt_unit (lon lat : ℝ) : (upAt lon lat).x ^ 2 + (upAt lon lat).y ^ 2 + (upAt lon lat).z ^ 2 = 1 := by
  have h1 := sin_sq_add_cos_sq (rad lon)
  have h2 := sin_sq_add_cos_sq (rad lat)
  simp only [upAt]
  linear_combination cos (rad lat) ^ 2 * h1 + h2

/-- The middle itself is at (0, 0). -/
theorem upAt_middle (lon0 lat0 : ℝ) :
    upAt ((centredOn lon0 lat0).reverse 0 0).1 ((centredOn lon0 lat0).reverse 0 0).2 = upAt lon0 lat0 := by
  obtain ⟨h1, h2, h3⟩ := reverse_spec lon0 lat0 0 0 (by norm_num)
  set p := (centredOn lon0 lat0).reverse 0 0
  have hU : 0 ≤ inner ℝ (onSphere lon0 lat0) (onSphere p.1 p.2) := by
    unfold greatCircle at h3
    have : InnerProductGeometry.angle (onSphere lon0 lat0) (onSphere p.1 p.2) ≤ π / 2 := by linarith
    unfold InnerProductGeometry.angle at this
    rw [Real.arccos_le_pi_div_two, onSphere_norm, onSphere_norm] at this
    simpa using this
  obtain ⟨q1, q2⟩ := sphere_place lon0 lat0 p.1 p.2
  have hE : eastOf lon0 p.1 p.2 = 0 := by linarith
  have hN : northOf lon0 lat0 p.1 p.2 = 0 := by linarith
  rw [hE] at q1
  rw [hN] at q2
  have hU' : 0 ≤ cos (rad lat0) * cos (rad lon0) * (upAt p.1 p.2).x + cos (rad lat0) * sin (rad lon0) * (upAt p.1 p.2).y +
      sin (rad lat0) * (upAt p.1 p.2).z := by
    unfold onSphere at hU
    simp only [PiLp.inner_apply, Fin.sum_univ_three] at hU
    simp at hU
    simp only [upAt]
    linarith
  obtain ⟨a, b, c, d⟩ := frame_coords (rad lon0) (rad lat0) (upAt p.1 p.2).x (upAt p.1 p.2).y (upAt p.1 p.2).z
  rw [← q1, ← q2] at a b d
  rw [← q2] at c
  rw [upAt_unit] at d
  set U := cos (rad lat0) * cos (rad lon0) * (upAt p.1 p.2).x + cos (rad lat0) * sin (rad lon0) * (upAt p.1 p.2).y +
      sin (rad lat0) * (upAt p.1 p.2).z
  have hU1 : U = 1 := by nlinarith
  rw [hU1] at a b c
  ext
  · rw [a]; simp [upAt]
  · rw [b]; simp [upAt]
  · rw [c]; simp [upAt]

theorem degrad (x : ℝ) : x * degToRad = rad x := by unfold degToRad rad; ring

/-- Two positions at the same place differ by their depths. -/
theorem ecef_depth (lat lon dep : ℝ) : (latlon2ecef lat lon dep).sub (latlon2ecef lat lon 0) = (upAt lon lat).mul (-(dep * 1000)) := by
  ext <;> simp only [latlon2ecef, V3.sub, V3.mul, upAt, degrad] <;> ring

theorem slip_vertical {strike rake : ℝ} (hr : cos (rad rake) = 0) : slip strike 90 rake = ⟨0, 0, sin (rad rake)⟩ := by
  have h : radians 90 = π / 2 := by unfold radians; ring
  have hr' : cos (radians rake) = 0 := hr
  unfold slip
  rw [h, hr', cos_pi_div_two, sin_pi_div_two]
  simp [radians, rad]

/-- **C161, violated.** The slip vector should show the motion of the hanging wall. For a vertical quadrilateral and a rake of
90 degrees that is up, and with a rake of -90 degrees down, but the vector found is the opposite one: the third component of the
local vector, upward, is taken for a depth. -/
theorem C161_vertical_violated (at_ : ℝ → ℝ → ℝ → ℝ → ℝ × ℝ) (q : Quad Point) (lon0 lat0 : ℝ) (hm : SlipMiddle at_ q lon0 lat0)
    (hd : quadDip q = 90) :
    quadSlip at_ q 90 = (upAt lon0 lat0).mul (-1) ∧ quadSlip at_ q (-90) = upAt lon0 lat0 := by
  have r90 : rad 90 = π / 2 := by unfold rad; ring
  have rn90 : rad (-90) = -(π / 2) := by unfold rad; ring
  have hu := upAt_unit lon0 lat0
  have hmag : ∀ k : ℝ, ((upAt lon0 lat0).mul k).mag = |k| := by
    intro k
    unfold V3.mag V3.mul
    simp only
    rw [← Real.sqrt_sq_eq_abs]
    congr 1
    linear_combination k ^ 2 * hu
  have hnorm : ∀ k : ℝ, ((upAt lon0 lat0).mul k).norm = (upAt lon0 lat0).mul (k / |k|) := by
    intro k
    have h := hmag k
    unfold V3.mag at h
    unfold V3.norm
    rw [h]
    ext <;> simp only [V3.mul] <;> ring
  constructor
  · rw [quadSlip_eq hm, hd, slip_vertical (by rw [r90]; exact cos_pi_div_two)]
    simp only
    rw [ecef_depth, upAt_middle, hnorm, r90, sin_pi_div_two]
    norm_num
  · rw [quadSlip_eq hm, hd, slip_vertical (by rw [rn90, cos_neg]; exact cos_pi_div_two)]
    simp only
    rw [ecef_depth, upAt_middle, hnorm, rn90, sin_neg, sin_pi_div_two]
    norm_num
    ext <;> simp [V3.mul]

/-- Positions at the surface with the same ECEF coordinates have the same vertical. -/
theorem surface_up {lat lon lat' lon' : ℝ} (h : latlon2ecef lat lon 0 = latlon2ecef lat' lon' 0) : upAt lon lat = upAt lon' lat' := by
  have hE := wgsE_lt
  have hE0 := wgsE_pos
  have hl : 1 - wgsE * wgsE ≠ 0 := by nlinarith
  have hN : ∀ s : ℝ, s ^ 2 ≤ 1 → 0 < primeVertical s := fun s hs => lt_of_lt_of_le wgsA_pos (primeVertical_ge s hs)
  have n1 := hN (sin (rad lat)) (by nlinarith [sin_sq_add_cos_sq (rad lat), sq_nonneg (cos (rad lat))])
  have n2 := hN (sin (rad lat')) (by nlinarith [sin_sq_add_cos_sq (rad lat'), sq_nonneg (cos (rad lat'))])
  have hx := congrArg V3.x h
  have hy := congrArg V3.y h
  have hz := congrArg V3.z h
  simp only [latlon2ecef, degrad] at hx hy hz
  set N := primeVertical (sin (rad lat))
  set N' := primeVertical (sin (rad lat'))
  have ex : N * (upAt lon lat).x = N' * (upAt lon' lat').x := by simp only [upAt]; linarith
  have ey : N * (upAt lon lat).y = N' * (upAt lon' lat').y := by simp only [upAt]; linarith
  have ez : N * (upAt lon lat).z = N' * (upAt lon' lat').z := by
    simp only [upAt]
    apply mul_right_cancel₀ hl
    linarith
  have hNN : N = N' := by
    have h1 : N ^ 2 = N' ^ 2 := by
      have u1 := upAt_unit lon lat
      have u2 := upAt_unit lon' lat'
      calc N ^ 2 = (N * (upAt lon lat).x) ^ 2 + (N * (upAt lon lat).y) ^ 2 + (N * (upAt lon lat).z) ^ 2 := by linear_combination -N ^ 2 * u1
        _ = N' ^ 2 := by rw [ex, ey, ez]; linear_combination N' ^ 2 * u2
    nlinarith
  rw [← hNN] at ex ey ez
  ext
  · exact mul_left_cancel₀ n1.ne' ex
  · exact mul_left_cancel₀ n1.ne' ey
  · exact mul_left_cancel₀ n1.ne' ez

/-- **C161** (partial). For strike slip (rake 0 or 180 degrees) the slip vector is a unit vector, and points from the middle of the
quadrilateral, at the surface, to the point at the surface one kilometre along (or against) its strike. What is missing: other rakes. -/
theorem C161_strike_partial (at_ : ℝ → ℝ → ℝ → ℝ → ℝ × ℝ) (q : Quad Point) (lon0 lat0 rake : ℝ) (hm : SlipMiddle at_ q lon0 lat0)
    (hr : sin (rad rake) = 0) :
    (quadSlip at_ q rake).mag = 1 ∧ ∃ (a b : Point) (k : ℝ), 0 < k ∧ a.depth = 0 ∧ b.depth = 0 ∧ upAt a.lon a.lat = upAt lon0 lat0 ∧
      Near lon0 lat0 b ∧ eastKm lon0 b = cos (rad rake) * sin (rad (azimuth q.p0.lon q.p0.lat q.p1.lon q.p1.lat)) ∧
      northKm lon0 lat0 b = cos (rad rake) * cos (rad (azimuth q.p0.lon q.p0.lat q.p1.lon q.p1.lat)) ∧
      (fromPoint b).sub (fromPoint a) = (quadSlip at_ q rake).mul k := by
  have hs : slip (azimuth q.p0.lon q.p0.lat q.p1.lon q.p1.lat) (quadDip q) rake =
      ⟨cos (rad rake) * sin (rad (azimuth q.p0.lon q.p0.lat q.p1.lon q.p1.lat)),
       cos (rad rake) * cos (rad (azimuth q.p0.lon q.p0.lat q.p1.lon q.p1.lat)), 0⟩ := by
    have hr' : sin (radians rake) = 0 := hr
    unfold slip
    rw [hr']
    simp [radians, rad]
  rw [quadSlip_eq hm, hs]
  set st := azimuth q.p0.lon q.p0.lat q.p1.lon q.p1.lat
  have hcos : cos (rad rake) ^ 2 = 1 := by have := sin_sq_add_cos_sq (rad rake); rw [hr] at this; linarith
  have hst := sin_sq_add_cos_sq (rad st)
  obtain ⟨r1, r2, r3⟩ := reverse_spec lon0 lat0 (cos (rad rake) * sin (rad st)) (cos (rad rake) * cos (rad st)) (by
    have : (cos (rad rake) * sin (rad st)) ^ 2 + (cos (rad rake) * cos (rad st)) ^ 2 = 1 := by
      linear_combination cos (rad rake) ^ 2 * hst + hcos
    rw [this]; norm_num)
  have hmid := upAt_middle lon0 lat0
  simp only
  set l1 := (centredOn lon0 lat0).reverse (cos (rad rake) * sin (rad st)) (cos (rad rake) * cos (rad st))
  set l0 := (centredOn lon0 lat0).reverse 0 0
  have hne : latlon2ecef l1.2 l1.1 0 ≠ latlon2ecef l0.2 l0.1 0 := by
    intro h
    have hup := surface_up h
    rw [hmid] at hup
    obtain ⟨a1, a2⟩ := sphere_place lon0 lat0 l1.1 l1.2
    rw [hup] at a1 a2
    have z1 : eastOf lon0 l1.1 l1.2 = 0 := by rw [a1]; simp only [upAt]; ring
    have z2 : northOf lon0 lat0 l1.1 l1.2 = 0 := by
      rw [a2]
      have := sin_sq_add_cos_sq (rad lon0)
      simp only [upAt]
      linear_combination (-sin (rad lat0) * cos (rad lat0)) * this
    rw [z1] at r1
    rw [z2] at r2
    have : (cos (rad rake) * sin (rad st)) ^ 2 + (cos (rad rake) * cos (rad st)) ^ 2 = 1 := by
      linear_combination cos (rad rake) ^ 2 * hst + hcos
    rw [← r1, ← r2] at this
    norm_num at this
  set v := (latlon2ecef l1.2 l1.1 0).sub (latlon2ecef l0.2 l0.1 0) with hv
  have hpos : 0 < v.x ^ 2 + v.y ^ 2 + v.z ^ 2 := by
    by_contra hn
    apply hne
    have hx : v.x = 0 := by nlinarith [sq_nonneg v.x, sq_nonneg v.y, sq_nonneg v.z]
    have hy : v.y = 0 := by nlinarith [sq_nonneg v.x, sq_nonneg v.y, sq_nonneg v.z]
    have hz : v.z = 0 := by nlinarith [sq_nonneg v.x, sq_nonneg v.y, sq_nonneg v.z]
    simp only [hv, V3.sub] at hx hy hz
    ext <;> linarith
  have hm0 : 0 < v.mag := Real.sqrt_pos.2 hpos
  have hm2 : v.mag ^ 2 = v.x ^ 2 + v.y ^ 2 + v.z ^ 2 := Real.sq_sqrt hpos.le
  have hnorm : v.norm = ⟨v.x / v.mag, v.y / v.mag, v.z / v.mag⟩ := rfl
  refine ⟨?_, ⟨l0.1, l0.2, 0⟩, ⟨l1.1, l1.2, 0⟩, v.mag, hm0, rfl, rfl, hmid, r3, r1, r2, ?_⟩
  · rw [hnorm]
    show √((v.x / v.mag) ^ 2 + (v.y / v.mag) ^ 2 + (v.z / v.mag) ^ 2) = 1
    rw [Real.sqrt_eq_one]
    field_simp
    linarith
  · show v = _
    rw [hnorm]
    ext <;> simp only [V3.mul] <;> field_simp

/-- A vertical quadrilateral along the equator (C161): the slip vector for reverse slip is `-up`. -/
example : SlipMiddle (fun _ _ _ _ => (45, 0)) equatorQuad 45 0 ∧ quadDip equatorQuad = 90 ∧
    quadSlip (fun _ _ _ _ => (45, 0)) equatorQuad 90 = (upAt 45 0).mul (-1) ∧ sin (rad 180) = 0 := by
  have hm : SlipMiddle (fun _ _ _ _ => (45, 0)) equatorQuad 45 0 := by
    refine ⟨0, 90, 0, 0, ⟨by simp [equatorQuad], ?_⟩, ⟨by simp [equatorQuad], ?_⟩, ⟨by simp [equatorQuad], ?_⟩,
      ⟨by simp [equatorQuad], ?_⟩, ?_⟩
    · rintro x (rfl | rfl | rfl | rfl) <;> simp [equatorQuad]
    · rintro x (rfl | rfl | rfl | rfl) <;> simp [equatorQuad]
    · rintro x (rfl | rfl | rfl | rfl) <;> simp [equatorQuad]
    · rintro x (rfl | rfl | rfl | rfl) <;> simp [equatorQuad]
    · unfold middlePoint; norm_num
  have hd : quadDip equatorQuad = 90 := by
    obtain ⟨e0, e1, e2, e3⟩ := equatorQuad_ecef
    obtain ⟨-, -, hv, -⟩ := C98_width_dip equatorQuad equatorQuad_noncollinear
    have h0 : (quadNormal equatorQuad.ecef).dot (verticalVector equatorQuad) = 0 := by
      rw [hv]
      show (((fromPoint equatorQuad.p3).sub (fromPoint equatorQuad.p0)).cross
        ((fromPoint equatorQuad.p1).sub (fromPoint equatorQuad.p0))).norm.dot _ = 0
      rw [e0, e1, e3]
      simp [V3.norm, V3.dot, V3.cross, V3.sub, equatorQuad]
    unfold quadDip
    rw [h0, Real.arccos_zero]
    have := pi_ne_zero
    field_simp
    norm_num
  exact ⟨hm, hd, (C161_vertical_violated _ _ _ _ hm hd).1, by
    have : rad 180 = π := by unfold rad; ring
    rw [this, sin_pi]⟩

end Verif.Props
