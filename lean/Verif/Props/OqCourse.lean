import Verif.Model.OqPoints
import Verif.Spec.Course
import Verif.Props.Openquake

/-!
# Going along great circles: C143 (middle points), C144 (points at a distance)
-/

namespace Verif.Props
open Real Verif.Oq Verif.Spec
open Verif.Vec (V3 arctan2 npMod)

/-! ### The frame at a point -/

theorem inner_three (a b c d e f : ℝ) : inner ℝ (!₂[a, b, c] : EuclideanSpace ℝ (Fin 3)) !₂[d, e, f] =
    a * d + b * e + c * f := by
  simp only [PiLp.inner_apply, Fin.sum_univ_three]
  simp
  ring

theorem frame_inner (lon lat : ℝ) :
    inner ℝ (onSphere lon lat) (eastAt lon) = 0 ∧ inner ℝ (onSphere lon lat) (northAt lon lat) = 0 ∧
    inner ℝ (eastAt lon) (northAt lon lat) = 0 ∧ inner ℝ (eastAt lon) (eastAt lon) = 1 ∧
    inner ℝ (northAt lon lat) (northAt lon lat) = 1 ∧ inner ℝ (onSphere lon lat) (onSphere lon lat) = 1 := by
  have h1 := sin_sq_add_cos_sq (rad lon)
  have h2 := sin_sq_add_cos_sq (rad lat)
  simp only [onSphere, eastAt, northAt, inner_three]
  refine ⟨by ring, by linear_combination (-(sin (rad lat) * cos (rad lat))) * h1, by ring, by linear_combination h1,
    by linear_combination h2 + sin (rad lat) ^ 2 * h1, by linear_combination h2 + cos (rad lat) ^ 2 * h1⟩

/-- A point in the frame of another one. -/
theorem frame_expand (lon1 lat1 lon2 lat2 : ℝ) :
    onSphere lon2 lat2 = inner ℝ (onSphere lon1 lat1) (onSphere lon2 lat2) • onSphere lon1 lat1 +
      (eastOf lon1 lon2 lat2 • eastAt lon1 + northOf lon1 lat1 lon2 lat2 • northAt lon1 lat1) := by
  have h1 := sin_sq_add_cos_sq (rad lon1)
  have h2 := sin_sq_add_cos_sq (rad lat1)
  unfold eastOf northOf
  simp only [onSphere, eastAt, northAt, inner_three]
  generalize sin (rad lon1) = s at *
  generalize cos (rad lon1) = c at *
  generalize sin (rad lat1) = S at *
  generalize cos (rad lat1) = C at *
  generalize cos (rad lat2) * cos (rad lon2) = x
  generalize cos (rad lat2) * sin (rad lon2) = y
  generalize sin (rad lat2) = z
  have e1 : C ^ 2 = 1 - S ^ 2 := by linarith
  have e2 : c ^ 2 = 1 - s ^ 2 := by linarith
  ext i
  fin_cases i
  · simp
    ring_nf
    simp only [e1, e2]
    ring
  · simp
    ring_nf
    simp only [e1, e2]
    ring
  · simp
    ring_nf
    simp only [e1]
    ring

/-- The products of a point reached with the frame. -/
theorem arrive_inner (lon lat az d : ℝ) :
    inner ℝ (onSphere lon lat) (arrive lon lat az d) = cos (d / 6371) ∧
    inner ℝ (eastAt lon) (arrive lon lat az d) = sin (d / 6371) * sin (rad az) ∧
    inner ℝ (northAt lon lat) (arrive lon lat az d) = sin (d / 6371) * cos (rad az) := by
  obtain ⟨h1, h2, h3, h4, h5, h6⟩ := frame_inner lon lat
  unfold arrive
  simp only [inner_add_right, inner_smul_right]
  refine ⟨?_, ?_, ?_⟩
  · rw [h1, h2, h6]; ring
  · rw [real_inner_comm, h1, h3, h4]; ring
  · rw [real_inner_comm, h2, real_inner_comm, h3, h5]; ring

/-- The great-circle distance of a point reached is the distance gone. -/
theorem geodetic_of_arrive {lon lat az d lon' lat' : ℝ} (h0 : 0 ≤ d) (h1 : d ≤ π * 6371)
    (h : onSphere lon' lat' = arrive lon lat az d) : geodeticDistance lon lat lon' lat' = d := by
  rw [C78_great_circle, greatCircle, InnerProductGeometry.angle, onSphere_norm, onSphere_norm, h,
    (arrive_inner lon lat az d).1, mul_one, div_one, arccos_cos (by positivity)]
  · ring
  · rw [div_le_iff₀ (by norm_num)]; exact h1

/-! ### The function of the library meets the specification -/

/-- `geodetic.point_at` as it is written in the `openquake` library. -/
noncomputable def libraryPointAt (lon lat az d : ℝ) : ℝ × ℝ :=
  let tc := radians (360 - az)
  let sinLats := sin (radians lat) * cos (d / 6371) + cos (radians lat) * sin (d / 6371) * cos tc
  let dlon := arctan2 (sin tc * sin (d / 6371) * cos (radians lat)) (cos (d / 6371) - sin (radians lat) * sinLats)
  (degrees (npMod (radians lon - dlon + π) (2 * π) - π), degrees (arcsin sinLats))

theorem rad_degrees (x : ℝ) : rad (degrees x) = x := by
  unfold rad degrees
  have := pi_ne_zero
  field_simp

theorem libraryPointAt_finds : FindsPoint libraryPointAt := by
  intro lon lat az d h1 h2
  have hc : 0 < cos (rad lat) := by
    apply cos_pos_of_mem_Ioo
    unfold rad
    constructor <;> nlinarith [pi_pos]
  have htc : cos (rad (360 - az)) = cos (rad az) ∧ sin (rad (360 - az)) = -sin (rad az) := by
    have : rad (360 - az) = 2 * π - rad az := by unfold rad; ring
    rw [this, cos_two_pi_sub, sin_two_pi_sub]
    exact ⟨rfl, rfl⟩
  have hl : ∀ x, radians x = rad x := fun _ => rfl
  have e1 := sin_sq_add_cos_sq (rad lat)
  have e2 := sin_sq_add_cos_sq (d / 6371)
  have e3 := sin_sq_add_cos_sq (rad az)
  unfold libraryPointAt
  simp only [hl, htc.1, htc.2]
  set S := sin (rad lat)
  set C := cos (rad lat)
  set sd := sin (d / 6371) with hsd
  set cd := cos (d / 6371) with hcd
  set sa := sin (rad az) with hsa
  set ca := cos (rad az) with hca
  set z := S * cd + C * sd * ca with hz
  set tr := cd * C - sd * ca * S with htr
  set te := sd * sa with hte
  have hA : cd - S * z = C * tr := by rw [hz, htr]; linear_combination (-cd) * e1
  have hB : -sa * sd * C = C * (-te) := by rw [hte]; ring
  have hsum : tr ^ 2 + te ^ 2 + z ^ 2 = 1 := by
    rw [hz, htr, hte]
    have : (cd * C - sd * ca * S) ^ 2 + (sd * sa) ^ 2 + (S * cd + C * sd * ca) ^ 2 =
      (S ^ 2 + C ^ 2) * (cd ^ 2 + sd ^ 2 * ca ^ 2) + sd ^ 2 * sa ^ 2 := by ring
    rw [this, e1]
    linear_combination e2 + sd ^ 2 * e3
  rw [hA, hB]
  set dl := arctan2 (C * -te) (C * tr) with hdl
  have hz1 : -1 ≤ z ∧ z ≤ 1 := by constructor <;> nlinarith [sq_nonneg tr, sq_nonneg te]
  have hrho : √(1 - z ^ 2) = √(tr ^ 2 + te ^ 2) := by congr 1; linarith
  have hnorm : ‖(⟨C * tr, C * -te⟩ : ℂ)‖ = C * √(tr ^ 2 + te ^ 2) := by
    rw [Complex.norm_def, Complex.normSq_mk]
    rw [show C * tr * (C * tr) + C * -te * (C * -te) = C ^ 2 * (tr ^ 2 + te ^ 2) by ring,
      sqrt_mul (by positivity), sqrt_sq hc.le]
  have hcos : √(tr ^ 2 + te ^ 2) * cos dl = tr := by
    have : ‖(⟨C * tr, C * -te⟩ : ℂ)‖ * cos dl = C * tr := by
      rw [hdl]; unfold arctan2; exact Complex.norm_mul_cos_arg _
    rw [hnorm] at this
    have hC := hc.ne'
    apply mul_left_cancel₀ hC
    linarith
  have hsin : √(tr ^ 2 + te ^ 2) * sin dl = -te := by
    have : ‖(⟨C * tr, C * -te⟩ : ℂ)‖ * sin dl = C * -te := by
      rw [hdl]; unfold arctan2; exact Complex.norm_mul_sin_arg _
    rw [hnorm] at this
    have hC := hc.ne'
    apply mul_left_cancel₀ hC
    linarith
  have hmod : ∃ k : ℤ, npMod (rad lon - dl + π) (2 * π) - π = rad lon - dl + k * (2 * π) := by
    refine ⟨-⌊(rad lon - dl + π) / (2 * π)⌋, ?_⟩
    unfold npMod
    push_cast
    ring
  obtain ⟨r0, r1⟩ := npMod_range (rad lon - dl + π) (m := 2 * π) (by positivity)
  refine ⟨?_, ?_, ?_, ?_, ?_⟩
  · obtain ⟨k, hk⟩ := hmod
    unfold onSphere arrive
    rw [rad_degrees, rad_degrees, hk, cos_add_int_mul_two_pi, sin_add_int_mul_two_pi, sin_arcsin hz1.1 hz1.2,
      cos_arcsin, hrho, cos_sub, sin_sub]
    unfold onSphere eastAt northAt
    simp only [← hsa, ← hca, ← hsd, ← hcd]
    ext i
    fin_cases i
    · simp
      linear_combination cos (rad lon) * hcos + sin (rad lon) * hsin
    · simp
      linear_combination sin (rad lon) * hcos - cos (rad lon) * hsin
    · simp [hz]
      ring
  · unfold degrees
    rw [← div_le_iff₀ (by positivity)]
    have : (-180 : ℝ) / (180 / π) = -π := by field_simp
    rw [this]; linarith
  · unfold degrees
    rw [← le_div_iff₀ (by positivity)]
    have : (180 : ℝ) / (180 / π) = π := by field_simp
    rw [this]; linarith
  · unfold degrees
    rw [← div_le_iff₀ (by positivity)]
    have : (-90 : ℝ) / (180 / π) = -(π / 2) := by field_simp; norm_num
    rw [this]; exact neg_pi_div_two_le_arcsin _
  · unfold degrees
    rw [← le_div_iff₀ (by positivity)]
    have : (90 : ℝ) / (180 / π) = π / 2 := by field_simp; norm_num
    rw [this]; exact arcsin_le_pi_div_two _

/-! ### C143 -/

/-- **C143** (partial). For a function `at_` that goes along great circles, any first point that is not a pole and any
second point: the middle point is half the distance from each of them. What is missing: a first point at a pole, for which
it is false, see `C143_pole_violated`. -/
theorem C143_middle_point_partial {at_ : ℝ → ℝ → ℝ → ℝ → ℝ × ℝ} (hat : FindsPoint at_) {lon1 lat1 : ℝ}
    (h1 : -90 < lat1) (h2 : lat1 < 90) (lon2 lat2 : ℝ) :
    let m := middlePoint at_ lon1 lat1 lon2 lat2
    geodeticDistance lon1 lat1 m.1 m.2 = geodeticDistance lon1 lat1 lon2 lat2 / 2 ∧
    geodeticDistance m.1 m.2 lon2 lat2 = geodeticDistance lon1 lat1 lon2 lat2 / 2 := by
  intro m
  by_cases he : lon1 = lon2 ∧ lat1 = lat2
  · have hm : m = (lon1, lat1) := by simp only [m, middlePoint]; rw [if_pos he]
    rw [hm, ← he.1, ← he.2, C78_metric.2.2.2.1]
    simp
  · have hm : m = at_ lon1 lat1 (azimuth lon1 lat1 lon2 lat2) (geodeticDistance lon1 lat1 lon2 lat2 / 2) := by
      simp only [m, middlePoint]; rw [if_neg he]
    obtain ⟨d0, d1⟩ := C78_metric.2.1 lon1 lat1 lon2 lat2
    have hgc := C78_great_circle lon1 lat1 lon2 lat2
    generalize hD : geodeticDistance lon1 lat1 lon2 lat2 = D at *
    obtain ⟨ha, -⟩ := hat lon1 lat1 (azimuth lon1 lat1 lon2 lat2) (D / 2) h1 h2
    rw [← hm] at ha
    refine ⟨geodetic_of_arrive (by linarith) (by linarith) ha, ?_⟩
    set δ := D / 6371 with hδ
    have hδ0 : 0 ≤ δ := by positivity
    have hδ1 : δ ≤ π := by rw [hδ, div_le_iff₀ (by norm_num)]; exact d1
    have hang : InnerProductGeometry.angle (onSphere lon1 lat1) (onSphere lon2 lat2) = δ := by
      rw [greatCircle] at hgc; rw [hδ, hgc]; ring
    have hin : inner ℝ (onSphere lon1 lat1) (onSphere lon2 lat2) = cos δ := by
      have := InnerProductGeometry.cos_angle (onSphere lon1 lat1) (onSphere lon2 lat2)
      rw [hang, onSphere_norm, onSphere_norm] at this
      rw [this]; simp
    have hex := frame_expand lon1 lat1 lon2 lat2
    rw [hin] at hex
    obtain ⟨f1, f2, f3, f4, f5, f6⟩ := frame_inner lon1 lat1
    obtain ⟨-, -, haz⟩ := C78_azimuth lon1 lat1 lon2 lat2
    obtain ⟨z1, z2⟩ := haz _ rfl
    set E := eastOf lon1 lon2 lat2
    set N := northOf lon1 lat1 lon2 lat2
    have hnorm : cos δ ^ 2 + (E ^ 2 + N ^ 2) = 1 := by
      have h := (frame_inner lon2 lat2).2.2.2.2.2
      rw [hex] at h
      simp only [inner_add_left, inner_add_right, real_inner_smul_left, real_inner_smul_right, f1, f2, f3, f4, f5, f6,
        real_inner_comm (onSphere lon1 lat1) (eastAt lon1), real_inner_comm (onSphere lon1 lat1) (northAt lon1 lat1),
        real_inner_comm (eastAt lon1) (northAt lon1 lat1)] at h
      linear_combination h
    have hs : √(E ^ 2 + N ^ 2) = sin δ := by
      have : E ^ 2 + N ^ 2 = sin δ ^ 2 := by linarith [sin_sq_add_cos_sq δ]
      rw [this, sqrt_sq (sin_nonneg_of_nonneg_of_le_pi hδ0 hδ1)]
    rw [hs] at z1 z2
    have hN : sin δ * cos (rad (azimuth lon1 lat1 lon2 lat2)) = N := by
      by_cases h0 : sin δ = 0
      · have : E ^ 2 + N ^ 2 = 0 := by
          rw [h0] at hs
          exact (sqrt_eq_zero (by positivity)).1 hs
        have hN0 : N = 0 := by nlinarith [sq_nonneg E, sq_nonneg N]
        rw [h0, hN0, zero_mul]
      · exact z2 h0
    obtain ⟨p1, p2, p3⟩ := arrive_inner lon1 lat1 (azimuth lon1 lat1 lon2 lat2) (D / 2)
    rw [← ha] at p1 p2 p3
    have hhalf : D / 2 / 6371 = δ / 2 := by rw [hδ]; ring
    rw [hhalf] at p1 p2 p3
    have key : inner ℝ (onSphere m.1 m.2) (onSphere lon2 lat2) = cos (δ / 2) := by
      rw [hex, inner_add_right, inner_add_right, real_inner_smul_right, real_inner_smul_right, real_inner_smul_right,
        real_inner_comm, p1, real_inner_comm, p2, real_inner_comm, p3]
      rw [← z1, ← hN]
      have h3 := sin_sq_add_cos_sq (rad (azimuth lon1 lat1 lon2 lat2))
      have h4 : cos (δ / 2) = cos δ * cos (δ / 2) + sin δ * sin (δ / 2) := by
        rw [← cos_sub]; congr 1; ring
      linear_combination (sin δ * sin (δ / 2)) * h3 - h4
    rw [C78_great_circle, greatCircle, InnerProductGeometry.angle, key, onSphere_norm, onSphere_norm, mul_one, div_one,
      arccos_cos (by linarith) (by linarith), hδ]
    ring

/-- **C143** violated at a pole: from the north pole, at longitude 0, to longitude 90 on the equator, the middle point is
at longitude 0, at latitude 45: a quarter of the circumference from the second point, twice as far as it should be.
The function of the library is used, which forgets the azimuth at a pole. -/
theorem C143_pole_violated :
    middlePoint libraryPointAt 0 90 90 0 = (0, 45) ∧
    geodeticDistance 0 45 90 0 = 6371 * (π / 2) ∧ geodeticDistance 0 90 90 0 / 2 = 6371 * (π / 4) := by
  have h90 : rad 90 = π / 2 := by unfold rad; ring
  have h45 : rad 45 = π / 4 := by unfold rad; ring
  have h0 : rad 0 = 0 := by unfold rad; ring
  have hd : ∀ lat, geodeticDistance 0 lat 90 0 = 6371 * (π / 2) := by
    intro lat
    rw [C78_great_circle, greatCircle, InnerProductGeometry.angle, onSphere_inner, onSphere_norm, onSphere_norm, h90, h0,
      show (0 : ℝ) - π / 2 = -(π / 2) by ring, cos_neg, cos_pi_div_two]
    simp
  refine ⟨?_, hd 45, by rw [hd 90]; ring⟩
  have hl : ∀ x, radians x = rad x := fun _ => rfl
  unfold middlePoint
  rw [if_neg (by norm_num), hd 90]
  unfold libraryPointAt
  simp only [hl, h90, h0, sin_pi_div_two, cos_pi_div_two, mul_zero, zero_mul, one_mul, add_zero, sub_self]
  have harg : arctan2 0 0 = 0 := by
    unfold arctan2
    exact Complex.arg_zero
  rw [harg]
  have hq : 6371 * (π / 2) / 2 / 6371 = π / 4 := by ring
  have hmod : npMod (0 - 0 + π) (2 * π) = π := by
    unfold npMod
    have hp := pi_pos
    have : ⌊(0 - 0 + π) / (2 * π)⌋ = 0 := by
      rw [show (0 - 0 + π) / (2 * π) = 1 / 2 by field_simp; ring]
      norm_num
    rw [this]; simp
  have harc : arcsin (cos (π / 4)) = π / 4 := by
    rw [show cos (π / 4) = sin (π / 4) by rw [cos_pi_div_four, sin_pi_div_four]]
    exact arcsin_sin (by linarith [pi_pos]) (by linarith [pi_pos])
  rw [hq, hmod, harc, sub_self]
  unfold degrees
  have := pi_ne_zero
  ext
  · simp
  · simp only; field_simp; norm_num

/-! ### C144 -/

/-- **C144** (partial). For a function `at_` that goes along great circles and a valid point that is not a pole: `point_at` raises an error exactly when
the new depth is not allowed, and otherwise gives the point reached by going the horizontal distance along the great circle, at the new depth. Up to
half the circumference it is at the horizontal and vertical distance asked for; beyond, the way back around the Earth is shorter. What is missing: a
start at a pole. -/
theorem C144_point_at_partial {at_ : ℝ → ℝ → ℝ → ℝ → ℝ × ℝ} (hat : FindsPoint at_) {p : Pt} (h1 : -90 < p.lat)
    (h2 : p.lat < 90) {h : ℝ} (h0 : 0 ≤ h) (v az : ℝ) :
    (-8.848 < p.depth + v ∧ p.depth + v < 6371 →
      ∃ q, p.pointAt at_ h v az = .ok q ∧ q.depth = p.depth + v ∧ onSphere q.lon q.lat = arrive p.lon p.lat az h ∧
        (h ≤ π * 6371 → geodeticDistance p.lon p.lat q.lon q.lat = h ∧ p.dist q = √(h ^ 2 + v ^ 2)) ∧
        (π * 6371 ≤ h → h ≤ 2 * π * 6371 → geodeticDistance p.lon p.lat q.lon q.lat = 2 * π * 6371 - h)) ∧
    (¬ (-8.848 < p.depth + v ∧ p.depth + v < 6371) → p.pointAt at_ h v az = .error "depth") := by
  obtain ⟨k1, k2, k3, k4, k5⟩ := hat p.lon p.lat az h h1 h2
  unfold Pt.pointAt mkPoint earthRadius earthElevation
  simp only
  constructor
  · rintro ⟨d1, d2⟩
    rw [if_neg (by simpa using d2), if_neg (by simpa using d1), if_neg (by simp [k2, k3]), if_neg (by simp [k4, k5])]
    refine ⟨_, rfl, rfl, k1, fun hmax => ?_, fun hmin hmax => ?_⟩
    · have hg := geodetic_of_arrive h0 hmax k1
      refine ⟨hg, ?_⟩
      unfold Pt.dist distance
      simp only [hg]
      congr 1; ring
    · simp only
      rw [C78_great_circle, greatCircle, InnerProductGeometry.angle, onSphere_norm, onSphere_norm, k1,
        (arrive_inner p.lon p.lat az h).1, mul_one, div_one, ← cos_two_pi_sub, arccos_cos]
      · ring
      · rw [sub_nonneg, div_le_iff₀ (by norm_num)]; exact hmax
      · have : π ≤ h / 6371 := by rw [le_div_iff₀ (by norm_num)]; exact hmin
        linarith
  · intro hd
    by_cases hb : p.depth + v < 6371
    · rw [if_neg (by simpa using hb), if_pos (fun hc => hd ⟨hc, hb⟩)]
    · rw [if_pos hb]

/-- **C144**, proximity: the points of a mesh within a radius are those whose distance, as given by
`distance_to_mesh`, is at most the radius; the points are at the places and depths of the mesh, and a mesh without depths is
on the surface. -/
theorem C144_closer_than (p : Pt) (m : Mesh) (r : ℝ) :
    (p.closerThan m r).length = m.points.length ∧
    ∀ i (h : i < m.points.length), ((p.closerThan m r)[i]? = some true ↔ p.dist m.points[i] ≤ r) ∧
      (p.distanceToMesh m true)[i]? = some (p.dist m.points[i]) ∧
      (∃ q, m.places[i]? = some q ∧ m.points[i].lon = q.1 ∧ m.points[i].lat = q.2) ∧
      (m.depths = none → m.points[i].depth = 0) ∧
      (∀ ds, m.depths = some ds → ds[i]? = some m.points[i].depth) := by
  classical
  refine ⟨by simp [Pt.closerThan], ?_⟩
  intro i h
  refine ⟨?_, ?_, ?_, ?_, ?_⟩
  · unfold Pt.closerThan
    simp [List.getElem?_map, List.getElem?_eq_getElem h, Pt.dist]
  · unfold Pt.distanceToMesh
    simp [List.getElem?_map, List.getElem?_eq_getElem h, Pt.dist]
  · obtain ⟨places, depths⟩ := m
    cases depths with
    | none =>
      have h' : i < places.length := by simpa [Mesh.points] using h
      exact ⟨places[i], List.getElem?_eq_getElem h', by simp [Mesh.points], by simp [Mesh.points]⟩
    | some ds =>
      have h' : i < places.length ∧ i < ds.length := by simpa [Mesh.points] using h
      exact ⟨places[i]'h'.1, List.getElem?_eq_getElem h'.1, by simp [Mesh.points], by simp [Mesh.points]⟩
  · intro hd
    unfold Mesh.points at h ⊢
    simp [hd]
  · intro ds hd
    unfold Mesh.points at h ⊢
    simp only [hd, List.length_zipWith, lt_min_iff] at h
    simp [hd, List.getElem?_eq_getElem h.2]

/-- A thousand km to the north east, 5 km up, from a point at depth 10. -/
example : FindsPoint libraryPointAt ∧ ∃ q, Pt.pointAt libraryPointAt ⟨-122, 47, 10⟩ 1000 (-5) 45 = .ok q ∧
    q.depth = 5 ∧ geodeticDistance (-122) 47 q.lon q.lat = 1000 := by
  refine ⟨libraryPointAt_finds, ?_⟩
  obtain ⟨q, h1, h2, -, h3, -⟩ := (C144_point_at_partial libraryPointAt_finds (p := ⟨-122, 47, 10⟩) (by norm_num) (by norm_num)
    (h := 1000) (by norm_num) (-5) 45).1 (by norm_num)
  exact ⟨q, h1, by rw [h2]; norm_num, (h3 (by nlinarith [two_le_pi])).1⟩

/-- **C144** violated at a pole: with the function of the library, all azimuths lead from the north pole to the same
point. -/
theorem C144_pole_violated (lon depth h v az az' : ℝ) :
    Pt.pointAt libraryPointAt ⟨lon, 90, depth⟩ h v az = Pt.pointAt libraryPointAt ⟨lon, 90, depth⟩ h v az' := by
  have h90 : radians 90 = π / 2 := by unfold radians; ring
  unfold Pt.pointAt libraryPointAt
  simp only [h90, sin_pi_div_two, cos_pi_div_two, mul_zero, zero_mul, one_mul, add_zero]

end Verif.Props
