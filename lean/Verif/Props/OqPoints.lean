import Verif.Props.Openquake

/-!
# Points below the surface (C125, C126), coordinates in space (C127) and triangles (C128)
-/

namespace Verif.Props
open Real Verif.Oq Verif.Spec
open Verif.Vec (V3 arctan2 npMod)

/-- The same place: the same direction from the centre of the earth and the same depth. -/
def SamePlace (p q : Pt) : Prop := onSphere p.lon p.lat = onSphere q.lon q.lat ∧ p.depth = q.depth

/-- **C125.** `Point.distance` is symmetric, zero only for the same place, satisfies the triangle inequality, and is at least
the horizontal distance and the difference of the depths. -/
theorem C125_distance :
    (∀ p q : Pt, p.dist q = q.dist p) ∧
    (∀ p q : Pt, p.dist q = 0 ↔ SamePlace p q) ∧
    (∀ p q r : Pt, p.dist r ≤ p.dist q + q.dist r) ∧
    (∀ p q : Pt, geodeticDistance p.lon p.lat q.lon q.lat ≤ p.dist q ∧ |p.depth - q.depth| ≤ p.dist q) ∧
    (∀ p q : Pt, p.depth = q.depth → p.dist q = greatCircle p.lon p.lat q.lon q.lat) := by
  obtain ⟨m1, m2, m3, m4, m5, -⟩ := C78_metric
  refine ⟨?_, ?_, ?_, ?_, ?_⟩
  · intro p q
    unfold Pt.dist distance
    rw [m1 p.lon]
    congr 1; ring
  · intro p q
    unfold Pt.dist distance SamePlace
    rw [sqrt_eq_zero (by positivity), ← m3]
    constructor
    · intro h
      have h1 : geodeticDistance p.lon p.lat q.lon q.lat ^ 2 = 0 := by
        nlinarith [sq_nonneg (geodeticDistance p.lon p.lat q.lon q.lat), sq_nonneg (p.depth - q.depth)]
      have h2 : (p.depth - q.depth) ^ 2 = 0 := by
        nlinarith [sq_nonneg (geodeticDistance p.lon p.lat q.lon q.lat), sq_nonneg (p.depth - q.depth)]
      exact ⟨pow_eq_zero_iff (by norm_num) |>.mp h1, by linarith [pow_eq_zero_iff (n := 2) (by norm_num) |>.mp h2]⟩
    · rintro ⟨h1, h2⟩
      rw [h1, h2]; ring
  · intro p q r
    unfold Pt.dist distance
    set a := geodeticDistance p.lon p.lat q.lon q.lat
    set b := geodeticDistance q.lon q.lat r.lon r.lat
    have h := m5 p.lon p.lat q.lon q.lat r.lon r.lat
    have h0 := (m2 p.lon p.lat r.lon r.lat).1
    have ha := (m2 p.lon p.lat q.lon q.lat).1
    have hb := (m2 q.lon q.lat r.lon r.lat).1
    set c := geodeticDistance p.lon p.lat r.lon r.lat
    set x := p.depth - q.depth with hx
    set y := q.depth - r.depth with hy
    have hxy : p.depth - r.depth = x + y := by rw [hx, hy]; ring
    rw [hxy]
    apply sqrt_le_iff.mpr
    refine ⟨by positivity, ?_⟩
    have s1 := sq_sqrt (show 0 ≤ a ^ 2 + x ^ 2 by positivity)
    have s2 := sq_sqrt (show 0 ≤ b ^ 2 + y ^ 2 by positivity)
    have hcs : a * b + x * y ≤ √(a ^ 2 + x ^ 2) * √(b ^ 2 + y ^ 2) := by
      rw [← sqrt_mul (by positivity)]
      apply le_sqrt_of_sq_le
      nlinarith [sq_nonneg (a * y - b * x)]
    have hc2 : c ^ 2 ≤ (a + b) ^ 2 := pow_le_pow_left₀ h0 h 2
    nlinarith
  · intro p q
    have hg := (m2 p.lon p.lat q.lon q.lat).1
    unfold Pt.dist distance
    exact ⟨le_sqrt_of_sq_le (by nlinarith [sq_nonneg (p.depth - q.depth)]),
      abs_le_sqrt (by nlinarith [sq_nonneg (geodeticDistance p.lon p.lat q.lon q.lat)])⟩
  · intro p q h
    unfold Pt.dist distance
    rw [h, sub_self, zero_pow (by norm_num), add_zero, sqrt_sq (m2 p.lon p.lat q.lon q.lat).1, C78_great_circle]

theorem dist_nonneg' (p q : Pt) : 0 ≤ p.dist q := sqrt_nonneg _

/-- Points above one another are as far apart as their depths. -/
theorem dist_vertical (lon lat a b : ℝ) : (Pt.mk lon lat a).dist ⟨lon, lat, b⟩ = |a - b| := by
  unfold Pt.dist distance
  simp only
  rw [C78_metric.2.2.2.1, zero_pow (by norm_num), zero_add, sqrt_sq_eq_abs]

/-- **C126**, equality of points: it is reflexive and symmetric, holds for the same place, and only for points within a
metre. -/
theorem C126_same_partial :
    (∀ p q : Pt, p.Same q ↔ p.dist q ≤ 1 / 1000) ∧ (∀ p q : Pt, SamePlace p q → p.Same q) ∧ (∀ p q : Pt, p.Same q → q.Same p) := by
  have h : ∀ p q : Pt, p.Same q ↔ p.dist q ≤ 1 / 1000 := by
    intro p q
    unfold Pt.Same
    rw [abs_of_nonneg (dist_nonneg' p q)]
    norm_num
  refine ⟨h, ?_, ?_⟩
  · intro p q hp
    rw [h, (C125_distance.2.1 p q).mpr hp]
    norm_num
  · intro p q hp
    rw [h] at hp ⊢
    rw [C125_distance.1]; exact hp

/-- **C126** violated: equality of points is not transitive. -/
theorem C126_transitive_violated (lon lat : ℝ) : ∃ p q r : Pt, p.lon = lon ∧ p.lat = lat ∧ p.Same q ∧ q.Same r ∧ ¬ p.Same r := by
  refine ⟨⟨lon, lat, 0⟩, ⟨lon, lat, 1 / 1000⟩, ⟨lon, lat, 2 / 1000⟩, rfl, rfl, ?_, ?_, ?_⟩ <;>
    rw [C126_same_partial.1, dist_vertical] <;> norm_num [abs_of_nonneg]

theorem cleanLoop_sublist (last : Pt) (ps : List Pt) : (cleanLoop last ps).Sublist ps := by
  induction ps generalizing last with
  | nil => exact List.Sublist.refl _
  | cons p ps ih =>
    unfold cleanLoop
    split
    · exact (ih last).cons _
    · exact (ih p).cons_cons _

theorem cleanLoop_chain (last : Pt) (ps : List Pt) : List.IsChain (fun a b => 1 / 1000 < a.dist b) (last :: cleanLoop last ps) := by
  induction ps generalizing last with
  | nil => simp [cleanLoop]
  | cons p ps ih =>
    unfold cleanLoop
    split
    · exact ih last
    · rename_i h
      rw [C126_same_partial.1, not_le] at h
      rw [List.isChain_cons_cons]
      exact ⟨by rw [C125_distance.1]; exact h, ih p⟩

theorem cleanLoop_near (last : Pt) (ps : List Pt) : ∀ p ∈ ps, ∃ q ∈ last :: cleanLoop last ps, p.dist q ≤ 1 / 1000 := by
  induction ps generalizing last with
  | nil => simp
  | cons a ps ih =>
    intro p hp
    unfold cleanLoop
    split
    · rename_i h
      rcases List.mem_cons.mp hp with rfl | hp
      · exact ⟨last, by simp, (C126_same_partial.1 _ _).mp h⟩
      · exact ih last p hp
    · rcases List.mem_cons.mp hp with rfl | hp
      · exact ⟨p, by simp, by rw [(C125_distance.2.1 p p).mpr ⟨rfl, rfl⟩]; norm_num⟩
      · obtain ⟨q, hq, hd⟩ := ih a p hp
        exact ⟨q, List.mem_cons_of_mem _ hq, hd⟩

theorem clean_cons (p : Pt) (ps : List Pt) : cleanPoints (p :: ps) = p :: cleanLoop p ps := by
  show p :: cleanLoop p (p :: ps) = _
  conv_lhs => rw [cleanLoop, if_pos (C126_same_partial.2.1 p p ⟨rfl, rfl⟩)]

/-- **C126**, `clean_points`: the result is the input less some points, begins with its first point, has no two neighbours within
a metre, keeps a point within a metre of each point given, and is unchanged by a second call. -/
theorem C126_clean (ps : List Pt) :
    (cleanPoints ps).Sublist ps ∧ (cleanPoints ps).head? = ps.head? ∧
    List.IsChain (fun a b => 1 / 1000 < a.dist b) (cleanPoints ps) ∧
    (∀ p ∈ ps, ∃ q ∈ cleanPoints ps, p.dist q ≤ 1 / 1000) ∧
    (∀ qs, List.IsChain (fun a b => 1 / 1000 < a.dist b) qs → cleanPoints qs = qs) := by
  refine ⟨?_, ?_, ?_, ?_, ?_⟩
  · cases ps with
    | nil => exact List.Sublist.refl _
    | cons p ps => rw [clean_cons]; exact (cleanLoop_sublist p ps).cons_cons _
  · cases ps with
    | nil => rfl
    | cons p ps => rfl
  · cases ps with
    | nil => exact List.isChain_nil
    | cons p ps => rw [clean_cons]; exact cleanLoop_chain p ps
  · cases ps with
    | nil => simp
    | cons p ps =>
      rw [clean_cons]
      intro q hq
      rcases List.mem_cons.mp hq with rfl | hq
      · exact ⟨q, by simp, by rw [(C125_distance.2.1 q q).mpr ⟨rfl, rfl⟩]; norm_num⟩
      · exact cleanLoop_near p ps q hq
  · intro qs h
    cases qs with
    | nil => rfl
    | cons p qs =>
      rw [clean_cons]
      congr 1
      induction qs generalizing p with
      | nil => rfl
      | cons q qs ih =>
        rw [List.isChain_cons_cons] at h
        rw [cleanLoop, if_neg, ih q h.2]
        rw [C126_same_partial.1, not_le, C125_distance.1]
        exact h.1

/-- A repeated point is dropped, and a point two metres below is kept. -/
example : ∃ p q : Pt, cleanPoints [p, p, q] = [p, q] ∧ p ≠ q := by
  refine ⟨⟨0, 0, 0⟩, ⟨0, 0, 2 / 1000⟩, ?_, by norm_num [Pt.ext_iff]⟩
  rw [clean_cons, cleanLoop, if_pos (C126_same_partial.2.1 _ _ ⟨rfl, rfl⟩), cleanLoop, if_neg, cleanLoop]
  rw [C126_same_partial.1, dist_vertical]
  norm_num [abs_of_nonneg]

/-! ### Coordinates in space -/

theorem degrees_radians (x : ℝ) : degrees (radians x) = x := by
  unfold degrees radians
  have := pi_ne_zero
  field_simp

theorem radians_degrees (x : ℝ) : radians (degrees x) = x := by
  unfold degrees radians
  have := pi_ne_zero
  field_simp

theorem lat_bounds {lat : ℝ} (h1 : -90 ≤ lat) (h2 : lat ≤ 90) : -(π / 2) ≤ radians lat ∧ radians lat ≤ π / 2 := by
  have := pi_pos
  unfold radians
  constructor <;> nlinarith

theorem cos_lat_pos {lat : ℝ} (h1 : -90 < lat) (h2 : lat < 90) : 0 < cos (radians lat) := by
  apply cos_pos_of_mem_Ioo
  have := pi_pos
  unfold radians
  constructor <;> nlinarith

/-- **C127.** A point away from the poles and above the centre of the earth goes to coordinates in space and back
unchanged; every point of space but the centre goes to longitude, latitude and depth and back unchanged, with a longitude in
(-180, 180] and a latitude in [-90, 90]; and the vector is the direction of the point times its distance from the centre. -/
theorem C127_coordinates :
    (∀ p : Pt, -180 < p.lon → p.lon ≤ 180 → -90 < p.lat → p.lat < 90 → p.depth < 6371 →
      cartesianToSpherical (sphericalToCartesian p) = p) ∧
    (∀ v : V3, v ≠ ⟨0, 0, 0⟩ → sphericalToCartesian (cartesianToSpherical v) = v ∧
      -180 < (cartesianToSpherical v).lon ∧ (cartesianToSpherical v).lon ≤ 180 ∧
      -90 ≤ (cartesianToSpherical v).lat ∧ (cartesianToSpherical v).lat ≤ 90) ∧
    (∀ p : Pt, sphericalToCartesian p = ⟨(6371 - p.depth) * onSphere p.lon p.lat 0, (6371 - p.depth) * onSphere p.lon p.lat 1,
      (6371 - p.depth) * onSphere p.lon p.lat 2⟩) := by
  refine ⟨?_, ?_, ?_⟩
  · rintro ⟨lon, lat, dep⟩ h1 h2 h3 h4 h5
    simp only at h1 h2 h3 h4 h5
    have hc := cos_lat_pos h3 h4
    have hr : 0 < earthRadius - dep := by unfold earthRadius; linarith
    obtain ⟨b1, b2⟩ := lat_bounds h3.le h4.le
    unfold cartesianToSpherical sphericalToCartesian
    simp only
    set R := earthRadius - dep with hR
    have hrr : √(R * cos (radians lat) * cos (radians lon) * (R * cos (radians lat) * cos (radians lon)) +
        R * cos (radians lat) * sin (radians lon) * (R * cos (radians lat) * sin (radians lon)) +
        R * sin (radians lat) * (R * sin (radians lat))) = R := by
      rw [show R * cos (radians lat) * cos (radians lon) * (R * cos (radians lat) * cos (radians lon)) +
        R * cos (radians lat) * sin (radians lon) * (R * cos (radians lat) * sin (radians lon)) +
        R * sin (radians lat) * (R * sin (radians lat)) = R ^ 2 by
          linear_combination R ^ 2 * cos (radians lat) ^ 2 * sin_sq_add_cos_sq (radians lon) +
            R ^ 2 * sin_sq_add_cos_sq (radians lat), sqrt_sq hr.le]
    rw [hrr]
    ext
    · simp only
      rw [arctan2_polar (mul_pos hr hc), degrees_radians]
      have := pi_pos
      unfold radians
      constructor <;> nlinarith
    · simp only
      rw [mul_div_cancel_left₀ _ hr.ne', min_eq_left (sin_le_one _), max_eq_right (neg_one_le_sin _), arcsin_sin b1 b2,
        degrees_radians]
    · simp only [hR]; ring
  · rintro ⟨x, y, z⟩ hv
    have hpos : 0 < x * x + y * y + z * z := by
      by_contra hc
      apply hv
      have hx : x = 0 := by nlinarith [mul_self_nonneg x, mul_self_nonneg y, mul_self_nonneg z]
      have hy : y = 0 := by nlinarith [mul_self_nonneg x, mul_self_nonneg y, mul_self_nonneg z]
      have hz : z = 0 := by nlinarith [mul_self_nonneg x, mul_self_nonneg y, mul_self_nonneg z]
      rw [hx, hy, hz]
    set r := √(x * x + y * y + z * z) with hr
    have hrp : 0 < r := sqrt_pos.mpr hpos
    have hr2 : r ^ 2 = x * x + y * y + z * z := sq_sqrt hpos.le
    have hzr : |z / r| ≤ 1 := by
      rw [abs_div, abs_of_pos hrp, div_le_one hrp]
      exact abs_le_sqrt (by nlinarith [mul_self_nonneg x, mul_self_nonneg y])
    obtain ⟨z1, z2⟩ := abs_le.mp hzr
    have hclip : max (-1) (min (z / r) 1) = z / r := by rw [min_eq_left z2, max_eq_right z1]
    have hp := pi_pos
    have ha : arctan2 y x ∈ Set.Ioc (-π) π := Complex.arg_mem_Ioc _
    have s1 := neg_pi_div_two_le_arcsin (z / r)
    have s2 := arcsin_le_pi_div_two (z / r)
    have hexp : cartesianToSpherical ⟨x, y, z⟩ = ⟨degrees (arctan2 y x), degrees (arcsin (z / r)), earthRadius - r⟩ := by
      unfold cartesianToSpherical
      simp only
      rw [← hr, hclip]
    rw [hexp]
    refine ⟨?_, ?_, ?_, ?_, ?_⟩
    · unfold sphericalToCartesian
      simp only [radians_degrees]
      rw [sub_sub_cancel, sin_arcsin z1 z2, cos_arcsin]
      have hxy : r * √(1 - (z / r) ^ 2) = ‖(⟨x, y⟩ : ℂ)‖ := by
        rw [Complex.norm_def, Complex.normSq_mk]
        have : 1 - (z / r) ^ 2 = (x * x + y * y) / r ^ 2 := by
          field_simp
          rw [hr2]; ring
        rw [this, sqrt_div (by nlinarith [mul_self_nonneg x, mul_self_nonneg y]), sqrt_sq hrp.le]
        field_simp
      rw [hxy]
      unfold arctan2
      ext
      · exact Complex.norm_mul_cos_arg ⟨x, y⟩
      · exact Complex.norm_mul_sin_arg ⟨x, y⟩
      · simp only; field_simp
    · unfold degrees; simp only; rw [mul_div_assoc', lt_div_iff₀ hp]; nlinarith [ha.1]
    · unfold degrees; simp only; rw [mul_div_assoc', div_le_iff₀ hp]; nlinarith [ha.2]
    · unfold degrees; simp only; rw [mul_div_assoc', le_div_iff₀ hp]; nlinarith
    · unfold degrees; simp only; rw [mul_div_assoc', div_le_iff₀ hp]; nlinarith
  · intro p
    unfold sphericalToCartesian onSphere earthRadius rad radians
    ext <;> simp <;> ring

/-- A point below the surface. -/
example : cartesianToSpherical (sphericalToCartesian ⟨-120, 45, 10⟩) = ⟨-120, 45, 10⟩ :=
  C127_coordinates.1 _ (by norm_num) (by norm_num) (by norm_num) (by norm_num) (by norm_num)

/-! ### Triangles -/

/-- **C128.** For the edges of a triangle, `triangle_area` is half the length of the cross product of two of them. -/
theorem C128_triangle (e1 e2 e3 : V3) (h : (e1.add e2).add e3 = ⟨0, 0, 0⟩) : triangleArea e1 e2 e3 = (e1.cross e2).mag / 2 := by
  obtain ⟨a, b, c⟩ := e1
  obtain ⟨d, e, f⟩ := e2
  obtain ⟨g, i, j⟩ := e3
  simp only [V3.add, V3.mk.injEq] at h
  obtain ⟨hx, hy, hz⟩ := h
  unfold triangleArea V3.mag V3.cross
  simp only
  set l1 := √(a * a + b * b + c * c)
  set l2 := √(d * d + e * e + f * f)
  set l3 := √(g * g + i * i + j * j)
  have q1 : l1 ^ 2 = a * a + b * b + c * c := sq_sqrt (by nlinarith [mul_self_nonneg a, mul_self_nonneg b, mul_self_nonneg c])
  have q2 : l2 ^ 2 = d * d + e * e + f * f := sq_sqrt (by nlinarith [mul_self_nonneg d, mul_self_nonneg e, mul_self_nonneg f])
  have q3 : l3 ^ 2 = g * g + i * i + j * j := sq_sqrt (by nlinarith [mul_self_nonneg g, mul_self_nonneg i, mul_self_nonneg j])
  have hg : g = -(a + d) := by linarith
  have hi : i = -(b + e) := by linarith
  have hj : j = -(c + f) := by linarith
  have q3' : l3 ^ 2 = l1 ^ 2 + l2 ^ 2 + 2 * (a * d + b * e + c * f) := by
    rw [q1, q2, q3, hg, hi, hj]; ring
  have hh : (l1 + l2 + l3) / 2 * ((l1 + l2 + l3) / 2 - l1) * ((l1 + l2 + l3) / 2 - l2) * ((l1 + l2 + l3) / 2 - l3) =
      ((b * f - c * e) ^ 2 + (c * d - a * f) ^ 2 + (a * e - b * d) ^ 2) / 2 ^ 2 := by
    have e1 : (l1 + l2 + l3) / 2 * ((l1 + l2 + l3) / 2 - l1) * ((l1 + l2 + l3) / 2 - l2) * ((l1 + l2 + l3) / 2 - l3) =
        (4 * l1 ^ 2 * l2 ^ 2 - (l1 ^ 2 + l2 ^ 2 - l3 ^ 2) ^ 2) / 16 := by ring
    rw [e1, q3', q1, q2]
    ring
  rw [hh, sqrt_div (by positivity), sqrt_sq (by norm_num)]

/-- A right triangle with legs 3 and 4. -/
example : triangleArea ⟨3, 0, 0⟩ ⟨0, 4, 0⟩ ⟨-3, -4, 0⟩ = 6 := by
  rw [C128_triangle _ _ _ (by simp [V3.add])]
  simp [V3.cross, V3.mag]
  norm_num

/-- **C128, unit vectors.** `normalized` of a vector other than zero has length one and points the same way: the vector is its
own length times it. -/
theorem C128_normalized (v : V3) (h : v ≠ ⟨0, 0, 0⟩) :
    (normalized v).mag = 1 ∧ 0 < v.mag ∧
      v.x = v.mag * (normalized v).x ∧ v.y = v.mag * (normalized v).y ∧ v.z = v.mag * (normalized v).z := by
  have hs : 0 < v.x * v.x + v.y * v.y + v.z * v.z := by
    rcases v with ⟨x, y, z⟩
    by_contra hc
    have h0 : x * x + y * y + z * z ≤ 0 := not_lt.mp hc
    apply h
    have hx : x = 0 := by nlinarith [mul_self_nonneg x, mul_self_nonneg y, mul_self_nonneg z]
    have hy : y = 0 := by nlinarith [mul_self_nonneg x, mul_self_nonneg y, mul_self_nonneg z]
    have hz : z = 0 := by nlinarith [mul_self_nonneg x, mul_self_nonneg y, mul_self_nonneg z]
    rw [hx, hy, hz]
  have hm : v.mag = √(v.x * v.x + v.y * v.y + v.z * v.z) := by
    simp only [V3.mag, sq]
  have hp : 0 < √(v.x * v.x + v.y * v.y + v.z * v.z) := sqrt_pos.mpr hs
  have hq : √(v.x * v.x + v.y * v.y + v.z * v.z) ^ 2 = v.x * v.x + v.y * v.y + v.z * v.z := sq_sqrt hs.le
  rw [hm]
  generalize hl : √(v.x * v.x + v.y * v.y + v.z * v.z) = l at *
  refine ⟨?_, hp, ?_, ?_, ?_⟩
  · simp only [normalized, V3.mag, hl]
    rw [sqrt_eq_one]
    field_simp
    linarith
  all_goals
    simp only [normalized, hl]
    field_simp

example : (normalized ⟨3, 0, -4⟩).mag = 1 := (C128_normalized ⟨3, 0, -4⟩ (by simp)).1

/-- **C129.** `Point` accepts exactly the points in range, and keeps the coordinates. -/
theorem C129_point (lon lat depth : ℝ) :
    (mkPoint lon lat depth = .ok ⟨lon, lat, depth⟩ ↔
      (-8.848 < depth ∧ depth < 6371) ∧ (-180 ≤ lon ∧ lon ≤ 180) ∧ -90 ≤ lat ∧ lat ≤ 90) ∧
    (∀ p, mkPoint lon lat depth = .ok p → p = ⟨lon, lat, depth⟩) := by
  unfold mkPoint earthRadius earthElevation
  by_cases h1 : depth < 6371 <;> by_cases h2 : depth > -8.848 <;> by_cases h3 : -180 ≤ lon ∧ lon ≤ 180 <;>
    by_cases h4 : -90 ≤ lat ∧ lat ≤ 90 <;> simp [h1, h2, h3, h4]

end Verif.Props
