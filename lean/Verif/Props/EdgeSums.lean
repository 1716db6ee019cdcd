import Verif.Props.EdgeStrike
import Mathlib.Analysis.Calculus.Deriv.MeanValue
import Mathlib.Analysis.SpecialFunctions.Trigonometric.Deriv
import Mathlib.Analysis.SpecialFunctions.Sqrt

/-!
# The sums behind strike and dip of ruptures of edges: C113
-/

namespace Verif.Props
open Verif.Vec Verif.Rup Verif.EdgeR Real

/-! ### The meridian -/

/-- Distance from the axis and height above the plane of the equator on a meridian, at the latitude `f` in radians. -/
noncomputable def meridianR (alt f : ℝ) : ℝ := (primeVertical (sin f) + alt) * cos f
noncomputable def meridianZ (alt f : ℝ) : ℝ := (primeVertical (sin f) * (1 - wgsE * wgsE) + alt) * sin f

/-- The radius of curvature of the meridian. -/
noncomputable def curvature (f : ℝ) : ℝ :=
  wgsA * (1 - wgsE * wgsE) / √(1 - wgsE * wgsE * sin f * sin f) ^ 3

theorem w_pos (f : ℝ) : 0 < 1 - wgsE * wgsE * sin f * sin f := by
  have h1 : sin f ^ 2 ≤ 1 := Real.sin_sq_le_one f
  unfold wgsE
  nlinarith

theorem hasDerivAt_pv (f : ℝ) : HasDerivAt (fun f => primeVertical (sin f))
    (wgsA * (wgsE * wgsE) * sin f * cos f / √(1 - wgsE * wgsE * sin f * sin f) ^ 3) f := by
  have hw := w_pos f
  have hs : 0 < √(1 - wgsE * wgsE * sin f * sin f) := Real.sqrt_pos.2 hw
  have h1 : HasDerivAt (fun f => 1 - wgsE * wgsE * sin f * sin f) (-(2 * (wgsE * wgsE) * sin f * cos f)) f := by
    have := (((Real.hasDerivAt_sin f).const_mul (wgsE * wgsE)).mul (Real.hasDerivAt_sin f)).const_sub 1
    refine this.congr_deriv ?_
    ring
  have h2 := (h1.sqrt hw.ne')
  have h3 := (h2.inv hs.ne').const_mul wgsA
  have e : (fun f => primeVertical (sin f)) = fun f => wgsA * (fun f => √(1 - wgsE * wgsE * sin f * sin f))⁻¹ f := by
    funext x
    simp [primeVertical, div_eq_mul_inv]
  rw [e]
  refine h3.congr_deriv ?_
  field_simp

theorem hasDerivAt_R (alt f : ℝ) : HasDerivAt (meridianR alt) (-(curvature f + alt) * sin f) f := by
  have hw := w_pos f
  have hs : 0 < √(1 - wgsE * wgsE * sin f * sin f) := Real.sqrt_pos.2 hw
  have hs2 : √(1 - wgsE * wgsE * sin f * sin f) ^ 2 = 1 - wgsE * wgsE * sin f * sin f := Real.sq_sqrt hw.le
  have h := ((hasDerivAt_pv f).add_const alt).mul (Real.hasDerivAt_cos f)
  have e : meridianR alt = (fun f => primeVertical (sin f) + alt) * cos := by funext x; rfl
  rw [e]
  refine h.congr_deriv ?_
  unfold curvature primeVertical
  set s := √(1 - wgsE * wgsE * sin f * sin f)
  have hsc := Real.sin_sq_add_cos_sq f
  field_simp
  have : s ^ 2 = 1 - wgsE ^ 2 * sin f ^ 2 := by rw [hs2]; ring
  have h3 : cos f ^ 2 = 1 - sin f ^ 2 := by linarith
  rw [show s ^ 3 = s * s ^ 2 by ring, this, h3]
  ring

theorem hasDerivAt_Z (alt f : ℝ) : HasDerivAt (meridianZ alt) ((curvature f + alt) * cos f) f := by
  have hw := w_pos f
  have hs : 0 < √(1 - wgsE * wgsE * sin f * sin f) := Real.sqrt_pos.2 hw
  have hs2 : √(1 - wgsE * wgsE * sin f * sin f) ^ 2 = 1 - wgsE * wgsE * sin f * sin f := Real.sq_sqrt hw.le
  have h := (((hasDerivAt_pv f).mul_const (1 - wgsE * wgsE)).add_const alt).mul (Real.hasDerivAt_sin f)
  have e : meridianZ alt = (fun f => primeVertical (sin f) * (1 - wgsE * wgsE) + alt) * sin := by funext x; rfl
  rw [e]
  refine h.congr_deriv ?_
  unfold curvature primeVertical
  set s := √(1 - wgsE * wgsE * sin f * sin f)
  field_simp
  have : s ^ 2 = 1 - wgsE ^ 2 * sin f ^ 2 := by rw [hs2]; ring
  rw [show s ^ 3 = s * s ^ 2 by ring, this]
  ring

theorem curvature_ge (f : ℝ) : wgsA * (1 - wgsE * wgsE) ≤ curvature f := by
  have hw := w_pos f
  have hs : 0 < √(1 - wgsE * wgsE * sin f * sin f) := Real.sqrt_pos.2 hw
  have hle : √(1 - wgsE * wgsE * sin f * sin f) ≤ 1 := by
    rw [Real.sqrt_le_one]
    nlinarith [mul_self_nonneg (wgsE * sin f)]
  unfold curvature
  rw [le_div_iff₀ (by positivity)]
  have h3 : √(1 - wgsE * wgsE * sin f * sin f) ^ 3 ≤ 1 := pow_le_one₀ hs.le hle
  have : 0 ≤ wgsA * (1 - wgsE * wgsE) := by unfold wgsA wgsE; norm_num
  nlinarith

/-- The direction in the meridian plane at the angle `g` over the direction away from the axis; the step along it from
the latitude `f0` to `f`. -/
noncomputable def along (alt f0 g f : ℝ) : ℝ :=
  cos g * (meridianR alt f - meridianR alt f0) + sin g * (meridianZ alt f - meridianZ alt f0)

theorem hasDerivAt_along (alt f0 g f : ℝ) : HasDerivAt (along alt f0 g) ((curvature f + alt) * sin (g - f)) f := by
  have h := (((hasDerivAt_R alt f).sub_const (meridianR alt f0)).const_mul (cos g)).add
    (((hasDerivAt_Z alt f).sub_const (meridianZ alt f0)).const_mul (sin g))
  refine h.congr_deriv ?_
  rw [Real.sin_sub]; ring

theorem along_start (alt f0 g : ℝ) : along alt f0 g f0 = 0 := by simp [along]

/-- A step to the north goes down and not more than the change of the latitude. -/
theorem step_north {alt : ℝ} (halt : 0 < wgsA * (1 - wgsE * wgsE) + alt) (f0 : ℝ) {d : ℝ} (hd : 0 < d) (hd2 : d < π / 2) :
    along alt f0 f0 (f0 + d) ≤ 0 ∧ 0 ≤ along alt f0 (f0 + d) (f0 + d) ∧ 0 < along alt f0 (f0 + π / 2) (f0 + d) := by
  have hcurv : ∀ f, 0 < curvature f + alt := fun f => by linarith [curvature_ge f]
  have hcont : ∀ g, ContinuousOn (along alt f0 g) (Set.Icc f0 (f0 + d)) :=
    fun g f _ => (hasDerivAt_along alt f0 g f).continuousAt.continuousWithinAt
  have hpi := Real.pi_pos
  refine ⟨?_, ?_, ?_⟩
  · have hanti : AntitoneOn (along alt f0 f0) (Set.Icc f0 (f0 + d)) := by
      apply antitoneOn_of_deriv_nonpos (convex_Icc _ _) (hcont _)
      · intro f _; exact (hasDerivAt_along alt f0 f0 f).differentiableAt.differentiableWithinAt
      · intro f hf
        rw [interior_Icc] at hf
        rw [(hasDerivAt_along alt f0 f0 f).deriv]
        have : sin (f0 - f) ≤ 0 := Real.sin_nonpos_of_nonpos_of_neg_pi_le (by linarith [hf.1]) (by linarith [hf.2])
        exact mul_nonpos_of_nonneg_of_nonpos (hcurv f).le this
    have := hanti (Set.left_mem_Icc.2 (by linarith)) (Set.right_mem_Icc.2 (by linarith)) (by linarith)
    rwa [along_start] at this
  · have hmono : MonotoneOn (along alt f0 (f0 + d)) (Set.Icc f0 (f0 + d)) := by
      apply monotoneOn_of_deriv_nonneg (convex_Icc _ _) (hcont _)
      · intro f _; exact (hasDerivAt_along alt f0 (f0 + d) f).differentiableAt.differentiableWithinAt
      · intro f hf
        rw [interior_Icc] at hf
        rw [(hasDerivAt_along alt f0 (f0 + d) f).deriv]
        have : 0 ≤ sin (f0 + d - f) := Real.sin_nonneg_of_nonneg_of_le_pi (by linarith [hf.2]) (by linarith [hf.1])
        exact mul_nonneg (hcurv f).le this
    have := hmono (Set.left_mem_Icc.2 (by linarith)) (Set.right_mem_Icc.2 (by linarith)) (by linarith)
    rwa [along_start] at this
  · have hmono : StrictMonoOn (along alt f0 (f0 + π / 2)) (Set.Icc f0 (f0 + d)) := by
      apply strictMonoOn_of_deriv_pos (convex_Icc _ _) (hcont _)
      intro f hf
      rw [interior_Icc] at hf
      rw [(hasDerivAt_along alt f0 (f0 + π / 2) f).deriv]
      have : 0 < sin (f0 + π / 2 - f) := Real.sin_pos_of_pos_of_lt_pi (by linarith [hf.2]) (by linarith [hf.1])
      exact mul_pos (hcurv f) this
    have := hmono (Set.left_mem_Icc.2 (by linarith)) (Set.right_mem_Icc.2 (by linarith)) (by linarith)
    rwa [along_start] at this

/-! ### Directions at a point -/

/-- The vertical direction at a point, away from the earth. -/
noncomputable def upDir (p : Point) : V3 :=
  ⟨cos (radians p.lat) * cos (radians p.lon), cos (radians p.lat) * sin (radians p.lon), sin (radians p.lat)⟩

/-- The direction to the north at a point. -/
noncomputable def northDir (p : Point) : V3 :=
  ⟨-(sin (radians p.lat) * cos (radians p.lon)), -(sin (radians p.lat) * sin (radians p.lon)), cos (radians p.lat)⟩

theorem upDir_unit (p : Point) : (upDir p).dot (upDir p) = 1 := by
  have h1 := Real.sin_sq_add_cos_sq (radians p.lat)
  have h2 := Real.sin_sq_add_cos_sq (radians p.lon)
  simp only [upDir, V3.dot]
  linear_combination h1 + cos (radians p.lat) ^ 2 * h2

theorem northDir_unit (p : Point) : (northDir p).dot (northDir p) = 1 := by
  have h1 := Real.sin_sq_add_cos_sq (radians p.lat)
  have h2 := Real.sin_sq_add_cos_sq (radians p.lon)
  simp only [northDir, V3.dot]
  linear_combination h1 + sin (radians p.lat) ^ 2 * h2

theorem northDir_up (p : Point) : (northDir p).dot (upDir p) = 0 := by
  have h2 := Real.sin_sq_add_cos_sq (radians p.lon)
  simp only [northDir, upDir, V3.dot]
  linear_combination (-(sin (radians p.lat) * cos (radians p.lat))) * h2

theorem fromPoint_meridian (p : Point) : fromPoint p = ⟨meridianR (-p.depth * 1000) (radians p.lat) * cos (radians p.lon),
    meridianR (-p.depth * 1000) (radians p.lat) * sin (radians p.lon), meridianZ (-p.depth * 1000) (radians p.lat)⟩ := by
  unfold fromPoint latlon2ecef meridianR meridianZ radians degToRad
  rfl

theorem above_dir (p : Point) : ((fromPoint (above p)).sub (fromPoint p)).norm = upDir p := by
  have h : (fromPoint (above p)).sub (fromPoint p) = (upDir p).mul 1000 := by
    rw [fromPoint_meridian, fromPoint_meridian]
    ext <;> simp only [above, V3.sub, V3.mul, upDir, meridianR, meridianZ] <;> ring
  rw [h, norm_mul_pos (upDir_unit p) (by norm_num)]

theorem north_dir {p : Point} (hp : p.depth < 6300) :
    ∃ tilt, -0.001 ≤ tilt ∧ tilt ≤ 0 ∧
      ((fromPoint (northOf p)).sub (fromPoint p)).norm = tilted (northDir p) (upDir p) tilt := by
  have hpi := Real.pi_pos
  set f0 := radians p.lat with hf0
  set alt := -p.depth * 1000 with halt
  set d := radians 0.001 with hd
  have hdp : 0 < d := by rw [hd]; unfold radians; positivity
  have hd2 : d < π / 2 := by rw [hd]; unfold radians; nlinarith
  have hf1 : radians (p.lat + 0.001) = f0 + d := by rw [hf0, hd]; unfold radians; ring
  have ha : 0 < wgsA * (1 - wgsE * wgsE) + alt := by
    rw [halt]; unfold wgsA wgsE; nlinarith
  obtain ⟨h1, h2, h3⟩ := step_north ha f0 hdp hd2
  set g := along alt f0 f0 (f0 + d) with hg
  set h := along alt f0 (f0 + π / 2) (f0 + d) with hh
  have hk : along alt f0 (f0 + d) (f0 + d) = cos d * g + sin d * h := by
    rw [hg, hh]
    simp only [along]
    rw [Real.cos_add_pi_div_two, Real.sin_add_pi_div_two, Real.cos_add, Real.sin_add]
    ring
  rw [hk] at h2
  -- the step
  have hR : meridianR alt (f0 + d) - meridianR alt f0 = cos f0 * g - sin f0 * h := by
    rw [hg, hh]
    simp only [along]
    rw [Real.cos_add_pi_div_two, Real.sin_add_pi_div_two]
    have := Real.sin_sq_add_cos_sq f0
    linear_combination (-(meridianR alt (f0 + d) - meridianR alt f0)) * this
  have hZ : meridianZ alt (f0 + d) - meridianZ alt f0 = sin f0 * g + cos f0 * h := by
    rw [hg, hh]
    simp only [along]
    rw [Real.cos_add_pi_div_two, Real.sin_add_pi_div_two]
    have := Real.sin_sq_add_cos_sq f0
    linear_combination (-(meridianZ alt (f0 + d) - meridianZ alt f0)) * this
  have hstep : (fromPoint (northOf p)).sub (fromPoint p) = ((northDir p).mul h).add ((upDir p).mul g) := by
    rw [fromPoint_meridian, fromPoint_meridian]
    have e1 : meridianR alt (f0 + d) = meridianR alt f0 + (cos f0 * g - sin f0 * h) := by linarith
    have e2 : meridianZ alt (f0 + d) = meridianZ alt f0 + (sin f0 * g + cos f0 * h) := by linarith
    ext <;> simp only [northOf, V3.sub, V3.add, V3.mul, northDir, upDir, hf1, ← halt, ← hf0, e1, e2] <;> ring
  -- its length and angle
  set k := √(h ^ 2 + g ^ 2) with hkd
  have hkp : 0 < k := Real.sqrt_pos.2 (by positivity)
  have hcos : cos (arctan (g / h)) = h / k := by
    rw [Real.cos_arctan, hkd]
    rw [show 1 + (g / h) ^ 2 = (h ^ 2 + g ^ 2) / h ^ 2 by field_simp, Real.sqrt_div (by positivity), Real.sqrt_sq h3.le]
    field_simp
  have hsin : sin (arctan (g / h)) = g / k := by
    have := Real.tan_mul_cos (x := arctan (g / h)) (by rw [hcos]; positivity)
    rw [← this, Real.tan_arctan, hcos]
    field_simp
  have hrad : radians (arctan (g / h) * 180 / π) = arctan (g / h) := by unfold radians; field_simp
  refine ⟨arctan (g / h) * 180 / π, ?_, ?_, ?_⟩
  · have hcd : 0 < cos d := Real.cos_pos_of_mem_Ioo ⟨by linarith, hd2⟩
    have hle : tan (-d) ≤ g / h := by
      rw [Real.tan_neg, Real.tan_eq_sin_div_cos, ← neg_div, div_le_div_iff₀ hcd h3]
      linarith
    have := Real.arctan_strictMono.monotone hle
    rw [Real.arctan_tan (by linarith) (by linarith)] at this
    have hd' : d = 0.001 * (π / 180) := by rw [hd]; rfl
    rw [hd'] at this
    rw [le_div_iff₀ hpi]
    linarith
  · have : arctan (g / h) ≤ 0 := by
      rw [← Real.arctan_zero]
      exact Real.arctan_strictMono.monotone (div_nonpos_of_nonpos_of_nonneg h1 h3.le)
    apply div_nonpos_of_nonpos_of_nonneg _ hpi.le
    linarith
  · have e : ((northDir p).mul h).add ((upDir p).mul g) = (tilted (northDir p) (upDir p) (arctan (g / h) * 180 / π)).mul k := by
      unfold tilted
      rw [hrad, hcos, hsin]
      ext <;> simp only [V3.add, V3.mul] <;> field_simp
    have hu : (tilted (northDir p) (upDir p) (arctan (g / h) * 180 / π)).dot
        (tilted (northDir p) (upDir p) (arctan (g / h) * 180 / π)) = 1 := by
      have hsc := Real.sin_sq_add_cos_sq (radians (arctan (g / h) * 180 / π))
      have a1 := northDir_unit p
      have a2 := upDir_unit p
      have a3 := northDir_up p
      simp only [tilted, V3.dot, V3.add, V3.mul] at a1 a2 a3 ⊢
      linear_combination hsc + cos (radians (arctan (g / h) * 180 / π)) ^ 2 * a1 +
        sin (radians (arctan (g / h) * 180 / π)) ^ 2 * a2 +
        2 * cos (radians (arctan (g / h) * 180 / π)) * sin (radians (arctan (g / h) * 180 / π)) * a3
    rw [hstep, e, norm_mul_pos hu hkp]

/-! ### The sums -/

/-- The vector that is normal to a triangle and whose length is its area, the corners in metres, the area divided by 1000. -/
noncomputable def areaVector (a b c : V3) : V3 := ((b.sub a).cross (c.sub a)).mul (1 / 2000)

/-- What a quadrilateral adds to the sums. It is divided into the triangles of the first three corners and of the last two
with the first one. To the sum of the normals it adds the two area vectors, to the sums of the vertical directions and of
the directions to the north those at the second and at the fourth corner, times the area of the triangle. The directions to
the north are tilted down by a thousandth of a degree at most. -/
def Adds (q : Quad Point) (s : Sums) : Prop :=
  let p0 := fromPoint q.p0
  let p1 := fromPoint q.p1
  let p2 := fromPoint q.p2
  let p3 := fromPoint q.p3
  let A1 := (areaVector p0 p2 p1).mag
  let A2 := (areaVector p0 p3 p2).mag
  s.norm = (areaVector p0 p2 p1).add (areaVector p0 p3 p2) ∧
  s.up = ((upDir q.p1).mul A1).add ((upDir q.p3).mul A2) ∧
  ∃ t1 t3, (-0.001 ≤ t1 ∧ t1 ≤ 0) ∧ (-0.001 ≤ t3 ∧ t3 ≤ 0) ∧
    s.north = ((tilted (northDir q.p1) (upDir q.p1) t1).mul A1).add ((tilted (northDir q.p3) (upDir q.p3) t3).mul A2)

/-- The sum of vectors. -/
noncomputable def total (l : List V3) : V3 := ⟨(l.map (·.x)).sum, (l.map (·.y)).sum, (l.map (·.z)).sum⟩

theorem norm_mul_mag (v : V3) (k : ℝ) : v.norm.mul (v.mag / 2 / k) = v.mul (1 / (2 * k)) := by
  by_cases h : v.mag = 0
  · have h0 : √(v.x ^ 2 + v.y ^ 2 + v.z ^ 2) = 0 := h
    have h0' := (Real.sqrt_eq_zero (by positivity)).1 h0
    have hx : v.x = 0 := by nlinarith [sq_nonneg v.x, sq_nonneg v.y, sq_nonneg v.z]
    have hy : v.y = 0 := by nlinarith [sq_nonneg v.x, sq_nonneg v.y, sq_nonneg v.z]
    have hz : v.z = 0 := by nlinarith [sq_nonneg v.x, sq_nonneg v.y, sq_nonneg v.z]
    ext <;> simp [V3.mul, V3.norm, hx, hy, hz]
  · have hm : √(v.x ^ 2 + v.y ^ 2 + v.z ^ 2) = v.mag := rfl
    ext <;> simp only [V3.mul, V3.norm, hm] <;> field_simp

theorem mag_sub (a b : V3) : (a.sub b).mag = a.distance b := rfl

theorem distance_comm' (a b : V3) : a.distance b = b.distance a := by
  unfold V3.distance; congr 1; ring

theorem heron_rot (a b c : ℝ) : heron a b c = heron c a b ∧ heron a b c = heron b a c := by
  unfold heron
  constructor
  · simp only; congr 1; ring
  · simp only; congr 1; ring

theorem areaVector_mag (a b c : V3) : (areaVector a b c).mag = ((b.sub a).cross (c.sub a)).mag / 2 / 1000 := by
  unfold areaVector
  rw [mag_mul, abs_of_pos (by norm_num)]; ring

theorem addSums_adds (s : Sums) {q : Quad Point} (h1 : q.p1.depth < 6300) (h3 : q.p3.depth < 6300) :
    ∃ c, Adds q c ∧ addSums s q = ⟨s.norm.add c.norm, s.north.add c.north, s.up.add c.up⟩ := by
  obtain ⟨t1, a1, a2, a3⟩ := north_dir h1
  obtain ⟨t3, b1, b2, b3⟩ := north_dir h3
  set p0 := fromPoint q.p0 with hp0
  set p1 := fromPoint q.p1 with hp1
  set p2 := fromPoint q.p2 with hp2
  set p3 := fromPoint q.p3 with hp3
  have hA1 : heron (p1.sub p0).mag (p2.sub p0).mag (p1.sub p2).mag = ((p2.sub p0).cross (p1.sub p0)).mag / 2 := by
    rw [mag_sub, mag_sub, mag_sub, (heron_rot _ _ _).2, heron_cross p2 p0 p1]
  have hA2 : heron (p3.sub p0).mag (p3.sub p2).mag (p2.sub p0).mag = ((p3.sub p0).cross (p2.sub p0)).mag / 2 := by
    rw [mag_sub, mag_sub, mag_sub, ← heron_cross p3 p0 p2, distance_comm' p2 p3]
    unfold heron; simp only; congr 1; ring
  refine ⟨⟨_, _, _⟩, ⟨rfl, rfl, t1, t3, ⟨a1, a2⟩, ⟨b1, b2⟩, rfl⟩, ?_⟩
  unfold addSums
  simp only [← hp0, ← hp1, ← hp2, ← hp3]
  rw [hA1, hA2, norm_mul_mag, norm_mul_mag, hp1, above_dir, hp3, above_dir, a3, b3, areaVector_mag, areaVector_mag,
    ← hp1, ← hp3]
  unfold areaVector
  norm_num
  refine ⟨?_, ?_, ?_⟩ <;> (ext <;> simp only [V3.add] <;> ring)

/-- **C113** (the sums). Strike and dip are computed, as in `C113_strike_dip_partial`, from the sums over all
quadrilaterals of what `Adds` says: normals with the lengths of the areas, vertical directions and directions to the north
with the areas as weights. -/
theorem C113_sums (qs : List (Quad Point)) (h : ∀ q ∈ qs, q.p1.depth < 6300 ∧ q.p3.depth < 6300) :
    ∃ cs : List Sums, List.Forall₂ Adds qs cs ∧
      computeStrikeDip qs = strikeDip ⟨total (cs.map (·.norm)), total (cs.map (·.north)), total (cs.map (·.up))⟩ := by
  have key : ∀ s : Sums, ∃ cs : List Sums, List.Forall₂ Adds qs cs ∧ qs.foldl addSums s =
      ⟨s.norm.add (total (cs.map (·.norm))), s.north.add (total (cs.map (·.north))), s.up.add (total (cs.map (·.up)))⟩ := by
    induction qs with
    | nil =>
      intro s
      refine ⟨[], .nil, ?_⟩
      simp [total, V3.add]
    | cons q qs ih =>
      intro s
      obtain ⟨c, c1, c2⟩ := addSums_adds s (h q (by simp)).1 (h q (by simp)).2
      obtain ⟨cs, d1, d2⟩ := ih (fun q hq => h q (by simp [hq])) (addSums s q)
      refine ⟨c :: cs, .cons c1 d1, ?_⟩
      rw [List.foldl_cons, d2, c2]
      simp only [total, V3.add, List.map_cons, List.sum_cons, Sums.mk.injEq, V3.mk.injEq]
      refine ⟨⟨?_, ?_, ?_⟩, ⟨?_, ?_, ?_⟩, ⟨?_, ?_, ?_⟩⟩ <;> ring
  obtain ⟨cs, h1, h2⟩ := key ⟨⟨0, 0, 0⟩, ⟨0, 0, 0⟩, ⟨0, 0, 0⟩⟩
  refine ⟨cs, h1, ?_⟩
  unfold computeStrikeDip
  have hz : computeStrikeDip.zeroV = ⟨0, 0, 0⟩ := rfl
  rw [hz, h2]
  simp [V3.add]

example : ∃ cs : List Sums, List.Forall₂ Adds [⟨⟨0, 0, 0⟩, ⟨0, 1, 0⟩, ⟨1, 1, 10⟩, ⟨1, 0, 10⟩⟩] cs ∧
    computeStrikeDip [⟨⟨0, 0, 0⟩, ⟨0, 1, 0⟩, ⟨1, 1, 10⟩, ⟨1, 0, 10⟩⟩] =
      strikeDip ⟨total (cs.map (·.norm)), total (cs.map (·.north)), total (cs.map (·.up))⟩ :=
  C113_sums _ (by simp; norm_num)

end Verif.Props
