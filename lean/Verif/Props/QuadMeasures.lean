import Verif.Props.QuadRupture
import Verif.Props.RuptureDistance
import Verif.Props.RuptureSlip
import Verif.Spec.RuptureSurface

/-!
# Measures of ruptures of quadrilaterals: C104-C108
-/

namespace Verif.Props
open Verif.Vec Verif.Rup Verif.QuadR Real
open Verif.Spec (IsMinDistSq distSq surfaceOf ConvexPlanar NonCollinear combine surfaceAt atSurface ConvexAt Over
  areaKm kmBetween)

/-! ### C104: distances -/

theorem foldl_min_spec {α : Type} (f : α → ℝ) (l : List α) (m : ℝ) :
    l.foldl (fun m a => min m (f a)) m ≤ m ∧ (∀ a ∈ l, l.foldl (fun m a => min m (f a)) m ≤ f a) ∧
    (l.foldl (fun m a => min m (f a)) m = m ∨ ∃ a ∈ l, l.foldl (fun m a => min m (f a)) m = f a) := by
  induction l generalizing m with
  | nil => simp
  | cons b l ih =>
    obtain ⟨h1, h2, h3⟩ := ih (min m (f b))
    rw [List.foldl_cons]
    refine ⟨h1.trans (min_le_left _ _), ?_, ?_⟩
    · intro a ha
      rcases List.mem_cons.1 ha with rfl | ha
      · exact h1.trans (min_le_right _ _)
      · exact h2 a ha
    · rcases h3 with h3 | ⟨a, ha, h3⟩
      · rcases min_choice m (f b) with h | h
        · left; rw [h3, h]
        · right; exact ⟨b, by simp, by rw [h3, h]⟩
      · right; exact ⟨a, by simp [ha], h3⟩

/-- The least of several distances to nearest points is the distance to the nearest point of the union. -/
theorem min_union {α : Type} (l : List α) (S : α → Set V3) (f : α → ℝ) (x : V3)
    (h : ∀ a ∈ l, ∃ d, IsMinDistSq (S a) x d ∧ f a = √d / 1000)
    (hnear : ∃ a ∈ l, ∃ y ∈ S a, distSq x y ≤ (10 ^ 19) ^ 2) :
    ∃ d, IsMinDistSq {y | ∃ a ∈ l, y ∈ S a} x d ∧
      l.foldl (fun m a => min m (f a)) (10 ^ 16) = √d / 1000 := by
  obtain ⟨h1, h2, h3⟩ := foldl_min_spec f l (10 ^ 16)
  set r := l.foldl (fun m a => min m (f a)) (10 ^ 16) with hr
  have hnn : ∀ a b : V3, 0 ≤ distSq a b := by intro a b; unfold distSq; positivity
  -- some element attains the result
  have hatt : ∃ a ∈ l, r = f a := by
    rcases h3 with h3 | h3
    · obtain ⟨a, ha, y, hy, hd⟩ := hnear
      refine ⟨a, ha, le_antisymm (h2 a ha) ?_⟩
      obtain ⟨d, ⟨_, hle⟩, hf⟩ := h a ha
      rw [hf, h3, div_le_iff₀ (by norm_num)]
      calc √d ≤ √((10 ^ 19) ^ 2) := Real.sqrt_le_sqrt ((hle y hy).trans hd)
        _ = 10 ^ 19 := Real.sqrt_sq (by norm_num)
        _ ≤ 10 ^ 16 * 1000 := by norm_num
    · exact h3
  obtain ⟨a, ha, e⟩ := hatt
  obtain ⟨d, ⟨⟨y, hy, hyd⟩, hle⟩, hf⟩ := h a ha
  refine ⟨d, ⟨⟨y, ⟨a, ha, hy⟩, hyd⟩, ?_⟩, by rw [e, hf]⟩
  rintro z ⟨b, hb, hz⟩
  obtain ⟨d', ⟨⟨w, _, hw⟩, hle'⟩, hf'⟩ := h b hb
  refine le_trans ?_ (hle' z hz)
  have hlt : f a ≤ f b := by rw [← e]; exact h2 b hb
  rw [hf, hf'] at hlt
  by_contra hc
  push Not at hc
  have := Real.sqrt_lt_sqrt (hw ▸ hnn x w) hc
  linarith

/-- **C104.** The rupture distance of a site is the distance in km to the nearest point of all the
quadrilaterals of the rupture. The Joyner-Boore distance is 0 for sites over (or under) one of the
quadrilaterals moved to depth 0, and the distance in km to the nearest point of these quadrilaterals for all
other sites. This is for quadrilaterals with corners in a plane that turn the same way, and for sites at
most `10^16` km from the rupture. -/
theorem C104_distances (qs : List (Quad Point)) (x : V3) :
    ((∀ q ∈ qs, ConvexAt q) → (∃ q ∈ qs, ∃ y ∈ surfaceAt q, distSq x y ≤ (10 ^ 19) ^ 2) →
      ∃ d, IsMinDistSq {y | ∃ q ∈ qs, y ∈ surfaceAt q} x d ∧ computeRrup qs x = √d / 1000) ∧
    ((∀ q ∈ qs, ConvexAt (atSurface q)) →
      ((∃ q ∈ qs, Over (atSurface q) x) → computeRjb qs x = 0) ∧
      ((¬ ∃ q ∈ qs, Over (atSurface q) x) →
        (∃ q ∈ qs, ∃ y ∈ surfaceAt (atSurface q), distSq x y ≤ (10 ^ 19) ^ 2) →
        ∃ d, IsMinDistSq {y | ∃ q ∈ qs, y ∈ surfaceAt (atSurface q)} x d ∧
          computeRjb qs x = √d / 1000)) := by
  have hj : ∀ q : Quad Point, (⟨surface q.p0, surface q.p1, surface q.p2, surface q.p3⟩ : Quad Point) =
      atSurface q := fun _ => rfl
  have key := fun q : Quad Point => fun h : ConvexAt (atSurface q) =>
    (C96_distance_km (atSurface q) x).2 _ _ _ _ rfl rfl rfl rfl h
  refine ⟨fun h hnear => ?_, fun h => ⟨?_, ?_⟩⟩
  · exact min_union qs surfaceAt (fun q => quadDistance q x false) x
      (fun q hq => (C96_distance_km q x).1 (h q hq)) hnear
  · rintro ⟨q, hq, ho⟩
    have h0 := (key q (h q hq)).1 ho
    obtain ⟨_, h2, h3⟩ := foldl_min_spec (fun q => quadDistance (atSurface q) x true) qs (10 ^ 16)
    have hle := h2 q hq
    rw [h0] at hle
    refine le_antisymm hle ?_
    show 0 ≤ qs.foldl (fun m q => min m (quadDistance (atSurface q) x true)) (10 ^ 16)
    rcases h3 with h3 | ⟨a, _, h3⟩
    · rw [h3]; norm_num
    · rw [h3]
      unfold quadDistance
      positivity
  · intro ho hnear
    exact min_union qs (fun q => surfaceAt (atSurface q)) (fun q => quadDistance (atSurface q) x true) x
      (fun q hq => (key q (h q hq)).2 fun hk => ho ⟨q, hq, hk⟩) hnear

/-! ### C105: summaries -/

theorem foldl_add_sum {α : Type} (f : α → ℝ) (l : List α) (a : ℝ) :
    l.foldl (fun s q => s + f q) a = a + (l.map f).sum := by
  induction l generalizing a with
  | nil => simp
  | cons b l ih => rw [List.foldl_cons, ih, List.map_cons, List.sum_cons]; ring

theorem mean_bounds {α : Type} (f : α → ℝ) (l : List α) (hne : l ≠ []) :
    ∃ a ∈ l, ∃ b ∈ l, f a ≤ (l.map f).sum / l.length ∧ (l.map f).sum / l.length ≤ f b := by
  have hpos : (0 : ℝ) < l.length := by
    have := List.length_pos_iff.2 hne
    exact_mod_cast this
  have hc : ∀ c : ℝ, (l.map fun _ => c).sum = l.length * c := by intro c; simp
  have hm : (l.map fun _ => (l.map f).sum / l.length).sum = (l.map f).sum := by
    rw [hc]; field_simp
  obtain ⟨a, ha, h1⟩ := List.exists_le_of_sum_le hne (f := f) (g := fun _ => (l.map f).sum / l.length) hm.ge
  obtain ⟨b, hb, h2⟩ := List.exists_le_of_sum_le hne (g := f) (f := fun _ => (l.map f).sum / l.length) hm.le
  exact ⟨a, ha, b, hb, h1, h2⟩

theorem length_km (q : Quad Point) : quadLength q.ecef = kmBetween q.p0 q.p1 := by
  unfold quadLength kmBetween V3.mag distSq
  congr 2
  simp only [Quad.ecef, V3.sub]
  ring

theorem minDepth_spec (q : Quad Point) :
    (∀ p ∈ [q.p0, q.p1, q.p2, q.p3], minDepth q ≤ p.depth) ∧
    ∃ p ∈ [q.p0, q.p1, q.p2, q.p3], minDepth q = p.depth := by
  unfold minDepth
  constructor
  · intro p hp
    simp only [List.mem_cons, List.not_mem_nil, or_false] at hp
    rcases hp with rfl | rfl | rfl | rfl <;> simp
  · rcases min_choice (min q.p0.depth q.p1.depth) (min q.p2.depth q.p3.depth) with h | h
    · rcases min_choice q.p0.depth q.p1.depth with h' | h'
      · exact ⟨q.p0, by simp, h.trans h'⟩
      · exact ⟨q.p1, by simp, h.trans h'⟩
    · rcases min_choice q.p2.depth q.p3.depth with h' | h'
      · exact ⟨q.p2, by simp, h.trans h'⟩
      · exact ⟨q.p3, by simp, h.trans h'⟩

/-- **C105.** The length of a rupture is the sum of the lengths of the top edges of its quadrilaterals. Its
width and its dip are means over the quadrilaterals: sums divided by the number, never less than all or more
than all of them; there is an error exactly when there are no quadrilaterals. The depth to the top is the
depth of the shallowest corner of all. -/
theorem C105_summaries (qs : List (Quad Point)) :
    getLength qs = (qs.map fun q => kmBetween q.p0 q.p1).sum ∧
    (getWidth qs = none ↔ qs = []) ∧ (getDip qs = none ↔ qs = []) ∧
    (∀ w, getWidth qs = some w → w * qs.length = (qs.map fun q => quadWidth q.ecef).sum ∧
      ∃ a ∈ qs, ∃ b ∈ qs, quadWidth a.ecef ≤ w ∧ w ≤ quadWidth b.ecef) ∧
    (∀ d, getDip qs = some d → d * qs.length = (qs.map quadDip).sum ∧
      ∃ a ∈ qs, ∃ b ∈ qs, quadDip a ≤ d ∧ d ≤ quadDip b) ∧
    ((∃ q ∈ qs, ∃ p ∈ [q.p0, q.p1, q.p2, q.p3], p.depth < 9999999) →
      (∃ q ∈ qs, ∃ p ∈ [q.p0, q.p1, q.p2, q.p3], getDepthToTop qs = p.depth) ∧
      ∀ q ∈ qs, ∀ p ∈ [q.p0, q.p1, q.p2, q.p3], getDepthToTop qs ≤ p.depth) := by
  have hmean : ∀ (f : Quad Point → ℝ) (w : ℝ),
      (if qs.length = 0 then none else some (qs.foldl (fun a q => a + f q) 0 / qs.length)) = some w →
      w * qs.length = (qs.map f).sum ∧ ∃ a ∈ qs, ∃ b ∈ qs, f a ≤ w ∧ w ≤ f b := by
    intro f w h
    split_ifs at h with h0
    obtain rfl := Option.some.inj h
    rw [foldl_add_sum, zero_add]
    have hne : qs ≠ [] := by rintro rfl; simp at h0
    refine ⟨?_, mean_bounds f qs hne⟩
    have : (qs.length : ℝ) ≠ 0 := by exact_mod_cast h0
    field_simp
  refine ⟨?_, ?_, ?_, hmean _, hmean _, ?_⟩
  · unfold getLength
    rw [foldl_add_sum, zero_add]
    simp only [length_km]
  · unfold getWidth
    simp
  · unfold getDip
    simp
  · rintro ⟨q, hq, p, hp, hd⟩
    have hfold : getDepthToTop qs = qs.foldl (fun m q => min m (minDepth q)) 9999999 := by
      unfold getDepthToTop
      congr 1
      funext m q
      split_ifs with h
      · rw [min_eq_right h.le]
      · rw [min_eq_left (not_lt.1 h)]
    obtain ⟨h1, h2, h3⟩ := foldl_min_spec minDepth qs 9999999
    rw [← hfold] at h1 h2 h3
    constructor
    · rcases h3 with h3 | ⟨a, ha, h3⟩
      · have := (h2 q hq).trans ((minDepth_spec q).1 p hp)
        linarith
      · obtain ⟨p', hp', e⟩ := (minDepth_spec a).2
        exact ⟨a, ha, p', hp', h3.trans e⟩
    · intro q hq p hp
      exact (h2 q hq).trans ((minDepth_spec q).1 p hp)

/-! ### C109: area -/

theorem width_length {e : Quad V3} (h : NonCollinear e.p0 e.p1 e.p3) :
    quadWidth e * quadLength e = ((e.p1.sub e.p0).cross (e.p3.sub e.p0)).mag / 10 ^ 6 := by
  have hpos := normal_pos h
  set u := e.p1.sub e.p0 with hu
  set v := e.p3.sub e.p0 with hv
  have hune : u ≠ zeroVec := by
    intro h0
    rw [h0] at hpos
    simp [sumProd, V3.cross, zeroVec] at hpos
  obtain ⟨hm, hm2, -⟩ := norm_spec hune
  have e1 : e.p0.sub e.p1 = u.mul (-1) := by
    ext <;> simp only [hu, V3.sub, V3.mul] <;> ring
  have e2 : e.p0.sub e.p3 = v.mul (-1) := by
    ext <;> simp only [hv, V3.sub, V3.mul] <;> ring
  unfold quadWidth quadLength
  simp only [e1, e2]
  unfold V3.norm V3.dot
  set w := ((u.mul (-1)).cross (v.mul (-1))).cross (u.mul (-1)) with hwdef
  have hw2 : w.x ^ 2 + w.y ^ 2 + w.z ^ 2 = (u.mag * (u.cross v).mag) ^ 2 := by
    obtain ⟨-, hm3, -⟩ := norm_spec (ne_zero_of_pos hpos)
    rw [mul_pow, hm2, hm3]
    simp only [hwdef, sumProd, V3.cross, V3.mul]; ring
  have hwv : w.x * (v.mul (-1)).x + w.y * (v.mul (-1)).y + w.z * (v.mul (-1)).z = (u.cross v).mag ^ 2 := by
    obtain ⟨-, hm3, -⟩ := norm_spec (ne_zero_of_pos hpos)
    rw [hm3]
    simp only [hwdef, sumProd, V3.cross, V3.mul]; ring
  obtain ⟨hc, -⟩ := norm_spec (ne_zero_of_pos hpos)
  rw [hw2, Real.sqrt_sq (by positivity)]
  have : w.x / (u.mag * (u.cross v).mag) * (v.mul (-1)).x + w.y / (u.mag * (u.cross v).mag) * (v.mul (-1)).y +
      w.z / (u.mag * (u.cross v).mag) * (v.mul (-1)).z = (u.cross v).mag ^ 2 / (u.mag * (u.cross v).mag) := by
    rw [← hwv]; ring
  rw [this]
  field_simp
  ring

theorem area_ratio {q : Quad Point} {α β : ℝ} (hα : 0 < α) (hβ : 0 < β)
    (hc : fromPoint q.p2 = combine (fromPoint q.p0) (fromPoint q.p1) (fromPoint q.p3) α β) :
    areaKm q = (α + β) / 2 *
      ((((fromPoint q.p1).sub (fromPoint q.p0)).cross ((fromPoint q.p3).sub (fromPoint q.p0))).mag / 10 ^ 6) := by
  unfold areaKm
  rw [hc]
  generalize fromPoint q.p0 = a
  generalize fromPoint q.p1 = b
  generalize fromPoint q.p3 = d
  have : ((combine a b d α β).sub a).cross (d.sub b) = ((b.sub a).cross (d.sub a)).mul (α + β) := by
    ext <;> simp only [combine, V3.sub, V3.cross, V3.mul] <;> ring
  rw [this]
  have hm : ∀ (v : V3) (k : ℝ), 0 ≤ k → (v.mul k).mag = k * v.mag := by
    intro v k hk
    unfold V3.mag V3.mul
    simp only
    rw [show (v.x * k) ^ 2 + (v.y * k) ^ 2 + (v.z * k) ^ 2 = k ^ 2 * (v.x ^ 2 + v.y ^ 2 + v.z ^ 2) by ring,
      Real.sqrt_mul (sq_nonneg k), Real.sqrt_sq hk]
  rw [hm _ _ (by positivity)]
  ring

/-- **C109** (partial). For a rupture of parallelograms the area is the sum of their areas. What is missing:
other quadrilaterals, see below. -/
theorem C109_area_partial (qs : List (Quad Point))
    (h : ∀ q ∈ qs, NonCollinear (fromPoint q.p0) (fromPoint q.p1) (fromPoint q.p3) ∧
      fromPoint q.p2 = ((fromPoint q.p1).add (fromPoint q.p3)).sub (fromPoint q.p0)) :
    getArea qs = (qs.map areaKm).sum := by
  unfold getArea
  rw [foldl_add_sum, zero_add]
  congr 1
  apply List.map_congr_left
  intro q hq
  obtain ⟨h1, h2⟩ := h q hq
  rw [width_length h1, area_ratio (α := 1) (β := 1) one_pos one_pos]
  · simp only [Quad.ecef]; ring
  · rw [h2]; ext <;> simp only [V3.add, V3.sub, combine] <;> ring

/-- **C109** violated: for a convex quadrilateral in a plane the area is too large when its bottom edge is
shorter than its top edge and too small when it is longer (here: parallel edges, the bottom edge `r` times
as long as the top edge). -/
theorem C109_area_violated (q : Quad Point) (r : ℝ) (hr : 0 < r)
    (h : NonCollinear (fromPoint q.p0) (fromPoint q.p1) (fromPoint q.p3))
    (hc : fromPoint q.p2 = (fromPoint q.p3).add (((fromPoint q.p1).sub (fromPoint q.p0)).mul r)) :
    ConvexAt q ∧ (r < 1 → areaKm q < getArea [q]) ∧ (1 < r → getArea [q] < areaKm q) := by
  have hc' : fromPoint q.p2 = combine (fromPoint q.p0) (fromPoint q.p1) (fromPoint q.p3) r 1 := by
    rw [hc]; ext <;> simp only [V3.add, V3.sub, V3.mul, combine] <;> ring
  have e1 : getArea [q] = ((((fromPoint q.p1).sub (fromPoint q.p0)).cross
      ((fromPoint q.p3).sub (fromPoint q.p0))).mag / 10 ^ 6) := by
    unfold getArea
    simp only [List.foldl_cons, List.foldl_nil, zero_add]
    exact width_length h
  have e2 := area_ratio hr one_pos hc'
  obtain ⟨hm, -⟩ := norm_spec (ne_zero_of_pos (normal_pos h))
  rw [e1, e2]
  set m := (((fromPoint q.p1).sub (fromPoint q.p0)).cross ((fromPoint q.p3).sub (fromPoint q.p0))).mag / 10 ^ 6
    with hmd
  have hmp : 0 < m := by rw [hmd]; positivity
  refine ⟨⟨h, r, 1, hr, one_pos, by linarith, hc'⟩, ?_, ?_⟩
  · intro h; nlinarith
  · intro h; nlinarith

/-! ### C106: strike -/

/-- **C106.** The strike is the direction of the sum of the top edges' directions, each times its length:
when that sum is not zero it points along the returned angle, which is in `(-180, 180]`. In particular, for
quadrilaterals with a common strike it is that strike up to full turns. -/
theorem C106_strike (sl : List (ℝ × ℝ)) (htot : 0 < (sl.map (·.2)).sum) :
    -180 < getStrike sl ∧ getStrike sl ≤ 180 ∧
    (∃ R : ℝ, 0 ≤ R ∧ (sl.map fun p => sin (radians p.1) * p.2).sum = R * sin (radians (getStrike sl)) ∧
      (sl.map fun p => cos (radians p.1) * p.2).sum = R * cos (radians (getStrike sl))) ∧
    ∀ s, (∀ p ∈ sl, p.1 = s) → ∃ n : ℤ, getStrike sl = s + 360 * n := by
  set tot := (sl.map (·.2)).sum with ht
  set X := (sl.map fun p => sin (radians p.1) * p.2).sum with hX
  set Y := (sl.map fun p => cos (radians p.1) * p.2).sum with hY
  set z : ℂ := ⟨Y / tot, X / tot⟩ with hz
  have hg : getStrike sl = Complex.arg z * (180 / π) := rfl
  have hpi := Real.pi_pos
  have hrad : radians (getStrike sl) = Complex.arg z := by
    rw [hg]; unfold radians; field_simp
  have hmem := Complex.arg_mem_Ioc z
  have hXY : X = tot * ‖z‖ * sin (Complex.arg z) ∧ Y = tot * ‖z‖ * cos (Complex.arg z) := by
    have h1 := Complex.norm_mul_sin_arg z
    have h2 := Complex.norm_mul_cos_arg z
    rw [mul_assoc, mul_assoc, h1, h2]
    constructor <;> simp only [hz] <;> field_simp
  refine ⟨?_, ?_, ⟨tot * ‖z‖, by positivity, ?_, ?_⟩, ?_⟩
  · rw [hg, mul_div_assoc', lt_div_iff₀ hpi]
    nlinarith [hmem.1]
  · rw [hg, mul_div_assoc', div_le_iff₀ hpi]
    nlinarith [hmem.2]
  · rw [hrad]; exact hXY.1
  · rw [hrad]; exact hXY.2
  · intro s hs
    have hXs : X = sin (radians s) * tot := by
      rw [hX, ht, ← List.sum_map_mul_left]
      congr 1
      apply List.map_congr_left
      intro p hp
      rw [hs p hp]
    have hYs : Y = cos (radians s) * tot := by
      rw [hY, ht, ← List.sum_map_mul_left]
      congr 1
      apply List.map_congr_left
      intro p hp
      rw [hs p hp]
    have hzs : z = Complex.exp (radians s * Complex.I) := by
      rw [hz, hXs, hYs, Complex.exp_mul_I, ← Complex.ofReal_cos, ← Complex.ofReal_sin]
      apply Complex.ext
      · simp only [Complex.add_re, Complex.mul_re, Complex.ofReal_re, Complex.ofReal_im, Complex.I_re,
          Complex.I_im]
        field_simp
        ring
      · simp only [Complex.add_im, Complex.mul_im, Complex.ofReal_re, Complex.ofReal_im, Complex.I_re,
          Complex.I_im]
        field_simp
        ring
    rw [hg, hzs, Complex.arg_exp_mul_I]
    refine ⟨-(toIocDiv Real.two_pi_pos (-π) (radians s)), ?_⟩
    have := toIocMod_add_toIocDiv_zsmul Real.two_pi_pos (-π) (radians s)
    rw [zsmul_eq_mul] at this
    rw [show toIocMod Real.two_pi_pos (-π) (radians s) =
      radians s - (toIocDiv Real.two_pi_pos (-π) (radians s) : ℤ) * (2 * π) by linarith]
    unfold radians
    push_cast
    field_simp
    ring

/-! ### C107: depth at a point -/

/-- **C107** (partial). For a rupture with its top edge at the surface the depth below a point that is the
fraction `f` of the horizontal width away from the top edge is the fraction `f` of the depth of the bottom
edge. What is missing: top edges that are not at the surface, see below. -/
theorem C107_depth_partial (f width dip bottom : ℝ) (hw : width ≠ 0) (hd : cos (radians dip) ≠ 0) :
    depthAt (f * (width * cos (radians dip))) width dip 0 bottom = f * bottom := by
  unfold depthAt
  field_simp
  ring

/-- **C107** violated: over the bottom edge of a rupture with its top edge below the surface, the depth is
larger than that of the bottom edge, by nearly the depth of the top edge. -/
theorem C107_depth_violated (width dip top bottom : ℝ) (hw : width ≠ 0) (hd : cos (radians dip) ≠ 0)
    (htop : 0 < top) :
    depthAt (width * cos (radians dip)) width dip top bottom = bottom + 999 / 1000 * top ∧
    bottom < depthAt (width * cos (radians dip)) width dip top bottom := by
  have : depthAt (width * cos (radians dip)) width dip top bottom = bottom + 999 / 1000 * top := by
    unfold depthAt
    field_simp
    ring
  exact ⟨this, by rw [this]; linarith⟩

/-! ### C108: `fromTrace` -/

/-- **C108.** The lower corners are placed at right angles to the strike, to the right of it, `width` times
the cosine of the dip away from the upper ones, and deeper by `width` times the sine: the down-dip edge is
`width` long and dips at the given angle. Without a given strike, the strike is the direction of the top
edge. -/
theorem C108_trace (theta dip width : ℝ) (p0 p1 : P2) (hne : p1.x ≠ p0.x ∨ p1.y ≠ p0.y) :
    (∀ p, (lowerCorner theta dip width p).x = p.x + width * cos dip * cos theta ∧
      (lowerCorner theta dip width p).y = p.y - width * cos dip * sin theta) ∧
    (∀ p top, ((lowerCorner theta dip width p).x - p.x) ^ 2 + ((lowerCorner theta dip width p).y - p.y) ^ 2 +
      (lowerDepth dip width top - top) ^ 2 = width ^ 2) ∧
    (∀ top, lowerDepth dip width top = top + width * sin dip) ∧
    ∃ L : ℝ, 0 < L ∧ p1.x - p0.x = L * sin (traceAngle p0 p1) ∧ p1.y - p0.y = L * cos (traceAngle p0 p1) := by
  have hlow : ∀ p, (lowerCorner theta dip width p).x = p.x + width * cos dip * cos theta ∧
      (lowerCorner theta dip width p).y = p.y - width * cos dip * sin theta := by
    intro p
    have h := Real.sin_sq_add_cos_sq theta
    simp only [lowerCorner, rotate, Real.cos_neg, Real.sin_neg]
    constructor
    · linear_combination p.x * h
    · linear_combination p.y * h
  refine ⟨hlow, ?_, ?_, ?_⟩
  · intro p top
    rw [(hlow p).1, (hlow p).2]
    unfold lowerDepth
    have h := Real.sin_sq_add_cos_sq theta
    have h' := Real.sin_sq_add_cos_sq dip
    linear_combination width ^ 2 * cos dip ^ 2 * h + width ^ 2 * h'
  · intro top; unfold lowerDepth; ring
  · unfold traceAngle arctan2
    set z : ℂ := ⟨p1.y - p0.y, p1.x - p0.x⟩ with hz
    have hz0 : z ≠ 0 := by
      intro h
      have h1 := congrArg Complex.re h
      have h2 := congrArg Complex.im h
      simp only [hz, Complex.zero_re, Complex.zero_im] at h1 h2
      rcases hne with hne | hne
      · exact hne (by linarith)
      · exact hne (by linarith)
    refine ⟨‖z‖, norm_pos_iff.2 hz0, ?_, ?_⟩
    · rw [Complex.norm_mul_sin_arg]
    · rw [Complex.norm_mul_cos_arg]

/-- **C110** (partial). With a group index of the right length, or without one, the polygons of `fromTrace`
are those of `fromVertices` for the same quadrilaterals; an index that is too long is an error. What is
missing: an index that is too short. -/
theorem C110_trace_groups_partial {α : Type} (quads : List (Quad α)) :
    traceGroups quads none = fromVertices quads none ∧
    ∀ idx : List ℤ, (idx.length = quads.length → traceGroups quads (some idx) = fromVertices quads (some idx)) ∧
      (quads.length < idx.length → traceGroups quads (some idx) = none) := by
  refine ⟨rfl, fun idx => ⟨?_, ?_⟩⟩
  · intro h
    unfold traceGroups fromVertices
    simp only
    rw [if_neg (by omega), if_neg (by simpa using h)]
  · intro h
    unfold traceGroups
    simp only
    rw [if_pos h]

/-- **C110** violated: a group index that is too short is not an error, and the quadrilaterals beyond it are
missing from the rupture. -/
theorem C110_short_index_violated {α : Type} (quads more : List (Quad α)) (idx : List ℤ)
    (h : idx.length = quads.length) :
    traceGroups (quads ++ more) (some idx) = traceGroups quads (some idx) := by
  unfold traceGroups
  simp only
  rw [if_neg (by simp; omega), if_neg (by omega)]
  have : ∀ g, ofGroup (quads ++ more) idx g = ofGroup quads idx g := by
    intro g
    unfold ofGroup
    rw [show (quads ++ more).zip idx = quads.zip idx by
      have := List.zip_append (l₁ := quads) (r₁ := more) (l₂ := idx) (r₂ := []) h.symm
      simpa using this]
  simp only [this]

example : traceGroups [⟨1, 2, 3, 4⟩, ⟨5, 6, 7, 8⟩] (some [0]) = some [[1, 2, 3, 4, 1]] := by
  have h : uniqueGroups [0] = [0] := by
    unfold uniqueGroups
    rw [List.toFinset_sort] <;> decide
  unfold traceGroups
  simp only
  rw [if_neg (by decide), h]
  decide +kernel

/-! ### The hypotheses can be met -/

theorem cos_90 : cos (90 * degToRad) = 0 ∧ sin (90 * degToRad) = 1 := by
  unfold degToRad
  rw [show 90 * (π / 180) = π / 2 by ring]
  exact ⟨Real.cos_pi_div_two, Real.sin_pi_div_two⟩

/-- A quadrilateral along the equator between depths 0 and 10 km. -/
noncomputable def equatorQuad : Quad Point := ⟨⟨0, 0, 0⟩, ⟨90, 0, 0⟩, ⟨90, 0, 10⟩, ⟨0, 0, 10⟩⟩

theorem equatorQuad_ecef : fromPoint equatorQuad.p0 = ⟨wgsA, 0, 0⟩ ∧ fromPoint equatorQuad.p1 = ⟨0, wgsA, 0⟩ ∧
    fromPoint equatorQuad.p2 = ⟨0, wgsA - 10000, 0⟩ ∧ fromPoint equatorQuad.p3 = ⟨wgsA - 10000, 0, 0⟩ := by
  obtain ⟨c, s⟩ := cos_90
  unfold equatorQuad
  refine ⟨?_, ?_, ?_, ?_⟩ <;> simp only [equator_ecef, c, s] <;> ext <;> simp <;> try norm_num

theorem equatorQuad_noncollinear : NonCollinear (fromPoint equatorQuad.p0) (fromPoint equatorQuad.p1)
    (fromPoint equatorQuad.p3) := by
  obtain ⟨e0, e1, e2, e3⟩ := equatorQuad_ecef
  have hA : 0 < wgsA := wgsA_pos
  rw [e0, e1, e3]
  intro s t h
  have h1 := congrArg V3.x h
  have h2 := congrArg V3.y h
  simp only [combine] at h1 h2
  have hs : s = 0 := by
    have : s * wgsA = 0 := by linarith
    exact (mul_eq_zero.1 this).resolve_right hA.ne'
  subst hs
  constructor
  · rfl
  · linarith

/-- Its bottom edge is shorter than its top edge (C109). -/
example : ∃ r : ℝ, 0 < r ∧ r < 1 ∧ fromPoint equatorQuad.p2 =
    (fromPoint equatorQuad.p3).add (((fromPoint equatorQuad.p1).sub (fromPoint equatorQuad.p0)).mul r) := by
  obtain ⟨e0, e1, e2, e3⟩ := equatorQuad_ecef
  have hA : 0 < wgsA := wgsA_pos
  have hA' : (10000 : ℝ) < wgsA := by unfold wgsA; norm_num
  refine ⟨(wgsA - 10000) / wgsA, div_pos (by linarith) hA, by rw [div_lt_one hA]; linarith, ?_⟩
  rw [e0, e1, e2, e3]
  ext <;> simp only [V3.add, V3.sub, V3.mul] <;> field_simp <;> ring

/-- It is convex and in a plane (C104), and near its first corner. -/
example : ConvexAt equatorQuad ∧ ∃ y ∈ surfaceAt equatorQuad, distSq ⟨wgsA, 0, 0⟩ y ≤ (10 ^ 19) ^ 2 := by
  obtain ⟨e0, e1, e2, e3⟩ := equatorQuad_ecef
  have hA : 0 < wgsA := wgsA_pos
  have hA' : (10000 : ℝ) < wgsA := by unfold wgsA; norm_num
  constructor
  · refine ⟨equatorQuad_noncollinear, (wgsA - 10000) / wgsA, 1, div_pos (by linarith) hA, one_pos, ?_, ?_⟩
    · have : 0 < (wgsA - 10000) / wgsA := div_pos (by linarith) hA
      linarith
    · rw [e0, e1, e2, e3]
      ext <;> simp only [combine] <;> field_simp <;> ring
  · refine ⟨⟨wgsA, 0, 0⟩, ⟨1, 0, 0, 0, by norm_num, le_refl _, le_refl _, le_refl _, by norm_num, ?_⟩, ?_⟩
    · rw [e0]; ext <;> simp [Spec.mean4]
    · simp [distSq]

/-- A rectangle at the surface between two parallels and two meridians (C104, C109). -/
example : ConvexAt (atSurface ⟨⟨0, 30, 5⟩, ⟨90, 30, 5⟩, ⟨90, -30, 10⟩, ⟨0, -30, 10⟩⟩) := by
  obtain ⟨c, s⟩ := cos_90
  have h3 : ∃ k l : ℝ, 0 < k ∧ 0 < l ∧ (fromPoint ⟨0, 30, 0⟩ = ⟨k, 0, l⟩ ∧ fromPoint ⟨90, 30, 0⟩ = ⟨0, k, l⟩ ∧
      fromPoint ⟨90, -30, 0⟩ = ⟨0, k, -l⟩ ∧ fromPoint ⟨0, -30, 0⟩ = ⟨k, 0, -l⟩) := by
    have hsin : 0 < sin (30 * degToRad) := by
      apply Real.sin_pos_of_pos_of_lt_pi <;> unfold degToRad <;> nlinarith [Real.pi_pos]
    have hcos : 0 < cos (30 * degToRad) := by
      apply Real.cos_pos_of_mem_Ioo
      unfold degToRad
      constructor <;> nlinarith [Real.pi_pos]
    have hN : 0 < primeVertical (sin (30 * degToRad)) := by
      unfold primeVertical
      have hE := wgsE_lt
      have hE0 := wgsE_pos
      have := Real.sin_le_one (30 * degToRad)
      apply div_pos wgsA_pos
      apply Real.sqrt_pos.2
      have h2 : sin (30 * degToRad) ^ 2 ≤ 1 := by nlinarith
      nlinarith
    have hev : primeVertical (-sin (30 * degToRad)) = primeVertical (sin (30 * degToRad)) := by
      unfold primeVertical; simp
    refine ⟨primeVertical (sin (30 * degToRad)) * cos (30 * degToRad),
      (1 - wgsE ^ 2) * primeVertical (sin (30 * degToRad)) * sin (30 * degToRad), by positivity, ?_, ?_⟩
    · have hE := wgsE_lt
      have hE0 := wgsE_pos
      have : 0 < 1 - wgsE ^ 2 := by nlinarith
      positivity
    · have hn : (-30 : ℝ) * degToRad = -(30 * degToRad) := by ring
      refine ⟨?_, ?_, ?_, ?_⟩ <;> ext <;>
        simp only [fromPoint, latlon2ecef, hn, Real.sin_neg, Real.cos_neg, hev, c, s, zero_mul, Real.sin_zero,
          Real.cos_zero] <;> ring
  obtain ⟨k, l, hk, hl, e0, e1, e2, e3⟩ := h3
  show Spec.ConvexPlanar _ _ _ _
  unfold atSurface
  simp only
  rw [e0, e1, e2, e3]
  refine ⟨?_, 1, 1, one_pos, one_pos, by norm_num, by ext <;> simp [combine]⟩
  intro s t h
  have h1 := congrArg V3.y h
  have h2 := congrArg V3.z h
  simp only [combine] at h1 h2
  constructor
  · have : s * k = 0 := by linarith
    exact (mul_eq_zero.1 this).resolve_right hk.ne'
  · have : t * l = 0 := by linarith
    exact (mul_eq_zero.1 this).resolve_right hl.ne'

end Verif.Props
