import Verif.Props.EdgeRupture
import Mathlib.Analysis.SpecialFunctions.Trigonometric.Arctan

/-!
# Strike and dip of ruptures of edges: C113
-/

namespace Verif.Props
open Verif.Vec Verif.Rup Verif.EdgeR Real

theorem mag_mul (v : V3) (k : ℝ) : (v.mul k).mag = |k| * v.mag := by
  unfold V3.mag V3.mul
  simp only
  rw [show (v.x * k) ^ 2 + (v.y * k) ^ 2 + (v.z * k) ^ 2 = k ^ 2 * (v.x ^ 2 + v.y ^ 2 + v.z ^ 2) by ring,
    Real.sqrt_mul (sq_nonneg k), Real.sqrt_sq_eq_abs]

theorem mag_one {v : V3} (h : v.dot v = 1) : v.mag = 1 := by
  unfold V3.mag
  rw [Real.sqrt_eq_one, ← h]
  simp only [V3.dot]; ring

theorem norm_mul_pos {v : V3} {k : ℝ} (h : v.dot v = 1) (hk : 0 < k) : (v.mul k).norm = v := by
  have hm : √((v.mul k).x ^ 2 + (v.mul k).y ^ 2 + (v.mul k).z ^ 2) = k := by
    have := mag_mul v k
    rw [mag_one h, abs_of_pos hk, mul_one] at this
    exact this
  unfold V3.norm
  simp only [hm]
  ext <;> simp only [V3.mul] <;> field_simp

theorem npSign_mul_abs (x : ℝ) : npSign x * |x| = x := by
  unfold npSign
  split_ifs with h1 h2
  · rw [abs_of_pos h1]; ring
  · rw [abs_of_neg h2]; ring
  · have : x = 0 := by linarith
    simp [this]

/-- The direction to the east. -/
noncomputable def east (north up : V3) : V3 := north.cross up

/-- The horizontal unit vector with an azimuth in degrees. -/
noncomputable def horizontal (north up : V3) (az : ℝ) : V3 :=
  (north.mul (cos (radians az))).add ((east north up).mul (sin (radians az)))

/-- The upward unit normal of a plane that dips `dip` degrees in the direction with azimuth `az`. -/
noncomputable def planeNormal (north up : V3) (dip az : ℝ) : V3 :=
  (up.mul (cos (radians dip))).add ((horizontal north up az).mul (sin (radians dip)))

theorem frame {north up : V3} (h1 : north.dot north = 1) (h2 : up.dot up = 1) (h3 : north.dot up = 0) (az : ℝ) :
    (horizontal north up az).dot (horizontal north up az) = 1 ∧ up.dot (horizontal north up az) = 0 ∧
    (horizontal north up az).dot north = cos (radians az) ∧
    (horizontal north up az).cross north = up.mul (sin (radians az)) := by
  have hsc := Real.sin_sq_add_cos_sq (radians az)
  have he : (east north up).dot (east north up) = 1 := by
    have : (east north up).dot (east north up) = north.dot north * up.dot up - north.dot up ^ 2 := by
      simp only [east, V3.cross, V3.dot]; ring
    rw [this, h1, h2, h3]; ring
  have hen : (east north up).dot north = 0 := by simp only [east, V3.cross, V3.dot]; ring
  have heu : (east north up).dot up = 0 := by simp only [east, V3.cross, V3.dot]; ring
  have hec : (east north up).cross north = up := by
    have : (east north up).cross north = (up.mul (north.dot north)).sub (north.mul (north.dot up)) := by
      ext <;> simp only [east, V3.cross, V3.dot, V3.mul, V3.sub] <;> ring
    rw [this, h1, h3]
    ext <;> simp [V3.mul, V3.sub]
  refine ⟨?_, ?_, ?_, ?_⟩
  · have : (horizontal north up az).dot (horizontal north up az) = cos (radians az) ^ 2 * north.dot north +
        2 * (cos (radians az) * sin (radians az)) * (east north up).dot north +
        sin (radians az) ^ 2 * (east north up).dot (east north up) := by
      simp only [horizontal, V3.add, V3.mul, V3.dot]; ring
    rw [this, h1, hen, he]; linarith
  · have : up.dot (horizontal north up az) = cos (radians az) * north.dot up +
        sin (radians az) * (east north up).dot up := by
      simp only [horizontal, V3.add, V3.mul, V3.dot]; ring
    rw [this, h3, heu]; ring
  · have : (horizontal north up az).dot north = cos (radians az) * north.dot north +
        sin (radians az) * (east north up).dot north := by
      simp only [horizontal, V3.add, V3.mul, V3.dot]; ring
    rw [this, h1, hen]; ring
  · have : (horizontal north up az).cross north = ((east north up).cross north).mul (sin (radians az)) := by
      ext <;> simp only [horizontal, V3.add, V3.mul, V3.cross] <;> ring
    rw [this, hec]

/-- The angle whose cosine is `cos ε cos β` differs from `β` by `ε` at most. -/
theorem arccos_near {β ε : ℝ} (h0 : 0 ≤ β) (h1 : β ≤ π) (he : |ε| < π / 2) :
    |arccos (cos ε * cos β) - β| ≤ |ε| := by
  rw [← Real.cos_abs ε]
  have hε := abs_nonneg ε
  generalize |ε| = e at *
  have hpi := Real.pi_pos
  have hse : 0 ≤ sin e := Real.sin_nonneg_of_nonneg_of_le_pi hε (by linarith)
  have hsb : 0 ≤ sin β := Real.sin_nonneg_of_nonneg_of_le_pi h0 h1
  have hss := mul_nonneg hse hsb
  rw [abs_le]
  constructor
  · rcases le_total (β - e) 0 with h | h
    · linarith [Real.arccos_nonneg (cos e * cos β)]
    · have : arccos (cos (β - e)) ≤ arccos (cos e * cos β) := by
        apply Real.arccos_le_arccos
        rw [Real.cos_sub]; nlinarith
      rw [Real.arccos_cos h (by linarith)] at this
      linarith
  · rcases le_total π (β + e) with h | h
    · linarith [Real.arccos_le_pi (cos e * cos β)]
    · have : arccos (cos e * cos β) ≤ arccos (cos (β + e)) := by
        apply Real.arccos_le_arccos
        rw [Real.cos_add]; nlinarith
      rw [Real.arccos_cos (by linarith) h] at this
      linarith

/-- The azimuth that `arctan2` finds when the north is tilted by `ε`. -/
theorem tilted_azimuth {a ε : ℝ} (he : |ε| < π / 2) :
    ∃ m : ℤ, |arctan2 (npSign (cos ε * sin a) * √(1 - (cos ε * cos a) ^ 2)) (cos ε * cos a) - (a + 2 * π * m)| ≤ |ε| := by
  have hpi := Real.pi_pos
  have hce : 0 < cos ε := Real.cos_pos_of_mem_Ioo (abs_lt.mp he)
  have hmem := toIocMod_mem_Ioc Real.two_pi_pos (-π) a
  have hmod := toIocMod_add_toIocDiv_zsmul Real.two_pi_pos (-π) a
  rw [zsmul_eq_mul] at hmod
  set b := toIocMod Real.two_pi_pos (-π) a with hb
  have hab : a = b + (toIocDiv Real.two_pi_pos (-π) a : ℤ) * (2 * π) := hmod.symm
  refine ⟨-(toIocDiv Real.two_pi_pos (-π) a), ?_⟩
  generalize toIocDiv Real.two_pi_pos (-π) a = m at *
  have hsin : sin a = sin b := by rw [hab, Real.sin_add_int_mul_two_pi]
  have hcos : cos a = cos b := by rw [hab, Real.cos_add_int_mul_two_pi]
  rw [hsin, hcos, show a + 2 * π * ((-m : ℤ) : ℝ) = b by rw [hab]; push_cast; ring]
  obtain ⟨hb0, hb1⟩ := hmem
  have hb1 : b ≤ π := by linarith
  set c := cos ε * cos b with hc
  have hc1 : c ^ 2 ≤ 1 := by
    rw [hc, mul_pow]
    have h1 := Real.sin_sq_add_cos_sq ε
    have h2 := Real.sin_sq_add_cos_sq b
    nlinarith [sq_nonneg (sin ε), sq_nonneg (sin b), sq_nonneg (cos ε), sq_nonneg (cos b)]
  have hsq : √(1 - c ^ 2) ^ 2 = 1 - c ^ 2 := Real.sq_sqrt (by linarith)
  have hnorm : ∀ y : ℝ, y ^ 2 = 1 - c ^ 2 → ‖(⟨c, y⟩ : ℂ)‖ = 1 := by
    intro y hy
    rw [Complex.norm_eq_sqrt_sq_add_sq]
    simp only [hy]
    rw [show c ^ 2 + (1 - c ^ 2) = 1 by ring, Real.sqrt_one]
  have hcomm : c = cos ε * cos b := hc
  rcases lt_trichotomy (sin b) 0 with h | h | h
  · have hneg : b < 0 := by
      by_contra hge
      push Not at hge
      exact absurd (Real.sin_nonneg_of_nonneg_of_le_pi hge hb1) (by linarith)
    have hsg : npSign (cos ε * sin b) = -1 := by
      have := mul_neg_of_pos_of_neg hce h
      unfold npSign
      rw [if_neg (by linarith), if_pos this]
    rw [hsg]
    have hpos : 0 < √(1 - c ^ 2) := by
      apply Real.sqrt_pos.mpr
      have h1 := Real.sin_sq_add_cos_sq ε
      have h2 := Real.sin_sq_add_cos_sq b
      have h3 : 0 < sin b ^ 2 := by nlinarith
      have h4 : 0 < cos ε ^ 2 := by positivity
      rw [hc, mul_pow]
      nlinarith [sq_nonneg (sin ε), sq_nonneg (cos b), mul_pos h3 h4]
    have harg : arctan2 (-1 * √(1 - c ^ 2)) c = -arccos c := by
      unfold arctan2
      rw [Complex.arg_of_im_neg (by simp only; linarith), hnorm _ (by rw [mul_pow, hsq]; ring), div_one]
    rw [harg, hc, ← Real.cos_neg b]
    have := arccos_near (β := -b) (ε := ε) (by linarith) (by linarith) he
    rw [← abs_neg] at this
    convert this using 2
    ring
  · have hsg : npSign (cos ε * sin b) = 0 := by simp [h, npSign]
    rw [hsg, zero_mul]
    have hb' : b = 0 ∨ b = π := by
      rcases le_or_gt b 0 with h0 | h0
      · left
        by_contra hne
        exact absurd (Real.sin_neg_of_neg_of_neg_pi_lt (lt_of_le_of_ne h0 hne) hb0) (by linarith)
      · right
        by_contra hne
        exact absurd (Real.sin_pos_of_pos_of_lt_pi h0 (lt_of_le_of_ne hb1 hne)) (by linarith)
    have hof : ∀ x : ℝ, (⟨x, 0⟩ : ℂ) = (x : ℂ) := fun x => rfl
    rcases hb' with h0 | h0
    · have : c = cos ε := by rw [hc, h0, Real.cos_zero, mul_one]
      rw [this, h0]
      unfold arctan2
      rw [hof, Complex.arg_ofReal_of_nonneg hce.le]
      simp
    · have : c = -cos ε := by rw [hc, h0, Real.cos_pi, mul_neg, mul_one]
      rw [this, h0]
      unfold arctan2
      rw [hof, Complex.arg_ofReal_of_neg (by linarith)]
      simp
  · have hpos : 0 < b := by
      by_contra hge
      push Not at hge
      exact absurd (Real.sin_nonpos_of_nonpos_of_neg_pi_le hge hb0.le) (by linarith)
    have hsg : npSign (cos ε * sin b) = 1 := by
      unfold npSign
      rw [if_pos (mul_pos hce h)]
    rw [hsg, one_mul]
    have harg : arctan2 (√(1 - c ^ 2)) c = arccos c := by
      unfold arctan2
      have hne : (⟨c, √(1 - c ^ 2)⟩ : ℂ) ≠ 0 := by
        intro h0
        have := hnorm _ hsq
        rw [h0, norm_zero] at this
        norm_num at this
      rw [Complex.arg_of_im_nonneg_of_ne_zero (Real.sqrt_nonneg _) hne, hnorm _ hsq, div_one]
    rw [harg, hc]
    exact arccos_near hpos.le hb1 he

/-- A unit vector that is tilted by `tilt` degrees from the horizontal direction `north`. -/
noncomputable def tilted (north up : V3) (tilt : ℝ) : V3 :=
  (north.mul (cos (radians tilt))).add (up.mul (sin (radians tilt)))

/-- **C113** (partial). Let `north` and `up` be unit vectors at right angles, let the sum of the normals be along
the normal - pointing up or down - of a plane that dips `dip` degrees, `0 < dip < 90`, in the direction with
azimuth `az`, and let the sum of the directions to the north be tilted by `tilt` degrees from the horizontal.
Then the dip is `dip`, and the strike is in `[-180, 180)` and differs from `az - 90` by `tilt` at most, up to
full turns. By `sums_form` all sums have this form, except for horizontal and vertical planes. What is missing:
vertical planes, see below. -/
theorem C113_strike_dip_partial {north up : V3} (h1 : north.dot north = 1) (h2 : up.dot up = 1)
    (h3 : north.dot up = 0) {dip az tilt : ℝ} (hd0 : 0 < dip) (hd1 : dip < 90) (ht : |tilt| < 90) {k1 k2 k3 : ℝ}
    (hk1 : k1 ≠ 0) (hk2 : 0 < k2) (hk3 : 0 < k3) (r : ℝ × ℝ)
    (hr : r = strikeDip ⟨(planeNormal north up dip az).mul k1, (tilted north up tilt).mul k2, up.mul k3⟩) :
    r.2 = dip ∧ (∃ n : ℤ, |r.1 - (az - 90 + 360 * n)| ≤ |tilt|) ∧ -180 ≤ r.1 ∧ r.1 < 180 := by
  obtain ⟨f1, f2, f3, f4⟩ := frame h1 h2 h3 az
  set h := horizontal north up az with hh
  have hpi := Real.pi_pos
  have hdr0 : 0 < radians dip := by unfold radians; positivity
  have hdr1 : radians dip < π / 2 := by unfold radians; nlinarith
  have hs : 0 < sin (radians dip) := Real.sin_pos_of_pos_of_lt_pi hdr0 (by linarith)
  have hc : 0 < cos (radians dip) := Real.cos_pos_of_mem_Ioo ⟨by linarith, hdr1⟩
  have hsc := Real.sin_sq_add_cos_sq (radians dip)
  have hrt : |radians tilt| = |tilt| * π / 180 := by
    unfold radians; rw [abs_mul, abs_of_pos (by positivity : 0 < π / 180)]; ring
  have htr : |radians tilt| < π / 2 := by rw [hrt]; nlinarith
  have hct : 0 < cos (radians tilt) := Real.cos_pos_of_mem_Ioo (abs_lt.mp htr)
  have hsct := Real.sin_sq_add_cos_sq (radians tilt)
  have hsca := Real.sin_sq_add_cos_sq (radians az)
  set n := planeNormal north up dip az with hn
  set t := tilted north up tilt with htd
  have htt : t.dot t = 1 := by
    have : t.dot t = cos (radians tilt) ^ 2 * north.dot north +
        2 * cos (radians tilt) * sin (radians tilt) * north.dot up + sin (radians tilt) ^ 2 * up.dot up := by
      simp only [htd, tilted, V3.add, V3.mul, V3.dot]; ring
    rw [this, h1, h2, h3]; linarith
  have hnn : n.dot n = 1 := by
    have : n.dot n = cos (radians dip) ^ 2 * up.dot up + 2 * cos (radians dip) * sin (radians dip) * up.dot h +
        sin (radians dip) ^ 2 * h.dot h := by
      simp only [hn, planeNormal, ← hh, V3.add, V3.mul, V3.dot]; ring
    rw [this, h2, f2, f1]; linarith
  have hun : up.dot n = cos (radians dip) := by
    have : up.dot n = cos (radians dip) * up.dot up + sin (radians dip) * up.dot h := by
      simp only [hn, planeNormal, ← hh, V3.add, V3.mul, V3.dot]; ring
    rw [this, h2, f2]; ring
  -- the normal after the change of direction
  have hflip : ((n.mul k1).norm).mul (npSign (up.dot (n.mul k1).norm)) = n := by
    rcases lt_or_gt_of_ne hk1 with hk | hk
    · have e : n.mul k1 = (n.mul (-1)).mul (-k1) := by ext <;> simp only [V3.mul] <;> ring
      have hnn' : (n.mul (-1)).dot (n.mul (-1)) = 1 := by
        refine Eq.trans ?_ hnn
        simp only [V3.mul, V3.dot]; ring
      rw [e, norm_mul_pos hnn' (by linarith)]
      have : up.dot (n.mul (-1)) = -cos (radians dip) := by
        rw [← hun]; simp only [V3.mul, V3.dot]; ring
      rw [this]
      have hsg : npSign (-cos (radians dip)) = -1 := by
        unfold npSign
        rw [if_neg (by linarith), if_pos (by linarith)]
      rw [hsg]
      ext <;> simp only [V3.mul] <;> ring
    · rw [norm_mul_pos hnn hk, hun]
      have hsg : npSign (cos (radians dip)) = 1 := by
        unfold npSign
        rw [if_pos hc]
      rw [hsg]
      ext <;> simp only [V3.mul] <;> ring
  have huh : (up.cross h).dot (up.cross h) = 1 := by
    have : (up.cross h).dot (up.cross h) = up.dot up * h.dot h - up.dot h ^ 2 := by
      simp only [V3.cross, V3.dot]; ring
    rw [this, h2, f1, f2]; ring
  have hcross : (up.cross n).mag = sin (radians dip) := by
    have e : up.cross n = (up.cross h).mul (sin (radians dip)) := by
      ext <;> simp only [hn, planeNormal, ← hh, V3.add, V3.mul, V3.cross] <;> ring
    rw [e, mag_mul, abs_of_pos hs, mag_one huh, mul_one]
  have hproj : (n.sub (up.mul (up.dot n))).norm = h := by
    rw [hun]
    have e : n.sub (up.mul (cos (radians dip))) = h.mul (sin (radians dip)) := by
      ext <;> simp only [hn, planeNormal, ← hh, V3.add, V3.mul, V3.sub] <;> ring
    rw [e, norm_mul_pos f1 hs]
  have hcp : h.cross t = (up.mul (cos (radians tilt) * sin (radians az))).add
      ((up.cross h).mul (-sin (radians tilt))) := by
    have : h.cross t = ((h.cross north).mul (cos (radians tilt))).add ((up.cross h).mul (-sin (radians tilt))) := by
      ext <;> simp only [htd, tilted, V3.add, V3.mul, V3.cross] <;> ring
    rw [this, f4]
    ext <;> simp only [V3.add, V3.mul] <;> ring
  have hcu : (h.cross t).dot up = cos (radians tilt) * sin (radians az) := by
    have : (h.cross t).dot up = cos (radians tilt) * sin (radians az) * up.dot up := by
      rw [hcp]
      simp only [V3.mul, V3.dot, V3.add, V3.cross]; ring
    rw [this, h2, mul_one]
  have hcm : (h.cross t).mag = √(1 - (cos (radians tilt) * cos (radians az)) ^ 2) := by
    have e : (h.cross t).dot (h.cross t) = 1 - (cos (radians tilt) * cos (radians az)) ^ 2 := by
      have : (h.cross t).dot (h.cross t) = (cos (radians tilt) * sin (radians az)) ^ 2 * up.dot up +
          sin (radians tilt) ^ 2 * (up.cross h).dot (up.cross h) := by
        rw [hcp]
        simp only [V3.mul, V3.dot, V3.add, V3.cross]; ring
      rw [this, h2, huh]
      linear_combination hsct + (cos (radians tilt)) ^ 2 * hsca
    unfold V3.mag
    rw [← e]
    congr 1
    simp only [V3.dot]; ring
  have hdp : h.dot t = cos (radians tilt) * cos (radians az) := by
    have : h.dot t = cos (radians tilt) * h.dot north + sin (radians tilt) * up.dot h := by
      simp only [htd, tilted, V3.add, V3.mul, V3.dot]; ring
    rw [this, f2, f3]; ring
  obtain ⟨m, hm⟩ := tilted_azimuth (a := radians az) htr
  have hmem : arctan2 (npSign (cos (radians tilt) * sin (radians az)) *
      √(1 - (cos (radians tilt) * cos (radians az)) ^ 2)) (cos (radians tilt) * cos (radians az)) ∈ Set.Ioc (-π) π :=
    Complex.arg_mem_Ioc _
  have hr' : r = (if arctan2 (npSign (cos (radians tilt) * sin (radians az)) *
      √(1 - (cos (radians tilt) * cos (radians az)) ^ 2)) (cos (radians tilt) * cos (radians az)) * 180 / π - 90 < -180
      then arctan2 (npSign (cos (radians tilt) * sin (radians az)) *
      √(1 - (cos (radians tilt) * cos (radians az)) ^ 2)) (cos (radians tilt) * cos (radians az)) * 180 / π - 90 + 360
      else arctan2 (npSign (cos (radians tilt) * sin (radians az)) *
      √(1 - (cos (radians tilt) * cos (radians az)) ^ 2)) (cos (radians tilt) * cos (radians az)) * 180 / π - 90,
      arcsin (sin (radians dip)) * 180 / π) := by
    rw [hr]
    unfold strikeDip
    simp only [norm_mul_pos htt hk2, norm_mul_pos h2 hk3, hflip, hcross, hproj, hcu, hcm, hdp]
  generalize arctan2 (npSign (cos (radians tilt) * sin (radians az)) *
      √(1 - (cos (radians tilt) * cos (radians az)) ^ 2)) (cos (radians tilt) * cos (radians az)) = y at hm hmem hr'
  have hdip : r.2 = dip := by
    rw [hr']
    simp only
    rw [Real.arcsin_sin (by linarith) hdr1.le]
    unfold radians
    field_simp
  have hdeg : |y * 180 / π - (az + 360 * m)| ≤ |tilt| := by
    have e : y * 180 / π - (az + 360 * m) = (y - (radians az + 2 * π * m)) * (180 / π) := by
      unfold radians; field_simp; ring
    rw [e, abs_mul, abs_of_pos (by positivity : (0 : ℝ) < 180 / π)]
    calc _ ≤ |radians tilt| * (180 / π) := by gcongr
      _ = |tilt| := by rw [hrt]; field_simp
  have hlo : -180 < y * 180 / π := by rw [lt_div_iff₀ hpi]; nlinarith [hmem.1]
  have hhi : y * 180 / π ≤ 180 := by rw [div_le_iff₀ hpi]; nlinarith [hmem.2]
  refine ⟨hdip, ?_, ?_, ?_⟩
  · rw [hr']
    simp only
    split_ifs
    · refine ⟨m + 1, ?_⟩
      convert hdeg using 2
      push_cast; ring
    · refine ⟨m, ?_⟩
      convert hdeg using 2
      ring
  · rw [hr']
    simp only
    split_ifs <;> linarith
  · rw [hr']
    simp only
    split_ifs <;> linarith

/-- The third coordinate axis as upward direction, the second as north: east is the first. A plane that
dips 60 degrees to the east strikes to the north, within the tilt of 0.001 degrees. -/
example : ∃ r : ℝ × ℝ, r = strikeDip ⟨(planeNormal ⟨0, 1, 0⟩ ⟨0, 0, 1⟩ 60 90).mul (-2),
    (tilted ⟨0, 1, 0⟩ ⟨0, 0, 1⟩ (-0.001)).mul 3, (⟨0, 0, 1⟩ : V3).mul 5⟩ ∧ r.2 = 60 ∧
    ∃ n : ℤ, |r.1 - 360 * n| ≤ 0.001 := by
  refine ⟨_, rfl, ?_⟩
  obtain ⟨a, ⟨n, b⟩, _⟩ := C113_strike_dip_partial (north := ⟨0, 1, 0⟩) (up := ⟨0, 0, 1⟩) (dip := 60) (az := 90)
    (tilt := -0.001) (k1 := -2) (k2 := 3) (k3 := 5) (by simp [V3.dot]) (by simp [V3.dot]) (by simp [V3.dot]) (by norm_num)
    (by norm_num) (by norm_num) (by norm_num) (by norm_num) (by norm_num) _ rfl
  refine ⟨a, n, ?_⟩
  rw [show |(-0.001 : ℝ)| = 0.001 by norm_num] at b
  convert b using 2
  ring

/-- A vector that is not parallel to `up` is a multiple of a unit vector, tilted from the horizontal. -/
theorem split_unit {v up : V3} (h2 : up.dot up = 1) (hv : (up.cross v).dot (up.cross v) ≠ 0) :
    ∃ n k tilt, n.dot n = 1 ∧ n.dot up = 0 ∧ 0 < k ∧ |tilt| < 90 ∧ v = (tilted n up tilt).mul k := by
  have hpi := Real.pi_pos
  set w := v.sub (up.mul (up.dot v)) with hw
  have hww : w.dot w = (up.cross v).dot (up.cross v) := by
    have : w.dot w - (up.cross v).dot (up.cross v) = (up.dot v ^ 2 - v.dot v) * (up.dot up - 1) := by
      simp only [hw, V3.sub, V3.mul, V3.cross, V3.dot]; ring
    rw [h2] at this
    linarith
  have hpos : 0 < w.dot w := by
    rw [hww]
    apply lt_of_le_of_ne _ (Ne.symm hv)
    simp only [V3.dot]
    nlinarith [sq_nonneg (up.cross v).x, sq_nonneg (up.cross v).y, sq_nonneg (up.cross v).z]
  have hwu : w.dot up = 0 := by
    have : w.dot up = up.dot v * (1 - up.dot up) := by
      simp only [hw, V3.sub, V3.mul, V3.dot]; ring
    rw [this, h2]; ring
  set m := √(w.dot w) with hm
  have hmp : 0 < m := Real.sqrt_pos.mpr hpos
  have hm2 : m ^ 2 = w.dot w := Real.sq_sqrt hpos.le
  set d := up.dot v with hd
  set k := √(m ^ 2 + d ^ 2) with hk
  have hkp : 0 < k := Real.sqrt_pos.mpr (by positivity)
  have hcos : cos (arctan (d / m)) = m / k := by
    rw [Real.cos_arctan, hk]
    rw [show 1 + (d / m) ^ 2 = (m ^ 2 + d ^ 2) / m ^ 2 by field_simp, Real.sqrt_div (by positivity),
      Real.sqrt_sq hmp.le]
    field_simp
  have hsin : sin (arctan (d / m)) = d / k := by
    have := Real.tan_mul_cos (x := arctan (d / m)) (by rw [hcos]; positivity)
    rw [← this, Real.tan_arctan, hcos]
    field_simp
  have hrad : radians (arctan (d / m) * 180 / π) = arctan (d / m) := by unfold radians; field_simp
  refine ⟨w.mul (1 / m), k, arctan (d / m) * 180 / π, ?_, ?_, hkp, ?_, ?_⟩
  · have : (w.mul (1 / m)).dot (w.mul (1 / m)) = w.dot w / m ^ 2 := by
      simp only [V3.mul, V3.dot]; field_simp
    rw [this, hm2, div_self hpos.ne']
  · have : (w.mul (1 / m)).dot up = w.dot up / m := by
      simp only [V3.mul, V3.dot]; field_simp
    rw [this, hwu, zero_div]
  · have h1 := Real.neg_pi_div_two_lt_arctan (d / m)
    have h2 := Real.arctan_lt_pi_div_two (d / m)
    rw [abs_lt]
    constructor
    · rw [lt_div_iff₀ hpi]; linarith
    · rw [div_lt_iff₀ hpi]; linarith
  · unfold tilted
    rw [hrad, hcos, hsin]
    ext <;> simp only [hw, V3.add, V3.mul, V3.sub] <;> field_simp <;> ring

/-- All sums have the form of `C113_strike_dip_partial` when none of them is zero, the sum of the directions
to the north is not vertical, and that of the normals is neither vertical nor horizontal. -/
theorem sums_form (s : Sums) (hu : s.up.dot s.up ≠ 0) (hn : (s.up.cross s.north).dot (s.up.cross s.north) ≠ 0)
    (hv : (s.up.cross s.norm).dot (s.up.cross s.norm) ≠ 0) (hd : s.up.dot s.norm ≠ 0) :
    ∃ (north up : V3) (dip az tilt k1 k2 k3 : ℝ), north.dot north = 1 ∧ up.dot up = 1 ∧ north.dot up = 0 ∧
      0 < dip ∧ dip < 90 ∧ |tilt| < 90 ∧ k1 ≠ 0 ∧ 0 < k2 ∧ 0 < k3 ∧
      s = ⟨(planeNormal north up dip az).mul k1, (tilted north up tilt).mul k2, up.mul k3⟩ := by
  have hpi := Real.pi_pos
  have hup : 0 < s.up.dot s.up := by
    apply lt_of_le_of_ne _ (Ne.symm hu)
    simp only [V3.dot]
    nlinarith [sq_nonneg s.up.x, sq_nonneg s.up.y, sq_nonneg s.up.z]
  set k3 := √(s.up.dot s.up) with hk3
  have hk3p : 0 < k3 := Real.sqrt_pos.mpr hup
  have hk32 : k3 ^ 2 = s.up.dot s.up := Real.sq_sqrt hup.le
  set up := s.up.mul (1 / k3) with hupd
  have hue : s.up = up.mul k3 := by ext <;> simp only [hupd, V3.mul] <;> field_simp
  have h2 : up.dot up = 1 := by
    have : up.dot up = s.up.dot s.up / k3 ^ 2 := by simp only [hupd, V3.mul, V3.dot]; field_simp
    rw [this, hk32, div_self hup.ne']
  have hcr : ∀ v : V3, (s.up.cross v).dot (s.up.cross v) = k3 ^ 2 * (up.cross v).dot (up.cross v) := by
    intro v
    rw [hue]
    simp only [V3.cross, V3.dot, V3.mul]; ring
  rw [hcr] at hn hv
  obtain ⟨north, k2, tilt, n1, n2, n3, n4, n5⟩ := split_unit h2 (right_ne_zero_of_mul hn)
  obtain ⟨h, k, t, a1, a2, a3, a4, a5⟩ := split_unit h2 (right_ne_zero_of_mul hv)
  have htr : |radians t| < π / 2 := by
    unfold radians; rw [abs_mul, abs_of_pos (by positivity : 0 < π / 180)]; nlinarith
  have hct := Real.cos_pos_of_mem_Ioo (abs_lt.mp htr)
  have ht0 : t ≠ 0 := by
    rintro rfl
    apply hd
    rw [a5, hue]
    have : (up.mul k3).dot ((tilted h up 0).mul k) = k3 * k * h.dot up := by
      simp only [tilted, radians, V3.mul, V3.dot, V3.add]; simp; ring
    rw [this, a2]; ring
  -- the downward or upward azimuth of a horizontal unit vector
  have haz : ∀ g : V3, g.dot g = 1 → g.dot up = 0 → ∃ az, g = horizontal north up az := by
    intro g g1 g2
    obtain ⟨az, e1, e2⟩ : ∃ az, cos (radians az) = g.dot north ∧ sin (radians az) = g.dot (east north up) := by
      have hsum : (g.dot north) ^ 2 + (g.dot (east north up)) ^ 2 = 1 := by
        have : (g.dot north) ^ 2 + (g.dot (east north up)) ^ 2 + (g.dot up) ^ 2 = g.dot g := by
          have key : ((g.dot north) ^ 2 + (g.dot (east north up)) ^ 2 + (g.dot up) ^ 2 - g.dot g) = 0 := by
            have gram : (g.dot (east north up)) ^ 2 = g.dot g * (north.dot north * up.dot up - north.dot up ^ 2)
                - g.dot north * (g.dot north * up.dot up - north.dot up * g.dot up)
                + g.dot up * (g.dot north * north.dot up - north.dot north * g.dot up) := by
              simp only [east, V3.cross, V3.dot]; ring
            rw [gram, n1, h2, n2, g2]; ring
          linarith
        rw [g2, g1] at this
        linarith
      refine ⟨Complex.arg ⟨g.dot north, g.dot (east north up)⟩ * 180 / π, ?_, ?_⟩
      · have hnz : ‖(⟨g.dot north, g.dot (east north up)⟩ : ℂ)‖ = 1 := by
          rw [Complex.norm_eq_sqrt_sq_add_sq, hsum, Real.sqrt_one]
        have := Complex.norm_mul_cos_arg (⟨g.dot north, g.dot (east north up)⟩ : ℂ)
        rw [hnz, one_mul] at this
        rw [show radians (Complex.arg ⟨g.dot north, g.dot (east north up)⟩ * 180 / π) =
          Complex.arg ⟨g.dot north, g.dot (east north up)⟩ by unfold radians; field_simp]
        exact this
      · have hnz : ‖(⟨g.dot north, g.dot (east north up)⟩ : ℂ)‖ = 1 := by
          rw [Complex.norm_eq_sqrt_sq_add_sq, hsum, Real.sqrt_one]
        have := Complex.norm_mul_sin_arg (⟨g.dot north, g.dot (east north up)⟩ : ℂ)
        rw [hnz, one_mul] at this
        rw [show radians (Complex.arg ⟨g.dot north, g.dot (east north up)⟩ * 180 / π) =
          Complex.arg ⟨g.dot north, g.dot (east north up)⟩ by unfold radians; field_simp]
        exact this
    refine ⟨az, ?_⟩
    -- the difference of the two has no component along the three directions
    set z := g.sub (horizontal north up az) with hz
    have hz0 : z.dot z = 0 := by
      have hsca := Real.sin_sq_add_cos_sq (radians az)
      obtain ⟨f1, _, _, _⟩ := frame n1 h2 n2 az
      have hgh : g.dot (horizontal north up az) = cos (radians az) * g.dot north +
          sin (radians az) * g.dot (east north up) := by
        simp only [horizontal, V3.dot, V3.add, V3.mul]; ring
      have : z.dot z = g.dot g - 2 * g.dot (horizontal north up az) +
          (horizontal north up az).dot (horizontal north up az) := by
        simp only [hz, V3.sub, V3.dot]; ring
      rw [this, g1, f1, hgh, ← e1, ← e2]
      linear_combination (-2) * hsca
    simp only [V3.dot] at hz0
    have hx : z.x = 0 := by nlinarith [mul_self_nonneg z.x, mul_self_nonneg z.y, mul_self_nonneg z.z]
    have hy : z.y = 0 := by nlinarith [mul_self_nonneg z.x, mul_self_nonneg z.y, mul_self_nonneg z.z]
    have hzz : z.z = 0 := by nlinarith [mul_self_nonneg z.x, mul_self_nonneg z.y, mul_self_nonneg z.z]
    simp only [hz, V3.sub] at hx hy hzz
    ext <;> linarith
  rw [abs_lt] at a4
  rcases lt_or_gt_of_ne ht0 with hneg | hpos
  · obtain ⟨az, haz⟩ := haz (h.mul (-1)) (by refine Eq.trans ?_ a1; simp only [V3.dot, V3.mul]; ring)
      (by
        have : (h.mul (-1)).dot up = -(h.dot up) := by simp only [V3.dot, V3.mul]; ring
        rw [this, a2, neg_zero])
    refine ⟨north, up, 90 + t, az, tilt, -k, k2, k3, n1, h2, n2, by linarith, by linarith, n4, by linarith, n3, hk3p, ?_⟩
    have e1 : cos (radians (90 + t)) = -sin (radians t) := by
      rw [show radians (90 + t) = radians t + π / 2 by unfold radians; ring, Real.cos_add_pi_div_two]
    have e2 : sin (radians (90 + t)) = cos (radians t) := by
      rw [show radians (90 + t) = radians t + π / 2 by unfold radians; ring, Real.sin_add_pi_div_two]
    have : s.norm = (planeNormal north up (90 + t) az).mul (-k) := by
      rw [a5, planeNormal, ← haz, e1, e2, tilted]
      ext <;> simp only [V3.add, V3.mul] <;> ring
    rw [← this, ← n5, ← hue]
  · obtain ⟨az, haz⟩ := haz h a1 a2
    refine ⟨north, up, 90 - t, az, tilt, k, k2, k3, n1, h2, n2, by linarith, by linarith, n4, a3.ne', n3, hk3p, ?_⟩
    have e1 : cos (radians (90 - t)) = sin (radians t) := by
      rw [show radians (90 - t) = π / 2 - radians t by unfold radians; ring, Real.cos_pi_div_two_sub]
    have e2 : sin (radians (90 - t)) = cos (radians t) := by
      rw [show radians (90 - t) = π / 2 - radians t by unfold radians; ring, Real.sin_pi_div_two_sub]
    have : s.norm = (planeNormal north up (90 - t) az).mul k := by
      rw [a5, planeNormal, ← haz, e1, e2, tilted]
      ext <;> simp only [V3.add, V3.mul] <;> ring
    rw [← this, ← n5, ← hue]

/-- **C113** violated: a rupture along the equator, whose quadrilaterals are in the vertical plane of the
equator, has dip 0 and not 90. -/
theorem C113_vertical_violated (qs : List (Quad Point))
    (h : ∀ q ∈ qs, q.p0.lat = 0 ∧ q.p1.lat = 0 ∧ q.p2.lat = 0 ∧ q.p3.lat = 0) :
    (computeStrikeDip qs).2 = 0 := by
  have hz : ∀ p : Point, p.lat = 0 → (fromPoint p).z = 0 := by
    intro p hp
    have := equator_ecef p.lon p.depth
    rw [show p = ⟨p.lon, 0, p.depth⟩ by ext <;> simp [hp], this]
  have hinv : ∀ (qs : List (Quad Point)) (s : Sums),
      (∀ q ∈ qs, q.p0.lat = 0 ∧ q.p1.lat = 0 ∧ q.p2.lat = 0 ∧ q.p3.lat = 0) →
      s.norm.x = 0 ∧ s.norm.y = 0 ∧ s.up.z = 0 →
      (qs.foldl addSums s).norm.x = 0 ∧ (qs.foldl addSums s).norm.y = 0 ∧ (qs.foldl addSums s).up.z = 0 := by
    intro qs
    induction qs with
    | nil => intro s _ hs; exact hs
    | cons q qs ih =>
      intro s hq hs
      rw [List.foldl_cons]
      apply ih _ (fun q' h' => hq q' (by simp [h']))
      obtain ⟨h0, h1, h2, h3⟩ := hq q (by simp)
      obtain ⟨a, b, c⟩ := hs
      have ha1 : (fromPoint (above q.p1)).z = 0 := hz _ h1
      have ha3 : (fromPoint (above q.p3)).z = 0 := hz _ h3
      refine ⟨?_, ?_, ?_⟩ <;>
        simp [addSums, V3.add, V3.mul, V3.norm, V3.cross, V3.sub, hz _ h0, hz _ h1, hz _ h2, hz _ h3, ha1, ha3, a, b,
          c]
  obtain ⟨a, b, c⟩ := hinv qs ⟨⟨0, 0, 0⟩, ⟨0, 0, 0⟩, ⟨0, 0, 0⟩⟩ h ⟨rfl, rfl, rfl⟩
  have hd : (computeStrikeDip qs) = strikeDip (qs.foldl addSums ⟨⟨0, 0, 0⟩, ⟨0, 0, 0⟩, ⟨0, 0, 0⟩⟩) := rfl
  rw [hd]
  generalize qs.foldl addSums ⟨⟨0, 0, 0⟩, ⟨0, 0, 0⟩, ⟨0, 0, 0⟩⟩ = s at a b c
  have hdot : s.up.norm.dot s.norm.norm = 0 := by simp [V3.dot, V3.norm, a, b, c]
  unfold strikeDip
  simp only
  rw [hdot]
  simp [npSign, V3.mul, V3.cross, V3.mag]

end Verif.Props
