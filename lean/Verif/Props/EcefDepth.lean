import Mathlib.Analysis.SpecialFunctions.Trigonometric.Arctan
import Mathlib.Analysis.SpecialFunctions.Trigonometric.Bounds
import Mathlib.Analysis.Real.Pi.Bounds
import Verif.Props.Vector
import Verif.Props.EcefDouble

/-!
# C204: points below and above the ellipsoid
-/

namespace Verif.Props
open Verif.Vec Real

namespace Bowring

/-- How far the cubes of a direction are from those of another one. -/
theorem cubes {x y C S : ℝ} (h1 : x ^ 2 + y ^ 2 = 1) (h2 : C ^ 2 + S ^ 2 = 1) (hk : 0 ≤ x * C + y * S) :
    |S * x ^ 3 + C * y ^ 3 - S * C| ≤ 2 * (y * C - x * S) ^ 2 * |S * C| + |y * C - x * S| ^ 3 := by
  set d := y * C - x * S with hd
  set k := x * C + y * S with hkk
  have hkd : k ^ 2 + d ^ 2 = 1 := by
    rw [hkk, hd]
    linear_combination C ^ 2 * h1 + S ^ 2 * h1 + h2
  have hx : x = k * C - d * S := by rw [hkk, hd]; linear_combination -x * h2
  have hy : y = k * S + d * C := by rw [hkk, hd]; linear_combination -y * h2
  have key : S * x ^ 3 + C * y ^ 3 - S * C = S * C * (k * (1 + 2 * d ^ 2) - 1) + d ^ 3 * (C ^ 2 - S ^ 2) := by
    rw [hx, hy]
    have hk2 : k ^ 3 = k * (1 - d ^ 2) := by rw [pow_succ, show k ^ 2 = 1 - d ^ 2 by linarith]; ring
    linear_combination (k ^ 3 * S * C + 3 * k * d ^ 2 * S * C + d ^ 3 * (C ^ 2 - S ^ 2)) * h2 + S * C * hk2
  have k1 : k ≤ 1 := by nlinarith [sq_nonneg d]
  have b1 : k * (1 + 2 * d ^ 2) - 1 ≤ 2 * d ^ 2 := by nlinarith [sq_nonneg d]
  have b2 : -(2 * d ^ 2) ≤ k * (1 + 2 * d ^ 2) - 1 := by nlinarith [sq_nonneg d, mul_nonneg hk (sub_nonneg.2 k1)]
  have b3 : |C ^ 2 - S ^ 2| ≤ 1 := by rw [abs_le]; constructor <;> nlinarith [sq_nonneg C, sq_nonneg S]
  rw [key]
  refine le_trans (abs_add_le _ _) ?_
  rw [abs_mul, abs_mul (d ^ 3), abs_pow]
  have b4 : |k * (1 + 2 * d ^ 2) - 1| ≤ 2 * d ^ 2 := abs_le.2 ⟨b2, b1⟩
  have := mul_le_mul_of_nonneg_left b4 (abs_nonneg (S * C))
  have := mul_le_mul_of_nonneg_left b3 (pow_nonneg (abs_nonneg d) 3)
  linarith

theorem arctan_le {x : ℝ} (hx : 0 ≤ x) : arctan x ≤ x := by
  have h1 : 0 ≤ arctan x := Real.arctan_nonneg.2 hx
  rcases h1.lt_or_eq with h | h
  · have := Real.lt_tan h (Real.arctan_lt_pi_div_two x)
    rw [Real.tan_arctan] at this
    exact this.le
  · rw [← h]; exact hx

theorem abs_arctan_le (x : ℝ) : |arctan x| ≤ |x| := by
  rcases le_total 0 x with h | h
  · rw [abs_of_nonneg h, abs_of_nonneg (Real.arctan_nonneg.2 h)]
    exact arctan_le h
  · rw [← abs_neg, ← Real.arctan_neg, ← abs_neg x, abs_of_nonneg (neg_nonneg.2 h), abs_of_nonneg (Real.arctan_nonneg.2 (neg_nonneg.2 h))]
    exact arctan_le (neg_nonneg.2 h)

/-- A vector that is almost in the direction of an angle. -/
theorem turned {φ P Q : ℝ} (h1 : |φ| < π / 2) (hP : 0 < P) :
    arctan2 (P * sin φ + Q * cos φ) (P * cos φ - Q * sin φ) = φ + arctan (Q / P) := by
  set δ := arctan (Q / P) with hδ
  set ρ := √(P ^ 2 + Q ^ 2) with hρ
  have hρ0 : 0 < ρ := Real.sqrt_pos.2 (by positivity)
  have hρ2 : ρ ^ 2 = P ^ 2 + Q ^ 2 := Real.sq_sqrt (by positivity)
  have hs : √(1 + (Q / P) ^ 2) = ρ / P := by
    rw [show 1 + (Q / P) ^ 2 = (ρ / P) ^ 2 by rw [div_pow ρ, hρ2]; field_simp]
    exact Real.sqrt_sq (by positivity)
  have hc : ρ * cos δ = P := by
    rw [hδ, Real.cos_arctan, hs]
    field_simp
  have hsn : ρ * sin δ = Q := by
    rw [hδ, Real.sin_arctan, hs]
    field_simp
  have h2 := Real.arctan_lt_pi_div_two (Q / P)
  have h3 := Real.neg_pi_div_two_lt_arctan (Q / P)
  rw [← hδ] at h2 h3
  obtain ⟨h4, h5⟩ := abs_lt.1 h1
  have := arctan2_polar hρ0 (θ := φ + δ) ⟨by linarith, by linarith⟩
  rw [← this, Real.sin_add, Real.cos_add]
  congr 1
  · rw [← hc, ← hsn]; ring
  · rw [← hc, ← hsn]; ring

theorem direction {k X Y : ℝ} (hk : 0 < k) (h : 0 < X ^ 2 + Y ^ 2) :
    cos (arctan2 (k * Y) (k * X)) = X / √(X ^ 2 + Y ^ 2) ∧ sin (arctan2 (k * Y) (k * X)) = Y / √(X ^ 2 + Y ^ 2) := by
  have e : arctan2 (k * Y) (k * X) = Complex.arg ⟨X, Y⟩ := by
    unfold arctan2
    refine Eq.trans ?_ (Complex.arg_real_mul (⟨X, Y⟩ : ℂ) hk)
    congr 1
    apply Complex.ext <;> simp
  have hn : ‖(⟨X, Y⟩ : ℂ)‖ = √(X ^ 2 + Y ^ 2) := by
    rw [Complex.norm_def, Complex.normSq_mk]
    congr 1
    ring
  have hne : (⟨X, Y⟩ : ℂ) ≠ 0 := by
    intro h0
    rw [h0, norm_zero] at hn
    have := Real.sqrt_pos.2 h
    linarith
  rw [e]
  exact ⟨by rw [Complex.cos_arg hne, hn], by rw [Complex.sin_arg, hn]⟩

/-- The ratio of the half axes. -/
noncomputable def flat : ℝ := wgsB / wgsA

theorem square : 669437 / 100000000 ≤ wgsE ^ 2 ∧ wgsE ^ 2 ≤ 669439 / 100000000 := by
  unfold wgsE
  norm_num

theorem flat_sq : flat ^ 2 = 1 - wgsE ^ 2 := by
  have hA := wgsA_pos
  obtain ⟨h1, h2⟩ := square
  have hb2 : wgsB ^ 2 = wgsA ^ 2 * (1 - wgsE ^ 2) := Real.sq_sqrt (mul_nonneg (by positivity) (by linarith))
  unfold flat
  rw [div_pow, hb2]
  field_simp

theorem flat_bounds : 9966 / 10000 ≤ flat ∧ flat ≤ 1 := by
  have h := flat_sq
  obtain ⟨h1, h2⟩ := square
  have h0 : 0 ≤ flat := div_nonneg (Real.sqrt_nonneg _) wgsA_pos.le
  constructor <;> nlinarith

theorem polar_term : wgsEp ^ 2 * wgsB = wgsE ^ 2 * wgsA / flat := by
  have hA := wgsA_pos
  obtain ⟨f0, f1⟩ := flat_bounds
  have hB : wgsB = wgsA * flat := by unfold flat; field_simp
  have hf := flat_sq
  have hep2 : wgsEp ^ 2 = (wgsA ^ 2 - wgsB ^ 2) / wgsB ^ 2 :=
    Real.sq_sqrt (div_nonneg (by rw [hB]; nlinarith [mul_pos hA hA]) (by positivity))
  have f0' : 0 < flat := by linarith
  rw [hep2, hB, show wgsE ^ 2 = 1 - flat ^ 2 by linarith]
  field_simp

theorem le_one {x y : ℝ} (h : x ^ 2 + y ^ 2 = 1) : x ≤ 1 := by nlinarith [sq_nonneg y]

/-- The bound on the tangent of the error, from the sizes of its parts. -/
theorem tangent_le {P Q e2 q w g κ t σ h : ℝ} (hP : 5270000 ≤ P)
    (hQ : Q = e2 * 6378137 * (w / q) * g) (he0 : 0 ≤ e2) (he : e2 ≤ 669439 / 100000000)
    (hq : 9966 / 10000 ≤ q) (hw0 : 0 ≤ w) (hw1 : w ≤ 1) (hκ0 : 0 ≤ κ)
    (hκ : κ ≤ 12564 / 10000000000000 * |h|) (hh : |h| ≤ 1000000)
    (hg : |g| ≤ 2 * (κ * t) ^ 2 * t + (κ * t) ^ 3) (ht0 : 0 ≤ t) (hσ : t * q ≤ σ) (hσ0 : 0 ≤ σ) :
    |Q / P| ≤ 3 / 10 ^ 20 * h ^ 2 * σ ^ 3 := by
  have hq0 : 0 < q := by linarith
  have hP0 : 0 < P := by linarith
  have ht : t ≤ 10035 / 10000 * σ := by nlinarith
  have ht3 : t ^ 3 ≤ (10035 / 10000 * σ) ^ 3 := pow_le_pow_left₀ ht0 ht 3
  have hκ1 : κ ≤ 13 / 10000 := by linarith
  have hκ2 : κ ^ 2 ≤ (12564 / 10000000000000 * |h|) ^ 2 := pow_le_pow_left₀ hκ0 hκ 2
  rw [mul_pow, sq_abs] at hκ2
  have hg1 : |g| ≤ 20013 / 10000 * κ ^ 2 * t ^ 3 := by
    refine le_trans hg ?_
    have : κ ^ 2 * t ^ 3 * κ ≤ κ ^ 2 * t ^ 3 * (13 / 10000) := mul_le_mul_of_nonneg_left hκ1 (by positivity)
    nlinarith
  have hg2 : |g| ≤ 32 / 10 ^ 19 * h ^ 2 * σ ^ 3 := by
    refine le_trans hg1 ?_
    have h1 : 20013 / 10000 * κ ^ 2 * t ^ 3 ≤ 20013 / 10000 * ((12564 / 10000000000000) ^ 2 * h ^ 2) * (10035 / 10000 * σ) ^ 3 := by
      apply mul_le_mul _ ht3 (by positivity) (by positivity)
      linarith
    refine le_trans h1 ?_
    have : 0 ≤ h ^ 2 * σ ^ 3 := by positivity
    nlinarith
  have hwq : w / q ≤ 10035 / 10000 := by
    rw [div_le_iff₀ hq0]; linarith
  have hwq0 : 0 ≤ w / q := by positivity
  have hk : e2 * 6378137 * (w / q) ≤ 43000 := by
    have : e2 * (w / q) ≤ 669439 / 100000000 * (10035 / 10000) := mul_le_mul he hwq hwq0 (by norm_num)
    linarith
  have hk0 : 0 ≤ e2 * 6378137 * (w / q) := by positivity
  have hQ1 : |Q| ≤ 43000 * (32 / 10 ^ 19 * h ^ 2 * σ ^ 3) := by
    rw [hQ, abs_mul, abs_of_nonneg hk0]
    exact mul_le_mul hk hg2 (abs_nonneg _) (by norm_num)
  rw [abs_div, abs_of_pos hP0, div_le_iff₀ hP0]
  refine le_trans hQ1 ?_
  have h0 : 0 ≤ h ^ 2 * σ ^ 3 := by positivity
  have := mul_le_mul_of_nonneg_left hP h0
  nlinarith

set_option maxHeartbeats 1000000 in
/-- Bowring's formula gives the latitude of a point at height `h` up to a small angle. -/
theorem latitude {φ h : ℝ} {v : V3} (h1 : |φ| < π / 2) (hh : |h| ≤ 1000000)
    (hp : √(v.x ^ 2 + v.y ^ 2) = (wgsA / √(1 - wgsE ^ 2 * sin φ ^ 2) + h) * cos φ)
    (hz : v.z = (wgsA / √(1 - wgsE ^ 2 * sin φ ^ 2) * (1 - wgsE ^ 2) + h) * sin φ) :
    ∃ δ, latRad v = φ + δ ∧ |δ| ≤ 3 / 10 ^ 20 * h ^ 2 * (|sin φ| * cos φ) ^ 3 := by
  obtain ⟨e1, e2⟩ := square
  obtain ⟨q0, q1⟩ := flat_bounds
  have hq2 := flat_sq
  have hpt := polar_term
  have hA : wgsA = 6378137 := rfl
  have hB : wgsB = wgsA * flat := by unfold flat; rw [hA]; field_simp
  have hc : 0 < cos φ := Real.cos_pos_of_mem_Ioo (by obtain ⟨a, b⟩ := abs_lt.1 h1; exact ⟨a, b⟩)
  have hsc := Real.sin_sq_add_cos_sq φ
  have hlat : latRad v = arctan2 (v.z + wgsE ^ 2 * wgsA / flat * sin (reduced v) ^ 3)
      (√(v.x ^ 2 + v.y ^ 2) - wgsE ^ 2 * wgsA * cos (reduced v) ^ 3) := by
    unfold latRad
    rw [hpt]
  have hturn := fun P Q => turned (φ := φ) (P := P) (Q := Q) h1
  have hred : reduced v = arctan2 (wgsA * v.z) (wgsA * flat * √(v.x ^ 2 + v.y ^ 2)) := by
    unfold reduced; rw [hB]
  set p := √(v.x ^ 2 + v.y ^ 2) with hpdef
  clear_value p
  generalize v.z = z at *
  set E := wgsE ^ 2 with hE
  clear_value E
  set q := flat with hqd
  clear_value q
  set s := sin φ with hs
  set c := cos φ with hcd
  clear_value s c
  have hs2 : s ^ 2 ≤ 1 := by nlinarith [sq_nonneg c]
  have hEs : E * s ^ 2 ≤ E := by nlinarith
  have hroot : 0 < 1 - E * s ^ 2 := by linarith
  set w := √(1 - E * s ^ 2) with hwd
  have hw0 : 0 < w := Real.sqrt_pos.2 hroot
  have hw2 : w ^ 2 = 1 - E * s ^ 2 := Real.sq_sqrt hroot.le
  have hw1 : w ≤ 1 := by nlinarith [mul_nonneg (show 0 ≤ E by linarith) (sq_nonneg s)]
  have hwq : q ≤ w := by
    refine (sq_le_sq₀ (by linarith) hw0.le).1 ?_
    rw [hq2, hw2]; linarith
  have hq : 0 < q := by linarith
  clear_value w
  set C := c / w with hC
  set S := q * s / w with hS
  have hCS : C ^ 2 + S ^ 2 = 1 := by
    rw [hC, hS, div_pow, div_pow, ← add_div, div_eq_one_iff_eq (by positivity), mul_pow, hq2, hw2]
    linarith
  clear_value C S
  set m := wgsA / w * (1 - E) + h with hm
  clear_value m
  set n := m - E * h with hn
  clear_value n
  obtain ⟨hh1, hh2⟩ := abs_le.1 hh
  have haw : wgsA ≤ wgsA / w := by
    rw [le_div_iff₀ hw0, hA]; linarith
  have hm0 : 5330000 ≤ m := by
    have : 6378137 * (1 - 669439 / 100000000) ≤ wgsA / w * (1 - E) := by
      apply mul_le_mul (by rw [← hA]; exact haw) (by linarith) (by norm_num) (by linarith)
    linarith
  have hEh : |E * h| ≤ 6695 := by
    rw [abs_mul, abs_of_nonneg (by linarith : (0:ℝ) ≤ E)]
    calc E * |h| ≤ 669439 / 100000000 * 1000000 := mul_le_mul e2 hh (abs_nonneg _) (by norm_num)
      _ ≤ _ := by norm_num
  have hn0 : 5328700 ≤ n := by
    have hn' : n = (1 - E) * (wgsA / w + h) := by rw [hn, hm]; ring
    have : (1 - 669439 / 100000000) * (6378137 - 1000000) ≤ (1 - E) * (wgsA / w + h) := by
      apply mul_le_mul (by linarith) (by linarith) (by norm_num) (by linarith)
    rw [hn']; norm_num at this; linarith
  have hC0 : 0 < C := by rw [hC]; exact div_pos hc hw0
  have hX : 0 < n * C := by positivity
  have hXY : 0 < (n * C) ^ 2 + (m * S) ^ 2 := by positivity
  have hdir := direction (k := wgsA * w / q) (X := n * C) (Y := m * S) (by rw [hA]; positivity) hXY
  have k1 : wgsA * w / q * (m * S) = wgsA * z := by
    rw [hz, hS]; field_simp
  have k2 : wgsA * w / q * (n * C) = wgsA * q * p := by
    have hn' : n = q ^ 2 * (wgsA / w + h) := by rw [hq2, hn, hm]; ring
    rw [hp, hn', hC]; field_simp
  rw [k1, k2, ← hred] at hdir
  obtain ⟨hcr, hsr⟩ := hdir
  set R := √((n * C) ^ 2 + (m * S) ^ 2) with hR
  have hR2 : R ^ 2 = (n * C) ^ 2 + (m * S) ^ 2 := Real.sq_sqrt hXY.le
  have hR0 : 0 < R := Real.sqrt_pos.2 hXY
  clear_value R
  have hRb : 5328700 ≤ R := by
    refine (sq_le_sq₀ (by norm_num) hR0.le).1 ?_
    rw [hR2, mul_pow, mul_pow]
    have a1 : (5328700:ℝ) ^ 2 ≤ n ^ 2 := pow_le_pow_left₀ (by norm_num) hn0 2
    have a2 : (5328700:ℝ) ^ 2 ≤ m ^ 2 := pow_le_pow_left₀ (by norm_num) (by linarith) 2
    have := mul_le_mul_of_nonneg_right a1 (sq_nonneg C)
    have := mul_le_mul_of_nonneg_right a2 (sq_nonneg S)
    have : (5328700:ℝ) ^ 2 * C ^ 2 + 5328700 ^ 2 * S ^ 2 = 5328700 ^ 2 := by rw [← mul_add, hCS, mul_one]
    linarith
  rw [hlat, hcr, hsr]
  set x := n * C / R with hx
  set y := m * S / R with hy
  clear_value x y
  have hxy : x ^ 2 + y ^ 2 = 1 := by
    rw [hx, hy, div_pow, div_pow, ← add_div, hR2, div_self hXY.ne']
  have hk : 0 ≤ x * C + y * S := by
    have : x * C + y * S = (n * C ^ 2 + m * S ^ 2) / R := by rw [hx, hy]; ring
    rw [this]
    have : 0 ≤ m := by linarith
    have : 0 ≤ n := by linarith
    positivity
  have hd : y * C - x * S = E * h / R * (S * C) := by
    rw [hx, hy, hn]; field_simp; ring
  have hcub := cubes hxy hCS hk
  rw [hd] at hcub
  set g := S * x ^ 3 + C * y ^ 3 - S * C with hg
  set P := c * (p - E * wgsA * x ^ 3) + s * (z + E * wgsA / q * y ^ 3) with hP
  set Q := c * (z + E * wgsA / q * y ^ 3) - s * (p - E * wgsA * x ^ 3) with hQ
  have hPe : P = wgsA * w + h + E * wgsA * (s * y ^ 3 / q - c * x ^ 3) := by
    have : c * p + s * z = wgsA * w + h := by
      rw [hp, hz, hm]
      have : wgsA / w * (1 - E * s ^ 2) = wgsA * w := by rw [← hw2]; field_simp
      linear_combination this + (wgsA / w + h) * hsc
    rw [hP]
    linear_combination this
  have hQe : Q = E * wgsA * (w / q) * g := by
    rw [hQ, hg, hp, hz, hm, hS, hC]
    field_simp
    ring
  have hsy : 0 ≤ s * y ^ 3 := by
    have hm' : 0 ≤ m := by linarith
    have : s * y ^ 3 = m ^ 3 * q ^ 3 * (s ^ 4) / (w ^ 3 * R ^ 3) := by
      rw [hy, hS]; field_simp
    rw [this]
    positivity
  have hx1 : x ≤ 1 := le_one hxy
  have hx0 : 0 ≤ x := by rw [hx]; positivity
  have hc1 : c ≤ 1 := le_one (by rw [add_comm]; exact hsc)
  have hcx : c * x ^ 3 ≤ 1 := by
    have : x ^ 3 ≤ 1 := pow_le_one₀ hx0 hx1
    exact mul_le_one₀ hc1 (pow_nonneg hx0 3) this
  have hPb : 5270000 ≤ P := by
    have b1 : 0 ≤ s * y ^ 3 / q := div_nonneg hsy hq.le
    have b2 : E * (s * y ^ 3 / q - c * x ^ 3) ≥ -(669439 / 100000000) := by
      have := mul_nonneg (show 0 ≤ E by linarith) b1
      have := mul_le_mul_of_nonneg_left hcx (show 0 ≤ E by linarith)
      linarith
    rw [hPe, hA]
    linarith
  have e1' : z + E * wgsA / q * y ^ 3 = P * s + Q * c := by
    rw [hP, hQ]; linear_combination (-(z + E * wgsA / q * y ^ 3)) * hsc
  have e2' : p - E * wgsA * x ^ 3 = P * c - Q * s := by
    rw [hP, hQ]; linear_combination (-(p - E * wgsA * x ^ 3)) * hsc
  refine ⟨arctan (Q / P), ?_, ?_⟩
  · rw [e1', e2']
    exact hturn P Q (by linarith)
  · refine le_trans (abs_arctan_le _) ?_
    have hκ : |E * h / R| ≤ 12564 / 10000000000000 * |h| := by
      rw [abs_div, abs_mul, abs_of_nonneg (by linarith : (0:ℝ) ≤ E), abs_of_pos hR0, div_le_iff₀ hR0]
      have : E * |h| ≤ 669439 / 100000000 * |h| := mul_le_mul_of_nonneg_right e2 (abs_nonneg _)
      have := mul_le_mul_of_nonneg_left hRb (abs_nonneg h)
      have := abs_nonneg h
      linarith
    apply tangent_le (e2 := E) (q := q) (w := w) (g := g) (κ := |E * h / R|) (t := |S * C|) hPb
      (by rw [hQe, hA]) (by linarith) e2 q0 hw0.le hw1 (abs_nonneg _) hκ hh ?_ (abs_nonneg _) ?_ (by positivity)
    · rw [← abs_mul]
      rw [sq_abs]
      exact hcub
    · rw [abs_mul, hS, hC, abs_div, abs_mul, abs_of_pos hq, abs_of_pos hw0, abs_of_pos (show 0 < c / w from div_pos hc hw0)]
      rw [show q * |s| / w * (c / w) * q = |s| * c * (q ^ 2 / w ^ 2) by ring]
      have : q ^ 2 / w ^ 2 ≤ 1 := by
        rw [div_le_one (by positivity)]
        exact pow_le_pow_left₀ hq.le hwq 2
      have h0 : 0 ≤ |s| * c := by positivity
      exact mul_le_of_le_one_right h0 this

/-- The height at a latitude that is off by a small angle. -/
theorem height_near {h c c' w w' δ D E s s' : ℝ} (hh : |h| ≤ 1000000) (hc : 0 < c) (hw : 9966 / 10000 ≤ w)
    (hw' : 9966 / 10000 ≤ w') (h1 : |c' - c| ≤ δ) (hs : |s' - s| ≤ δ) (hδ : δ ≤ D * c) (hc1 : c ≤ 1) (hD : D ≤ 1 / 10000000)
    (hE0 : 0 ≤ E) (hE : E ≤ 669439 / 100000000) (s1 : |s| ≤ 1) (s1' : |s'| ≤ 1)
    (hw2 : w ^ 2 = 1 - E * s ^ 2) (hw2' : w' ^ 2 = 1 - E * s' ^ 2) :
    |(6378137 / w + h) * c / c' - 6378137 / w' - h| ≤ 7500000 * D := by
  have hδ0 : 0 ≤ δ := le_trans (abs_nonneg _) h1
  have hD0 : 0 ≤ D := by
    by_contra h0
    have := mul_pos_of_neg_of_neg (not_le.1 h0) (neg_lt_zero.2 hc)
    linarith
  have hw0 : 0 < w := by linarith
  have hw0' : 0 < w' := by linarith
  have hDc : D * c ≤ c / 10000000 := by
    have := mul_le_mul_of_nonneg_right hD hc.le
    linarith
  have hDc' : D * c ≤ D := mul_le_of_le_one_right hD0 hc1
  obtain ⟨a1, a2⟩ := abs_le.1 h1
  have hc' : 9999999 / 10000000 * c ≤ c' := by linarith
  have hc0' : 0 < c' := by linarith
  obtain ⟨hh1, hh2⟩ := abs_le.1 hh
  have e : (6378137 / w + h) * c / c' - 6378137 / w' - h
      = (6378137 / w + h) * ((c - c') / c') + 6378137 * ((w' - w) / (w * w')) := by
    field_simp; ring
  have hN1 : 6378137 / w ≤ 6400000 := by rw [div_le_iff₀ hw0]; linarith
  have hN0 : 0 ≤ 6378137 / w := by positivity
  have b1 : |6378137 / w + h| ≤ 7400000 := abs_le.2 ⟨by linarith, by linarith⟩
  have b2 : |(c - c') / c'| ≤ 1000001 / 1000000 * D := by
    rw [abs_div, abs_of_pos hc0', div_le_iff₀ hc0', abs_sub_comm]
    have := mul_le_mul_of_nonneg_left hc' hD0
    nlinarith [mul_nonneg hD0 hc.le]
  have b3 : |w' - w| ≤ 1 / 100 * δ := by
    have k1 : (w' - w) * (w' + w) = E * ((s - s') * (s + s')) := by linear_combination hw2' - hw2
    have k2 : |(s - s') * (s + s')| ≤ 2 * δ := by
      rw [abs_mul, abs_sub_comm]
      have : |s + s'| ≤ 2 := le_trans (abs_add_le _ _) (by linarith)
      calc |s' - s| * |s + s'| ≤ δ * 2 := mul_le_mul hs this (abs_nonneg _) hδ0
        _ = 2 * δ := by ring
    have k3 : |w' - w| * (w' + w) ≤ 669439 / 100000000 * (2 * δ) := by
      rw [← abs_of_pos (show 0 < w' + w by linarith), ← abs_mul, k1, abs_mul, abs_of_nonneg hE0]
      exact mul_le_mul hE k2 (abs_nonneg _) (by norm_num)
    have k4 : |w' - w| * (19932 / 10000) ≤ |w' - w| * (w' + w) := mul_le_mul_of_nonneg_left (by linarith) (abs_nonneg _)
    linarith
  have b4 : |(w' - w) / (w * w')| ≤ 102 / 10000 * D := by
    have hww : 993 / 1000 ≤ w * w' := by
      calc (993:ℝ) / 1000 ≤ 9966 / 10000 * (9966 / 10000) := by norm_num
        _ ≤ _ := mul_le_mul hw hw' (by norm_num) hw0.le
    rw [abs_div, abs_of_pos (mul_pos hw0 hw0'), div_le_iff₀ (mul_pos hw0 hw0')]
    have := mul_le_mul_of_nonneg_left hww hD0
    linarith
  rw [e]
  refine le_trans (abs_add_le _ _) ?_
  rw [abs_mul, abs_mul, abs_of_pos (show (0:ℝ) < 6378137 by norm_num)]
  have := mul_le_mul b1 b2 (abs_nonneg _) (by norm_num)
  linarith

/-- The latitude in radians of a point of the model, and its cylindrical coordinates. -/
theorem cylinder {lat lon dep : ℝ} (h1 : -90 < lat) (h2 : lat < 90) (hd : |dep| ≤ 1000) :
    |lat * degToRad| < π / 2 ∧
    √((latlon2ecef lat lon dep).x ^ 2 + (latlon2ecef lat lon dep).y ^ 2)
      = (wgsA / √(1 - wgsE ^ 2 * sin (lat * degToRad) ^ 2) + -dep * 1000) * cos (lat * degToRad) ∧
    (latlon2ecef lat lon dep).z
      = (wgsA / √(1 - wgsE ^ 2 * sin (lat * degToRad) ^ 2) * (1 - wgsE ^ 2) + -dep * 1000) * sin (lat * degToRad) := by
  have hc := latlon_cos_pos h1 h2
  have hpi := Real.pi_pos
  obtain ⟨d1, d2⟩ := abs_le.1 hd
  have hN : primeVertical (sin (lat * degToRad)) = wgsA / √(1 - wgsE ^ 2 * sin (lat * degToRad) ^ 2) := by
    unfold primeVertical; congr 2; ring
  refine ⟨?_, ?_, ?_⟩
  · unfold degToRad
    rw [abs_lt]
    constructor <;> nlinarith
  · have h0 : 0 ≤ primeVertical (sin (lat * degToRad)) + -dep * 1000 := by
      have := primeVertical_ge (sin (lat * degToRad)) (Real.sin_sq_le_one _)
      unfold wgsA at this
      linarith
    rw [← hN, Real.sqrt_eq_iff_eq_sq (by positivity) (by positivity)]
    simp only [latlon2ecef]
    linear_combination ((primeVertical (sin (lat * degToRad)) + -dep * 1000) * cos (lat * degToRad)) ^ 2 * Real.sin_sq_add_cos_sq (lon * degToRad)
  · simp only [latlon2ecef, hN]
    ring

theorem third {s c : ℝ} (h : s ^ 2 + c ^ 2 = 1) (hc : 0 ≤ c) :
    (|s| * c) ^ 3 ≤ 1 / 8 ∧ (|s| * c) ^ 3 ≤ c / 4 := by
  have hs : |s| ^ 2 + c ^ 2 = 1 := by rw [sq_abs]; exact h
  have h0 := abs_nonneg s
  generalize |s| = t at *
  have h1 : t * c ≤ 1 / 2 := by nlinarith [sq_nonneg (t - c)]
  have h2 : 0 ≤ t * c := by positivity
  have h3 : (t * c) ^ 2 ≤ 1 / 4 := by nlinarith
  have h4 : t ≤ 1 := le_one hs
  have h5 : t * c ≤ c := mul_le_of_le_one_left hc h4
  constructor
  · nlinarith
  · calc (t * c) ^ 3 = (t * c) ^ 2 * (t * c) := by ring
      _ ≤ 1 / 4 * c := mul_le_mul h3 h5 h2 (by norm_num)
      _ = c / 4 := by ring

/-- The height near the axis. -/
theorem polar_height {dep E q t c w : ℝ} (hd : |dep| ≤ 1000) (hE0 : 669437 / 100000000 ≤ E) (hE : E ≤ 669439 / 100000000)
    (q0 : 9966 / 10000 ≤ q) (q1 : q ≤ 1) (hq : q ^ 2 = 1 - E) (h : t ^ 2 + c ^ 2 = 1) (ht : 0 ≤ t)
    (hw0 : 0 ≤ w) (hw : w ^ 2 = 1 - E * t ^ 2) (hp : ((6378137 / w + -dep * 1000) * c) ^ 2 ≤ 2) :
    |(|6378137 / w * (1 - E) + -dep * 1000| * t - 6378137 * q - -dep * 1000)| ≤ 1 / 10 ^ 9 * 1000 := by
  obtain ⟨d1, d2⟩ := abs_le.1 hd
  have hw2 : w ^ 2 = q ^ 2 + E * c ^ 2 := by rw [hw, hq]; linear_combination -E * h
  have hEc : 0 ≤ E * c ^ 2 := mul_nonneg (by linarith) (sq_nonneg c)
  have hqw : q ≤ w := (sq_le_sq₀ (by linarith) hw0).1 (by linarith)
  have ht2 : 0 ≤ E * t ^ 2 := mul_nonneg (by linarith) (sq_nonneg t)
  have hw1 : w ≤ 1 := (sq_le_sq₀ hw0 (by norm_num)).1 (by linarith)
  have hwp : 0 < w := by linarith
  have hN : 6378137 ≤ 6378137 / w := by rw [le_div_iff₀ hwp]; linarith
  have hN1 : 6378137 / w ≤ 6400000 := by rw [div_le_iff₀ hwp]; linarith
  have hc2 : c ^ 2 ≤ 7 / 10 ^ 14 := by
    rw [mul_pow] at hp
    have : (5378137:ℝ) ^ 2 ≤ (6378137 / w + -dep * 1000) ^ 2 := pow_le_pow_left₀ (by norm_num) (by linarith) 2
    have := mul_le_mul_of_nonneg_right this (sq_nonneg c)
    linarith
  have ht1 : t ≤ 1 := le_one h
  have ht3 : 1 - t ≤ c ^ 2 := by nlinarith
  have hm1 : 6378137 / w * (1 - E) ≤ 6400000 := by
    have : 6378137 / w * (1 - E) ≤ 6378137 / w * 1 := mul_le_mul_of_nonneg_left (by linarith) (by linarith)
    linarith
  have hm0 : 6330000 ≤ 6378137 / w * (1 - E) := by
    have : 6378137 * (1 - 669439 / 100000000) ≤ 6378137 / w * (1 - E) := mul_le_mul hN (by linarith) (by norm_num) (by linarith)
    linarith
  have hdiff : 6378137 / w * (1 - E) - 6378137 * q = -(6378137 * q * (E * c ^ 2) / (w * (w + q))) := by
    rw [← hq]
    have : 0 < w + q := by linarith
    field_simp
    linear_combination -hw2
  have hd2 : 6378137 * q * (E * c ^ 2) / (w * (w + q)) ≤ 50000 * c ^ 2 := by
    have hpos : 0 < w * (w + q) := mul_pos hwp (by linarith)
    rw [div_le_iff₀ hpos]
    have k1 : 1 ≤ w * (w + q) := by nlinarith
    have k2 : q * (E * c ^ 2) ≤ E * c ^ 2 := mul_le_of_le_one_left hEc q1
    have k3 : E * c ^ 2 ≤ 669439 / 100000000 * c ^ 2 := mul_le_mul_of_nonneg_right hE (sq_nonneg c)
    have k4 := mul_le_mul_of_nonneg_left k1 (sq_nonneg c)
    linarith
  have hd3 : 0 ≤ 6378137 * q * (E * c ^ 2) / (w * (w + q)) :=
    div_nonneg (mul_nonneg (by linarith) hEc) (mul_nonneg hw0 (by linarith))
  rw [abs_of_nonneg (by linarith : (0:ℝ) ≤ 6378137 / w * (1 - E) + -dep * 1000)]
  set m := 6378137 / w * (1 - E) with hm
  clear_value m
  have k5 : (m + -dep * 1000) * (1 - t) ≤ 7400000 * c ^ 2 := mul_le_mul (by linarith) ht3 (by linarith) (by norm_num)
  have k6 : 0 ≤ (m + -dep * 1000) * (1 - t) := mul_nonneg (by linarith) (by linarith)
  rw [abs_le]
  constructor <;> linarith

end Bowring

/-- **C204.** Turning a point with depth up to 1000 km into earth-centred coordinates and back gives its
longitude, its latitude up to `3e-13 dep²` degrees and, at least a metre from the axis of the Earth, its depth up
to `6e-11 dep²` kilometres. -/
theorem C204_roundtrip {lat lon dep : ℝ} (h1 : -90 < lat) (h2 : lat < 90) (h3 : -180 < lon) (h4 : lon ≤ 180)
    (hd : |dep| ≤ 1000) :
    (ecef2latlon (latlon2ecef lat lon dep)).2.1 = lon ∧
    |(ecef2latlon (latlon2ecef lat lon dep)).1 - lat| ≤ 3 / 10 ^ 13 * dep ^ 2 ∧
    (1 ≤ |(latlon2ecef lat lon dep).x| ∨ 1 ≤ |(latlon2ecef lat lon dep).y| →
      |(ecef2latlon (latlon2ecef lat lon dep)).2.2 - dep| ≤ 6 / 10 ^ 11 * dep ^ 2) := by
  obtain ⟨d1, d2⟩ := abs_le.1 hd
  obtain ⟨c1, c2, c3⟩ := Bowring.cylinder (lon := lon) h1 h2 hd
  have hc := latlon_cos_pos h1 h2
  have hh : |-dep * 1000| ≤ 1000000 := by rw [abs_mul, abs_neg, abs_of_pos (show (0:ℝ) < 1000 by norm_num)]; linarith
  obtain ⟨δ, k1, k2⟩ := Bowring.latitude c1 hh c2 c3
  have hlon := C59_longitude.2.1 lat lon dep h1 h2 h3 h4 (by linarith)
  obtain ⟨t1, t2⟩ := Bowring.third (Real.sin_sq_add_cos_sq (lat * degToRad)) hc.le
  have hd0 : 0 ≤ dep ^ 2 := sq_nonneg _
  have hdb : dep ^ 2 ≤ 1000000 := by nlinarith
  rw [show (-dep * 1000) ^ 2 = 1000000 * dep ^ 2 by ring] at k2
  have hpi := Real.pi_pos
  refine ⟨hlon, ?_, ?_⟩
  · have e : (ecef2latlon (latlon2ecef lat lon dep)).1 - lat = δ * radToDeg := by
      show latRad _ * radToDeg - lat = _
      rw [k1, add_mul]
      have : lat * degToRad * radToDeg = lat := by unfold degToRad radToDeg; field_simp
      linarith
    rw [e, abs_mul]
    have hr : |radToDeg| ≤ 60 := by
      unfold radToDeg
      rw [abs_of_pos (by positivity), div_le_iff₀ hpi]
      linarith [Real.pi_gt_d2]
    have hδ : |δ| ≤ 3 / 10 ^ 20 * (1000000 * dep ^ 2) * (1 / 8) :=
      le_trans k2 (mul_le_mul_of_nonneg_left t1 (by positivity))
    refine le_trans (mul_le_mul hδ hr (abs_nonneg _) (by positivity)) ?_
    linarith
  · intro hax
    have hE := Bowring.square
    have hf := Bowring.flat_bounds
    have hfs := Bowring.flat_sq
    have hroot : ∀ θ : ℝ, 9966 / 10000 ≤ √(1 - wgsE ^ 2 * sin θ ^ 2) ∧ √(1 - wgsE ^ 2 * sin θ ^ 2) ^ 2 = 1 - wgsE ^ 2 * sin θ ^ 2 := by
      intro θ
      have : wgsE ^ 2 * sin θ ^ 2 ≤ wgsE ^ 2 := mul_le_of_le_one_right (sq_nonneg _) (Real.sin_sq_le_one θ)
      refine ⟨?_, Real.sq_sqrt (by linarith [hE.2])⟩
      apply Real.le_sqrt_of_sq_le
      linarith [hE.2]
    set D := 3 / 10 ^ 20 * (1000000 * dep ^ 2) / 4 with hD
    have hδc : |δ| ≤ D * cos (lat * degToRad) := by
      refine le_trans k2 (le_trans (mul_le_mul_of_nonneg_left t2 (by positivity)) ?_)
      rw [hD]; linarith
    have hnear := Bowring.height_near (c' := cos (lat * degToRad + δ)) (s := sin (lat * degToRad)) (s' := sin (lat * degToRad + δ))
      hh hc (hroot (lat * degToRad)).1 (hroot (lat * degToRad + δ)).1
      (by have := Real.abs_cos_sub_cos_le (lat * degToRad + δ) (lat * degToRad); rwa [add_sub_cancel_left] at this)
      (by have := Real.abs_sin_sub_sin_le (lat * degToRad + δ) (lat * degToRad); rwa [add_sub_cancel_left] at this)
      hδc (Real.cos_le_one _) (by rw [hD]; linarith) (sq_nonneg wgsE) hE.2 (Real.abs_sin_le_one _) (Real.abs_sin_le_one _)
      (hroot (lat * degToRad)).2 (hroot (lat * degToRad + δ)).2
    have e : (ecef2latlon (latlon2ecef lat lon dep)).2.2 - dep
        = -((6378137 / √(1 - wgsE ^ 2 * sin (lat * degToRad) ^ 2) + -dep * 1000) * cos (lat * degToRad) / cos (lat * degToRad + δ)
          - 6378137 / √(1 - wgsE ^ 2 * sin (lat * degToRad + δ) ^ 2) - -dep * 1000) / 1000 := by
      show -altitude _ / 1000 - dep = _
      unfold altitude
      rw [if_neg (by rintro ⟨a, b⟩; rcases hax with h | h <;> linarith), c2, k1, show wgsA = 6378137 from rfl]
      ring
    rw [e, abs_div, abs_neg, abs_of_pos (show (0:ℝ) < 1000 by norm_num), div_le_iff₀ (by norm_num)]
    refine le_trans hnear ?_
    rw [hD]
    linarith

/-- **C204.** Within a metre of the axis the depth is right to a thousandth of a millimetre. -/
theorem C204_axis {lat lon dep : ℝ} (h1 : -90 < lat) (h2 : lat < 90) (hd : |dep| ≤ 1000)
    (hx : |(latlon2ecef lat lon dep).x| < 1) (hy : |(latlon2ecef lat lon dep).y| < 1) :
    |(ecef2latlon (latlon2ecef lat lon dep)).2.2 - dep| ≤ 1 / 10 ^ 9 := by
  obtain ⟨d1, d2⟩ := abs_le.1 hd
  obtain ⟨c1, c2, c3⟩ := Bowring.cylinder (lon := lon) h1 h2 hd
  have hc := latlon_cos_pos h1 h2
  have hE := Bowring.square
  have hf := Bowring.flat_bounds
  have hfs := Bowring.flat_sq
  have hsc := Real.sin_sq_add_cos_sq (lat * degToRad)
  have hxy : (latlon2ecef lat lon dep).x ^ 2 + (latlon2ecef lat lon dep).y ^ 2 ≤ 2 := by
    have := (sq_lt_one_iff_abs_lt_one _).2 hx
    have := (sq_lt_one_iff_abs_lt_one _).2 hy
    linarith
  have hp2 := Real.sq_sqrt (show 0 ≤ (latlon2ecef lat lon dep).x ^ 2 + (latlon2ecef lat lon dep).y ^ 2 by positivity)
  have e : (ecef2latlon (latlon2ecef lat lon dep)).2.2 - dep
      = -(|(latlon2ecef lat lon dep).z| - wgsB - -dep * 1000) / 1000 := by
    show -altitude _ / 1000 - dep = _
    unfold altitude
    rw [if_pos ⟨hx, hy⟩]
    ring
  have hB : wgsB = 6378137 * Bowring.flat := by
    unfold Bowring.flat; rw [show wgsA = 6378137 from rfl]; field_simp
  rw [e, abs_div, abs_neg, abs_of_pos (show (0:ℝ) < 1000 by norm_num), div_le_iff₀ (by norm_num), c3, hB, abs_mul]
  rw [← hp2, c2] at hxy
  rw [show wgsA = 6378137 from rfl] at *
  clear e hp2 c1 c2 c3 hx hy hB
  set w := √(1 - wgsE ^ 2 * sin (lat * degToRad) ^ 2) with hw
  have hs1 := Real.sin_sq_le_one (lat * degToRad)
  have hw2 : w ^ 2 = 1 - wgsE ^ 2 * sin (lat * degToRad) ^ 2 := Real.sq_sqrt (by nlinarith)
  have hw0 : 0 ≤ w := Real.sqrt_nonneg _
  clear_value w
  have ht : |sin (lat * degToRad)| ^ 2 + cos (lat * degToRad) ^ 2 = 1 := by rw [sq_abs]; exact hsc
  have ht0 := abs_nonneg (sin (lat * degToRad))
  rw [← sq_abs (sin _)] at hw2
  generalize |sin (lat * degToRad)| = t at *
  generalize cos (lat * degToRad) = c at *
  generalize wgsE ^ 2 = E at *
  generalize Bowring.flat = q at *
  exact Bowring.polar_height hd hE.1 hE.2 hf.1 hf.2 hfs ht ht0 hw0 hw2 hxy

/-- **C204.** For every point below or above the ellipsoid, as the normal of the ellipsoid defines it. -/
theorem C204_geodetic {lat lon dep x y z : ℝ} (h1 : -90 < lat) (h2 : lat < 90) (h3 : -180 < lon) (h4 : lon ≤ 180)
    (hd : |dep| ≤ 1000) (h : Spec.Geodetic lat lon dep x y z) :
    (ecef2latlon ⟨x, y, z⟩).2.1 = lon ∧ |(ecef2latlon ⟨x, y, z⟩).1 - lat| ≤ 3 / 10 ^ 13 * dep ^ 2 ∧
    (1 ≤ |x| ∨ 1 ≤ |y| → |(ecef2latlon ⟨x, y, z⟩).2.2 - dep| ≤ 6 / 10 ^ 11 * dep ^ 2) ∧
    (|x| < 1 → |y| < 1 → |(ecef2latlon ⟨x, y, z⟩).2.2 - dep| ≤ 1 / 10 ^ 9) := by
  have e : latlon2ecef lat lon dep = ⟨x, y, z⟩ := by
    obtain ⟨rfl, rfl, rfl⟩ := Ecef.geodetic_eq h
    have hN : ∀ S, primeVertical S = Ecef.radius S := by
      intro S
      unfold primeVertical Ecef.radius Spec.equatorial Ecef.e2 wgsA wgsE
      congr 2
      ring
    have he : wgsE * wgsE = Ecef.e2 := by unfold wgsE Ecef.e2; norm_num
    simp only [latlon2ecef, hN, he, degToRad, Oq.radians]
  have r := C204_roundtrip h1 h2 h3 h4 hd
  have a := C204_axis (lon := lon) h1 h2 hd
  rw [e] at r a
  exact ⟨r.1, r.2.1, r.2.2, a⟩

/-- The hypotheses hold for a point 30 km below San Francisco, and there are points over the ellipsoid for all of them. -/
example : |(ecef2latlon (latlon2ecef 37.75 (-122.5) 30)).1 - 37.75| ≤ 27 / 10 ^ 11 := by
  have := (C204_roundtrip (lat := 37.75) (lon := -122.5) (dep := 30) (by norm_num) (by norm_num) (by norm_num) (by norm_num) (by norm_num)).2.1
  norm_num at this ⊢
  exact this

example : ∃ x y z, Spec.Geodetic 37.75 (-122.5) 30 x y z ∧ |(ecef2latlon ⟨x, y, z⟩).1 - 37.75| ≤ 3 / 10 ^ 13 * 30 ^ 2 := by
  obtain ⟨x, y, z, h⟩ := Ecef.geodetic_exists 37.75 (-122.5) 30
  exact ⟨x, y, z, h, (C204_geodetic (by norm_num) (by norm_num) (by norm_num) (by norm_num) (by norm_num) h).2.1⟩

/-- A point a tenth of a metre from the axis. -/
example : |(latlon2ecef 89.999999 0 0).x| < 1 ∧ |(latlon2ecef 89.999999 0 0).y| < 1 := by
  have hc := latlon_cos_pos (lat := 89.999999) (by norm_num) (by norm_num)
  have hc1 : cos (89.999999 * degToRad) ≤ 1 / 10000000 := by
    rw [← Real.sin_pi_div_two_sub]
    have hpi := Real.pi_lt_d2
    have h0 : 0 ≤ π / 2 - 89.999999 * degToRad := by unfold degToRad; nlinarith [Real.pi_pos]
    refine le_trans (Real.sin_le h0) ?_
    unfold degToRad
    nlinarith
  have hE := Bowring.square
  have hN : 0 ≤ primeVertical (sin (89.999999 * degToRad)) ∧ primeVertical (sin (89.999999 * degToRad)) ≤ 6500000 := by
    unfold primeVertical
    have h1 := Real.sin_sq_le_one (89.999999 * degToRad)
    have h2 : 0.99 ≤ √(1 - wgsE * wgsE * sin (89.999999 * degToRad) * sin (89.999999 * degToRad)) := by
      apply Real.le_sqrt_of_sq_le
      nlinarith
    have h3 : (0:ℝ) < √(1 - wgsE * wgsE * sin (89.999999 * degToRad) * sin (89.999999 * degToRad)) :=
      lt_of_lt_of_le (by norm_num) h2
    refine ⟨div_nonneg wgsA_pos.le h3.le, ?_⟩
    rw [div_le_iff₀ h3]
    unfold wgsA
    norm_num at h2 ⊢
    linarith
  simp only [latlon2ecef, zero_mul, neg_zero, add_zero, Real.cos_zero, Real.sin_zero, mul_one, mul_zero, abs_zero]
  refine ⟨?_, by norm_num⟩
  rw [abs_of_nonneg (mul_nonneg hN.1 hc.le)]
  calc _ ≤ 6500000 * (1 / 10000000 : ℝ) := mul_le_mul hN.2 hc1 hc.le (by norm_num)
    _ < 1 := by norm_num

end Verif.Props
