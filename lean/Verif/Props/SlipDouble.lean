import Verif.Model.SlipDouble
import Verif.Props.OqDouble

/-!
# Local slip vectors in binary arithmetic

C229.
-/

namespace Verif.Props
open Verif.Spec
open Verif.Dbl

/-- C229: the dip-slip and strike-slip vectors add up to the slip vector, to the last bit, for all angles and whatever the library computes; the strike-slip vector is level. -/
theorem C229_sum (L : MathLib) (strike dip rake : ℚ) :
    (localSlipDS L strike dip rake).add (localSlipSS L strike dip rake) = localSlip L strike dip rake ∧ (localSlipSS L strike dip rake).z = 0 := by
  refine ⟨?_, rfl⟩
  simp only [localSlipDS, localSlipSS, localSlip, D3.add, add_zero]
  rw [rnd_double (rnd_isDouble (L.sin (npRadians rake) * L.sin (npRadians dip)))]

open Geo in
/-- C229: the components of the three vectors are those of the formulas with exact angles, up to 60 `u`, for angles of up to a full turn. -/
theorem C229_near {u : ℝ} (hu : Precise u) {L : MathLib} (hL : RightTo u L) {strike dip rake : ℚ} (hs : |strike| ≤ 360) (hd : |dip| ≤ 360) (hr : |rake| ≤ 360) :
    (|((localSlipDS L strike dip rake).x : ℝ) - Real.sin (rad rake) * Real.cos (rad dip) * Real.cos (rad strike)| ≤ 60 * u ∧
      |((localSlipDS L strike dip rake).y : ℝ) - Real.sin (rad rake) * Real.cos (rad dip) * Real.sin (rad strike)| ≤ 60 * u ∧
      |((localSlipDS L strike dip rake).z : ℝ) - Real.sin (rad rake) * Real.sin (rad dip)| ≤ 60 * u) ∧
    (|((localSlipSS L strike dip rake).x : ℝ) - Real.cos (rad rake) * Real.sin (rad strike)| ≤ 60 * u ∧
      |((localSlipSS L strike dip rake).y : ℝ) - Real.cos (rad rake) * Real.cos (rad strike)| ≤ 60 * u) ∧
    |((localSlip L strike dip rake).x : ℝ) - (Real.sin (rad rake) * Real.cos (rad dip) * Real.cos (rad strike) + Real.cos (rad rake) * Real.sin (rad strike))| ≤ 80 * u ∧
    |((localSlip L strike dip rake).y : ℝ) - (Real.sin (rad rake) * Real.cos (rad dip) * Real.sin (rad strike) + Real.cos (rad rake) * Real.cos (rad strike))| ≤ 80 * u ∧
    |((localSlip L strike dip rake).z : ℝ) - Real.sin (rad rake) * Real.sin (rad dip)| ≤ 60 * u := by
  obtain ⟨u0, u1, τ0, τ2, τ1, τu⟩ := tiny hu
  have hp' := Real.pi_lt_d2
  have ang : ∀ {x : ℚ}, |x| ≤ 360 → |(npRadians x : ℝ) - rad x| ≤ 11 * u ∧ |npRadians x| ≤ 10 := by
    intro x hx
    have hx' : |(x : ℝ)| ≤ 360 := by exact_mod_cast hx
    have e : |(npRadians x : ℝ) - rad x| ≤ 11 * u := (angle_near hu hx' (by norm_num)).trans (by linarith)
    refine ⟨e, ?_⟩
    have b : |rad x| ≤ 7 := by
      unfold rad
      rw [abs_mul, abs_of_pos (by positivity : 0 < Real.pi / 180)]
      have := mul_le_mul hx' (by linarith : Real.pi / 180 ≤ 315 / 100 / 180) (by positivity) (by norm_num)
      linarith
    have : |(npRadians x : ℝ)| ≤ 10 := by
      have := abs_sub_abs_le_abs_sub (npRadians x : ℝ) (rad x)
      linarith
    exact_mod_cast this
  have one : ∀ {a b : ℝ}, |a| ≤ 1 → |b| ≤ 1 → |a * b| ≤ 1 := fun ha hb => by rw [abs_mul]; exact mul_le_one₀ ha (abs_nonneg _) hb
  have S := @Real.abs_sin_le_one
  have C := @Real.abs_cos_le_one
  have ss := sine_near u0 hL (ang hs).2 (ang hs).1
  have cs := cosine_near u0 hL (ang hs).2 (ang hs).1
  have sd := sine_near u0 hL (ang hd).2 (ang hd).1
  have cd := cosine_near u0 hL (ang hd).2 (ang hd).1
  have sr := sine_near u0 hL (ang hr).2 (ang hr).1
  have cr := cosine_near u0 hL (ang hr).2 (ang hr).1
  have p := product_near hu sr cd (S _) (C _) (by linarith) (by linarith)
  have px := product_near hu p cs (one (S _) (C _)) (C _) (by linarith) (by linarith)
  have py := product_near hu p ss (one (S _) (C _)) (S _) (by linarith) (by linarith)
  have pz := product_near hu sr sd (S _) (S _) (by linarith) (by linarith)
  have qx := product_near hu cr ss (C _) (S _) (by linarith) (by linarith)
  have qy := product_near hu cr cs (C _) (C _) (by linarith) (by linarith)
  have add : ∀ {a b : ℚ} {A B : ℝ}, |A| ≤ 1 → |B| ≤ 1 → |(a : ℝ) - A| ≤ 41 * u → |(b : ℝ) - B| ≤ 26 * u → |((rnd (a + b) : ℚ) : ℝ) - (A + B)| ≤ 80 * u := by
    intro a b A B hA hB ha hb
    have r := rnd_real hu (a + b)
    push_cast at r
    have e : |(a : ℝ) + b - (A + B)| ≤ 67 * u := by
      rw [add_sub_add_comm]
      exact (abs_add_le _ _).trans (by linarith)
    have m : |(a : ℝ) + b| ≤ 3 := by
      have h1 := abs_sub_abs_le_abs_sub ((a : ℝ) + b) (A + B)
      have h2 := abs_add_le A B
      linarith
    have := mul_le_mul_of_nonneg_left m u0.le
    have := abs_sub_le ((rnd (a + b) : ℚ) : ℝ) ((a : ℝ) + b) (A + B)
    linarith
  refine ⟨⟨px.trans (by linarith), py.trans (by linarith), pz.trans (by linarith)⟩, ⟨qx.trans (by linarith), qy.trans (by linarith)⟩, ?_, ?_, pz.trans (by linarith)⟩
  · exact add (one (one (S _) (C _)) (C _)) (one (C _) (S _)) (px.trans (by linarith)) (qx.trans (by linarith))
  · exact add (one (one (S _) (C _)) (S _)) (one (C _) (C _)) (py.trans (by linarith)) (qy.trans (by linarith))

/-- C66 violated also in binary arithmetic: the slip vector is not a unit vector. For strike 45, dip 0 and rake 45 its length is more than 1.4 with every precise library. -/
theorem C66_binary_violated {u : ℝ} (hu : Precise u) {L : MathLib} (hL : RightTo u L) :
    19 / 10 ≤ ((localSlip L 45 0 45).x : ℝ) ^ 2 + ((localSlip L 45 0 45).y : ℝ) ^ 2 + ((localSlip L 45 0 45).z : ℝ) ^ 2 := by
  obtain ⟨u0, u1, -⟩ := Geo.tiny hu
  obtain ⟨-, -, hx, hy, -⟩ := C229_near hu hL (strike := 45) (dip := 0) (rake := 45) (by norm_num [abs_le]) (by norm_num) (by norm_num [abs_le])
  have e : rad ((45 : ℚ) : ℝ) = Real.pi / 4 := by unfold rad; push_cast; ring
  have z : rad ((0 : ℚ) : ℝ) = 0 := by simp [rad]
  have sq : (√2 / 2 : ℝ) * (√2 / 2) = 1 / 2 := by
    have := Real.mul_self_sqrt (by norm_num : (0 : ℝ) ≤ 2)
    linarith
  rw [e, z, Real.cos_zero, Real.sin_pi_div_four, Real.cos_pi_div_four, mul_one, sq] at hx hy
  have x0 := (abs_le.1 hx).1
  have y0 := (abs_le.1 hy).1
  nlinarith [sq_nonneg ((localSlip L 45 0 45).z : ℝ)]

/-- There is such a library. -/
example : 19 / 10 ≤ ((localSlip Geo.someLib 45 0 45).x : ℝ) ^ 2 + ((localSlip Geo.someLib 45 0 45).y : ℝ) ^ 2 + ((localSlip Geo.someLib 45 0 45).z : ℝ) ^ 2 :=
  C66_binary_violated Geo.precise49 Geo.someLib_right

end Verif.Props
