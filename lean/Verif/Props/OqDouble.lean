import Mathlib.Analysis.Real.Pi.Bounds
import Mathlib.Analysis.SpecialFunctions.Trigonometric.InverseDeriv
import Mathlib.Analysis.Calculus.MeanValue
import Verif.Spec.OqDouble
import Verif.Props.Openquake
import Verif.Props.VectorDouble

/-!
# C200: great-circle distances in binary arithmetic
-/

namespace Verif.Props
open Verif.Dbl Verif.Spec

namespace Geo

/-! ### Real numbers -/

theorem root_le {a b : ℝ} (hb : 0 ≤ b) (h : a ≤ b ^ 2) : √a ≤ b := Real.sqrt_le_iff.2 ⟨hb, h⟩

theorem root_step (x y m : ℝ) (hm : 0 ≤ m) : |√(x ^ 2 + m) - √(y ^ 2 + m)| ≤ |x - y| := by
  have key : ∀ x y : ℝ, √(x ^ 2 + m) ≤ √(y ^ 2 + m) + |x - y| := by
    intro x y
    have hy : |y| ≤ √(y ^ 2 + m) := Real.le_sqrt_of_sq_le (by rw [sq_abs]; linarith)
    have hs := Real.sq_sqrt (show 0 ≤ y ^ 2 + m by positivity)
    refine root_le (by positivity) ?_
    have h1 : 0 ≤ |x - y| := abs_nonneg _
    have h2 : |x| ≤ |y| + |x - y| := by
      have := abs_add_le y (x - y)
      rwa [add_sub_cancel] at this
    have h3 : x ^ 2 ≤ (|y| + |x - y|) ^ 2 := by rw [← sq_abs x]; exact pow_le_pow_left₀ (abs_nonneg _) h2 2
    have h4 : |y| ^ 2 = y ^ 2 := sq_abs y
    nlinarith [mul_le_mul_of_nonneg_right hy h1]
  rw [abs_le]
  have := key x y
  have := key y x
  rw [abs_sub_comm y x] at this
  constructor <;> linarith

/-- The effect of an error in the product of the cosines. -/
theorem root_product {S T C1 C2 w k : ℝ} (hk : 0 ≤ k) (h1 : 0 ≤ C1) (h2 : 0 ≤ C2) (hT : |T| ≤ 1) (hd : |C1 - C2| ≤ 2 * |S|)
    (hw : |w - C1 * C2| ≤ k * (C1 + C2) + k ^ 2) : |√(S ^ 2 + w * T ^ 2) - √(S ^ 2 + C1 * C2 * T ^ 2)| ≤ 5 * k := by
  set A := √(S ^ 2 + C1 * C2 * T ^ 2) with hA
  have hA0 : 0 ≤ A := Real.sqrt_nonneg _
  have hA2 : A ^ 2 = S ^ 2 + C1 * C2 * T ^ 2 := Real.sq_sqrt (by positivity)
  have hSA : |S| ≤ A := Real.le_sqrt_of_sq_le (by rw [sq_abs]; have : 0 ≤ C1 * C2 * T ^ 2 := by positivity
                                                  linarith)
  have hm : min C1 C2 * |T| ≤ A := by
    apply Real.le_sqrt_of_sq_le
    have e : (min C1 C2 * |T|) ^ 2 = min C1 C2 * min C1 C2 * T ^ 2 := by rw [mul_pow, sq_abs]; ring
    have : min C1 C2 * min C1 C2 ≤ C1 * C2 := mul_le_mul (min_le_left _ _) (min_le_right _ _) (le_min h1 h2) h1
    rw [e]
    nlinarith [sq_nonneg S, sq_nonneg T, mul_le_mul_of_nonneg_right this (sq_nonneg T)]
  have hT2 : T ^ 2 ≤ |T| := by
    rw [← sq_abs]; nlinarith [abs_nonneg T]
  have hT1 : T ^ 2 ≤ 1 := by linarith
  have hsum : (C1 + C2) * T ^ 2 ≤ 4 * A := by
    have hmm : C1 + C2 ≤ 2 * min C1 C2 + 2 * |S| := by
      rcases le_total C1 C2 with h | h
      · rw [min_eq_left h]; have := (abs_le.1 hd).1; linarith
      · rw [min_eq_right h]; have := (abs_le.1 hd).2; linarith
    have hmin : 0 ≤ min C1 C2 := le_min h1 h2
    calc (C1 + C2) * T ^ 2 ≤ (2 * min C1 C2 + 2 * |S|) * T ^ 2 := mul_le_mul_of_nonneg_right hmm (sq_nonneg T)
      _ = 2 * (min C1 C2 * T ^ 2) + 2 * (|S| * T ^ 2) := by ring
      _ ≤ 2 * (min C1 C2 * |T|) + 2 * (|S| * 1) := by
          have := mul_le_mul_of_nonneg_left hT2 hmin
          have := mul_le_mul_of_nonneg_left hT1 (abs_nonneg S)
          linarith
      _ ≤ 4 * A := by linarith
  have hdiff : |(S ^ 2 + w * T ^ 2) - A ^ 2| ≤ 4 * k * A + k ^ 2 := by
    rw [hA2, show S ^ 2 + w * T ^ 2 - (S ^ 2 + C1 * C2 * T ^ 2) = (w - C1 * C2) * T ^ 2 by ring, abs_mul, abs_of_nonneg (sq_nonneg T)]
    calc |w - C1 * C2| * T ^ 2 ≤ (k * (C1 + C2) + k ^ 2) * T ^ 2 := mul_le_mul_of_nonneg_right hw (sq_nonneg T)
      _ = k * ((C1 + C2) * T ^ 2) + k ^ 2 * T ^ 2 := by ring
      _ ≤ k * (4 * A) + k ^ 2 * 1 := add_le_add (mul_le_mul_of_nonneg_left hsum hk) (mul_le_mul_of_nonneg_left hT1 (sq_nonneg k))
      _ = _ := by ring
  obtain ⟨l1, l2⟩ := abs_le.1 hdiff
  rw [abs_le]
  constructor
  · by_cases hs : A ≤ 5 * k
    · have := Real.sqrt_nonneg (S ^ 2 + w * T ^ 2)
      linarith
    · have : A - 5 * k ≤ √(S ^ 2 + w * T ^ 2) := Real.le_sqrt_of_sq_le (by nlinarith)
      linarith
  · have : √(S ^ 2 + w * T ^ 2) ≤ A + 5 * k := root_le (by positivity) (by nlinarith)
    linarith

theorem root_main {u S T C1 C2 s t c1 c2 : ℝ} (hu : 0 ≤ u) (hu1 : u ≤ 1 / 1000) (hC1 : 0 ≤ C1) (hC2 : 0 ≤ C2) (hC1' : C1 ≤ 1) (hC2' : C2 ≤ 1) (hT : |T| ≤ 1)
    (hd : |C1 - C2| ≤ 2 * |S|) (hc1 : 0 ≤ c1) (hc2 : 0 ≤ c2) (es : |s - S| ≤ 8 * u) (et : |t - T| ≤ 15 * u) (e1 : |c1 - C1| ≤ 9 / 2 * u) (e2 : |c2 - C2| ≤ 9 / 2 * u) :
    |√(s ^ 2 + c1 * c2 * t ^ 2) - √(S ^ 2 + C1 * C2 * T ^ 2)| ≤ 46 * u := by
  have hw0 : 0 ≤ c1 * c2 := mul_nonneg hc1 hc2
  have hb1 : c1 ≤ 1 + 9 / 2 * u := by have := (abs_le.1 e1).2; linarith
  have hb2 : c2 ≤ 1 + 9 / 2 * u := by have := (abs_le.1 e2).2; linarith
  have k1 : |√(s ^ 2 + c1 * c2 * t ^ 2) - √(S ^ 2 + c1 * c2 * t ^ 2)| ≤ 8 * u := le_trans (root_step s S _ (by positivity)) es
  have k2 : |√(S ^ 2 + c1 * c2 * t ^ 2) - √(S ^ 2 + c1 * c2 * T ^ 2)| ≤ (1 + 9 / 2 * u) * (15 * u) := by
    have e : ∀ x : ℝ, S ^ 2 + c1 * c2 * x ^ 2 = (√(c1 * c2) * x) ^ 2 + S ^ 2 := by
      intro x; rw [mul_pow, Real.sq_sqrt hw0]; ring
    rw [e, e]
    refine le_trans (root_step _ _ _ (sq_nonneg S)) ?_
    rw [← mul_sub, abs_mul, abs_of_nonneg (Real.sqrt_nonneg _)]
    refine mul_le_mul ?_ et (abs_nonneg _) (by positivity)
    refine root_le (by positivity) ?_
    rw [sq]
    exact mul_le_mul hb1 hb2 hc2 (by positivity)
  have k3 : |√(S ^ 2 + c1 * c2 * T ^ 2) - √(S ^ 2 + C1 * C2 * T ^ 2)| ≤ 5 * (9 / 2 * u) := by
    refine root_product (by positivity) hC1 hC2 hT hd ?_
    rw [show c1 * c2 - C1 * C2 = (c1 - C1) * C2 + C1 * (c2 - C2) + (c1 - C1) * (c2 - C2) by ring]
    refine le_trans (abs_add_le _ _) ?_
    refine le_trans (add_le_add_left (abs_add_le _ _) _) ?_
    rw [abs_mul, abs_mul, abs_mul, abs_of_nonneg hC1, abs_of_nonneg hC2]
    have := mul_le_mul_of_nonneg_right e1 hC2
    have := mul_le_mul_of_nonneg_left e2 hC1
    have := mul_le_mul e1 e2 (abs_nonneg _) (by positivity)
    linarith
  have t1 := abs_sub_le (√(s ^ 2 + c1 * c2 * t ^ 2)) (√(S ^ 2 + c1 * c2 * t ^ 2)) (√(S ^ 2 + C1 * C2 * T ^ 2))
  have t2 := abs_sub_le (√(S ^ 2 + c1 * c2 * t ^ 2)) (√(S ^ 2 + c1 * c2 * T ^ 2)) (√(S ^ 2 + C1 * C2 * T ^ 2))
  nlinarith

/-- The arcsine is half as smooth as its argument. -/
theorem arcsin_half {x y : ℝ} (hy0 : 0 ≤ y) (hx1 : x ≤ 1) (h : y ≤ x) : Real.arcsin x - Real.arcsin y ≤ Real.pi * √((x - y) / 2) := by
  set α := Real.arcsin x with hα
  set β := Real.arcsin y with hβ
  have hα1 : α ≤ Real.pi / 2 := Real.arcsin_le_pi_div_two x
  have hβ0 : 0 ≤ β := Real.arcsin_nonneg.2 hy0
  have hab : β ≤ α := Real.arcsin_le_arcsin h
  have hsα : Real.sin α = x := Real.sin_arcsin (by linarith) hx1
  have hsβ : Real.sin β = y := Real.sin_arcsin (by linarith) (by linarith)
  have hpi := Real.pi_pos
  set g := (α - β) / 2 with hg
  have hg0 : 0 ≤ g := by rw [hg]; linarith
  have hg1 : g ≤ Real.pi / 2 := by rw [hg]; linarith
  have hsin : 2 / Real.pi * g ≤ Real.sin g := Real.mul_le_sin hg0 hg1
  have hcos : Real.sin g ≤ Real.cos ((α + β) / 2) := by
    rw [← Real.cos_pi_div_two_sub]
    apply Real.cos_le_cos_of_nonneg_of_le_pi
    · linarith
    · linarith
    · rw [hg]; linarith
  have hd : x - y = 2 * Real.sin g * Real.cos ((α + β) / 2) := by rw [← hsα, ← hsβ, Real.sin_sub_sin, hg]
  have hs0 : 0 ≤ Real.sin g := le_trans (by positivity) hsin
  have h2 : (2 / Real.pi * g) ^ 2 ≤ (x - y) / 2 := by
    rw [hd]
    nlinarith [mul_le_mul_of_nonneg_left hcos hs0, pow_le_pow_left₀ (by positivity) hsin 2]
  have h3 : 2 / Real.pi * g ≤ √((x - y) / 2) := Real.le_sqrt_of_sq_le h2
  have : α - β = Real.pi * (2 / Real.pi * g) := by rw [hg]; field_simp
  rw [this]
  exact mul_le_mul_of_nonneg_left h3 hpi.le

theorem arcsin_half' {x y : ℝ} (hx0 : 0 ≤ x) (hy0 : 0 ≤ y) (hx1 : x ≤ 1) (hy1 : y ≤ 1) : |Real.arcsin x - Real.arcsin y| ≤ Real.pi * √(|x - y| / 2) := by
  rcases le_total y x with h | h
  · rw [abs_of_nonneg (sub_nonneg.2 h), abs_of_nonneg (sub_nonneg.2 (Real.arcsin_le_arcsin h))]
    exact arcsin_half hy0 hx1 h
  · rw [abs_sub_comm, abs_sub_comm x y, abs_of_nonneg (sub_nonneg.2 h), abs_of_nonneg (sub_nonneg.2 (Real.arcsin_le_arcsin h))]
    exact arcsin_half hx0 hy1 h

/-- Away from 1 the arcsine is smooth. -/
theorem arcsin_smooth {x y : ℝ} (hx0 : 0 ≤ x) (hy0 : 0 ≤ y) (hx1 : x ≤ 37 / 50) (hy1 : y ≤ 37 / 50) : |Real.arcsin x - Real.arcsin y| ≤ 3 / 2 * |x - y| := by
  have := Convex.norm_image_sub_le_of_norm_hasDerivWithin_le (f := Real.arcsin) (f' := fun x => 1 / √(1 - x ^ 2)) (C := 3 / 2) (s := Set.Icc (0 : ℝ) (37 / 50)) (x := y) (y := x)
    (fun z hz => (Real.hasDerivAt_arcsin (by linarith [hz.1]) (by linarith [hz.2])).hasDerivWithinAt) (fun z hz => by
      have h1 : (2 / 3 : ℝ) ≤ √(1 - z ^ 2) := Real.le_sqrt_of_sq_le (by nlinarith [hz.1, hz.2])
      rw [Real.norm_eq_abs, abs_of_nonneg (by positivity), div_le_iff₀ (by linarith)]
      linarith) (convex_Icc _ _) ⟨hy0, hy1⟩ ⟨hx0, hx1⟩
  simpa [Real.norm_eq_abs] using this

/-! ### Rounding -/

theorem rnd_real {u : ℝ} (hu : Precise u) (q : ℚ) : |((rnd q : ℚ) : ℝ) - q| ≤ u * |(q : ℝ)| + 2 ^ (-1075 : ℤ) := by
  have h := (Rat.cast_le (K := ℝ)).2 (rnd_near q)
  simp only [Rat.cast_abs, Rat.cast_sub, Rat.cast_add, Rat.cast_div, Rat.cast_pow, Rat.cast_ofNat, Rat.cast_zpow] at h
  have h1 : |(q : ℝ)| / 2 ^ 53 ≤ u * |(q : ℝ)| := by
    have := mul_le_mul_of_nonneg_right hu.1 (abs_nonneg (q : ℝ))
    rw [zpow_neg] at this
    rw [div_eq_inv_mul]
    exact_mod_cast this
  linarith

theorem tiny {u : ℝ} (hu : Precise u) : 0 < u ∧ u ≤ 1 / 1000000000000 ∧ (0 : ℝ) < 2 ^ (-1075 : ℤ) ∧ (2 : ℝ) ^ (-1075 : ℤ) ≤ u ^ 2 / 1000 ∧ (2 : ℝ) ^ (-1074 : ℤ) = 2 * 2 ^ (-1075 : ℤ) ∧
    (2 : ℝ) ^ (-1075 : ℤ) ≤ u / 1000 := by
  obtain ⟨h1, h2⟩ := hu
  have h0 : (0 : ℝ) < 2 ^ (-53 : ℤ) := by positivity
  have hu0 : 0 < u := lt_of_lt_of_le h0 h1
  have hu1 : u ≤ 1 / 1000000000000 := le_trans h2 (by norm_num)
  have h3 : (2 : ℝ) ^ (-106 : ℤ) ≤ u ^ 2 := by
    have := pow_le_pow_left₀ h0.le h1 2
    rwa [← zpow_natCast, ← zpow_mul] at this
  have h4 : (2 : ℝ) ^ (-1075 : ℤ) ≤ 2 ^ (-116 : ℤ) := zpow_le_zpow_right₀ (by norm_num) (by norm_num)
  have h5 : (2 : ℝ) ^ (-116 : ℤ) = 2 ^ (-106 : ℤ) / 1024 := by norm_num
  have h6 : (2 : ℝ) ^ (-1075 : ℤ) ≤ u ^ 2 / 1000 := by
    have h7 := h4.trans_eq h5
    generalize (2 : ℝ) ^ (-106 : ℤ) = a at h3 h7
    have := sq_nonneg u
    exact h7.trans (by linarith)
  refine ⟨hu0, hu1, by positivity, h6, ?_, ?_⟩
  · rw [show (-1074 : ℤ) = 1 + -1075 by norm_num, zpow_add₀ (by norm_num), zpow_one]
  · nlinarith

theorem degree_eq : rnd (npyPi / 180) = 5030569068109113 / 288230376151711744 := by decide +kernel

theorem degree_near : |((rnd (npyPi / 180) : ℚ) : ℝ) - Real.pi / 180| ≤ 2 ^ (-53 : ℤ) / 100 := by
  rw [degree_eq]
  have := Real.pi_gt_d20
  have := Real.pi_lt_d20
  rw [abs_le]
  push_cast
  constructor <;> norm_num at * <;> linarith

theorem degree_bound : |((rnd (npyPi / 180) : ℚ) : ℝ)| ≤ 18 / 1000 := by
  rw [degree_eq]; norm_num [abs_le]

theorem angle_near {u : ℝ} (hu : Precise u) {x : ℚ} {B : ℝ} (hx : |(x : ℝ)| ≤ B) (hB : 1 ≤ B) : |(npRadians x : ℝ) - Oq.radians x| ≤ 3 / 100 * B * u := by
  obtain ⟨u0, -, -, -, -, h6⟩ := tiny hu
  have h1 := rnd_real hu (x * rnd (npyPi / 180))
  have h2 : |((x * rnd (npyPi / 180) : ℚ) : ℝ) - Oq.radians x| ≤ B * (u / 100) := by
    unfold Oq.radians
    push_cast
    rw [← mul_sub, abs_mul]
    refine mul_le_mul hx (le_trans degree_near ?_) (abs_nonneg _) (by linarith)
    exact div_le_div_of_nonneg_right hu.1 (by norm_num)
  have h3 : |((x * rnd (npyPi / 180) : ℚ) : ℝ)| ≤ B * (18 / 1000) := by
    push_cast
    rw [abs_mul]
    exact mul_le_mul hx degree_bound (abs_nonneg _) (by linarith)
  have h4 := abs_sub_le (npRadians x : ℝ) ((x * rnd (npyPi / 180) : ℚ) : ℝ) (Oq.radians x)
  have h5 := mul_le_mul_of_nonneg_left h3 u0.le
  have h7 : u ≤ B * u := by nlinarith
  have h8 : |(npRadians x : ℝ) - ((x * rnd (npyPi / 180) : ℚ) : ℝ)| ≤ u * |((x * rnd (npyPi / 180) : ℚ) : ℝ)| + 2 ^ (-1075 : ℤ) := h1
  nlinarith

/-- Latitudes stay below a right angle. -/
theorem right_angle {x : ℚ} (hx : |x| ≤ 90) : |(npRadians x : ℝ)| ≤ Real.pi / 2 := by
  have hmax : npRadians 90 = npyPi / 2 := by decide +kernel
  have hp : 0 ≤ rnd (npyPi / 180) := by rw [degree_eq]; norm_num
  have h1 : npRadians x ≤ npyPi / 2 := by
    rw [← hmax]
    exact rnd_mono (mul_le_mul_of_nonneg_right (abs_le.1 hx).2 hp)
  have h2 : -(npyPi / 2) ≤ npRadians x := by
    rw [← hmax]
    unfold npRadians
    rw [← rnd_neg, ← neg_mul]
    exact rnd_mono (mul_le_mul_of_nonneg_right (abs_le.1 hx).1 hp)
  have h3 : ((npyPi / 2 : ℚ) : ℝ) ≤ Real.pi / 2 := by
    have := Real.pi_gt_d20
    unfold npyPi
    push_cast
    norm_num at *
    linarith
  have h1' : (npRadians x : ℝ) ≤ ((npyPi / 2 : ℚ) : ℝ) := by exact_mod_cast h1
  have h2' : -((npyPi / 2 : ℚ) : ℝ) ≤ (npRadians x : ℝ) := by exact_mod_cast h2
  exact abs_le.2 ⟨by linarith, by linarith⟩

/-- Half of a difference of two angles. -/
theorem half_near {u : ℝ} (hu : Precise u) {x y : ℚ} {X Y e B : ℝ} (hB : 1 ≤ B) (hx : |(x : ℝ) - X| ≤ e) (hy : |(y : ℝ) - Y| ≤ e) (hX : |X| ≤ B) (hY : |Y| ≤ B) (he : e ≤ 10 * u) :
    |((rnd (rnd (x - y) / 2) : ℚ) : ℝ) - (X - Y) / 2| ≤ e + 21 / 10 * B * u := by
  obtain ⟨u0, u1, -, -, -, h6⟩ := tiny hu
  have h1 := rnd_real hu (x - y)
  have h2 := rnd_real hu (rnd (x - y) / 2)
  push_cast at h1 h2
  have hxy : |(x : ℝ) - y| ≤ 2 * B + 2 * e := by
    rw [show (x : ℝ) - y = (x - X) - (y - Y) + (X - Y) by ring]
    have a1 := abs_add_le ((x : ℝ) - X - (y - Y)) (X - Y)
    have a2 := abs_sub ((x : ℝ) - X) (y - Y)
    have a3 := abs_sub X Y
    linarith
  have hd : |((rnd (x - y) : ℚ) : ℝ)| ≤ 2 * B + 2 * e + u * (2 * B + 2 * e) + u / 1000 := by
    have a1 := abs_add_le (((rnd (x - y) : ℚ) : ℝ) - (x - y)) (x - y)
    rw [sub_add_cancel] at a1
    have := mul_le_mul_of_nonneg_left hxy u0.le
    linarith
  have hdiff : |((rnd (x - y) : ℚ) : ℝ) / 2 - (X - Y) / 2| ≤ e + (u * (2 * B + 2 * e) + u / 1000) / 2 := by
    rw [show ((rnd (x - y) : ℚ) : ℝ) / 2 - (X - Y) / 2 = ((((rnd (x - y) : ℚ) : ℝ) - (x - y)) + ((x - X) - (y - Y))) / 2 by ring, abs_div, abs_of_pos (show (0 : ℝ) < 2 by norm_num)]
    have a1 := abs_add_le (((rnd (x - y) : ℚ) : ℝ) - (x - y)) ((x - X) - (y - Y))
    have a2 := abs_sub ((x : ℝ) - X) (y - Y)
    have := mul_le_mul_of_nonneg_left hxy u0.le
    linarith
  have hh : u * |((rnd (x - y) : ℚ) : ℝ) / 2| ≤ u * ((2 * B + 2 * e + u * (2 * B + 2 * e) + u / 1000) / 2) := by
    rw [abs_div, abs_of_pos (show (0 : ℝ) < 2 by norm_num)]
    exact mul_le_mul_of_nonneg_left (by linarith) u0.le
  have t := abs_sub_le ((rnd (rnd (x - y) / 2) : ℚ) : ℝ) (((rnd (x - y) : ℚ) : ℝ) / 2) ((X - Y) / 2)
  have hue : u * e ≤ u / 1000 := by nlinarith
  have huu : u * u ≤ u / 1000 := by nlinarith
  have hB0 : 0 ≤ B := by linarith
  have huB : u ≤ u * B := by nlinarith
  have huuB : u * u * B ≤ u * B / 1000 := by nlinarith
  have huue : u * u * e ≤ u / 1000 := by nlinarith
  have huuu : u * u * u ≤ u := by nlinarith
  nlinarith

theorem total_near {u e σ p v q a x w z : ℝ} (u0 : 0 < u) (u1 : u ≤ 1 / 1000000000000) (e0 : 0 < e) (e1 : e ≤ u) (x0 : 0 ≤ x) (w0 : 0 ≤ w) (z0 : 0 ≤ z) (w2 : w ≤ 2) (z2 : z ≤ 2)
    (hσ : |σ - x| ≤ u * x + 2 * e) (hp : |p - w| ≤ u * w + e) (hv : |v - z| ≤ u * z + 2 * e) (hq : |q - p * v| ≤ u * (p * v) + e)
    (ha : |a - (σ + q)| ≤ u * (σ + q) + e) : |a - (x + w * z)| ≤ 6 * u * (x + w * z) + 20 * e := by
  have wz0 : 0 ≤ w * z := mul_nonneg w0 z0
  have hue : u * e ≤ e / 1000 := by nlinarith
  have h1 : |p * v - w * z| ≤ 21 / 10 * u * (w * z) + 8 * e := by
    rw [show p * v - w * z = (p - w) * (v - z) + (p - w) * z + w * (v - z) by ring]
    refine le_trans (abs_add_le _ _) (le_trans (add_le_add_left (abs_add_le _ _) _) ?_)
    rw [abs_mul, abs_mul, abs_mul, abs_of_nonneg w0, abs_of_nonneg z0]
    have a1 := mul_le_mul hp hv (abs_nonneg _) (by positivity)
    have a2 := mul_le_mul_of_nonneg_right hp z0
    have a3 := mul_le_mul_of_nonneg_left hv w0
    have b1 : (u * w + e) * (u * z + 2 * e) ≤ u / 10 * (w * z) + e := by
      have c1 : u * u * (w * z) ≤ u / 10 * (w * z) := mul_le_mul_of_nonneg_right (by nlinarith) wz0
      have c2 : u * e * w ≤ e / 1000 * 2 := mul_le_mul hue w2 w0 (by positivity)
      have c3 : u * e * z ≤ e / 1000 * 2 := mul_le_mul hue z2 z0 (by positivity)
      have c4 : e * e ≤ e / 1000 := by nlinarith
      nlinarith
    have b2 : e * z ≤ e * 2 := mul_le_mul_of_nonneg_left z2 e0.le
    have b3 : w * e ≤ 2 * e := mul_le_mul_of_nonneg_right w2 e0.le
    nlinarith
  have hpv : p * v ≤ w * z + (21 / 10 * u * (w * z) + 8 * e) := by have := (abs_le.1 h1).2; linarith
  have huw : u * (u * (w * z)) ≤ u * (w * z) / 1000 := by
    have : 0 ≤ u * (w * z) := by positivity
    nlinarith
  have h2 : |q - w * z| ≤ 32 / 10 * u * (w * z) + 10 * e := by
    have := abs_sub_le q (p * v) (w * z)
    have c := mul_le_mul_of_nonneg_left hpv u0.le
    nlinarith
  have h3 : |σ + q - (x + w * z)| ≤ 32 / 10 * u * (x + w * z) + 12 * e := by
    rw [show σ + q - (x + w * z) = (σ - x) + (q - w * z) by ring]
    refine le_trans (abs_add_le _ _) ?_
    have : 0 ≤ u * x := by positivity
    nlinarith
  set y := x + w * z with hy
  have y0 : 0 ≤ y := by positivity
  have huy : u * (u * y) ≤ u * y / 1000 := by
    have : 0 ≤ u * y := by positivity
    nlinarith
  have h4 : σ + q ≤ y + (32 / 10 * u * y + 12 * e) := by have := (abs_le.1 h3).2; linarith
  have := abs_sub_le a (σ + q) y
  have c := mul_le_mul_of_nonneg_left h4 u0.le
  have : 0 ≤ u * y := by positivity
  nlinarith

/-- The root of a number that is nearly right. -/
theorem root_near {u y a e : ℝ} (u0 : 0 < u) (u1 : u ≤ 1 / 1000) (y0 : 0 ≤ y) (a0 : 0 ≤ a) (he : 20 * e ≤ u ^ 2 / 4) (h : |a - y| ≤ 6 * u * y + 20 * e) :
    |√a - √y| ≤ 6 * u * √y + u / 2 := by
  obtain ⟨h1, h2⟩ := abs_le.1 h
  have ry := Real.sqrt_nonneg y
  have ra := Real.sqrt_nonneg a
  have sy := Real.sq_sqrt y0
  have sa := Real.sq_sqrt a0
  rw [abs_le]
  constructor
  · have : √y * (1 - 6 * u) ≤ √a + u / 2 := by
      have : √(y * (1 - 6 * u)) ≤ √a + u / 2 := root_le (by positivity) (by nlinarith)
      refine le_trans ?_ this
      apply Real.le_sqrt_of_sq_le
      rw [mul_pow, sy]
      exact mul_le_mul_of_nonneg_left (by nlinarith) y0
    linarith
  · have : √a ≤ √y * (1 + 6 * u) + u / 2 := root_le (by positivity) (by nlinarith [mul_nonneg ry u0.le, mul_nonneg y0 u0.le])
    linarith

/-! ### The sum under the root -/

theorem latitude_bound {x : ℚ} (h : |x| ≤ 90) : |Oq.radians x| ≤ Real.pi / 2 := by
  have h1 : |(x : ℝ)| ≤ 90 := by exact_mod_cast h
  unfold Oq.radians
  rw [abs_mul, abs_of_pos (by positivity : 0 < Real.pi / 180)]
  nlinarith [Real.pi_pos]

theorem longitude_bound {x : ℚ} (h : |x| ≤ 180) : |Oq.radians x| ≤ Real.pi := by
  have h1 : |(x : ℝ)| ≤ 180 := by exact_mod_cast h
  unfold Oq.radians
  rw [abs_mul, abs_of_pos (by positivity : 0 < Real.pi / 180)]
  nlinarith [Real.pi_pos]

theorem sine_near {u : ℝ} (u0 : 0 < u) {L : MathLib} (hL : RightTo u L) {x : ℚ} {X e : ℝ} (hx : |x| ≤ 10) (h : |(x : ℝ) - X| ≤ e) : |(L.sin x : ℝ) - Real.sin X| ≤ e + u := by
  have h1 := hL.sin x hx
  have h2 : |Real.sin x - Real.sin X| ≤ |(x : ℝ) - X| := Real.abs_sin_sub_sin_le _ _
  have h3 := Real.abs_sin_le_one (x : ℝ)
  have h4 := abs_sub_le (L.sin x : ℝ) (Real.sin x) (Real.sin X)
  nlinarith

theorem cosine_near {u : ℝ} (u0 : 0 < u) {L : MathLib} (hL : RightTo u L) {x : ℚ} {X e : ℝ} (hx : |x| ≤ 10) (h : |(x : ℝ) - X| ≤ e) : |(L.cos x : ℝ) - Real.cos X| ≤ e + u := by
  have h1 := hL.cos x hx
  have h2 : |Real.cos x - Real.cos X| ≤ |(x : ℝ) - X| := Real.abs_cos_sub_cos_le _ _
  have h3 := Real.abs_cos_le_one (x : ℝ)
  have h4 := abs_sub_le (L.cos x : ℝ) (Real.cos x) (Real.cos X)
  nlinarith

theorem cosine_nonneg {u : ℝ} (hu : Precise u) {L : MathLib} (hL : RightTo u L) {x : ℚ} (h : |(x : ℝ)| ≤ Real.pi / 2) : (0 : ℝ) ≤ L.cos x := by
  obtain ⟨u0, u1, -⟩ := tiny hu
  have hx : |x| ≤ 10 := by
    have : |(x : ℝ)| ≤ 10 := by linarith [Real.pi_lt_four]
    exact_mod_cast this
  have h1 := hL.cos x hx
  have h0 : 0 ≤ Real.cos x := Real.cos_nonneg_of_mem_Icc (abs_le.1 h |> fun ⟨a, b⟩ => ⟨by linarith, b⟩)
  rw [abs_of_nonneg h0] at h1
  have := (abs_le.1 h1).1
  nlinarith

theorem haversine_nonneg {u : ℝ} (hu : Precise u) {L : MathLib} (hL : RightTo u L) (lon1 lon2 : ℚ) {lat1 lat2 : ℚ} (h1 : |lat1| ≤ 90) (h2 : |lat2| ≤ 90) :
    0 ≤ Dbl.haversine L lon1 lat1 lon2 lat2 := by
  have c1 : 0 ≤ L.cos (npRadians lat1) := by exact_mod_cast cosine_nonneg hu hL (right_angle h1)
  have c2 : 0 ≤ L.cos (npRadians lat2) := by exact_mod_cast cosine_nonneg hu hL (right_angle h2)
  exact rnd_nonneg (add_nonneg (hL.sq_nonneg _) (rnd_nonneg (mul_nonneg (rnd_nonneg (mul_nonneg c1 c2)) (hL.sq_nonneg _))))

theorem sqrtRnd_real {u : ℝ} (hu : Precise u) {a : ℚ} (h : 0 ≤ a) : |((sqrtRnd a : ℚ) : ℝ) - √(a : ℝ)| ≤ u * √(a : ℝ) := by
  rcases h.lt_or_eq with h | h
  · refine le_trans (sqrt_near h) ?_
    have := mul_le_mul_of_nonneg_right hu.1 (Real.sqrt_nonneg (a : ℝ))
    rw [zpow_neg] at this
    rw [div_eq_inv_mul]
    exact this
  · rw [← h, sqrtRnd_zero]
    simp

theorem sum_error {u : ℝ} (hu : Precise u) {L : MathLib} (hL : RightTo u L) {s t d1 d2 : ℚ} (c1 : (0 : ℝ) ≤ d1) (c2 : (0 : ℝ) ≤ d2) (v1 : (d1 : ℝ) ≤ 5 / 4) (v2 : (d2 : ℝ) ≤ 5 / 4)
    (v3 : (t : ℝ) ^ 2 ≤ 2) (hy : √((s : ℝ) ^ 2 + (d1 : ℝ) * d2 * (t : ℝ) ^ 2) ≤ 11 / 10) :
    |((sqrtRnd (rnd (L.sq s + rnd (rnd (d1 * d2) * L.sq t))) : ℚ) : ℝ) - √((s : ℝ) ^ 2 + (d1 : ℝ) * d2 * (t : ℝ) ^ 2)| ≤ 10 * u := by
  obtain ⟨u0, u1, τ0, τ2, τ1, τu⟩ := tiny hu
  have rr := rnd_real hu
  have hs := hL.sq s
  have ht := hL.sq t
  rw [τ1] at hs ht
  generalize (2 : ℝ) ^ (-1075 : ℤ) = τ at *
  clear τ1
  have d12 : (0 : ℝ) ≤ (d1 : ℝ) * d2 := mul_nonneg c1 c2
  have q12 : 0 ≤ d1 * d2 := by exact_mod_cast d12
  have hp := rr (d1 * d2)
  have p0 : 0 ≤ rnd (d1 * d2) := rnd_nonneg q12
  have hq := rr (rnd (d1 * d2) * L.sq t)
  have pq0 : 0 ≤ rnd (d1 * d2) * L.sq t := mul_nonneg p0 (hL.sq_nonneg t)
  have ha := rr (L.sq s + rnd (rnd (d1 * d2) * L.sq t))
  have a0 : 0 ≤ L.sq s + rnd (rnd (d1 * d2) * L.sq t) := add_nonneg (hL.sq_nonneg s) (rnd_nonneg pq0)
  rw [abs_of_nonneg (by exact_mod_cast q12 : (0 : ℝ) ≤ ((d1 * d2 : ℚ) : ℝ))] at hp
  rw [abs_of_nonneg (by exact_mod_cast pq0 : (0 : ℝ) ≤ ((rnd (d1 * d2) * L.sq t : ℚ) : ℝ))] at hq
  rw [abs_of_nonneg (by exact_mod_cast a0 : (0 : ℝ) ≤ ((L.sq s + rnd (rnd (d1 * d2) * L.sq t) : ℚ) : ℝ))] at ha
  rw [Rat.cast_mul] at hp hq
  rw [Rat.cast_add] at ha
  have tot := total_near u0 u1 τ0 (by linarith) (sq_nonneg (s : ℝ)) d12 (sq_nonneg (t : ℝ)) (by nlinarith) v3 hs hp ht hq ha
  have hn : 0 ≤ rnd (L.sq s + rnd (rnd (d1 * d2) * L.sq t)) := rnd_nonneg a0
  clear ha hq hp hs ht rr
  generalize rnd (L.sq s + rnd (rnd (d1 * d2) * L.sq t)) = a at *
  have y0 : (0 : ℝ) ≤ (s : ℝ) ^ 2 + (d1 : ℝ) * d2 * (t : ℝ) ^ 2 := by positivity
  have an : (0 : ℝ) ≤ (a : ℝ) := by exact_mod_cast hn
  have rn := root_near u0 (by linarith) y0 an (by nlinarith) tot
  have sr := sqrtRnd_real hu hn
  generalize √((s : ℝ) ^ 2 + (d1 : ℝ) * d2 * (t : ℝ) ^ 2) = Y at *
  have hA : √(a : ℝ) ≤ 6 / 5 := by nlinarith [(abs_le.1 rn).2]
  have t1 := abs_sub_le ((sqrtRnd a : ℚ) : ℝ) (√(a : ℝ)) Y
  nlinarith

set_option maxHeartbeats 2000000 in
theorem root_error {u : ℝ} (hu : Precise u) {L : MathLib} (hL : RightTo u L) {lon1 lat1 lon2 lat2 : ℚ} (h1 : |lat1| ≤ 90) (h2 : |lat2| ≤ 90) (h3 : |lon1| ≤ 180) (h4 : |lon2| ≤ 180) :
    |((sqrtRnd (Dbl.haversine L lon1 lat1 lon2 lat2) : ℚ) : ℝ) - √(Real.sin ((Oq.radians lat1 - Oq.radians lat2) / 2) ^ 2 +
      Real.cos (Oq.radians lat1) * Real.cos (Oq.radians lat2) * Real.sin ((Oq.radians lon1 - Oq.radians lon2) / 2) ^ 2)| ≤ 60 * u := by
  obtain ⟨u0, u1, -⟩ := tiny hu
  have hpi := Real.pi_gt_d2
  have hpi' := Real.pi_lt_d2
  have r1 : |(lat1 : ℝ)| ≤ 90 := by exact_mod_cast h1
  have r2 : |(lat2 : ℝ)| ≤ 90 := by exact_mod_cast h2
  have r3 : |(lon1 : ℝ)| ≤ 180 := by exact_mod_cast h3
  have r4 : |(lon2 : ℝ)| ≤ 180 := by exact_mod_cast h4
  have b1 := latitude_bound h1
  have b2 := latitude_bound h2
  have b3 := longitude_bound h3
  have b4 := longitude_bound h4
  have e1 := angle_near hu r1 (by norm_num)
  have e2 := angle_near hu r2 (by norm_num)
  have e3 := angle_near hu r3 (by norm_num)
  have e4 := angle_near hu r4 (by norm_num)
  have es := half_near hu (B := 8 / 5) (by norm_num) e1 e2 (by linarith) (by linarith) (by nlinarith)
  have et := half_near hu (B := 16 / 5) (by norm_num) e3 e4 (by linarith) (by linarith) (by nlinarith)
  have small : ∀ {x : ℚ} {X e : ℝ}, |(x : ℝ) - X| ≤ e → |X| ≤ 4 → e ≤ 1 → |x| ≤ 10 := by
    intro x X e h hX he
    have : |(x : ℝ)| ≤ 10 := by
      have := abs_sub_abs_le_abs_sub (x : ℝ) X
      linarith
    exact_mod_cast this
  have hS : |(Oq.radians lat1 - Oq.radians lat2) / 2| ≤ 4 := by
    rw [abs_le] at b1 b2 ⊢; constructor <;> linarith [b1.1, b1.2, b2.1, b2.2]
  have hT : |(Oq.radians lon1 - Oq.radians lon2) / 2| ≤ 4 := by
    rw [abs_le] at b3 b4 ⊢; constructor <;> linarith [b3.1, b3.2, b4.1, b4.2]
  have s1 := sine_near u0 hL (small es hS (by linarith)) es
  have s2 := sine_near u0 hL (small et hT (by linarith)) et
  have k1 := cosine_near u0 hL (small e1 (by linarith) (by linarith)) e1
  have k2 := cosine_near u0 hL (small e2 (by linarith) (by linarith)) e2
  have c1 := cosine_nonneg hu hL (right_angle h1)
  have c2 := cosine_nonneg hu hL (right_angle h2)
  have C1 : 0 ≤ Real.cos (Oq.radians lat1) := Real.cos_nonneg_of_mem_Icc (abs_le.1 b1 |> fun ⟨a, b⟩ => ⟨by linarith, b⟩)
  have C2 : 0 ≤ Real.cos (Oq.radians lat2) := Real.cos_nonneg_of_mem_Icc (abs_le.1 b2 |> fun ⟨a, b⟩ => ⟨by linarith, b⟩)
  have hd : |Real.cos (Oq.radians lat1) - Real.cos (Oq.radians lat2)| ≤ 2 * |Real.sin ((Oq.radians lat1 - Oq.radians lat2) / 2)| := by
    rw [Real.cos_sub_cos, abs_mul, abs_mul, abs_neg, abs_two]
    have := Real.abs_sin_le_one ((Oq.radians lat1 + Oq.radians lat2) / 2)
    have := abs_nonneg (Real.sin ((Oq.radians lat1 - Oq.radians lat2) / 2))
    nlinarith
  have main := root_main u0.le (by linarith) C1 C2 (Real.cos_le_one _) (Real.cos_le_one _) (Real.abs_sin_le_one _) hd c1 c2 (le_trans s1 (by linarith)) (le_trans s2 (by linarith))
    (le_trans k1 (by linarith)) (le_trans k2 (by linarith))
  have hC1' := Real.cos_le_one (Oq.radians lat1)
  have hC2' := Real.cos_le_one (Oq.radians lat2)
  have hH := haversine_bounds lon1 lat1 lon2 lat2
  have hT1 := Real.abs_sin_le_one ((Oq.radians lon1 - Oq.radians lon2) / 2)
  have v1 : (L.cos (npRadians lat1) : ℝ) ≤ 5 / 4 := by linarith [(abs_le.1 k1).2]
  have v2 : (L.cos (npRadians lat2) : ℝ) ≤ 5 / 4 := by linarith [(abs_le.1 k2).2]
  have v3 : (L.sin (rnd (rnd (npRadians lon1 - npRadians lon2) / 2)) : ℝ) ^ 2 ≤ 2 := by
    have : |(L.sin (rnd (rnd (npRadians lon1 - npRadians lon2) / 2)) : ℝ)| ≤ 5 / 4 := by
      linarith [abs_sub_abs_le_abs_sub (L.sin (rnd (rnd (npRadians lon1 - npRadians lon2) / 2)) : ℝ) (Real.sin ((Oq.radians lon1 - Oq.radians lon2) / 2))]
    rw [← sq_abs]
    nlinarith [abs_nonneg (L.sin (rnd (rnd (npRadians lon1 - npRadians lon2) / 2)) : ℝ)]
  have R1 := Real.sqrt_le_one.2 hH.2
  have hy := (abs_le.1 main).2
  have se := sum_error hu hL (s := L.sin (rnd (rnd (npRadians lat1 - npRadians lat2) / 2))) c1 c2 v1 v2 v3 (by linarith)
  refine le_trans (abs_sub_le _ _ _) (le_trans (add_le_add se main) ?_)
  linarith

/-- The root of the sum of two squares. -/
theorem pair_near {u e σ v a x z : ℝ} (u0 : 0 < u) (u1 : u ≤ 1 / 1000000000000) (e0 : 0 < e) (x0 : 0 ≤ x) (z0 : 0 ≤ z) (hσ : |σ - x| ≤ u * x + 2 * e) (hv : |v - z| ≤ u * z + 2 * e)
    (ha : |a - (σ + v)| ≤ u * (σ + v) + e) : |a - (x + z)| ≤ 6 * u * (x + z) + 20 * e := by
  have h1 : |σ + v - (x + z)| ≤ u * (x + z) + 4 * e := by
    rw [show σ + v - (x + z) = (σ - x) + (v - z) by ring]
    refine le_trans (abs_add_le _ _) ?_
    nlinarith
  set y := x + z with hy
  have y0 : 0 ≤ y := by positivity
  have h4 : σ + v ≤ y + (u * y + 4 * e) := by have := (abs_le.1 h1).2; linarith
  have c := mul_le_mul_of_nonneg_left h4 u0.le
  have huy : u * (u * y) ≤ u * y / 1000 := by
    have : 0 ≤ u * y := by positivity
    nlinarith
  have hue : u * e ≤ e / 1000 := by nlinarith
  have := abs_sub_le a (σ + v) y
  have : 0 ≤ u * y := by positivity
  nlinarith

/-- The distance between two points of the plane changes by no more than the changes of the coordinates. -/
theorem plane_step (x y z w : ℝ) : |√(x ^ 2 + z ^ 2) - √(y ^ 2 + w ^ 2)| ≤ |x - y| + |z - w| := by
  have h1 := root_step x y (z ^ 2) (sq_nonneg z)
  have h2 := root_step z w (y ^ 2) (sq_nonneg y)
  have h3 := abs_sub_le (√(x ^ 2 + z ^ 2)) (√(y ^ 2 + z ^ 2)) (√(y ^ 2 + w ^ 2))
  rw [add_comm (z ^ 2), add_comm (w ^ 2)] at h2
  linarith

theorem sqrtRnd_nonneg' {u : ℝ} (hu : Precise u) {a : ℚ} (h : 0 ≤ a) : 0 ≤ sqrtRnd a := by
  obtain ⟨u0, u1, -⟩ := tiny hu
  have h1 := (abs_le.1 (sqrtRnd_real hu h)).1
  have h2 := Real.sqrt_nonneg (a : ℝ)
  have : (0 : ℝ) ≤ ((sqrtRnd a : ℚ) : ℝ) := by nlinarith
  exact_mod_cast this

end Geo

open Geo

/-- C200: for a library that is right to the part `u`, the distance in binary arithmetic differs from the great-circle distance by at most 1300000 `u` km, up to 10000 km, and by at most
240000 √`u` km for all points; it is never negative. It can be `nan` only for points on opposite sides of the earth. -/
theorem C200_distance_partial {u : ℝ} (hu : Precise u) {L : MathLib} (hL : RightTo u L) {lon1 lat1 lon2 lat2 : ℚ} (h1 : |lat1| ≤ 90) (h2 : |lat2| ≤ 90) (h3 : |lon1| ≤ 180) (h4 : |lon2| ≤ 180) :
    (∀ D, Dbl.geodeticDistance L lon1 lat1 lon2 lat2 = some D → 0 ≤ D ∧ |(D : ℝ) - greatCircle lon1 lat1 lon2 lat2| ≤ 240000 * √u ∧
      (greatCircle lon1 lat1 lon2 lat2 ≤ 10000 → |(D : ℝ) - greatCircle lon1 lat1 lon2 lat2| ≤ 1300000 * u)) ∧
    (Dbl.geodeticDistance L lon1 lat1 lon2 lat2 = none → 6371 * Real.pi - 240000 * √u ≤ greatCircle lon1 lat1 lon2 lat2) := by
  obtain ⟨u0, u1, τ0, τ2, τ1, τu⟩ := tiny hu
  have hpi := Real.pi_gt_d2
  have hpi' := Real.pi_lt_d2
  have err := root_error hu hL h1 h2 h3 h4
  have hH := haversine_bounds lon1 lat1 lon2 lat2
  have hn := haversine_nonneg hu hL lon1 lon2 h1 h2
  have hr0 := sqrtRnd_nonneg' hu hn
  rw [← C78_great_circle]
  unfold Oq.geodeticDistance Oq.earthRadius Dbl.geodeticDistance npArcsin
  generalize hR : √(Real.sin ((Oq.radians lat1 - Oq.radians lat2) / 2) ^ 2 + Real.cos (Oq.radians lat1) * Real.cos (Oq.radians lat2) * Real.sin ((Oq.radians lon1 - Oq.radians lon2) / 2) ^ 2) = R at *
  have R0 : 0 ≤ R := by rw [← hR]; exact Real.sqrt_nonneg _
  have R1 : R ≤ 1 := by rw [← hR]; exact Real.sqrt_le_one.2 hH.2
  generalize sqrtRnd (Dbl.haversine L lon1 lat1 lon2 lat2) = r at *
  have r0 : (0 : ℝ) ≤ r := by exact_mod_cast hr0
  have su := Real.sq_sqrt u0.le
  have su0 := Real.sqrt_nonneg u
  have root30 : ∀ w, w ≤ 60 * u → Real.pi * √(w / 2) ≤ 173 / 10 * √u := by
    intro w hw
    have : √(w / 2) ≤ 5478 / 1000 * √u := root_le (by positivity) (by nlinarith)
    nlinarith [Real.sqrt_nonneg (w / 2)]
  have usu : u ≤ √u / 1000000 := by
    have : √u ≤ 1 / 1000000 := root_le (by norm_num) (by linarith)
    nlinarith
  have ar0 : 0 ≤ Real.arcsin R := Real.arcsin_nonneg.2 R0
  by_cases hr : r ≤ 1
  · rw [if_pos ⟨by linarith, hr⟩]
    refine ⟨?_, by simp⟩
    have r1 : (r : ℝ) ≤ 1 := by exact_mod_cast hr
    intro D hD
    simp only [Option.map_some, Option.some.injEq] at hD
    subst hD
    have ha := hL.asin r hr0 hr
    have aπ := Real.arcsin_le_pi_div_two (r : ℝ)
    have an : 0 ≤ Real.arcsin r := Real.arcsin_nonneg.2 r0
    obtain ⟨ha1, ha2⟩ := abs_le.1 ha
    have d0 : (0 : ℝ) ≤ (L.asin r : ℝ) := by nlinarith
    have d0' : 0 ≤ L.asin r := by exact_mod_cast d0
    have d1 : (L.asin r : ℝ) ≤ 17 / 10 := by nlinarith
    have hd := rnd_real hu (12742 * L.asin r)
    clear τ1 τ2
    generalize (2 : ℝ) ^ (-1075 : ℤ) = τ at *
    rw [Rat.cast_mul, Rat.cast_ofNat, abs_of_nonneg (by positivity : (0 : ℝ) ≤ 12742 * (L.asin r : ℝ))] at hd
    have step : ∀ w, |Real.arcsin r - Real.arcsin R| ≤ w → |((rnd (12742 * L.asin r) : ℚ) : ℝ) - 2 * 6371 * Real.arcsin R| ≤ 12742 * w + 45000 * u := by
      intro w hw
      obtain ⟨hd1, hd2⟩ := abs_le.1 hd
      obtain ⟨hw1, hw2⟩ := abs_le.1 hw
      rw [abs_le]
      constructor <;> nlinarith
    refine ⟨rnd_nonneg (by positivity), ?_, ?_⟩
    · refine le_trans (step _ (arcsin_half' r0 R0 r1 R1)) ?_
      have := root30 _ err
      linarith
    · intro hgc
      have hR2 : R ≤ 71 / 100 := by
        have h5 : Real.arcsin R ≤ Real.pi / 4 := by linarith [Real.pi_gt_d4]
        have h6 := Real.sin_arcsin (by linarith : -1 ≤ R) R1
        have h7 : Real.sin (Real.arcsin R) ≤ Real.sin (Real.pi / 4) := Real.sin_le_sin_of_le_of_le_pi_div_two (by linarith) (by linarith) h5
        rw [h6, Real.sin_pi_div_four] at h7
        have : √2 ≤ 142 / 100 := root_le (by norm_num) (by norm_num)
        linarith
      have hr2 : (r : ℝ) ≤ 37 / 50 := by linarith [(abs_le.1 err).2]
      refine le_trans (step _ (arcsin_smooth r0 R0 hr2 (by linarith))) ?_
      linarith
  · rw [if_neg (by intro h; exact hr h.2)]
    refine ⟨by simp, fun _ => ?_⟩
    have hr' : (1 : ℝ) < r := by exact_mod_cast not_le.1 hr
    have h5 := arcsin_half R0 (le_refl (1 : ℝ)) R1
    rw [Real.arcsin_one] at h5
    have := root30 (1 - R) (by linarith [(abs_le.1 err).2])
    linarith

/-- C200: the distance of a point to itself is exactly 0. -/
theorem C200_same {u : ℝ} {L : MathLib} (hL : RightTo u L) (lon lat : ℚ) : Dbl.geodeticDistance L lon lat lon lat = some 0 := by
  have s0 : L.sin 0 = 0 := by
    have := hL.sin 0 (by norm_num)
    simpa using this
  have a0 : L.asin 0 = 0 := by
    have := hL.asin 0 le_rfl (by norm_num)
    simpa using this
  simp [Dbl.geodeticDistance, Dbl.haversine, npArcsin, rnd_zero, s0, a0, hL.sq_zero, sqrtRnd_zero]

/-- C200: the distance is the same in both directions, bit for bit, for libraries with sin -x = - sin x and squares of -x and x the same. -/
theorem C200_symmetric {L : MathLib} (odd : ∀ x, L.sin (-x) = -L.sin x) (even : ∀ x, L.sq (-x) = L.sq x) (lon1 lat1 lon2 lat2 : ℚ) :
    Dbl.geodeticDistance L lon1 lat1 lon2 lat2 = Dbl.geodeticDistance L lon2 lat2 lon1 lat1 := by
  have flip : ∀ x y : ℚ, L.sq (L.sin (rnd (rnd (x - y) / 2))) = L.sq (L.sin (rnd (rnd (y - x) / 2))) := by
    intro x y
    rw [← neg_sub y x, rnd_neg, neg_div, rnd_neg, odd, even]
  unfold Dbl.geodeticDistance Dbl.haversine
  simp only [flip (npRadians lat1), flip (npRadians lon1), mul_comm (L.cos (npRadians lat1))]

set_option maxHeartbeats 2000000 in
/-- C200: the distance of two points with depths is as good as the one along the surface, and the depths: a part 10 `u` of the right distance, and 10 `u` km, are all that is added. -/
theorem C200_depth_partial {u : ℝ} (hu : Precise u) {L : MathLib} (hL : RightTo u L) {lon1 lat1 dep1 lon2 lat2 dep2 h D : ℚ}
    (hh : Dbl.geodeticDistance L lon1 lat1 lon2 lat2 = some h) (hD : depthDistance L lon1 lat1 dep1 lon2 lat2 dep2 = some D) :
    0 ≤ D ∧ |(D : ℝ) - √(greatCircle lon1 lat1 lon2 lat2 ^ 2 + ((dep1 : ℝ) - dep2) ^ 2)| ≤
      2 * |(h : ℝ) - greatCircle lon1 lat1 lon2 lat2| + 10 * u * (1 + √(greatCircle lon1 lat1 lon2 lat2 ^ 2 + ((dep1 : ℝ) - dep2) ^ 2)) := by
  obtain ⟨u0, u1, τ0, τ2, τ1, τu⟩ := tiny hu
  unfold depthDistance at hD
  rw [hh] at hD
  simp only [Option.map_some, Option.some.injEq] at hD
  generalize greatCircle lon1 lat1 lon2 lat2 = g at *
  have hδ := rnd_real hu (dep1 - dep2)
  rw [Rat.cast_sub] at hδ
  generalize rnd (dep1 - dep2) = δ at *
  have a0 : 0 ≤ L.sq h + L.sq δ := add_nonneg (hL.sq_nonneg _) (hL.sq_nonneg _)
  have ha := rnd_real hu (L.sq h + L.sq δ)
  rw [abs_of_nonneg (by exact_mod_cast a0 : (0 : ℝ) ≤ ((L.sq h + L.sq δ : ℚ) : ℝ)), Rat.cast_add] at ha
  have hs := hL.sq h
  have ht := hL.sq δ
  rw [τ1] at hs ht
  have tot := pair_near u0 u1 τ0 (sq_nonneg (h : ℝ)) (sq_nonneg (δ : ℝ)) hs ht ha
  have an : 0 ≤ rnd (L.sq h + L.sq δ) := rnd_nonneg a0
  have sr := sqrtRnd_real hu an
  have s0 := sqrtRnd_nonneg' hu an
  rw [hD] at sr s0
  refine ⟨s0, ?_⟩
  generalize rnd (L.sq h + L.sq δ) = a at *
  have rn := root_near u0 (by linarith) (by positivity) (by exact_mod_cast an : (0 : ℝ) ≤ (a : ℝ)) (by nlinarith) tot
  have ps := plane_step (h : ℝ) g (δ : ℝ) ((dep1 : ℝ) - dep2)
  set Y := √(g ^ 2 + ((dep1 : ℝ) - dep2) ^ 2) with hY
  have hΔ : |(dep1 : ℝ) - dep2| ≤ Y := Real.le_sqrt_of_sq_le (by rw [sq_abs]; nlinarith [sq_nonneg g])
  have Y0 : 0 ≤ Y := Real.sqrt_nonneg _
  have hk0 : 0 ≤ |(h : ℝ) - g| := abs_nonneg _
  have f1 : u * |(dep1 : ℝ) - dep2| ≤ u * Y := mul_le_mul_of_nonneg_left hΔ u0.le
  set Z := √((h : ℝ) ^ 2 + (δ : ℝ) ^ 2) with hZ
  have Z0 : 0 ≤ Z := Real.sqrt_nonneg _
  set W := √(a : ℝ) with hW
  have g1 : |Z - Y| ≤ |(h : ℝ) - g| + (u * Y + u / 1000) := by linarith
  have g2 : Z ≤ Y + |(h : ℝ) - g| + (u * Y + u / 1000) := by linarith [(abs_le.1 g1).2]
  have uY : 0 ≤ u * Y := by positivity
  have uk : u * |(h : ℝ) - g| ≤ |(h : ℝ) - g| / 100 := by nlinarith
  have uuY : u * (u * Y) ≤ u * Y / 1000 := by nlinarith
  have uu : u * u ≤ u / 1000 := by nlinarith
  have m1 := mul_le_mul_of_nonneg_left g2 u0.le
  have g3 : |W - Z| ≤ 6 * (u * Z) + u / 2 := by linarith
  have g4 : W ≤ Z + (6 * (u * Z) + u / 2) := by linarith [(abs_le.1 g3).2]
  have m2 := mul_le_mul_of_nonneg_left g4 u0.le
  have uZ : 0 ≤ u * Z := by positivity
  have uuZ : u * (u * Z) ≤ u * Z / 1000 := by nlinarith
  have t1 := abs_sub_le (D : ℝ) W Y
  have t2 := abs_sub_le W Z Y
  nlinarith

/-- C200: points less than 20014 km apart have a distance that is a number. -/
theorem C200_number {u : ℝ} (hu : Precise u) {L : MathLib} (hL : RightTo u L) {lon1 lat1 lon2 lat2 : ℚ} (h1 : |lat1| ≤ 90) (h2 : |lat2| ≤ 90) (h3 : |lon1| ≤ 180) (h4 : |lon2| ≤ 180)
    (hd : greatCircle lon1 lat1 lon2 lat2 ≤ 20014) : ∃ D, Dbl.geodeticDistance L lon1 lat1 lon2 lat2 = some D := by
  rw [← Option.ne_none_iff_exists']
  intro hn
  have h := (C200_distance_partial hu hL h1 h2 h3 h4).2 hn
  have hr : √u ≤ 1 / 1000000 := root_le (by norm_num) (by linarith [(tiny hu).2.1])
  have := Real.pi_gt_d6
  linarith

namespace Geo

/-! ### A library -/

theorem approx_exists {u : ℝ} (hu : 0 < u) (y : ℝ) : ∃ q : ℚ, |(q : ℝ) - y| ≤ u * |y| := by
  by_cases h : y = 0
  · exact ⟨0, by simp [h]⟩
  · obtain ⟨q, hq⟩ := exists_rat_near y (mul_pos hu (abs_pos.2 h))
    exact ⟨q, by rw [abs_sub_comm]; exact hq.le⟩

/-- A number with a relative error of at most 2^-49. -/
noncomputable def approx (y : ℝ) : ℚ := (approx_exists (by positivity : (0 : ℝ) < 2 ^ (-49 : ℤ)) y).choose

theorem approx_near (y : ℝ) : |(approx y : ℝ) - y| ≤ 2 ^ (-49 : ℤ) * |y| := (approx_exists (by positivity : (0 : ℝ) < 2 ^ (-49 : ℤ)) y).choose_spec

/-- A library with an odd sine. -/
noncomputable def someLib : MathLib where
  sin x := if x < 0 then -approx (Real.sin (-x)) else approx (Real.sin x)
  cos x := approx (Real.cos x)
  sq x := x ^ 2
  asin x := approx (Real.arcsin x)

theorem approx_zero : approx 0 = 0 := by
  have := approx_near 0
  simpa using this

theorem someLib_right : RightTo (2 ^ (-49 : ℤ)) someLib where
  sin x _ := by
    unfold someLib
    dsimp only
    split
    · have := approx_near (Real.sin (-x))
      rw [Real.sin_neg, abs_neg] at this
      rw [Rat.cast_neg, Real.sin_neg, ← abs_neg, neg_sub, sub_neg_eq_add, add_comm]
      rwa [sub_neg_eq_add] at this
    · exact approx_near _
  cos x _ := approx_near _
  sq x := by
    show |((x ^ 2 : ℚ) : ℝ) - (x : ℝ) ^ 2| ≤ _
    rw [Rat.cast_pow, sub_self, abs_zero]
    positivity
  sq_nonneg x := sq_nonneg x
  sq_zero := by simp [someLib]
  asin x h0 _ := by
    have := approx_near (Real.arcsin x)
    rwa [abs_of_nonneg (Real.arcsin_nonneg.2 (by exact_mod_cast h0))] at this

theorem someLib_odd (x : ℚ) : someLib.sin (-x) = -someLib.sin x := by
  unfold someLib
  dsimp only
  rcases lt_trichotomy x 0 with h | h | h
  · rw [if_neg (by linarith), if_pos h, Rat.cast_neg, neg_neg]
  · subst h; simp [approx_zero]
  · rw [if_pos (by linarith), if_neg (by linarith), Rat.cast_neg, neg_neg]

/-- The same with a sine that is a little too large at one number. -/
noncomputable def largeLib : MathLib where
  sin x := if x = -(npyPi / 2) then -(1 + 1 / 2 ^ 50) else someLib.sin x
  cos x := if x = 0 then 1 else someLib.cos x
  sq := someLib.sq
  asin := someLib.asin

theorem largeLib_right : RightTo (2 ^ (-49 : ℤ)) largeLib where
  sin x hx := by
    unfold largeLib
    dsimp only
    split
    · rename_i h
      have h0 := Real.pi_gt_d20
      have h1 := Real.pi_lt_d20
      have hs : Real.sin (x : ℝ) = -Real.cos (Real.pi / 2 - ((npyPi / 2 : ℚ) : ℝ)) := by
        rw [h, Real.cos_pi_div_two_sub, Rat.cast_neg, Real.sin_neg]
      have he : |Real.pi / 2 - ((npyPi / 2 : ℚ) : ℝ)| ≤ 1 / 10 ^ 15 := by
        unfold npyPi
        push_cast
        rw [abs_le]
        constructor <;> norm_num at * <;> linarith
      have hc1 := Real.cos_le_one (Real.pi / 2 - ((npyPi / 2 : ℚ) : ℝ))
      have hc2 := Real.one_sub_sq_div_two_le_cos (x := Real.pi / 2 - ((npyPi / 2 : ℚ) : ℝ))
      have he2 : (Real.pi / 2 - ((npyPi / 2 : ℚ) : ℝ)) ^ 2 ≤ 1 / 10 ^ 30 := by
        rw [← sq_abs]
        calc |Real.pi / 2 - ((npyPi / 2 : ℚ) : ℝ)| ^ 2 ≤ (1 / 10 ^ 15) ^ 2 := pow_le_pow_left₀ (abs_nonneg _) he 2
          _ = 1 / 10 ^ 30 := by norm_num
      rw [hs]
      generalize Real.cos (Real.pi / 2 - ((npyPi / 2 : ℚ) : ℝ)) = c at *
      have hc : 1 - 1 / 10 ^ 30 ≤ c := by linarith
      rw [abs_neg, abs_of_nonneg (show 0 ≤ c by norm_num at hc ⊢; linarith)]
      push_cast
      rw [abs_le]
      constructor <;> norm_num at * <;> linarith
    · exact someLib_right.sin x hx
  cos x hx := by
    unfold largeLib
    dsimp only
    split
    · rename_i h
      subst h
      simp
    · exact someLib_right.cos x hx
  sq := someLib_right.sq
  sq_nonneg := someLib_right.sq_nonneg
  sq_zero := someLib_right.sq_zero
  asin := someLib_right.asin

theorem precise49 : Precise (2 ^ (-49 : ℤ)) := ⟨by norm_num, by norm_num⟩

end Geo

/-- C200, second part: that the library is right to 2^-49 does not rule out `nan`. For the points of the equator at 0° and at 180° a library whose sine of 90° is 1 + 2^-50 takes the arc sine of a
number above 1. -/
theorem C200_nan_violated : ∃ (u : ℝ) (L : MathLib), Precise u ∧ RightTo u L ∧ Dbl.geodeticDistance L 0 0 180 0 = none := by
  refine ⟨_, largeLib, precise49, largeLib_right, ?_⟩
  have a0 : npRadians 0 = 0 := by decide +kernel
  have at_ : rnd (rnd (npRadians 0 - npRadians 180) / 2) = -(npyPi / 2) := by decide +kernel
  have as_ : rnd (rnd (npRadians 0 - npRadians 0) / 2) = 0 := by decide +kernel
  have s0 : largeLib.sin 0 = 0 := by
    unfold largeLib
    dsimp only
    rw [if_neg (by decide +kernel)]
    simp [someLib, approx_zero]
  have st : largeLib.sin (-(npyPi / 2)) = -(1 + 1 / 2 ^ 50) := by simp [largeLib]
  have c0 : largeLib.cos 0 = 1 := by simp [largeLib]
  have q : ∀ x, largeLib.sq x = x ^ 2 := fun _ => rfl
  unfold Dbl.geodeticDistance Dbl.haversine npArcsin
  simp only [as_, at_, s0, st, q]
  simp only [a0, c0]
  rw [if_neg (by decide +kernel)]
  rfl

namespace Geo

/-! ### Azimuths -/

theorem product_near {u : ℝ} (hu : Precise u) {a b : ℚ} {A B e f : ℝ} (ha : |(a : ℝ) - A| ≤ e) (hb : |(b : ℝ) - B| ≤ f) (hA : |A| ≤ 1) (hB : |B| ≤ 1) (he : e ≤ 50 * u) (hf : f ≤ 50 * u) :
    |((rnd (a * b) : ℚ) : ℝ) - A * B| ≤ e + f + 2 * u := by
  obtain ⟨u0, u1, τ0, τ2, τ1, τu⟩ := tiny hu
  have h := rnd_real hu (a * b)
  clear τ1 τ2
  generalize (2 : ℝ) ^ (-1075 : ℤ) = τ at *
  rw [Rat.cast_mul] at h
  have e0 : 0 ≤ e := le_trans (abs_nonneg _) ha
  have f0 : 0 ≤ f := le_trans (abs_nonneg _) hb
  have h1 : |(a : ℝ) * b - A * B| ≤ e + f + u / 100 := by
    rw [show (a : ℝ) * b - A * B = (a - A) * (b - B) + (a - A) * B + A * (b - B) by ring]
    refine le_trans (abs_add_le _ _) (le_trans (add_le_add_left (abs_add_le _ _) _) ?_)
    rw [abs_mul, abs_mul, abs_mul]
    have c1 := mul_le_mul ha hb (abs_nonneg _) e0
    have c2 : |(a : ℝ) - A| * |B| ≤ e * 1 := mul_le_mul ha hB (abs_nonneg _) e0
    have c3 : |A| * |(b : ℝ) - B| ≤ 1 * f := mul_le_mul hA hb (abs_nonneg _) zero_le_one
    have c4 : e * f ≤ 50 * u * (50 * u) := mul_le_mul he hf f0 (by positivity)
    nlinarith
  have h2 : |(a : ℝ) * b| ≤ 11 / 10 := by
    have : |A * B| ≤ 1 := by rw [abs_mul]; exact mul_le_one₀ hA (abs_nonneg _) hB
    linarith [abs_sub_abs_le_abs_sub ((a : ℝ) * b) (A * B)]
  have h3 := abs_sub_le ((rnd (a * b) : ℚ) : ℝ) ((a : ℝ) * b) (A * B)
  nlinarith

theorem difference_near {u : ℝ} (hu : Precise u) {a b : ℚ} {A B e f M : ℝ} (ha : |(a : ℝ) - A| ≤ e) (hb : |(b : ℝ) - B| ≤ f) (hM : 1 ≤ M) (hA : |A| ≤ M) (hB : |B| ≤ M) (he : e ≤ 50 * u) (hf : f ≤ 50 * u) :
    |((rnd (a - b) : ℚ) : ℝ) - (A - B)| ≤ e + f + 21 / 10 * M * u := by
  obtain ⟨u0, u1, τ0, τ2, τ1, τu⟩ := tiny hu
  have h := rnd_real hu (a - b)
  clear τ1 τ2
  generalize (2 : ℝ) ^ (-1075 : ℤ) = τ at *
  rw [Rat.cast_sub] at h
  have h1 : |((a : ℝ) - b) - (A - B)| ≤ e + f := by
    rw [show ((a : ℝ) - b) - (A - B) = (a - A) + -(b - B) by ring]
    refine le_trans (abs_add_le _ _) ?_
    rw [abs_neg]; linarith
  have h2 : |(a : ℝ) - b| ≤ 2 * M + 1 / 100 := by
    have : |A - B| ≤ |A| + |B| := abs_sub _ _
    linarith [abs_sub_abs_le_abs_sub ((a : ℝ) - b) (A - B)]
  have h3 := abs_sub_le ((rnd (a - b) : ℚ) : ℝ) ((a : ℝ) - b) (A - B)
  have h4 := mul_le_mul_of_nonneg_left h2 u0.le
  nlinarith

theorem degrees_eq : rnd (180 / npyPi) = 1007958012753983 / 17592186044416 := by decide +kernel

theorem degrees_near {u : ℝ} (hu : Precise u) {x : ℚ} {X : ℝ} (h : |(x : ℝ) - X| ≤ 4 * u) (hX : |X| ≤ 4) : |(npDegrees x : ℝ) - X * (180 / Real.pi)| ≤ 700 * u := by
  obtain ⟨u0, u1, τ0, τ2, τ1, τu⟩ := tiny hu
  have hr := rnd_real hu (x * rnd (180 / npyPi))
  have hk : |((rnd (180 / npyPi) : ℚ) : ℝ) - 180 / Real.pi| ≤ 33 * u := by
    have hp := Real.pi_gt_d20
    have hp' := Real.pi_lt_d20
    have hp0 := Real.pi_pos
    have h1 : |((rnd (180 / npyPi) : ℚ) : ℝ) - 180 / Real.pi| ≤ 33 * 2 ^ (-53 : ℤ) := by
      rw [degrees_eq, abs_le]
      push_cast
      constructor
      · rw [neg_le_sub_iff_le_add, div_le_iff₀ hp0]
        norm_num at *
        linarith
      · rw [sub_le_iff_le_add, ← sub_le_iff_le_add', le_div_iff₀ hp0]
        norm_num at *
        linarith
    exact le_trans h1 (mul_le_mul_of_nonneg_left hu.1 (by norm_num))
  have hk2 : |((rnd (180 / npyPi) : ℚ) : ℝ)| ≤ 58 := by rw [degrees_eq]; norm_num [abs_le]
  unfold npDegrees
  clear τ1 τ2
  generalize (2 : ℝ) ^ (-1075 : ℤ) = τ at *
  generalize rnd (180 / npyPi) = k at *
  generalize 180 / Real.pi = K at *
  rw [Rat.cast_mul] at hr
  have h1 : |(x : ℝ) * k - X * K| ≤ 4 * u * 58 + 4 * (33 * u) := by
    rw [show (x : ℝ) * k - X * K = (x - X) * k + X * (k - K) by ring]
    refine le_trans (abs_add_le _ _) ?_
    rw [abs_mul, abs_mul]
    exact add_le_add (mul_le_mul h hk2 (abs_nonneg _) (by positivity)) (mul_le_mul hX hk (abs_nonneg _) (by norm_num))
  have h2 : |(x : ℝ) * k| ≤ 240 := by
    rw [abs_mul]
    have : |(x : ℝ)| ≤ 41 / 10 := by linarith [abs_sub_abs_le_abs_sub (x : ℝ) X]
    have := mul_le_mul this hk2 (abs_nonneg _) (by norm_num)
    linarith
  have h3 := abs_sub_le ((rnd (x * k) : ℚ) : ℝ) ((x : ℝ) * k) (X * K)
  nlinarith

theorem remainder_spec {q : ℚ} (hlow : 180 ≤ q) (hhigh : q ≤ 540) : 0 ≤ remainder q ∧ remainder q < 360 ∧ (remainder q = q ∨ remainder q = q - 360) := by
  unfold remainder
  by_cases h : q < 360
  · have hf : ⌊q / 360⌋ = 0 := by rw [Int.floor_eq_iff]; constructor <;> norm_num <;> linarith
    rw [hf]
    exact ⟨by norm_num; linarith, by norm_num; linarith, Or.inl (by norm_num)⟩
  · have hf : ⌊q / 360⌋ = 1 := by
      rw [Int.floor_eq_iff]; constructor
      · norm_num; linarith
      · norm_num; linarith
    rw [hf]
    exact ⟨by norm_num; linarith, by norm_num; linarith, Or.inr (by norm_num)⟩

theorem course_range {a : ℚ} (h : |a| ≤ npyPi) : |npDegrees a| ≤ 180 := by
  have hp : 0 ≤ rnd (180 / npyPi) := by decide +kernel
  have hmax : npDegrees npyPi = 180 := by decide +kernel
  obtain ⟨h1, h2⟩ := abs_le.1 h
  rw [abs_le]
  constructor
  · rw [← hmax, npDegrees, npDegrees, ← rnd_neg]
    exact rnd_mono (by rw [← neg_mul]; exact mul_le_mul_of_nonneg_right h1 hp)
  · rw [← hmax]
    exact rnd_mono (mul_le_mul_of_nonneg_right h2 hp)

theorem turned_range {c : ℚ} (hb : |c| ≤ 180) : 180 ≤ rnd (360 - c) ∧ rnd (360 - c) ≤ 540 := by
  obtain ⟨h1, h2⟩ := abs_le.1 hb
  constructor
  · have : rnd 180 = 180 := by decide +kernel
    rw [← this]; exact rnd_mono (by linarith)
  · have : rnd 540 = 540 := by decide +kernel
    rw [← this]; exact rnd_mono (by linarith)

/-- From the two components to the azimuth. -/
theorem turned_near {u : ℝ} (hu : Precise u) {atan2 : ℚ → ℚ → ℚ} (ha : ArcTan u atan2) (y x : ℚ) :
    ∃ n : ℤ, |rad (remainder (rnd (360 - npDegrees (atan2 y x)))) - (-Complex.arg ⟨x, y⟩ + n * (2 * Real.pi))| ≤ 24 * u := by
  obtain ⟨u0, u1, τ0, τ2, τ1, τu⟩ := tiny hu
  have hp := Real.pi_gt_d2
  have hp' := Real.pi_lt_d2
  have hθ := Complex.abs_arg_le_pi ⟨x, y⟩
  have hc := degrees_near hu (ha.near y x) (by linarith)
  have hb := course_range (ha.range y x)
  obtain ⟨q1, q2⟩ := turned_range hb
  obtain ⟨-, -, hrem⟩ := remainder_spec q1 q2
  have hq := rnd_real hu (360 - npDegrees (atan2 y x))
  rw [Rat.cast_sub, Rat.cast_ofNat] at hq
  generalize npDegrees (atan2 y x) = c at *
  generalize rnd (360 - c) = q at *
  clear τ1 τ2
  generalize (2 : ℝ) ^ (-1075 : ℤ) = τ at *
  generalize Complex.arg ⟨x, y⟩ = θ at *
  have hb' : |(c : ℝ)| ≤ 180 := by exact_mod_cast hb
  have h540 : |(360 : ℝ) - c| ≤ 540 := by rw [abs_le] at hb' ⊢; constructor <;> linarith [hb'.1, hb'.2]
  have e1 : |(q : ℝ) - (360 - θ * (180 / Real.pi))| ≤ 1300 * u := by
    have := mul_le_mul_of_nonneg_left h540 u0.le
    rw [abs_le] at hc ⊢
    obtain ⟨a1, a2⟩ := abs_le.1 hq
    constructor <;> linarith [hc.1, hc.2]
  have e2 : |rad q - (-θ + 1 * (2 * Real.pi))| ≤ 24 * u := by
    have : rad q - (-θ + 1 * (2 * Real.pi)) = ((q : ℝ) - (360 - θ * (180 / Real.pi))) * (Real.pi / 180) := by
      unfold rad
      field_simp
      ring
    rw [this, abs_mul, abs_of_pos (by positivity : 0 < Real.pi / 180)]
    have := mul_le_mul e1 (by linarith : Real.pi / 180 ≤ 18 / 1000) (by positivity) (by positivity)
    linarith
  rcases hrem with h | h
  · refine ⟨1, ?_⟩
    rw [h]
    push_cast
    exact e2
  · refine ⟨0, ?_⟩
    rw [h]
    push_cast
    rw [show rad ((q : ℝ) - 360) - (-θ + 0 * (2 * Real.pi)) = rad q - (-θ + 1 * (2 * Real.pi)) by unfold rad; ring]
    exact e2

theorem polar_near {m E N y x α e k : ℝ} (hm : m = ‖(⟨x, y⟩ : ℂ)‖) (n : ℤ) (hα : |α - (-Complex.arg ⟨x, y⟩ + n * (2 * Real.pi))| ≤ k) (hy : |y + E| ≤ e) (hx : |x - N| ≤ e) (hm4 : m ≤ 4) :
    |m * Real.sin α - E| ≤ 4 * k + e ∧ |m * Real.cos α - N| ≤ 4 * k + e := by
  have hs : m * Real.sin (Complex.arg ⟨x, y⟩) = y := by rw [hm]; exact Complex.norm_mul_sin_arg _
  have hc : m * Real.cos (Complex.arg ⟨x, y⟩) = x := by rw [hm]; exact Complex.norm_mul_cos_arg _
  have m0 : 0 ≤ m := by rw [hm]; exact norm_nonneg _
  have k0 : 0 ≤ k := le_trans (abs_nonneg _) hα
  generalize Complex.arg ⟨x, y⟩ = θ at *
  have h1 := le_trans (Real.abs_sin_sub_sin_le α (-θ + n * (2 * Real.pi))) hα
  have h2 := le_trans (Real.abs_cos_sub_cos_le α (-θ + n * (2 * Real.pi))) hα
  rw [Real.sin_add_int_mul_two_pi, Real.sin_neg] at h1
  rw [Real.cos_add_int_mul_two_pi, Real.cos_neg] at h2
  constructor
  · rw [show m * Real.sin α - E = m * (Real.sin α - -Real.sin θ) + -(y + E) by rw [← hs]; ring]
    refine le_trans (abs_add_le _ _) ?_
    rw [abs_neg, abs_mul, abs_of_nonneg m0]
    exact add_le_add (mul_le_mul hm4 h1 (abs_nonneg _) (by norm_num)) hy
  · rw [show m * Real.cos α - N = m * (Real.cos α - Real.cos θ) + (x - N) by rw [← hc]; ring]
    refine le_trans (abs_add_le _ _) ?_
    rw [abs_mul, abs_of_nonneg m0]
    exact add_le_add (mul_le_mul hm4 h2 (abs_nonneg _) (by norm_num)) hx

end Geo

/-- C200: for every arc tangent from -π to π, as doubles, azimuths are from 0 up to but not including 360. An azimuth just below 0 becomes 0 or a double below 360, never 360. -/
theorem C200_azimuth {atan2 : ℚ → ℚ → ℚ} (ha : ∀ y x, |atan2 y x| ≤ npyPi) (L : MathLib) (lon1 lat1 lon2 lat2 : ℚ) :
    0 ≤ Dbl.azimuth L atan2 lon1 lat1 lon2 lat2 ∧ Dbl.azimuth L atan2 lon1 lat1 lon2 lat2 < 360 := by
  unfold Dbl.azimuth
  dsimp only
  obtain ⟨h1, h2⟩ := turned_range (course_range (ha (rnd (L.sin (rnd (npRadians lon1 - npRadians lon2)) * L.cos (npRadians lat2)))
    (rnd (rnd (L.cos (npRadians lat1) * L.sin (npRadians lat2)) - rnd (rnd (L.sin (npRadians lat1) * L.cos (npRadians lat2)) * L.cos (rnd (npRadians lon1 - npRadians lon2)))))))
  have := remainder_spec h1 h2
  exact ⟨this.1, this.2.1⟩

/-- C200: an azimuth points to a place within 200 `u` earth radii of the second point: along east and north at the first point, some multiple of its sine and cosine are the components of the
second point, up to 200 `u`. -/
theorem C200_direction {u : ℝ} (hu : Precise u) {L : MathLib} (hL : RightTo u L) {atan2 : ℚ → ℚ → ℚ} (ha : ArcTan u atan2) {lon1 lat1 lon2 lat2 : ℚ} (h1 : |lat1| ≤ 90) (h2 : |lat2| ≤ 90)
    (h3 : |lon1| ≤ 180) (h4 : |lon2| ≤ 180) :
    ∃ m : ℝ, 0 ≤ m ∧ |m * Real.sin (rad (Dbl.azimuth L atan2 lon1 lat1 lon2 lat2)) - eastOf lon1 lon2 lat2| ≤ 200 * u ∧
      |m * Real.cos (rad (Dbl.azimuth L atan2 lon1 lat1 lon2 lat2)) - northOf lon1 lat1 lon2 lat2| ≤ 200 * u := by
  obtain ⟨u0, u1, -⟩ := tiny hu
  have hpi := Real.pi_gt_d2
  have hpi' := Real.pi_lt_d2
  have r1 : |(lat1 : ℝ)| ≤ 90 := by exact_mod_cast h1
  have r2 : |(lat2 : ℝ)| ≤ 90 := by exact_mod_cast h2
  have r3 : |(lon1 : ℝ)| ≤ 180 := by exact_mod_cast h3
  have r4 : |(lon2 : ℝ)| ≤ 180 := by exact_mod_cast h4
  have b1 := latitude_bound h1
  have b2 := latitude_bound h2
  have b3 := longitude_bound h3
  have b4 := longitude_bound h4
  have e1 := angle_near hu r1 (by norm_num)
  have e2 := angle_near hu r2 (by norm_num)
  have e3 := angle_near hu r3 (by norm_num)
  have e4 := angle_near hu r4 (by norm_num)
  have eΔ := difference_near hu (M := 16 / 5) e3 e4 (by norm_num) (by linarith) (by linarith) (by linarith) (by linarith)
  have small : ∀ {x : ℚ} {X e : ℝ}, |(x : ℝ) - X| ≤ e → |X| ≤ 8 → e ≤ 1 → |x| ≤ 10 := by
    intro x X e h hX he
    have : |(x : ℝ)| ≤ 10 := by
      have := abs_sub_abs_le_abs_sub (x : ℝ) X
      linarith
    exact_mod_cast this
  have hΔ : |Oq.radians lon1 - Oq.radians lon2| ≤ 8 := by
    rw [abs_le] at b3 b4 ⊢; constructor <;> linarith [b3.1, b3.2, b4.1, b4.2]
  have sΔ := sine_near u0 hL (small eΔ hΔ (by linarith)) eΔ
  have cΔ := cosine_near u0 hL (small eΔ hΔ (by linarith)) eΔ
  have s1 := sine_near u0 hL (small e1 (by linarith) (by linarith)) e1
  have s2 := sine_near u0 hL (small e2 (by linarith) (by linarith)) e2
  have c1 := cosine_near u0 hL (small e1 (by linarith) (by linarith)) e1
  have c2 := cosine_near u0 hL (small e2 (by linarith) (by linarith)) e2
  have py := product_near hu sΔ c2 (Real.abs_sin_le_one _) (Real.abs_cos_le_one _) (by linarith) (by linarith)
  have p1 := product_near hu c1 s2 (Real.abs_cos_le_one _) (Real.abs_sin_le_one _) (by linarith) (by linarith)
  have p2 := product_near hu s1 c2 (Real.abs_sin_le_one _) (Real.abs_cos_le_one _) (by linarith) (by linarith)
  have one : ∀ {a b : ℝ}, |a| ≤ 1 → |b| ≤ 1 → |a * b| ≤ 1 := fun ha hb => by rw [abs_mul]; exact mul_le_one₀ ha (abs_nonneg _) hb
  have p3 := product_near hu p2 cΔ (one (Real.abs_sin_le_one _) (Real.abs_cos_le_one _)) (Real.abs_cos_le_one _) (by linarith) (by linarith)
  have px := difference_near hu (M := 1) p1 p3 le_rfl (one (Real.abs_cos_le_one _) (Real.abs_sin_le_one _)) (one (one (Real.abs_sin_le_one _) (Real.abs_cos_le_one _)) (Real.abs_cos_le_one _))
    (by linarith) (by linarith)
  have hE : Real.sin (Oq.radians lon1 - Oq.radians lon2) * Real.cos (Oq.radians lat2) = -eastOf lon1 lon2 lat2 := by
    unfold eastOf eastAt onSphere
    simp only [PiLp.inner_apply, Fin.sum_univ_three]
    simp [rad, Oq.radians]
    rw [Real.sin_sub]; ring
  have hN : Real.cos (Oq.radians lat1) * Real.sin (Oq.radians lat2) - Real.sin (Oq.radians lat1) * Real.cos (Oq.radians lat2) * Real.cos (Oq.radians lon1 - Oq.radians lon2)
      = northOf lon1 lat1 lon2 lat2 := by
    unfold northOf northAt onSphere
    simp only [PiLp.inner_apply, Fin.sum_univ_three]
    simp [rad, Oq.radians]
    rw [Real.cos_sub]; ring
  have bE := one (Real.abs_sin_le_one (Oq.radians lon1 - Oq.radians lon2)) (Real.abs_cos_le_one (Oq.radians lat2))
  have bN : |Real.cos (Oq.radians lat1) * Real.sin (Oq.radians lat2) - Real.sin (Oq.radians lat1) * Real.cos (Oq.radians lat2) * Real.cos (Oq.radians lon1 - Oq.radians lon2)| ≤ 2 := by
    refine le_trans (abs_sub _ _) ?_
    have := one (Real.abs_cos_le_one (Oq.radians lat1)) (Real.abs_sin_le_one (Oq.radians lat2))
    have := one (one (Real.abs_sin_le_one (Oq.radians lat1)) (Real.abs_cos_le_one (Oq.radians lat2))) (Real.abs_cos_le_one (Oq.radians lon1 - Oq.radians lon2))
    linarith
  rw [hE] at py bE
  rw [hN] at px bN
  unfold Dbl.azimuth
  dsimp only
  generalize rnd (L.sin (rnd (npRadians lon1 - npRadians lon2)) * L.cos (npRadians lat2)) = y at *
  generalize rnd (rnd (L.cos (npRadians lat1) * L.sin (npRadians lat2)) - rnd (rnd (L.sin (npRadians lat1) * L.cos (npRadians lat2)) * L.cos (rnd (npRadians lon1 - npRadians lon2)))) = x at *
  obtain ⟨n, hn⟩ := turned_near hu ha y x
  have hy : |(y : ℝ) + eastOf lon1 lon2 lat2| ≤ 60 * u := by
    rw [sub_neg_eq_add] at py
    linarith
  have hx : |(x : ℝ) - northOf lon1 lat1 lon2 lat2| ≤ 60 * u := by linarith
  have hm : ‖(⟨x, y⟩ : ℂ)‖ ≤ 4 := by
    refine le_trans (Complex.norm_le_abs_re_add_abs_im _) ?_
    show |(x : ℝ)| + |(y : ℝ)| ≤ 4
    have q1 := abs_sub_abs_le_abs_sub (x : ℝ) (northOf lon1 lat1 lon2 lat2)
    have q2 := abs_sub_abs_le_abs_sub (y : ℝ) (-eastOf lon1 lon2 lat2)
    rw [sub_neg_eq_add] at q2
    linarith
  obtain ⟨f1, f2⟩ := polar_near rfl n hn hy hx hm
  exact ⟨_, norm_nonneg _, le_trans f1 (by linarith), le_trans f2 (by linarith)⟩

/-- Libraries as in the hypotheses exist, with an odd sine. A quarter of the equator is less than 10010 km long. -/
example : ∃ (u : ℝ) (L : MathLib), Precise u ∧ RightTo u L ∧ (∀ x, L.sin (-x) = -L.sin x) ∧ (∀ x, L.sq (-x) = L.sq x) ∧
    ∃ D, Dbl.geodeticDistance L 0 0 89 0 = some D ∧ |(D : ℝ) - 6371 * (89 * (Real.pi / 180))| ≤ 1 / 10 ^ 8 := by
  have hg : greatCircle (0 : ℚ) (0 : ℚ) (89 : ℚ) (0 : ℚ) = 6371 * (89 * (Real.pi / 180)) := by
    rw [← C78_great_circle]
    have hp := Real.pi_pos
    unfold Oq.geodeticDistance Oq.radians Oq.earthRadius
    have h0 : 0 ≤ Real.sin (89 * (Real.pi / 180) / 2) := Real.sin_nonneg_of_nonneg_of_le_pi (by positivity) (by linarith)
    have h1 : Real.arcsin (Real.sin (89 * (Real.pi / 180) / 2)) = 89 * (Real.pi / 180) / 2 := Real.arcsin_sin (by linarith) (by linarith)
    simp [neg_div, Real.sin_neg, Real.sqrt_sq h0, h1]
    ring
  have hl : |(0 : ℚ)| ≤ 90 := by norm_num
  have h2 : |(0 : ℚ)| ≤ 180 := by norm_num
  have h3 : |(89 : ℚ)| ≤ 180 := by norm_num
  have hle : greatCircle (0 : ℚ) (0 : ℚ) (89 : ℚ) (0 : ℚ) ≤ 10000 := by rw [hg]; linarith [Real.pi_lt_d2]
  obtain ⟨D, hD⟩ := C200_number precise49 someLib_right hl hl h2 h3 (le_trans hle (by norm_num))
  refine ⟨_, someLib, precise49, someLib_right, someLib_odd, fun x => by simp [someLib], D, hD, ?_⟩
  have := ((C200_distance_partial precise49 someLib_right hl hl h2 h3).1 D hD).2.2 hle
  rw [hg] at this
  exact le_trans this (by norm_num)

/-- There is an arc tangent as in the hypotheses of `C200_direction`. -/
example : ∃ atan2, ArcTan (2 ^ (-49 : ℤ)) atan2 := by
  have key : ∀ y x : ℚ, ∃ q : ℚ, |(q : ℝ) - Complex.arg ⟨x, y⟩| ≤ 4 * 2 ^ (-49 : ℤ) ∧ |q| ≤ npyPi := by
    intro y x
    have hθ := abs_le.1 (Complex.abs_arg_le_pi ⟨x, y⟩)
    generalize Complex.arg ⟨x, y⟩ = θ at *
    obtain ⟨r, hr⟩ := exists_rat_near θ (by positivity : (0 : ℝ) < 2 ^ (-50 : ℤ))
    obtain ⟨hr1, hr2⟩ := abs_lt.1 hr
    have hp : Real.pi - (npyPi : ℝ) ≤ 2 ^ (-50 : ℤ) := by
      have := Real.pi_lt_d20
      unfold npyPi
      push_cast
      norm_num at *
      linarith
    have hn : 0 < npyPi := by decide +kernel
    have p0 : (0 : ℝ) < npyPi := by exact_mod_cast hn
    have hz : (2 : ℝ) ^ (-50 : ℤ) ≤ 4 * 2 ^ (-49 : ℤ) := by norm_num
    have h1 : (2 : ℝ) ^ (-50 : ℤ) ≤ 1 / 10 := by norm_num
    have hw : (2 : ℝ) < npyPi := by unfold npyPi; push_cast; norm_num
    by_cases ha : npyPi < r
    · have ha' : (npyPi : ℝ) < r := by exact_mod_cast ha
      refine ⟨npyPi, ?_, by rw [abs_of_pos hn]⟩
      rw [abs_le]; constructor <;> linarith
    · by_cases hb : r < -npyPi
      · have hb' : (r : ℝ) < -npyPi := by exact_mod_cast hb
        refine ⟨-npyPi, ?_, by rw [abs_neg, abs_of_pos hn]⟩
        rw [Rat.cast_neg, abs_le]; constructor <;> linarith
      · refine ⟨r, ?_, abs_le.2 ⟨not_lt.1 hb, not_lt.1 ha⟩⟩
        rw [abs_le]; constructor <;> linarith
  choose f hf using key
  exact ⟨f, fun y x => (hf y x).1, fun y x => (hf y x).2⟩

end Verif.Props
