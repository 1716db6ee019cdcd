import Verif.Model.QuadStrike
import Verif.Spec.QuadStrike
import Verif.Props.RuptureRanges

/-!
# Strikes of ruptures of quadrilaterals in binary arithmetic

C228.
-/

namespace Verif.Props
open Verif.Spec
open Verif.Dbl
open Verif.Rup (Quad)

namespace Mst
open Geo

/-- Rounded products, their sizes and the exact sums. -/
theorem terms_near {u : ℝ} (hu : Precise u) {α : Type} {f ℓ : α → ℚ} {F : α → ℝ} :
    ∀ l : List α, (∀ a ∈ l, |F a| ≤ 1 ∧ |(f a : ℝ) - F a| ≤ 14 * u ∧ 0 ≤ ℓ a) →
    |(l.map fun a => ((rnd (f a * ℓ a) : ℚ) : ℝ)).sum - (l.map fun a => F a * (ℓ a : ℝ)).sum| ≤ 16 * u * (l.map fun a => (ℓ a : ℝ)).sum + l.length * 2 ^ (-1075 : ℤ) ∧
    (l.map fun a => |((rnd (f a * ℓ a) : ℚ) : ℝ)|).sum ≤ 101 / 100 * (l.map fun a => (ℓ a : ℝ)).sum + l.length * 2 ^ (-1075 : ℤ) ∧
    |(l.map fun a => F a * (ℓ a : ℝ)).sum| ≤ (l.map fun a => (ℓ a : ℝ)).sum := by
  obtain ⟨u0, u1, τ0, τ2, τ1, τu⟩ := tiny hu
  intro l
  induction l with
  | nil => intro; simp
  | cons a l ih =>
    intro h
    obtain ⟨i1, i2, i3⟩ := ih fun b hb => h b (by simp [hb])
    obtain ⟨hF, hf, h0⟩ := h a (by simp)
    have h0' : (0 : ℝ) ≤ (ℓ a : ℝ) := by exact_mod_cast h0
    have r := rnd_real hu (f a * ℓ a)
    push_cast at r
    rw [abs_mul, abs_of_nonneg h0'] at r
    have bf : |(f a : ℝ)| ≤ 1 + 14 * u := by
      have := abs_sub_abs_le_abs_sub (f a : ℝ) (F a)
      linarith
    have p1 := mul_le_mul_of_nonneg_right bf h0'
    have p2 := mul_le_mul_of_nonneg_right hf h0'
    have d : |(f a : ℝ) * ℓ a - F a * ℓ a| ≤ 14 * u * ℓ a := by rw [← sub_mul, abs_mul, abs_of_nonneg h0']; exact p2
    have uu : u * (|(f a : ℝ)| * ℓ a) ≤ 2 * u * ℓ a := by
      have := mul_le_mul_of_nonneg_left p1 u0.le
      have k : u * (14 * u) ≤ u := by nlinarith
      have := mul_le_mul_of_nonneg_right k h0'
      linarith [show u * ((1 + 14 * u) * (ℓ a : ℝ)) = u * ℓ a + u * (14 * u) * ℓ a by ring]
    have t1 : |((rnd (f a * ℓ a) : ℚ) : ℝ) - F a * ℓ a| ≤ 16 * u * ℓ a + 2 ^ (-1075 : ℤ) := by
      have := abs_sub_le ((rnd (f a * ℓ a) : ℚ) : ℝ) ((f a : ℝ) * ℓ a) (F a * ℓ a)
      linarith
    have Fl : |F a * (ℓ a : ℝ)| ≤ ℓ a := by
      rw [abs_mul, abs_of_nonneg h0']
      exact mul_le_of_le_one_left h0' hF
    have small : 16 * u * (ℓ a : ℝ) ≤ 1 / 100 * ℓ a := mul_le_mul_of_nonneg_right (by linarith) h0'
    have t2 : |((rnd (f a * ℓ a) : ℚ) : ℝ)| ≤ 101 / 100 * ℓ a + 2 ^ (-1075 : ℤ) := by
      have := abs_sub_abs_le_abs_sub ((rnd (f a * ℓ a) : ℚ) : ℝ) (F a * ℓ a)
      linarith
    simp only [List.map_cons, List.sum_cons, List.length_cons]
    push_cast
    refine ⟨?_, by linarith, (abs_add_le _ _).trans (by linarith)⟩
    rw [add_sub_add_comm]
    refine (abs_add_le _ _).trans ?_
    linarith

/-- A mean with weights. -/
theorem mean_near {u : ℝ} (hu : Precise u) {sum : List ℚ → ℚ} (hs : AddsTo u sum) {α : Type} {f ℓ : α → ℚ} {F : α → ℝ} (l : List α)
    (h : ∀ a ∈ l, |F a| ≤ 1 ∧ |(f a : ℝ) - F a| ≤ 14 * u ∧ 0 ≤ ℓ a) (hn : l.length ≤ 1000000) {W : ℝ} (hW : (l.map fun a => (ℓ a : ℝ)).sum = W) (W0 : 1 / 1000 ≤ W) :
    sum (l.map ℓ) ≠ 0 ∧ |((rnd (sum (l.map fun a => rnd (f a * ℓ a)) / sum (l.map ℓ)) : ℚ) : ℝ) - (l.map fun a => F a * (ℓ a : ℝ)).sum / W| ≤ 240 * u ∧
    |(l.map fun a => F a * (ℓ a : ℝ)).sum / W| ≤ 1 := by
  obtain ⟨u0, u1, τ0, τ2, τ1, τu⟩ := tiny hu
  obtain ⟨t1, t2, t3⟩ := terms_near hu l h
  rw [hW] at t1 t2 t3
  have hn' : (l.length : ℝ) ≤ 1000000 := by exact_mod_cast hn
  have nτ : (l.length : ℝ) * 2 ^ (-1075 : ℤ) ≤ u * W := by
    have a := mul_le_mul hn' τ2 τ0.le (by norm_num)
    have b : u ^ 2 ≤ u * (1 / 1000000000000) := by rw [sq]; exact mul_le_mul_of_nonneg_left u1 u0.le
    have c := mul_le_mul_of_nonneg_left W0 u0.le
    linarith
  have uW : 0 < u * W := by positivity
  have small : u * W ≤ 1 / 100000 * W := mul_le_mul_of_nonneg_right (by linarith) (by linarith)
  have s1 := hs (l.map fun a => rnd (f a * ℓ a))
  have s2 := hs (l.map ℓ)
  simp only [List.map_map, Function.comp_def] at s1 s2
  have ab : (l.map fun a => |(ℓ a : ℝ)|).sum = W := by
    rw [← hW]
    congr 1
    refine List.map_congr_left fun a ha => abs_of_nonneg ?_
    exact_mod_cast (h a ha).2.2
  rw [ab, hW] at s2
  generalize sum (l.map fun a => rnd (f a * ℓ a)) = N at *
  generalize sum (l.map ℓ) = T at *
  generalize (l.map fun a => F a * (ℓ a : ℝ)).sum = G at *
  generalize (l.map fun a => ((rnd (f a * ℓ a) : ℚ) : ℝ)).sum = P at *
  generalize (l.map fun a => |((rnd (f a * ℓ a) : ℚ) : ℝ)|).sum = A at *
  have Tlo : 99 / 100 * W ≤ (T : ℝ) := by
    have := (abs_le.1 s2).1
    linarith
  have T0 : (0 : ℝ) < T := by linarith
  have s1' : |(N : ℝ) - P| ≤ 103 * (u * W) := by
    have a := mul_le_mul_of_nonneg_left t2 (by linarith : 0 ≤ 100 * u)
    have b : 100 * u * (l.length * 2 ^ (-1075 : ℤ)) ≤ u * W := by
      have := mul_le_mul_of_nonneg_left nτ (by linarith : 0 ≤ 100 * u)
      have := mul_le_mul_of_nonneg_right (by linarith : 100 * u ≤ 1) uW.le
      linarith
    linarith
  have NG : |(N : ℝ) - G| ≤ 120 * (u * W) := by
    have := abs_sub_le (N : ℝ) P G
    linarith
  have X1 : |G / W| ≤ 1 := by
    rw [abs_div, abs_of_pos (by linarith : 0 < W)]
    exact div_le_one_of_le₀ t3 (by linarith)
  have Q : |(N : ℝ) / T - G / W| ≤ 230 * u := by
    have W0' : W ≠ 0 := by linarith
    have e : (N : ℝ) / T - G / W = (((N : ℝ) - G) + G / W * (W - T)) / T := by
      field_simp
      ring
    rw [e, abs_div, abs_of_pos T0, div_le_iff₀ T0]
    refine (abs_add_le _ _).trans ?_
    rw [abs_mul, abs_sub_comm W]
    have a := mul_le_mul X1 s2 (abs_nonneg _) (by norm_num)
    have b := mul_le_mul_of_nonneg_left Tlo (by linarith : 0 ≤ 230 * u)
    linarith
  refine ⟨fun hc => ?_, ?_, X1⟩
  · rw [hc] at T0
    simp at T0
  · have r := rnd_real hu (N / T)
    push_cast at r
    have b : |(N : ℝ) / T| ≤ 2 := by
      have := abs_sub_abs_le_abs_sub ((N : ℝ) / T) (G / W)
      linarith
    have := mul_le_mul_of_nonneg_left b u0.le
    have := abs_sub_le ((rnd (N / T) : ℚ) : ℝ) ((N : ℝ) / T) (G / W)
    linarith

end Mst

/-- C228: strikes are from -180 to 180 degrees, and not numbers exactly when the lengths have the sum 0. -/
theorem C228_range (L : MathLib) {atan2 : ℚ → ℚ → ℚ} (ha : ∀ y x, |atan2 y x| ≤ npyPi) (sum : List ℚ → ℚ) (qs : List (Quad GeoPoint)) :
    (∀ S, quadStrike L atan2 sum qs = some S → -180 ≤ S ∧ S ≤ 180) ∧ (quadStrike L atan2 sum qs = none ↔ sum (topLengths L qs) = 0) := by
  refine ⟨fun S h => ?_, ?_⟩
  · simp only [quadStrike] at h
    split_ifs at h
    cases h
    exact abs_le.1 (Geo.course_range (ha _ _))
  · simp only [quadStrike]
    have e : topLengths L qs = qs.map (quadLength L) := rfl
    rw [e]
    split_ifs with h <;> simp [h]

open Geo in
/-- C228: the strike is a number and points where the mean of the directions of the top edges, weighed with their lengths, points: some multiple of its sine and cosine are the mean components to the
east and to the north, up to 300 `u`. -/
theorem C228_direction {u : ℝ} (hu : Precise u) {L : MathLib} (hL : RightTo u L) {atan2 : ℚ → ℚ → ℚ} (ha : ArcTan u atan2) {sum : List ℚ → ℚ} (hs : AddsTo u sum) (qs : List (Quad GeoPoint))
    (hn : qs.length ≤ 1000000) {W : ℝ} (hW : ((topLengths L qs).map fun x : ℚ => (x : ℝ)).sum = W) (W0 : 1 / 1000 ≤ W) :
    ∃ S m, quadStrike L atan2 sum qs = some S ∧ 0 ≤ m ∧
      |m * Real.sin (rad S) - (qs.map fun q => Real.sin (rad (Dbl.azimuth L atan2 q.p0.lon q.p0.lat q.p1.lon q.p1.lat)) * (quadLength L q : ℝ)).sum / W| ≤ 300 * u ∧
      |m * Real.cos (rad S) - (qs.map fun q => Real.cos (rad (Dbl.azimuth L atan2 q.p0.lon q.p0.lat q.p1.lon q.p1.lat)) * (quadLength L q : ℝ)).sum / W| ≤ 300 * u := by
  obtain ⟨u0, u1, τ0, τ2, τ1, τu⟩ := tiny hu
  have hp := Real.pi_gt_d2
  have hp' := Real.pi_lt_d2
  have l0 : ∀ q, 0 ≤ quadLength L q := fun q => rnd_nonneg (div_nonneg (Len.mag_real hu hL _).1 (by norm_num))
  have ang : ∀ q : Quad GeoPoint, |(npRadians (quadAzimuth L atan2 q) : ℝ) - rad (quadAzimuth L atan2 q)| ≤ 11 * u ∧ |npRadians (quadAzimuth L atan2 q)| ≤ 10 := by
    intro q
    obtain ⟨h1, h2⟩ := C200_azimuth ha.range L q.p0.lon q.p0.lat q.p1.lon q.p1.lat
    have h1' : (0 : ℝ) ≤ (quadAzimuth L atan2 q : ℝ) := by exact_mod_cast h1
    have h2' : (quadAzimuth L atan2 q : ℝ) ≤ 360 := by exact_mod_cast h2.le
    have e := angle_near hu (x := quadAzimuth L atan2 q) (B := 360) (by rw [abs_of_nonneg h1']; exact h2') (by norm_num)
    have e' : |(npRadians (quadAzimuth L atan2 q) : ℝ) - rad (quadAzimuth L atan2 q)| ≤ 11 * u := by
      refine le_trans e ?_
      linarith
    refine ⟨e', ?_⟩
    have b : |rad (quadAzimuth L atan2 q)| ≤ 7 := by
      unfold rad
      rw [abs_mul, abs_of_nonneg h1', abs_of_pos (by positivity : 0 < Real.pi / 180)]
      have := mul_le_mul h2' (by linarith : Real.pi / 180 ≤ 315 / 100 / 180) (by positivity) (by norm_num)
      linarith
    have : |(npRadians (quadAzimuth L atan2 q) : ℝ)| ≤ 10 := by
      have := abs_sub_abs_le_abs_sub (npRadians (quadAzimuth L atan2 q) : ℝ) (rad (quadAzimuth L atan2 q))
      linarith
    exact_mod_cast this
  have hW' : (qs.map fun q => (quadLength L q : ℝ)).sum = W := by
    rw [← hW, show topLengths L qs = qs.map (quadLength L) from rfl, List.map_map]
    rfl
  obtain ⟨T0, nx, bx⟩ := Mst.mean_near hu hs (f := fun q => L.sin (npRadians (quadAzimuth L atan2 q))) (ℓ := quadLength L) (F := fun q => Real.sin (rad (quadAzimuth L atan2 q))) qs
    (fun q _ => ⟨Real.abs_sin_le_one _, (sine_near u0 hL (ang q).2 (ang q).1).trans (by linarith), l0 q⟩) hn hW' W0
  obtain ⟨-, ny, by'⟩ := Mst.mean_near hu hs (f := fun q => L.cos (npRadians (quadAzimuth L atan2 q))) (ℓ := quadLength L) (F := fun q => Real.cos (rad (quadAzimuth L atan2 q))) qs
    (fun q _ => ⟨Real.abs_cos_le_one _, (cosine_near u0 hL (ang q).2 (ang q).1).trans (by linarith), l0 q⟩) hn hW' W0
  have e : quadStrike L atan2 sum qs = some (npDegrees (atan2 (rnd (sum (qs.map fun q => rnd (L.sin (npRadians (quadAzimuth L atan2 q)) * quadLength L q)) / sum (qs.map (quadLength L))))
      (rnd (sum (qs.map fun q => rnd (L.cos (npRadians (quadAzimuth L atan2 q)) * quadLength L q)) / sum (qs.map (quadLength L)))))) := by
    simp only [quadStrike]
    rw [if_neg T0]
  refine ⟨_, _, e, norm_nonneg (⟨((rnd (sum (qs.map fun q => rnd (L.cos (npRadians (quadAzimuth L atan2 q)) * quadLength L q)) / sum (qs.map (quadLength L))) : ℚ) : ℝ),
    ((rnd (sum (qs.map fun q => rnd (L.sin (npRadians (quadAzimuth L atan2 q)) * quadLength L q)) / sum (qs.map (quadLength L))) : ℚ) : ℝ)⟩ : ℂ), ?_⟩
  generalize rnd (sum (qs.map fun q => rnd (L.sin (npRadians (quadAzimuth L atan2 q)) * quadLength L q)) / sum (qs.map (quadLength L))) = y at *
  generalize rnd (sum (qs.map fun q => rnd (L.cos (npRadians (quadAzimuth L atan2 q)) * quadLength L q)) / sum (qs.map (quadLength L))) = x at *
  change |_ - (qs.map fun q => Real.sin (rad (quadAzimuth L atan2 q)) * (quadLength L q : ℝ)).sum / W| ≤ _ ∧ |_ - (qs.map fun q => Real.cos (rad (quadAzimuth L atan2 q)) * (quadLength L q : ℝ)).sum / W| ≤ _
  generalize (qs.map fun q => Real.sin (rad (quadAzimuth L atan2 q)) * (quadLength L q : ℝ)).sum / W = E at *
  generalize (qs.map fun q => Real.cos (rad (quadAzimuth L atan2 q)) * (quadLength L q : ℝ)).sum / W = N at *
  have near := ha.near y x
  have dg := degrees_near hu near (by have := Complex.abs_arg_le_pi ⟨x, y⟩; linarith)
  have hα : |rad (npDegrees (atan2 y x)) - Complex.arg ⟨x, y⟩| ≤ 13 * u := by
    have e : rad (npDegrees (atan2 y x)) - Complex.arg ⟨x, y⟩ = ((npDegrees (atan2 y x) : ℝ) - Complex.arg ⟨x, y⟩ * (180 / Real.pi)) * (Real.pi / 180) := by
      unfold rad
      field_simp
    rw [e, abs_mul, abs_of_pos (by positivity : 0 < Real.pi / 180)]
    have := mul_le_mul dg (by linarith : Real.pi / 180 ≤ 315 / 100 / 180) (by positivity) (by positivity)
    linarith
  have hm4 : ‖(⟨x, y⟩ : ℂ)‖ ≤ 4 := by
    refine le_trans (Complex.norm_le_abs_re_add_abs_im _) ?_
    show |(x : ℝ)| + |(y : ℝ)| ≤ 4
    have := abs_sub_abs_le_abs_sub (x : ℝ) N
    have := abs_sub_abs_le_abs_sub (y : ℝ) E
    linarith
  have s : ‖(⟨x, y⟩ : ℂ)‖ * Real.sin (Complex.arg ⟨x, y⟩) = y := Complex.norm_mul_sin_arg _
  have c : ‖(⟨x, y⟩ : ℂ)‖ * Real.cos (Complex.arg ⟨x, y⟩) = x := Complex.norm_mul_cos_arg _
  have m0 := norm_nonneg (⟨x, y⟩ : ℂ)
  generalize ‖(⟨x, y⟩ : ℂ)‖ = m at *
  have h1 := (Real.abs_sin_sub_sin_le (rad (npDegrees (atan2 y x))) (Complex.arg ⟨x, y⟩)).trans hα
  have h2 := (Real.abs_cos_sub_cos_le (rad (npDegrees (atan2 y x))) (Complex.arg ⟨x, y⟩)).trans hα
  constructor
  · rw [show ∀ a : ℝ, m * a - E = m * (a - Real.sin (Complex.arg ⟨x, y⟩)) + (y - E) from fun a => by linear_combination s]
    refine (abs_add_le _ _).trans ?_
    rw [abs_mul, abs_of_nonneg m0]
    have := mul_le_mul hm4 h1 (abs_nonneg _) (by norm_num)
    linarith
  · rw [show ∀ a : ℝ, m * a - N = m * (a - Real.cos (Complex.arg ⟨x, y⟩)) + (x - N) from fun a => by linear_combination c]
    refine (abs_add_le _ _).trans ?_
    rw [abs_mul, abs_of_nonneg m0]
    have := mul_le_mul hm4 h2 (abs_nonneg _) (by norm_num)
    linarith

open Geo in
theorem Mst.atan_exists : ∃ atan2, ArcTan (2 ^ (-49 : ℤ)) atan2 := by
  have key : ∀ y x : ℚ, ∃ q : ℚ, |(q : ℝ) - Complex.arg ⟨x, y⟩| ≤ 4 * 2 ^ (-49 : ℤ) ∧ |q| ≤ npyPi := by
    intro y x
    have hθ := abs_le.1 (Complex.abs_arg_le_pi ⟨x, y⟩)
    generalize Complex.arg ⟨x, y⟩ = θ at *
    obtain ⟨r, hr⟩ := exists_rat_near θ (by positivity : (0 : ℝ) < 2 ^ (-50 : ℤ))
    obtain ⟨hr1, hr2⟩ := abs_lt.1 hr
    have hp : Real.pi - (npyPi : ℝ) ≤ 2 ^ (-50 : ℤ) := by
      have := Real.pi_lt_d20
      unfold npyPi
      push_cast
      norm_num at *
      linarith
    have hn : 0 < npyPi := by decide +kernel
    have p0 : (0 : ℝ) < npyPi := by exact_mod_cast hn
    have hz : (2 : ℝ) ^ (-50 : ℤ) ≤ 4 * 2 ^ (-49 : ℤ) := by norm_num
    have h1 : (2 : ℝ) ^ (-50 : ℤ) ≤ 1 / 10 := by norm_num
    have hw : (2 : ℝ) < npyPi := by unfold npyPi; push_cast; norm_num
    by_cases ha : npyPi < r
    · have ha' : (npyPi : ℝ) < r := by exact_mod_cast ha
      refine ⟨npyPi, ?_, by rw [abs_of_pos hn]⟩
      rw [abs_le]; constructor <;> linarith
    · by_cases hb : r < -npyPi
      · have hb' : (r : ℝ) < -npyPi := by exact_mod_cast hb
        refine ⟨-npyPi, ?_, by rw [abs_neg, abs_of_pos hn]⟩
        rw [Rat.cast_neg, abs_le]; constructor <;> linarith
      · refine ⟨r, ?_, abs_le.2 ⟨not_lt.1 hb, not_lt.1 ha⟩⟩
        rw [abs_le]; constructor <;> linarith
  choose f hf using key
  exact ⟨f, fun y x => (hf y x).1, fun y x => (hf y x).2⟩

/-- The sum without rounding. -/
theorem Mst.adds {u : ℝ} (u0 : 0 ≤ u) : AddsTo u List.sum := by
  intro l
  have e : ((l.sum : ℚ) : ℝ) = (l.map fun x : ℚ => (x : ℝ)).sum := by
    induction l with
    | nil => simp
    | cons a l ih => simp [ih]
  rw [e, sub_self, abs_zero]
  exact mul_nonneg (by linarith) (List.sum_nonneg (by simp))

/-- A rupture of one quadrilateral of more than eight thousand kilometres, and the strike of it with some library: it points where the azimuth of its top edge points. -/
example : ∃ atan2 S m W, ArcTan (2 ^ (-49 : ℤ)) atan2 ∧ 7999 ≤ W ∧ quadStrike Geo.someLib atan2 List.sum [Wid.quarter] = some S ∧ 0 ≤ m ∧
    |m * Real.sin (rad S) - Real.sin (rad (Dbl.azimuth Geo.someLib atan2 0 0 90 0)) * W / W| ≤ 300 * 2 ^ (-49 : ℤ) ∧
    |m * Real.cos (rad S) - Real.cos (rad (Dbl.azimuth Geo.someLib atan2 0 0 90 0)) * W / W| ≤ 300 * 2 ^ (-49 : ℤ) := by
  obtain ⟨atan2, ha⟩ := Mst.atan_exists
  obtain ⟨c, hc⟩ := Dip.corners_exist Wid.quarter
  obtain ⟨e0, e1, -⟩ := Wid.quarter_at hc
  have top : TopEdge Wid.quarter (√((c.p1.x - c.p0.x) ^ 2 + (c.p1.y - c.p0.y) ^ 2 + (c.p1.z - c.p0.z) ^ 2) / 1000) := ⟨_, _, _, _, _, _, hc.1, hc.2.1, by ring⟩
  have long : 8000000 ≤ √((c.p1.x - c.p0.x) ^ 2 + (c.p1.y - c.p0.y) ^ 2 + (c.p1.z - c.p0.z) ^ 2) := by
    rw [e0, e1]
    exact Real.le_sqrt_of_sq_le (by norm_num [equatorial])
  have near := (C205_near Geo.precise49 Geo.someLib_right).1 Wid.quarter _ (by norm_num [PlaceOnEarth, Wid.quarter, abs_le]) (by norm_num [PlaceOnEarth, Wid.quarter, abs_le]) top
  have W0 : 7999 ≤ (quadLength Geo.someLib Wid.quarter : ℝ) := by
    have := (abs_le.1 near).1
    norm_num at this ⊢
    linarith
  obtain ⟨S, m, hS, m0, h1, h2⟩ := C228_direction Geo.precise49 Geo.someLib_right ha (Mst.adds (by positivity)) [Wid.quarter] (by simp) (W := (quadLength Geo.someLib Wid.quarter : ℝ))
    (by simp [topLengths, quadLength]) (by linarith)
  refine ⟨atan2, S, m, _, ha, W0, hS, m0, ?_, ?_⟩
  · simpa [Wid.quarter] using h1
  · simpa [Wid.quarter] using h2

end Verif.Props
