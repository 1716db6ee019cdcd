import Verif.Props.QuadDip
import Verif.Spec.EdgeArea

/-!
# Areas of ruptures of edges in binary arithmetic

C222.
-/

namespace Verif.Props
open Verif.Spec
open Verif.Dbl
open Verif.Rup (Quad)
open Verif.Vec (V3)

namespace Her
open Geo Len Edge

/-- One factor more under the root. -/
theorem step {u ρ N h c X Y : ℝ} (hu : Precise u) (hρ : ρ ≤ 1 / 1000) (hu' : u ≤ 78 / 1000 * ρ) (hN : 0 ≤ N) (hh : 0 < h) (hNh : 1 / 16 ≤ N * h) (c0 : 0 ≤ c) (c1 : c ≤ 20) {x y : ℚ}
    (hX : |X| ≤ N) (hY : |Y| ≤ h) (hx : |(x : ℝ) - X| ≤ c * (N * ρ)) (hy : |(y : ℝ) - Y| ≤ 64 / 10 * (h * ρ)) :
    |((rnd (x * y) : ℚ) : ℝ) - X * Y| ≤ (10064 / 10000 * c + 65 / 10) * (N * h * ρ) := by
  obtain ⟨u0, u1, τ0, τ2, τ1, τu⟩ := tiny hu
  have ρ0 : 0 < ρ := by linarith
  have r := rnd_real hu (x * y)
  push_cast at r
  generalize ((rnd (x * y) : ℚ) : ℝ) = z at *
  generalize (x : ℝ) = x at *
  generalize (y : ℝ) = y at *
  generalize (2 : ℝ) ^ (-1075 : ℤ) = τ at *
  have b1 : |x| ≤ 102 / 100 * N := by
    have : c * (N * ρ) ≤ 20 * (N * (1 / 1000)) := mul_le_mul c1 (mul_le_mul_of_nonneg_left hρ hN) (by positivity) (by norm_num)
    have := abs_sub_abs_le_abs_sub x X
    linarith
  have b2 : |y| ≤ 10064 / 10000 * h := by
    have : h * ρ ≤ h * (1 / 1000) := mul_le_mul_of_nonneg_left hρ hh.le
    have := abs_sub_abs_le_abs_sub y Y
    linarith
  have p1 : |(x - X) * y| ≤ c * (N * ρ) * (10064 / 10000 * h) := by
    rw [abs_mul]
    exact mul_le_mul hx b2 (abs_nonneg _) (by positivity)
  have p2 : |X * (y - Y)| ≤ N * (64 / 10 * (h * ρ)) := by
    rw [abs_mul]
    exact mul_le_mul hX hy (abs_nonneg _) hN
  have p3 : |x * y| ≤ 102 / 100 * N * (10064 / 10000 * h) := by
    rw [abs_mul]
    exact mul_le_mul b1 b2 (abs_nonneg _) (by positivity)
  have p4 : u * |x * y| ≤ 78 / 1000 * ρ * (102 / 100 * N * (10064 / 10000 * h)) := mul_le_mul hu' p3 (abs_nonneg _) (by positivity)
  have p5 : ρ * (1 / 16) ≤ ρ * (N * h) := mul_le_mul_of_nonneg_left hNh ρ0.le
  have e : x * y - X * Y = (x - X) * y + X * (y - Y) := by ring
  have t1 := abs_sub_le z (x * y) (X * Y)
  rw [e] at t1
  have t2 := abs_add_le ((x - X) * y) (X * (y - Y))
  have e1 : c * (N * ρ) * (10064 / 10000 * h) = 10064 / 10000 * (c * (N * h * ρ)) := by ring
  have e2 : N * (64 / 10 * (h * ρ)) = 64 / 10 * (N * h * ρ) := by ring
  have e3 : 78 / 1000 * ρ * (102 / 100 * N * (10064 / 10000 * h)) = 78 / 1000 * (102 / 100) * (10064 / 10000) * (N * h * ρ) := by ring
  have e4 : ρ * (N * h) = N * h * ρ := by ring
  have e5 : (10064 / 10000 * c + 65 / 10) * (N * h * ρ) = 10064 / 10000 * (c * (N * h * ρ)) + 65 / 10 * (N * h * ρ) := by ring
  rw [e1] at p1
  rw [e2] at p2
  rw [e3] at p4
  rw [e4] at p5
  rw [e5]
  linarith

/-- The numbers under the root: `h` is half the perimeter. -/
theorem under_root {u ρ h A B C : ℝ} (hu : Precise u) (hρ : ρ ≤ 1 / 1000) (hu' : u ≤ 78 / 1000 * ρ) (h1 : 1 / 2 ≤ h) (A0 : 0 ≤ A) (B0 : 0 ≤ B) (C0 : 0 ≤ C) (hp : A + B + C = 2 * h) {a b c : ℚ}
    (ha : |(a : ℝ) - A| ≤ 2 * (h * ρ)) (hb : |(b : ℝ) - B| ≤ 2 * (h * ρ)) (hc : |(c : ℝ) - C| ≤ 2 * (h * ρ)) :
    ∃ x : ℚ, heronArea a b c = (if x < 0 then none else some (sqrtRnd x)) ∧ |(x : ℝ) - h * (h - A) * (h - B) * (h - C)| ≤ 24 * (h ^ 4 * ρ) := by
  obtain ⟨u0, u1, τ0, τ2, τ1, τu⟩ := tiny hu
  have ρ0 : 0 < ρ := by linarith
  have h0 : 0 < h := by linarith
  have hr : 0 < h * ρ := by positivity
  have hu1 : u * h ≤ 78 / 1000 * (h * ρ) := by
    have := mul_le_mul_of_nonneg_right hu' h0.le
    linarith
  have hu2 : u ≤ 2 * (u * h) := by
    have := mul_le_mul_of_nonneg_left h1 u0.le
    linarith
  have hr1 : h * ρ ≤ h * (1 / 1000) := mul_le_mul_of_nonneg_left hρ h0.le
  have hs : |((rnd (rnd (rnd (a + b) + c) / 2) : ℚ) : ℝ) - h| ≤ 4 * (h * ρ) := by
    have r1 := rnd_real hu (a + b)
    have r2 := rnd_real hu (rnd (a + b) + c)
    have r3 := rnd_real hu (rnd (rnd (a + b) + c) / 2)
    push_cast at r1 r2 r3
    generalize ((rnd (a + b) : ℚ) : ℝ) = s1 at *
    generalize ((rnd (rnd (a + b) + c) : ℚ) : ℝ) = s2 at *
    generalize ((rnd (rnd (rnd (a + b) + c) / 2) : ℚ) : ℝ) = s at *
    generalize (a : ℝ) = a at *
    generalize (b : ℝ) = b at *
    generalize (c : ℝ) = c at *
    generalize (2 : ℝ) ^ (-1075 : ℤ) = τ at *
    have b1 : |a + b| ≤ 21 / 10 * h := by
      rw [abs_le] at *
      constructor <;> linarith
    have m1 := mul_le_mul_of_nonneg_left b1 u0.le
    have b2 : |s1 + c| ≤ 22 / 10 * h := by
      rw [abs_le] at *
      constructor <;> linarith
    have m2 := mul_le_mul_of_nonneg_left b2 u0.le
    have b3 : |s2 / 2| ≤ 12 / 10 * h := by
      rw [abs_le] at *
      constructor <;> linarith
    have m3 := mul_le_mul_of_nonneg_left b3 u0.le
    rw [abs_le] at *
    constructor <;> linarith
  set s := rnd (rnd (rnd (a + b) + c) / 2) with es
  have side : ∀ {d : ℚ} {D : ℝ}, 0 ≤ D → D ≤ 2 * h → |(d : ℝ) - D| ≤ 2 * (h * ρ) → |((rnd (s - d) : ℚ) : ℝ) - (h - D)| ≤ 64 / 10 * (h * ρ) := by
    intro d D D0 D1 hd
    have r := rnd_real hu (s - d)
    push_cast at r
    generalize ((rnd (s - d) : ℚ) : ℝ) = z at *
    generalize (s : ℝ) = s at *
    generalize (d : ℝ) = d at *
    generalize (2 : ℝ) ^ (-1075 : ℤ) = τ at *
    have b1 : |s - d| ≤ 12 / 10 * h := by
      rw [abs_le] at *
      constructor <;> linarith
    have m1 := mul_le_mul_of_nonneg_left b1 u0.le
    rw [abs_le] at *
    constructor <;> linarith
  have fA := side A0 (by linarith) ha
  have fB := side B0 (by linarith) hb
  have fC := side C0 (by linarith) hc
  have lA : |h - A| ≤ h := by rw [abs_le]; constructor <;> linarith
  have lB : |h - B| ≤ h := by rw [abs_le]; constructor <;> linarith
  have lC : |h - C| ≤ h := by rw [abs_le]; constructor <;> linarith
  have h2 : 1 / 4 ≤ h * h := by nlinarith
  have h3 : 1 / 8 ≤ h * h * h := by nlinarith
  have h4 : 1 / 16 ≤ h * h * h * h := by nlinarith
  have m1 := step hu hρ hu' h0.le h0 (by linarith) (by norm_num) (by norm_num) (abs_of_pos h0).le lA hs fA
  have x1 : |h * (h - A)| ≤ h * h := by rw [abs_mul, abs_of_pos h0]; exact mul_le_mul_of_nonneg_left lA h0.le
  have m2 := step hu hρ hu' (by positivity) h0 (by linarith) (by norm_num) (by norm_num) x1 lB m1 fB
  have x2 : |h * (h - A) * (h - B)| ≤ h * h * h := by rw [abs_mul]; exact mul_le_mul x1 lB (abs_nonneg _) (by positivity)
  have m3 := step hu hρ hu' (by positivity) h0 h4 (by norm_num) (by norm_num) x2 lC m2 fC
  refine ⟨_, rfl, m3.trans ?_⟩
  have : 0 ≤ h ^ 4 * ρ := by positivity
  rw [show h * h * h * h * ρ = h ^ 4 * ρ by ring]
  exact mul_le_mul_of_nonneg_right (by norm_num) this

/-- The area of a triangle that is not too thin. -/
theorem root_stout {u ρ h k T : ℝ} (hu : Precise u) (hu' : u ≤ 78 / 1000 * ρ) (h1 : 1 / 2 ≤ h) (T0 : 0 ≤ T) (hT : T ≤ h ^ 2) (hk : 4 * h ^ 2 ≤ k * T) (hkρ : 2 * (k ^ 2 * ρ) ≤ 1) {x : ℚ}
    (hx : |(x : ℝ) - T ^ 2| ≤ 24 * (h ^ 4 * ρ)) : 4 ≤ k ∧ 0 ≤ x ∧ |((sqrtRnd x : ℚ) : ℝ) - T| ≤ 62 / 10 * (k * (h ^ 2 * ρ)) := by
  obtain ⟨u0, u1, τ0, τ2, τ1, τu⟩ := tiny hu
  have ρ0 : 0 < ρ := by linarith
  have h2 : 0 < h ^ 2 := by positivity
  have Tp : 0 < T := by
    rcases T0.lt_or_eq with h | h
    · exact h
    · rw [← h] at hk; linarith
  have k4 : 4 ≤ k := by
    by_contra hc
    have : k * T < 4 * T := mul_lt_mul_of_pos_right (by linarith) Tp
    linarith
  have hTT : (4 * h ^ 2) ^ 2 ≤ (k * T) ^ 2 := pow_le_pow_left₀ (by positivity) hk 2
  have big : 24 * (h ^ 4 * ρ) ≤ T ^ 2 := by
    have a1 := mul_le_mul_of_nonneg_right hTT ρ0.le
    have a2 : k ^ 2 * ρ * T ^ 2 ≤ 1 / 2 * T ^ 2 := mul_le_mul_of_nonneg_right (by linarith) (by positivity)
    have e1 : (4 * h ^ 2) ^ 2 * ρ = 16 * (h ^ 4 * ρ) := by ring
    have e2 : (k * T) ^ 2 * ρ = k ^ 2 * ρ * T ^ 2 := by ring
    rw [e1, e2] at a1
    have : 0 < T ^ 2 := by positivity
    linarith
  have x0 : (0 : ℝ) ≤ x := by linarith [(abs_le.1 hx).1]
  have x0' : 0 ≤ x := by exact_mod_cast x0
  refine ⟨k4, x0', ?_⟩
  have r := sqrtRnd_real hu x0'
  have hs := Real.sqrt_nonneg (x : ℝ)
  have hq := Real.sq_sqrt x0
  generalize ((sqrtRnd x : ℚ) : ℝ) = z at *
  generalize √(x : ℝ) = y at *
  rw [← hq] at hx
  have f : |y ^ 2 - T ^ 2| = |y - T| * (y + T) := by
    rw [show y ^ 2 - T ^ 2 = (y - T) * (y + T) by ring, abs_mul, abs_of_nonneg (by linarith : 0 ≤ y + T)]
  rw [f] at hx
  have d : |y - T| * T ≤ 6 * (k * (h ^ 2 * ρ)) * T := by
    have a1 : |y - T| * T ≤ |y - T| * (y + T) := mul_le_mul_of_nonneg_left (by linarith) (abs_nonneg _)
    have a2 := mul_le_mul_of_nonneg_left hk (by positivity : 0 ≤ 6 * (h ^ 2 * ρ))
    have e1 : 6 * (h ^ 2 * ρ) * (4 * h ^ 2) = 24 * (h ^ 4 * ρ) := by ring
    have e2 : 6 * (h ^ 2 * ρ) * (k * T) = 6 * (k * (h ^ 2 * ρ)) * T := by ring
    rw [e1, e2] at a2
    linarith
  have d' := le_of_mul_le_mul_right d Tp
  have yT : y ≤ 4 * h ^ 2 := by
    have a1 : k * ρ ≤ k ^ 2 * ρ := by
      have : k * 1 ≤ k * k := mul_le_mul_of_nonneg_left (by linarith) (by linarith)
      have := mul_le_mul_of_nonneg_right this ρ0.le
      rw [mul_one] at this
      linarith [show k * k * ρ = k ^ 2 * ρ by ring]
    have a2 : k * ρ * h ^ 2 ≤ 1 / 2 * h ^ 2 := mul_le_mul_of_nonneg_right (by linarith) h2.le
    have := (abs_le.1 d').2
    linarith [show k * (h ^ 2 * ρ) = k * ρ * h ^ 2 by ring]
  have uy : u * y ≤ 2 / 10 * (k * (h ^ 2 * ρ)) := by
    have a1 := mul_le_mul hu' yT hs (by positivity)
    have a2 := mul_le_mul_of_nonneg_right k4 (by positivity : 0 ≤ h ^ 2 * ρ)
    have : 0 ≤ h ^ 2 * ρ := by positivity
    linarith [show 78 / 1000 * ρ * (4 * h ^ 2) = 312 / 1000 * (h ^ 2 * ρ) by ring]
  have t := abs_sub_le z y T
  linarith

/-- The area of a triangle of any shape. -/
theorem root_thin {u ρ h T : ℝ} (hu : Precise u) (hu' : u ≤ 78 / 1000 * ρ) (hρ : ρ ≤ 1 / 1000) (h1 : 1 / 2 ≤ h) (T0 : 0 ≤ T) (hT : T ≤ h ^ 2) {x : ℚ} (x0' : 0 ≤ x)
    (hx : |(x : ℝ) - T ^ 2| ≤ 24 * (h ^ 4 * ρ)) : |((sqrtRnd x : ℚ) : ℝ) - T| ≤ 495 / 100 * (h ^ 2 * √ρ) := by
  obtain ⟨u0, u1, τ0, τ2, τ1, τu⟩ := tiny hu
  have ρ0 : 0 < ρ := by linarith
  have h2 : 0 < h ^ 2 := by positivity
  have x0 : (0 : ℝ) ≤ x := by exact_mod_cast x0'
  have r := sqrtRnd_real hu x0'
  have hs := Real.sqrt_nonneg (x : ℝ)
  have hq := Real.sq_sqrt x0
  have w0 := Real.sqrt_nonneg ρ
  have wq := Real.sq_sqrt ρ0.le
  generalize ((sqrtRnd x : ℚ) : ℝ) = z at *
  generalize √(x : ℝ) = y at *
  generalize √ρ = w at *
  rw [← hq] at hx
  have f : |y ^ 2 - T ^ 2| = |y - T| * (y + T) := by
    rw [show y ^ 2 - T ^ 2 = (y - T) * (y + T) by ring, abs_mul, abs_of_nonneg (by linarith : 0 ≤ y + T)]
  rw [f] at hx
  have le : |y - T| ≤ y + T := by rw [abs_le]; constructor <;> linarith
  have d : |y - T| ≤ 49 / 10 * (h ^ 2 * w) := by
    refine (sq_le_sq₀ (abs_nonneg _) (by positivity)).1 ?_
    have a1 : |y - T| * |y - T| ≤ |y - T| * (y + T) := mul_le_mul_of_nonneg_left le (abs_nonneg _)
    have e1 : (49 / 10 * (h ^ 2 * w)) ^ 2 = 2401 / 100 * (h ^ 4 * ρ) := by rw [← wq]; ring
    rw [e1, sq]
    have : 0 ≤ h ^ 4 * ρ := by positivity
    linarith
  have w1 : w ≤ 1 / 30 := by
    by_contra hc
    push Not at hc
    nlinarith
  have yT : y ≤ 2 * h ^ 2 := by
    have := (abs_le.1 d).2
    have := mul_le_mul_of_nonneg_left w1 h2.le
    linarith
  have uy : u * y ≤ 5 / 100 * (h ^ 2 * w) := by
    have a1 := mul_le_mul hu' yT hs (by positivity)
    have a2 : h ^ 2 * (w * w) ≤ h ^ 2 * (w * (1 / 30)) := mul_le_mul_of_nonneg_left (mul_le_mul_of_nonneg_left w1 w0) h2.le
    have e1 : 78 / 1000 * ρ * (2 * h ^ 2) = 156 / 1000 * (h ^ 2 * (w * w)) := by rw [← wq]; ring
    rw [e1] at a1
    have : 0 ≤ h ^ 2 * w := by positivity
    linarith
  have t := abs_sub_le z y T
  linarith

theorem root_sq (A B : V3) : √(distSq A B) ^ 2 = (A.x - B.x) ^ 2 + (A.y - B.y) ^ 2 + (A.z - B.z) ^ 2 := Real.sq_sqrt (by unfold distSq; positivity)

theorem dist_comm (A B : V3) : distSq A B = distSq B A := by unfold distSq; ring

theorem dist_mag (A B : V3) : √(distSq A B) = (A.sub B).mag := rfl

/-- Heron's formula. -/
theorem heron_exact (P Q R : V3) : perimeter P Q R / 2 * (perimeter P Q R / 2 - √(distSq P Q)) * (perimeter P Q R / 2 - √(distSq Q R)) * (perimeter P Q R / 2 - √(distSq R P)) =
    (((P.sub Q).cross (P.sub R)).mag / 2) ^ 2 := by
  have hx := root_sq P Q
  have hy := root_sq Q R
  have hz := root_sq R P
  unfold perimeter
  rw [div_pow, mag_sq]
  generalize √(distSq P Q) = x at *
  generalize √(distSq Q R) = y at *
  generalize √(distSq R P) = z at *
  have key : (x + y + z) / 2 * ((x + y + z) / 2 - x) * ((x + y + z) / 2 - y) * ((x + y + z) / 2 - z) = (4 * x ^ 2 * y ^ 2 - (x ^ 2 + y ^ 2 - z ^ 2) ^ 2) / 16 := by ring
  rw [key, hx, hy, hz]
  simp only [V3.sub, V3.cross]
  ring

theorem area_cross {P Q R : V3} {T : ℝ} (h : TriangleArea P Q R T) : T = ((P.sub Q).cross (P.sub R)).mag / 2 := by
  obtain ⟨H, h0, hm, rfl⟩ := h
  rw [dist_mag]
  rcases (mag_nonneg (P.sub Q)).lt_or_eq with hp | hp
  · rw [Wid.height_eq h0 hm hp]
  · have e := mag_sq (P.sub Q)
    rw [← hp] at e
    have z1 : (P.sub Q).x = 0 := by nlinarith [sq_nonneg (P.sub Q).x, sq_nonneg (P.sub Q).y, sq_nonneg (P.sub Q).z]
    have z2 : (P.sub Q).y = 0 := by nlinarith [sq_nonneg (P.sub Q).x, sq_nonneg (P.sub Q).y, sq_nonneg (P.sub Q).z]
    have z3 : (P.sub Q).z = 0 := by nlinarith [sq_nonneg (P.sub Q).x, sq_nonneg (P.sub Q).y, sq_nonneg (P.sub Q).z]
    rw [← hp]
    unfold V3.mag V3.cross
    rw [z1, z2, z3]
    simp

theorem area_exists (P Q R : V3) : TriangleArea P Q R (((P.sub Q).cross (P.sub R)).mag / 2) := by
  rcases (mag_nonneg (P.sub Q)).lt_or_eq with hp | hp
  · refine ⟨_, div_nonneg (mag_nonneg _) (mag_nonneg _), Dip.line_distance hp, ?_⟩
    rw [dist_mag, mul_div_cancel₀ _ hp.ne']
  · have e := mag_sq (P.sub Q)
    rw [← hp] at e
    simp only [V3.sub] at e
    have z : P = Q := by
      ext <;> nlinarith [sq_nonneg (P.x - Q.x), sq_nonneg (P.y - Q.y), sq_nonneg (P.z - Q.z)]
    subst z
    refine ⟨√(distSq R P), Real.sqrt_nonneg _, ?_, by simp [V3.sub, V3.cross, V3.mag, distSq]⟩
    rw [Real.sq_sqrt (by unfold distSq; positivity)]
    refine ⟨⟨P, ⟨0, by ext <;> simp [combine]⟩, rfl⟩, ?_⟩
    rintro y ⟨s, rfl⟩
    refine le_of_eq ?_
    unfold distSq combine
    ring

/-- The length of a side. -/
theorem side_near {u : ℝ} (hu : Precise u) {L : MathLib} (hL : RightTo u L) {a b : D3} {A B : V3} (ha : Near (200000000 * u) a A ∧ Inside A) (hb : Near (200000000 * u) b B ∧ Inside B) :
    |(sideLength L a b : ℝ) - √(distSq A B)| ≤ 1000000000 * u ∧ √(distSq A B) ≤ 26000000 := by
  obtain ⟨u0, u1, τ0, τ2, τ1, τu⟩ := tiny hu
  obtain ⟨ha, hA⟩ := ha
  obtain ⟨hb, hB⟩ := hb
  have key : ∀ {p q : ℚ} {P Q : ℝ}, |(p : ℝ) - P| ≤ 200000000 * u → |(q : ℝ) - Q| ≤ 200000000 * u → |P| ≤ 7410000 → |Q| ≤ 7410000 →
      |((rnd (p - q) : ℚ) : ℝ) - (P - Q)| ≤ 415000000 * u := by
    intro p q P Q hp hq hP hQ
    have r := rnd_real hu (p - q)
    push_cast at r
    have : |(p : ℝ) - q| ≤ 14820001 := by
      rw [abs_le] at *
      constructor <;> linarith
    have := mul_le_mul_of_nonneg_left this u0.le
    rw [abs_le] at *
    constructor <;> linarith
  have t := triangle (key ha.1 hb.1 hA.1 hB.1) (key ha.2.1 hb.2.1 hA.2.1 hB.2.1) (key ha.2.2 hb.2.2 hA.2.2 hB.2.2)
  obtain ⟨m0, m⟩ := mag_real hu hL (a.sub b)
  have k : ∀ {p q : ℝ}, |p| ≤ 7410000 → |q| ≤ 7410000 → (p - q) ^ 2 ≤ 14820000 ^ 2 := fun {p q} hp hq => by
    rw [← sq_abs]
    refine pow_le_pow_left₀ (abs_nonneg _) ?_ 2
    rw [abs_le] at *
    constructor <;> linarith
  have hs : √(distSq A B) ≤ 26000000 := by
    rw [Real.sqrt_le_left (by norm_num)]
    unfold distSq
    have := k hA.1 hB.1
    have := k hA.2.1 hB.2.1
    have := k hA.2.2 hB.2.2
    linarith
  refine ⟨?_, hs⟩
  change |√(((a.sub b).x : ℝ) ^ 2 + ((a.sub b).y : ℝ) ^ 2 + ((a.sub b).z : ℝ) ^ 2) - √(distSq A B)| ≤ _ at t
  unfold sideLength
  generalize √(distSq A B) = T at *
  generalize √(((a.sub b).x : ℝ) ^ 2 + ((a.sub b).y : ℝ) ^ 2 + ((a.sub b).z : ℝ) ^ 2) = S at *
  generalize ((a.sub b).mag L.sq : ℝ) = M at *
  rw [abs_le] at t m ⊢
  have hS : S ≤ 26001000 := by linarith
  have := mul_le_mul_of_nonneg_left hS u0.le
  constructor <;> linarith

/-- A triangle. -/
theorem triangle_near {u : ℝ} (hu : Precise u) {X Y Z T p : ℝ} (X0 : 0 ≤ X) (Y0 : 0 ≤ Y) (Z0 : 0 ≤ Z) (hX : X ≤ 26000000) (hY : Y ≤ 26000000) (hZ : Z ≤ 26000000) (hp : X + Y + Z = p) (p1 : 1 ≤ p) (T0 : 0 ≤ T)
    (hT : p / 2 * (p / 2 - X) * (p / 2 - Y) * (p / 2 - Z) = T ^ 2) {a b c : ℚ} (ha : |(a : ℝ) - X| ≤ 1000000000 * u) (hb : |(b : ℝ) - Y| ≤ 1000000000 * u) (hc : |(c : ℝ) - Z| ≤ 1000000000 * u) :
    T ≤ p ^ 2 / 4 ∧ (∀ k, p ^ 2 ≤ k * T → 2000000000 * (k ^ 2 * u) ≤ 1 → 4 ≤ k ∧ ∃ A, heronArea a b c = some A ∧ |(A : ℝ) - T| ≤ 1600000000 * (k * (p * u))) ∧
      ∀ A, heronArea a b c = some A → |(A : ℝ) - T| ≤ 124 / 100 * (p ^ 2 * √(1000000000 * u / p)) := by
  obtain ⟨u0, u1, τ0, τ2, τ1, τu⟩ := tiny hu
  have p0 : 0 < p := by linarith
  set ρ := 1000000000 * u / p with eρ
  have ρp : p * ρ = 1000000000 * u := by rw [eρ]; field_simp
  have ρ1 : ρ ≤ 1000000000 * u := by rw [eρ, div_le_iff₀ p0]; nlinarith
  have hu' : u ≤ 78 / 1000 * ρ := by
    rw [eρ, ← mul_div_assoc, le_div_iff₀ p0]
    nlinarith
  have e : 2 * (p / 2 * ρ) = 1000000000 * u := by rw [← ρp]; ring
  obtain ⟨x, hx, nx⟩ := under_root hu (ρ := ρ) (h := p / 2) (by linarith) hu' (by linarith) X0 Y0 Z0 (by linarith) (by rwa [e]) (by rwa [e]) (by rwa [e])
  rw [hT] at nx
  have lT : T ≤ (p / 2) ^ 2 := by
    refine (sq_le_sq₀ T0 (by positivity)).1 ?_
    rw [← hT]
    have l : ∀ {D : ℝ}, 0 ≤ D → D ≤ p → |p / 2 - D| ≤ p / 2 := fun {D} d0 d1 => by rw [abs_le]; constructor <;> linarith
    refine (le_abs_self _).trans ?_
    rw [abs_mul, abs_mul, abs_mul, abs_of_pos (by linarith : 0 < p / 2)]
    have g1 := mul_le_mul_of_nonneg_left (l X0 (by linarith)) (by linarith : 0 ≤ p / 2)
    have g2 := mul_le_mul g1 (l Y0 (by linarith)) (abs_nonneg _) (by positivity)
    have g3 := mul_le_mul g2 (l Z0 (by linarith)) (abs_nonneg _) (by positivity)
    refine g3.trans (le_of_eq (by ring))
  refine ⟨lT.trans (le_of_eq (by ring)), fun k hk hku => ?_, fun A hA => ?_⟩
  · obtain ⟨k4, x0, n⟩ := root_stout hu hu' (by linarith : 1 / 2 ≤ p / 2) T0 lT (k := k) (by linarith [show 4 * (p / 2) ^ 2 = p ^ 2 by ring])
      (by have := mul_le_mul_of_nonneg_left ρ1 (sq_nonneg k); linarith) nx
    refine ⟨k4, sqrtRnd x, by rw [hx, if_neg (not_lt.2 x0)], n.trans ?_⟩
    have e1 : k * ((p / 2) ^ 2 * ρ) = k * (p * (p * ρ)) / 4 := by ring
    have : 0 ≤ k * (p * u) := by positivity
    rw [e1, ρp]
    linarith
  · rw [hx] at hA
    split_ifs at hA with hneg
    cases hA
    refine (root_thin hu hu' (by linarith) (by linarith : 1 / 2 ≤ p / 2) T0 lT (not_lt.1 hneg) nx).trans ?_
    have : 0 ≤ p ^ 2 * √ρ := by positivity
    linarith [show (p / 2) ^ 2 * √ρ = p ^ 2 * √ρ / 4 by ring]

theorem thin_scale {u p B : ℝ} (u0 : 0 < u) (p1 : 1 ≤ p) (hB : p ≤ 1000 * B) : p ^ 2 * √(1000000000 * u / p) ≤ 1000000000 * √(B ^ 3 * u) := by
  have B0 : 0 < B := by linarith
  refine (sq_le_sq₀ (by positivity) (by positivity)).1 ?_
  rw [mul_pow, mul_pow, Real.sq_sqrt (by positivity), Real.sq_sqrt (by positivity)]
  have e : (p ^ 2) ^ 2 * (1000000000 * u / p) = 1000000000 * (p ^ 3 * u) := by
    field_simp
  rw [e]
  have g : p ^ 3 ≤ (1000 * B) ^ 3 := pow_le_pow_left₀ (by linarith) hB 3
  have := mul_le_mul_of_nonneg_right g u0.le
  linarith [show (1000 * B) ^ 3 * u = 1000000000 * (B ^ 3 * u) by ring]

/-- The two triangles of a quadrilateral. -/
theorem both_near {u B : ℝ} (hu : Precise u) {L : MathLib} (hL : RightTo u L) {q : Quad GeoPoint} (hq : PerimetersUpTo B q) {c : Quad V3} (hc : CornersAt q c) {S T : ℝ}
    (hS : TriangleArea c.p0 c.p1 c.p2 S) (hT : TriangleArea c.p0 c.p2 c.p3 T) : ∃ a b : Option ℚ, pairArea L q = (a.bind fun A => b.map fun A' => rnd (rnd (rnd (A + A') / 1000) / 1000)) ∧
      (0 ≤ S ∧ S ≤ 250000 * B ^ 2 ∧ 0 ≤ T ∧ T ≤ 250000 * B ^ 2) ∧
      (∀ k, Stout k q → 2000000000 * (k ^ 2 * u) ≤ 1 → 4 ≤ k ∧ ∃ A A', a = some A ∧ b = some A' ∧ |(A : ℝ) - S| ≤ 1600000000000 * (k * (B * u)) ∧ |(A' : ℝ) - T| ≤ 1600000000000 * (k * (B * u))) ∧
      ∀ A A', a = some A → b = some A' → |(A : ℝ) - S| ≤ 1240000000 * √(B ^ 3 * u) ∧ |(A' : ℝ) - T| ≤ 1240000000 * √(B ^ 3 * u) := by
  obtain ⟨u0, u1, τ0, τ2, τ1, τu⟩ := tiny hu
  obtain ⟨⟨g0, g1, g2, g3⟩, hP⟩ := hq
  obtain ⟨⟨p1, pB⟩, r1, rB⟩ := hP c hc
  have hc' := hc
  obtain ⟨a0, a1, a2, a3⟩ := hc
  have n0 := Edge.place_near hu hL g0 a0
  have n1 := Edge.place_near hu hL g1 a1
  have n2 := Edge.place_near hu hL g2 a2
  have n3 := Edge.place_near hu hL g3 a3
  have ES := heron_exact c.p0 c.p1 c.p2
  have ET := heron_exact c.p0 c.p2 c.p3
  rw [← area_cross hS] at ES
  rw [← area_cross hT] at ET
  have S0 : 0 ≤ S := by rw [area_cross hS]; exact div_nonneg (mag_nonneg _) (by norm_num)
  have T0 : 0 ≤ T := by rw [area_cross hT]; exact div_nonneg (mag_nonneg _) (by norm_num)
  have B0 : 0 < B := by linarith
  have s10 := side_near hu hL n1 n0
  have s20 := side_near hu hL n2 n0
  have s21 := side_near hu hL n2 n1
  have s03 := side_near hu hL n0 n3
  have s23 := side_near hu hL n2 n3
  have s02 := side_near hu hL n0 n2
  rw [dist_comm c.p1 c.p0] at s10
  rw [dist_comm c.p2 c.p1] at s21
  rw [dist_comm c.p0 c.p3] at s03
  obtain ⟨b1, x1, y1⟩ := triangle_near hu (Real.sqrt_nonneg _) (Real.sqrt_nonneg _) (Real.sqrt_nonneg _) s10.2 s20.2 s21.2 (p := perimeter c.p0 c.p1 c.p2) (by unfold perimeter; ring) p1 S0
    (by rw [← ES]; ring) s10.1 s20.1 s21.1
  obtain ⟨b2, x2, y2⟩ := triangle_near hu (Real.sqrt_nonneg _) (Real.sqrt_nonneg _) (Real.sqrt_nonneg _) s03.2 s23.2 s02.2 (p := perimeter c.p0 c.p2 c.p3) (by unfold perimeter; ring) r1 T0
    (by rw [← ET]; ring) s03.1 s23.1 s02.1
  have bound : ∀ {p : ℝ}, 1 ≤ p → p ≤ 1000 * B → p ^ 2 / 4 ≤ 250000 * B ^ 2 := by
    intro p h1 h2
    have := pow_le_pow_left₀ (by linarith : 0 ≤ p) h2 2
    linarith [show (1000 * B) ^ 2 = 1000000 * B ^ 2 by ring]
  refine ⟨_, _, rfl, ⟨S0, b1.trans (bound p1 pB), T0, b2.trans (bound r1 rB)⟩, fun k hk hku => ?_, fun A A' hA hA' => ?_⟩
  · obtain ⟨k1, k2⟩ := hk c hc'
    obtain ⟨k4, A, eA, nA⟩ := x1 k (k1 S hS) hku
    obtain ⟨-, A', eA', nA'⟩ := x2 k (k2 T hT) hku
    have up : ∀ {p : ℝ}, p ≤ 1000 * B → 1600000000 * (k * (p * u)) ≤ 1600000000000 * (k * (B * u)) := by
      intro p h
      have := mul_le_mul_of_nonneg_left (mul_le_mul_of_nonneg_right h u0.le) (by linarith : 0 ≤ k)
      linarith [show k * (1000 * B * u) = 1000 * (k * (B * u)) by ring]
    exact ⟨k4, A, A', eA, eA', nA.trans (up pB), nA'.trans (up rB)⟩
  · have := thin_scale u0 p1 pB
    have := thin_scale u0 r1 rB
    exact ⟨(y1 A hA).trans (by linarith), (y2 A' hA').trans (by linarith)⟩

/-- From square metres to square kilometres. -/
theorem scale_near {u B S T ε : ℝ} (hu : Precise u) (S0 : 0 ≤ S) (T0 : 0 ≤ T) (hS : S ≤ 250000 * B ^ 2) (hT : T ≤ 250000 * B ^ 2) {A A' : ℚ} (hA : |(A : ℝ) - S| ≤ ε) (hA' : |(A' : ℝ) - T| ≤ ε) :
    |((rnd (rnd (rnd (A + A') / 1000) / 1000) : ℚ) : ℝ) - (S + T) / 1000000| ≤ 203 / 100000000 * ε + 3 * (B ^ 2 * u) + u := by
  obtain ⟨u0, u1, τ0, τ2, τ1, τu⟩ := tiny hu
  have r1 := rnd_real hu (A + A')
  have r2 := rnd_real hu (rnd (A + A') / 1000)
  have r3 := rnd_real hu (rnd (rnd (A + A') / 1000) / 1000)
  push_cast at r1 r2 r3
  generalize ((rnd (A + A') : ℚ) : ℝ) = s1 at *
  generalize ((rnd (rnd (A + A') / 1000) : ℚ) : ℝ) = s2 at *
  generalize ((rnd (rnd (rnd (A + A') / 1000) / 1000) : ℚ) : ℝ) = s at *
  generalize (A : ℝ) = A at *
  generalize (A' : ℝ) = A' at *
  generalize (2 : ℝ) ^ (-1075 : ℤ) = τ at *
  have ε0 : 0 ≤ ε := (abs_nonneg _).trans hA
  have BB : 0 ≤ B ^ 2 := sq_nonneg B
  have ue : u * ε ≤ 1 / 1000000000000 * ε := mul_le_mul_of_nonneg_right u1 ε0
  have uB : u * B ^ 2 ≤ 1 / 1000000000000 * B ^ 2 := mul_le_mul_of_nonneg_right u1 BB
  have uu : u * u ≤ 1 / 1000000000000 * u := mul_le_mul_of_nonneg_right u1 u0.le
  have c1 : |A + A'| ≤ 500000 * B ^ 2 + 2 * ε := by
    rw [abs_le] at *
    constructor <;> linarith
  have m1 := mul_le_mul_of_nonneg_left c1 u0.le
  have d1 : |s1 - (S + T)| ≤ 201 / 100 * ε + 500001 * (B ^ 2 * u) + u := by
    rw [abs_le] at *
    constructor <;> linarith
  have c2 : |s1 / 1000| ≤ 501 * B ^ 2 + ε / 100 + u := by
    rw [abs_le] at *
    constructor <;> linarith
  have m2 := mul_le_mul_of_nonneg_left c2 u0.le
  have d2 : |s2 - (S + T) / 1000| ≤ 202 / 100000 * ε + 1002 * (B ^ 2 * u) + u := by
    rw [abs_le] at *
    constructor <;> linarith
  have c3 : |s2 / 1000| ≤ 51 / 100 * B ^ 2 + ε / 1000 + u := by
    rw [abs_le] at *
    constructor <;> linarith
  have m3 := mul_le_mul_of_nonneg_left c3 u0.le
  rw [abs_le] at *
  constructor <;> linarith

/-- The area of a quadrilateral with stout triangles. -/
theorem pair_near {u B k : ℝ} (hu : Precise u) {L : MathLib} (hL : RightTo u L) {q : Quad GeoPoint} (hq : PerimetersUpTo B q) (hk : Stout k q) (hku : 2000000000 * (k ^ 2 * u) ≤ 1) (hB : 1 ≤ B) (hB' : B ≤ 80000)
    {A : ℝ} (hA : FoldedArea q A) : 4 ≤ k ∧ 0 ≤ A ∧ A ≤ B ^ 2 / 2 ∧ ∃ a, pairArea L q = some a ∧ |(a : ℝ) - A| ≤ 4000000 * (k * (B * u)) := by
  obtain ⟨u0, u1, τ0, τ2, τ1, τu⟩ := tiny hu
  obtain ⟨c, S, T, hc, hS, hT, rfl⟩ := hA
  obtain ⟨a, b, e, ⟨S0, S1, T0, T1⟩, h, -⟩ := both_near hu hL hq hc hS hT
  obtain ⟨k4, A, A', rfl, rfl, nA, nA'⟩ := h k hk hku
  refine ⟨k4, by positivity, by linarith, _, e, (scale_near hu S0 T0 S1 T1 nA nA').trans ?_⟩
  have k0 : u ≤ k * (B * u) := by
    have : 1 * u ≤ B * u := mul_le_mul_of_nonneg_right hB u0.le
    have : 1 * (B * u) ≤ k * (B * u) := mul_le_mul_of_nonneg_right (by linarith) (by positivity)
    linarith
  have k1 : B ^ 2 * u ≤ 20000 * (k * (B * u)) := by
    have a1 : B * (B * u) ≤ 80000 * (B * u) := mul_le_mul_of_nonneg_right hB' (by positivity)
    have a2 : 4 * (B * u) ≤ k * (B * u) := mul_le_mul_of_nonneg_right k4 (by positivity)
    linarith [show B ^ 2 * u = B * (B * u) by ring]
  linarith

/-- The sum of the areas. -/
theorem areas_near {u B k : ℝ} (hu : Precise u) {L : MathLib} (hL : RightTo u L) (hku : 2000000000 * (k ^ 2 * u) ≤ 1) (hB : 1 ≤ B) (hB' : B ≤ 80000) :
    ∀ (qs : List (Quad GeoPoint)) (As : List ℝ) (n : ℕ) (s : ℚ) (σ : ℝ), List.Forall₂ FoldedArea qs As → (∀ q ∈ qs, PerimetersUpTo B q ∧ Stout k q) → n + qs.length ≤ 1000000 → 0 ≤ σ → σ ≤ B ^ 2 / 2 * n →
      |(s : ℝ) - σ| ≤ n * (4100000 * k * B + B ^ 2 * n) * u →
      ∃ S, qs.foldl (fun s q => s.bind fun s => (pairArea L q).map fun a => rnd (s + a)) (some s) = some S ∧
        |(S : ℝ) - (σ + As.sum)| ≤ (n + qs.length : ℕ) * (4100000 * k * B + B ^ 2 * (n + qs.length : ℕ)) * u := by
  obtain ⟨u0, u1, τ0, τ2, τ1, τu⟩ := tiny hu
  intro qs
  induction qs with
  | nil =>
    intro As n s σ h _ _ _ _ hs
    cases h
    exact ⟨s, rfl, by simpa using hs⟩
  | cons q qs ih =>
    intro As n s σ h hq hn h0 h1 hs
    cases h with
    | @cons _ A _ As hA h =>
      obtain ⟨q1, q2⟩ := hq q (by simp)
      obtain ⟨k4, A0, A1, a, ha, na⟩ := pair_near hu hL q1 q2 hku hB hB' hA
      have r := rnd_real hu (s + a)
      rw [List.length_cons] at hn ⊢
      obtain ⟨S, hS, nS⟩ := ih As (n + 1) (rnd (s + a)) (σ + A) h (fun q hq' => hq q (by simp [hq'])) (by omega) (by linarith)
        (by push_cast; linarith) (by
          rw [Rat.cast_add] at r
          clear τ1 τ2
          generalize (2 : ℝ) ^ (-1075 : ℤ) = τ at *
          have hn' : (n : ℝ) ≤ 1000000 := by exact_mod_cast (by omega : n ≤ 1000000)
          have hn0 : (0 : ℝ) ≤ n := Nat.cast_nonneg n
          push_cast
          generalize (n : ℝ) = K at *
          generalize ((rnd (s + a) : ℚ) : ℝ) = z at *
          generalize (s : ℝ) = s at *
          generalize (a : ℝ) = a at *
          have B1 : B ≤ B ^ 2 := by nlinarith
          have ku : k * u ≤ 1 / 8000000000 := by
            have : 4 * (k * u) ≤ k * (k * u) := mul_le_mul_of_nonneg_right k4 (by positivity)
            linarith [show k ^ 2 * u = k * (k * u) by ring]
          have d1 : k * u * B ≤ 1 / 8000000000 * B := mul_le_mul_of_nonneg_right ku (by linarith)
          have d3 : B ^ 2 * (K * u) ≤ B ^ 2 * (1 / 1000000) := by
            refine mul_le_mul_of_nonneg_left ?_ (by positivity)
            have := mul_le_mul hn' u1 u0.le (by norm_num : (0 : ℝ) ≤ 1000000)
            linarith
          have hKu : K * (4100000 * k * B + B ^ 2 * K) * u ≤ K * (B ^ 2 / 100) := by
            have e : K * (4100000 * k * B + B ^ 2 * K) * u = K * (4100000 * (k * u * B) + B ^ 2 * (K * u)) := by ring
            rw [e]
            exact mul_le_mul_of_nonneg_left (by linarith) hn0
          have hsum : |s + a| ≤ 6 / 10 * (B ^ 2 * (K + 1)) := by
            have : k * (B * u) = k * u * B := by ring
            have : 0 ≤ B ^ 2 * K := by positivity
            rw [abs_le] at *
            constructor <;> linarith
          have hu' := mul_le_mul_of_nonneg_left hsum u0.le
          have t : |z - (σ + A)| ≤ u * (6 / 10 * (B ^ 2 * (K + 1))) + τ + K * (4100000 * k * B + B ^ 2 * K) * u + 4000000 * (k * (B * u)) := by
            rw [abs_le] at *
            constructor <;> linarith
          refine t.trans ?_
          have y1 : 0 ≤ B ^ 2 * u := by positivity
          have y2 : 0 ≤ B ^ 2 * (K * u) := by positivity
          have y4 : u ≤ k * (B * u) := by
            have : 1 * u ≤ B * u := mul_le_mul_of_nonneg_right hB u0.le
            have : 1 * (B * u) ≤ k * (B * u) := mul_le_mul_of_nonneg_right (by linarith) (by positivity)
            linarith
          have e1 : (K + 1) * (4100000 * k * B + B ^ 2 * (K + 1)) * u =
              K * (4100000 * k * B + B ^ 2 * K) * u + 4100000 * (k * (B * u)) + 2 * (B ^ 2 * (K * u)) + B ^ 2 * u := by ring
          have e2 : u * (6 / 10 * (B ^ 2 * (K + 1))) = 6 / 10 * (B ^ 2 * (K * u)) + 6 / 10 * (B ^ 2 * u) := by ring
          rw [e1, e2]
          linarith)
      refine ⟨S, ?_, ?_⟩
      · rw [← hS, List.foldl_cons]
        simp only [Option.bind_some, ha, Option.map_some]
      · rw [List.sum_cons, ← add_assoc, show n + (qs.length + 1) = n + 1 + qs.length by omega]
        exact nS

end Her

/-- C222, first part: `getArea` of up to a million quadrilaterals whose triangles are not too thin is a number, and is the sum of the areas of the two triangles of every quadrilateral, up to
n(4100000kB + B²n)u square kilometres for n quadrilaterals with triangles of perimeters of up to B kilometres. -/
theorem C222_area {u B k : ℝ} (hu : Precise u) {L : MathLib} (hL : RightTo u L) (hku : 2000000000 * (k ^ 2 * u) ≤ 1) (hB : 1 ≤ B) (hB' : B ≤ 80000) {qs : List (Quad GeoPoint)}
    (hq : ∀ q ∈ qs, PerimetersUpTo B q ∧ Stout k q) {As : List ℝ} (hA : List.Forall₂ FoldedArea qs As) (hn : qs.length ≤ 1000000) :
    ∃ S, edgeArea L qs = some S ∧ |(S : ℝ) - As.sum| ≤ qs.length * (4100000 * k * B + B ^ 2 * qs.length) * u := by
  obtain ⟨S, hS, nS⟩ := Her.areas_near hu hL hku hB hB' qs As 0 0 0 hA hq (by omega) le_rfl (by simp) (by simp)
  exact ⟨S, hS, by simpa using nS⟩

/-- C222, second part: the area of a quadrilateral with triangles of any shape is right up to 2600√(B³u) square kilometres, if it is a number. -/
theorem C222_thin {u B : ℝ} (hu : Precise u) {L : MathLib} (hL : RightTo u L) (hB : 1 / 1000 ≤ B) (hB' : B ≤ 80000) {q : Quad GeoPoint} (hq : PerimetersUpTo B q) {A : ℝ} (hA : FoldedArea q A) {a : ℚ}
    (h : pairArea L q = some a) : |(a : ℝ) - A| ≤ 2600 * √(B ^ 3 * u) := by
  obtain ⟨u0, u1, τ0, τ2, τ1, τu⟩ := Geo.tiny hu
  obtain ⟨c, S, T, hc, hS, hT, rfl⟩ := hA
  obtain ⟨x, y, e, ⟨S0, S1, T0, T1⟩, -, hh⟩ := Her.both_near hu hL hq hc hS hT
  rw [e] at h
  cases x with
  | none => simp at h
  | some A =>
    cases y with
    | none => simp at h
    | some A' =>
      simp only [Option.bind_some, Option.map_some, Option.some.injEq] at h
      obtain ⟨nA, nA'⟩ := hh A A' rfl rfl
      have n := Her.scale_near hu S0 T0 S1 T1 nA nA'
      rw [h] at n
      refine n.trans ?_
      have B0 : 0 < B := by linarith
      have z1 : B ^ 2 * u ≤ √(B ^ 3 * u) := by
        refine Real.le_sqrt_of_sq_le ?_
        have e : (B ^ 2 * u) ^ 2 = B ^ 3 * u * (B * u) := by ring
        rw [e]
        have : B * u ≤ 1 := by nlinarith
        exact mul_le_of_le_one_right (by positivity) this
      have z2 : u ≤ √(B ^ 3 * u) := by
        refine Real.le_sqrt_of_sq_le ?_
        have : (1 / 1000 : ℝ) ^ 3 ≤ B ^ 3 := pow_le_pow_left₀ (by norm_num) hB 3
        rw [sq]
        refine mul_le_mul_of_nonneg_right ?_ u0.le
        linarith
      linarith

/-- C222: every quadrilateral has one area. -/
theorem C222_one (q : Quad GeoPoint) : ∃ A, FoldedArea q A ∧ ∀ A', FoldedArea q A' → A' = A := by
  obtain ⟨x0, y0, z0, h0, u0⟩ := C203_point q.p0.lat q.p0.lon q.p0.depth
  obtain ⟨x1, y1, z1, h1, u1⟩ := C203_point q.p1.lat q.p1.lon q.p1.depth
  obtain ⟨x2, y2, z2, h2, u2⟩ := C203_point q.p2.lat q.p2.lon q.p2.depth
  obtain ⟨x3, y3, z3, h3, u3⟩ := C203_point q.p3.lat q.p3.lon q.p3.depth
  refine ⟨_, ⟨⟨⟨x0, y0, z0⟩, ⟨x1, y1, z1⟩, ⟨x2, y2, z2⟩, ⟨x3, y3, z3⟩⟩, _, _, ⟨h0, h1, h2, h3⟩, Her.area_exists _ _ _, Her.area_exists _ _ _, rfl⟩, ?_⟩
  rintro A' ⟨c, S, T, ⟨g0, g1, g2, g3⟩, hS, hT, rfl⟩
  have e0 : c.p0 = ⟨x0, y0, z0⟩ := by obtain ⟨a, b, c⟩ := u0 _ _ _ g0; ext <;> assumption
  have e1 : c.p1 = ⟨x1, y1, z1⟩ := by obtain ⟨a, b, c⟩ := u1 _ _ _ g1; ext <;> assumption
  have e2 : c.p2 = ⟨x2, y2, z2⟩ := by obtain ⟨a, b, c⟩ := u2 _ _ _ g2; ext <;> assumption
  have e3 : c.p3 = ⟨x3, y3, z3⟩ := by obtain ⟨a, b, c⟩ := u3 _ _ _ g3; ext <;> assumption
  rw [Her.area_cross hS, Her.area_cross hT, e0, e1, e2, e3]

/-- A quadrilateral below the equator, from longitude 0 to longitude 90 and 1000 kilometres deep. -/
def Her.deep : Quad GeoPoint := ⟨⟨0, 0, 0⟩, ⟨90, 0, 0⟩, ⟨90, 0, 1000⟩, ⟨0, 0, 1000⟩⟩

theorem Her.deep_at {c : Quad V3} (h : CornersAt Her.deep c) :
    c.p0 = ⟨equatorial, 0, 0⟩ ∧ c.p1 = ⟨0, equatorial, 0⟩ ∧ c.p2 = ⟨0, equatorial - 1000000, 0⟩ ∧ c.p3 = ⟨equatorial - 1000000, 0, 0⟩ := by
  obtain ⟨h0, h1, h2, h3⟩ := h
  have r : Ecef.radius 0 = equatorial := by simp [Ecef.radius]
  have h90 : (90 : ℝ) * (Real.pi / 180) = Real.pi / 2 := by ring
  obtain ⟨a0, a1, a2⟩ := Ecef.geodetic_eq h0
  obtain ⟨b0, b1, b2⟩ := Ecef.geodetic_eq h1
  obtain ⟨d0, d1, d2⟩ := Ecef.geodetic_eq h2
  obtain ⟨f0, f1, f2⟩ := Ecef.geodetic_eq h3
  simp only [deep, Oq.radians, Rat.cast_zero, Rat.cast_ofNat, zero_mul, Real.sin_zero, Real.cos_zero, mul_zero, mul_one, neg_zero, add_zero, h90, Real.cos_pi_div_two, Real.sin_pi_div_two, r] at a0 a1 a2 b0 b1 b2 d0 d1 d2 f0 f1 f2
  refine ⟨?_, ?_, ?_, ?_⟩
  · ext <;> assumption
  · ext <;> assumption
  · ext
    · exact d0
    · rw [d1]; ring
    · exact d2
  · ext
    · rw [f0]; ring
    · exact f1
    · exact f2

theorem Her.deep_areas {c : Quad V3} (h : CornersAt Her.deep c) :
    ((c.p0.sub c.p1).cross (c.p0.sub c.p2)).mag / 2 = 3189068500000 ∧ ((c.p0.sub c.p2).cross (c.p0.sub c.p3)).mag / 2 = 2689068500000 := by
  obtain ⟨e0, e1, e2, e3⟩ := Her.deep_at h
  rw [e0, e1, e2, e3]
  constructor
  · rw [show ((⟨equatorial, 0, 0⟩ : V3).sub ⟨0, equatorial, 0⟩).cross ((⟨equatorial, 0, 0⟩ : V3).sub ⟨0, equatorial - 1000000, 0⟩) = ⟨0, 0, 6378137000000⟩ by
      simp only [V3.sub, V3.cross, equatorial]; ext <;> norm_num]
    rw [show (⟨0, 0, 6378137000000⟩ : V3).mag = 6378137000000 by simp [V3.mag]]
    norm_num
  · rw [show ((⟨equatorial, 0, 0⟩ : V3).sub ⟨0, equatorial - 1000000, 0⟩).cross ((⟨equatorial, 0, 0⟩ : V3).sub ⟨equatorial - 1000000, 0, 0⟩) = ⟨0, 0, 5378137000000⟩ by
      simp only [V3.sub, V3.cross, equatorial]; ext <;> norm_num]
    rw [show (⟨0, 0, 5378137000000⟩ : V3).mag = 5378137000000 by simp [V3.mag]]
    norm_num

/-- Its area is 5878137 square kilometres. -/
theorem Her.deep_area : FoldedArea Her.deep 5878137 := by
  obtain ⟨A, ⟨c, S, T, hc, hS, hT, e⟩, -⟩ := C222_one Her.deep
  refine ⟨c, S, T, hc, hS, hT, ?_⟩
  obtain ⟨h1, h2⟩ := Her.deep_areas hc
  rw [Her.area_cross hS, Her.area_cross hT, h1, h2]
  norm_num

theorem Her.deep_perimeters {c : Quad V3} (h : CornersAt Her.deep c) :
    (1 ≤ perimeter c.p0 c.p1 c.p2 ∧ perimeter c.p0 c.p1 c.p2 ≤ 20000000) ∧ 1 ≤ perimeter c.p0 c.p2 c.p3 ∧ perimeter c.p0 c.p2 c.p3 ≤ 20000000 := by
  obtain ⟨e0, e1, e2, e3⟩ := Her.deep_at h
  rw [e0, e1, e2, e3]
  have up : ∀ {a b : V3} {r : ℝ}, 0 ≤ r → distSq a b ≤ r ^ 2 → √(distSq a b) ≤ r := fun hr h => (Real.sqrt_le_left hr).2 h
  have low : ∀ {a b : V3} {r : ℝ}, 0 ≤ r → r ^ 2 ≤ distSq a b → r ≤ √(distSq a b) := fun hr h => Real.le_sqrt_of_sq_le h
  unfold perimeter
  have u1 : √(distSq ⟨equatorial, 0, 0⟩ ⟨0, equatorial, 0⟩) ≤ 9100000 := up (by norm_num) (by norm_num [distSq, equatorial])
  have u2 : √(distSq ⟨0, equatorial, 0⟩ ⟨0, equatorial - 1000000, 0⟩) ≤ 1000000 := up (by norm_num) (by norm_num [distSq, equatorial])
  have u3 : √(distSq ⟨0, equatorial - 1000000, 0⟩ ⟨equatorial, 0, 0⟩) ≤ 8400000 := up (by norm_num) (by norm_num [distSq, equatorial])
  have u4 : √(distSq ⟨equatorial, 0, 0⟩ ⟨0, equatorial - 1000000, 0⟩) ≤ 8400000 := up (by norm_num) (by norm_num [distSq, equatorial])
  have u5 : √(distSq ⟨0, equatorial - 1000000, 0⟩ ⟨equatorial - 1000000, 0, 0⟩) ≤ 8000000 := up (by norm_num) (by norm_num [distSq, equatorial])
  have u6 : √(distSq ⟨equatorial - 1000000, 0, 0⟩ ⟨equatorial, 0, 0⟩) ≤ 1000000 := up (by norm_num) (by norm_num [distSq, equatorial])
  have l1 : 1 ≤ √(distSq ⟨equatorial, 0, 0⟩ ⟨0, equatorial, 0⟩) := low (by norm_num) (by norm_num [distSq, equatorial])
  have l4 : 1 ≤ √(distSq ⟨equatorial, 0, 0⟩ ⟨0, equatorial - 1000000, 0⟩) := low (by norm_num) (by norm_num [distSq, equatorial])
  have n1 := Real.sqrt_nonneg (distSq ⟨0, equatorial, 0⟩ ⟨0, equatorial - 1000000, 0⟩)
  have n2 := Real.sqrt_nonneg (distSq ⟨0, equatorial - 1000000, 0⟩ ⟨equatorial, 0, 0⟩)
  have n3 := Real.sqrt_nonneg (distSq ⟨0, equatorial - 1000000, 0⟩ ⟨equatorial - 1000000, 0, 0⟩)
  have n4 := Real.sqrt_nonneg (distSq ⟨equatorial - 1000000, 0, 0⟩ ⟨equatorial, 0, 0⟩)
  refine ⟨⟨?_, ?_⟩, ?_, ?_⟩ <;> linarith

theorem Her.deep_shape : PerimetersUpTo 20000 Her.deep ∧ Stout 150 Her.deep := by
  refine ⟨⟨by norm_num [QuadOnEarth, PlaceOnEarth, deep, abs_le], fun c hc => ?_⟩, fun c hc => ?_⟩
  · obtain ⟨⟨h1, h2⟩, h3, h4⟩ := Her.deep_perimeters hc
    exact ⟨⟨h1, by linarith⟩, h3, by linarith⟩
  · obtain ⟨⟨h1, h2⟩, h3, h4⟩ := Her.deep_perimeters hc
    obtain ⟨a1, a2⟩ := Her.deep_areas hc
    refine ⟨fun S hS => ?_, fun T hT => ?_⟩
    · rw [Her.area_cross hS, a1]
      have := pow_le_pow_left₀ (by linarith) h2 2
      linarith
    · rw [Her.area_cross hT, a2]
      have := pow_le_pow_left₀ (by linarith) h4 2
      linarith

/-- The area of two of these quadrilaterals is computed to a tenth of a square kilometre. -/
example : ∃ S, edgeArea Geo.someLib [Her.deep, Her.deep] = some S ∧ |(S : ℝ) - 11756274| ≤ 1 / 10 := by
  obtain ⟨S, hS, n⟩ := C222_area (B := 20000) (k := 150) Geo.precise49 Geo.someLib_right (by norm_num) (by norm_num) (by norm_num) (qs := [Her.deep, Her.deep]) (by simp [Her.deep_shape])
    (.cons Her.deep_area (.cons Her.deep_area .nil)) (by simp)
  refine ⟨S, hS, ?_⟩
  rw [show ([5878137, 5878137] : List ℝ).sum = 11756274 by norm_num] at n
  refine n.trans ?_
  simp only [List.length_cons, List.length_nil]
  norm_num

/-- The bound for triangles of any shape. -/
example {a : ℚ} (h : pairArea Geo.someLib Her.deep = some a) : |(a : ℝ) - 5878137| ≤ 2600 * √(20000 ^ 3 * 2 ^ (-49 : ℤ)) :=
  C222_thin Geo.precise49 Geo.someLib_right (by norm_num) (by norm_num) Her.deep_shape.1 Her.deep_area h

/-- Sides whose computed sum is too small: the sides of a flat triangle give no number. -/
example : heronArea (1 / 2) (3 / 2 + 2 ^ (-52 : ℤ)) (1 + 2 ^ (-52 : ℤ)) = none := by decide +kernel

end Verif.Props
