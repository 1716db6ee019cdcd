import Verif.Model.QuadDistDouble
import Verif.Spec.QuadDistDouble
import Verif.Props.EdgeDouble
import Verif.Props.RuptureDistance

/-!
# C208: distances to segments and quadrilaterals in binary arithmetic
-/

namespace Verif.Props
open Verif.Dbl Verif.Spec
open Verif.Rup (Quad)
open Verif.Vec (V3)

namespace Seg
open Geo Len

/-! ### Real vectors -/

theorem cauchy (a b : V3) : |a.x * b.x| + |a.y * b.y| + |a.z * b.z| ≤ a.mag * b.mag := by
  have ha := mag_nonneg a
  have hb := mag_nonneg b
  rw [← Real.sqrt_sq (mul_nonneg ha hb)]
  apply Real.le_sqrt_of_sq_le
  rw [mul_pow, mag_sq, mag_sq, abs_mul, abs_mul, abs_mul, ← sq_abs a.x, ← sq_abs a.y, ← sq_abs a.z, ← sq_abs b.x, ← sq_abs b.y, ← sq_abs b.z]
  generalize |a.x| = p, |a.y| = q, |a.z| = r, |b.x| = s, |b.y| = t, |b.z| = v
  nlinarith [sq_nonneg (p * t - q * s), sq_nonneg (p * v - r * s), sq_nonneg (q * v - r * t)]

theorem mag_line (P W : V3) (t : ℝ) : (P.add (W.mul t)).mag ^ 2 = P.mag ^ 2 + 2 * t * P.dot W + t ^ 2 * W.mag ^ 2 := by
  rw [mag_sq, mag_sq, mag_sq]
  simp only [V3.add, V3.mul, V3.dot]
  ring

theorem line_step (P W : V3) (s t : ℝ) : (P.add (W.mul t)).mag ≤ (P.add (W.mul s)).mag + |t - s| * W.mag := by
  have h := mag_add (P.add (W.mul s)) (W.mul (t - s))
  have e : (P.add (W.mul s)).add (W.mul (t - s)) = P.add (W.mul t) := by
    ext <;> simp only [V3.add, V3.mul] <;> ring
  rw [mag_mul, e] at h
  linarith

/-- Choosing the nearest point of a segment with slightly wrong products. -/
theorem select {u e : ℝ} (u0 : 0 < u) (e0 : 0 ≤ e) (he : e ≤ u ^ 2 / 1000) (P W : V3) {c1 c2 τ : ℝ} (h1 : |c1 + P.dot W| ≤ 5 * u * (P.mag * W.mag) + 10 * e)
    (h2 : |c2 - W.mag ^ 2| ≤ 5 * u * W.mag ^ 2 + 10 * e) (hτ : c1 ≤ 0 ∧ τ = 0 ∨ c2 ≤ c1 ∧ τ = 1 ∨ 0 < c1 ∧ c1 < c2 ∧ 0 ≤ τ ∧ τ ≤ 1 ∧ |τ - c1 / c2| ≤ 2 * u) {s : ℝ} (s0 : 0 ≤ s) (s1 : s ≤ 1) :
    (P.add (W.mul τ)).mag ≤ (P.add (W.mul s)).mag + 5 * u * P.mag + 7 * u * W.mag + u := by
  have n0 := mag_nonneg P
  have w0 := mag_nonneg W
  have τ01 : 0 ≤ τ ∧ τ ≤ 1 := by
    rcases hτ with ⟨-, rfl⟩ | ⟨-, rfl⟩ | ⟨-, -, a, b, -⟩
    · norm_num
    · norm_num
    · exact ⟨a, b⟩
  have un : 0 ≤ u * P.mag := by positivity
  have uw : 0 ≤ u * W.mag := by positivity
  rcases le_or_gt W.mag u with hw | hw
  · have := line_step P W s τ
    have h : |τ - s| * W.mag ≤ 1 * u := mul_le_mul (by rw [abs_le]; constructor <;> linarith) hw w0 (by norm_num)
    linarith
  · have wp : 0 < W.mag := lt_trans u0 hw
    have wp2 : 0 < W.mag ^ 2 := by positivity
    obtain ⟨σ, hσ⟩ : ∃ σ, P.dot W = -(σ * W.mag ^ 2) := ⟨-(P.dot W) / W.mag ^ 2, by field_simp⟩
    have star0 : 0 ≤ max 0 (min 1 σ) := le_max_left _ _
    have star1 : max 0 (min 1 σ) ≤ 1 := max_le (by norm_num) (min_le_left _ _)
    -- the best point
    have best : (P.add (W.mul (max 0 (min 1 σ)))).mag ≤ (P.add (W.mul s)).mag := by
      refine abs_le_of_sq_le_sq' ?_ (mag_nonneg _) |>.2
      rw [mag_line, mag_line, hσ]
      have : (max 0 (min 1 σ) - σ) ^ 2 ≤ (s - σ) ^ 2 := by
        rcases le_total σ 0 with h | h
        · rw [max_eq_left (le_trans (min_le_right _ _) h)]
          nlinarith
        · rcases le_total σ 1 with h' | h'
          · rw [min_eq_right h', max_eq_right h]
            nlinarith
          · rw [min_eq_left h', max_eq_right (by norm_num)]
            nlinarith
      nlinarith [mul_le_mul_of_nonneg_right this wp2.le]
    have close : |τ - max 0 (min 1 σ)| * W.mag ^ 2 ≤ 5 * u * (P.mag * W.mag) + 7 * u * W.mag ^ 2 + 20 * e := by
      rw [hσ] at h1
      have pw : 0 ≤ u * (P.mag * W.mag) := by positivity
      have ww : 0 ≤ u * W.mag ^ 2 := by positivity
      generalize W.mag ^ 2 = k at *
      generalize P.mag * W.mag = m at *
      rw [abs_le] at h1 h2
      rcases hτ with ⟨h, rfl⟩ | ⟨h, rfl⟩ | ⟨a, b, -, -, c⟩
      · rw [zero_sub, abs_neg, abs_of_nonneg star0]
        rcases le_total σ 0 with h' | h'
        · rw [max_eq_left (le_trans (min_le_right _ _) h')]
          linarith
        · have : max 0 (min 1 σ) ≤ σ := max_le h' (min_le_right _ _)
          have := mul_le_mul_of_nonneg_right this wp2.le
          linarith
      · rw [abs_of_nonneg (by linarith)]
        rcases le_total 1 σ with h' | h'
        · rw [min_eq_left h', max_eq_right (by norm_num)]
          linarith
        · have : σ ≤ max 0 (min 1 σ) := by rw [min_eq_right h']; exact le_max_right _ _
          have := mul_le_mul_of_nonneg_right this wp2.le
          linarith
      · have c2p : 0 < c2 := by linarith
        have r0 : 0 ≤ c1 / c2 := by positivity
        have r1 : c1 / c2 ≤ 1 := by rw [div_le_one c2p]; exact b.le
        have hr : c1 / c2 * c2 = c1 := div_mul_cancel₀ _ c2p.ne'
        generalize c1 / c2 = r at *
        have clamp : |r - max 0 (min 1 σ)| ≤ |r - σ| := by
          rcases le_total σ 0 with h | h
          · rw [max_eq_left (le_trans (min_le_right _ _) h), abs_of_nonneg (by linarith), abs_of_nonneg (by linarith)]
            linarith
          · rcases le_total σ 1 with h' | h'
            · rw [min_eq_right h', max_eq_right h]
            · rw [min_eq_left h', max_eq_right (by norm_num), abs_of_nonpos (by linarith), abs_of_nonpos (by linarith)]
              linarith
        have far : |r - σ| * k ≤ 5 * u * m + 5 * u * k + 20 * e := by
          rw [← abs_of_pos wp2, ← abs_mul, abs_of_pos wp2, abs_le]
          have e1 : (r - σ) * k = (c1 + -(σ * k)) - r * (c2 - k) := by rw [mul_sub, hr]; ring
          have b1 : |r * (c2 - k)| ≤ 1 * (5 * u * k + 10 * e) := by
            rw [abs_mul, abs_of_nonneg r0]
            exact mul_le_mul r1 (abs_le.2 h2) (abs_nonneg _) (by norm_num)
          rw [abs_le] at b1
          rw [e1]
          constructor <;> linarith
        have t := abs_sub_le τ r (max 0 (min 1 σ))
        have := mul_le_mul_of_nonneg_right (le_trans t (add_le_add c clamp)) wp2.le
        linarith
    have e20 : 20 * e ≤ u * W.mag := by nlinarith
    have small : |τ - max 0 (min 1 σ)| * W.mag ≤ 5 * u * P.mag + 7 * u * W.mag + u := by
      refine le_of_mul_le_mul_right ?_ wp
      calc |τ - max 0 (min 1 σ)| * W.mag * W.mag = |τ - max 0 (min 1 σ)| * W.mag ^ 2 := by ring
        _ ≤ _ := close
        _ ≤ 5 * u * (P.mag * W.mag) + 7 * u * W.mag ^ 2 + u * W.mag := by linarith
        _ = _ := by ring
    have := line_step P W (max 0 (min 1 σ)) τ
    linarith

/-! ### Rounded operations -/

theorem exactly_mag (d : D3) : (exactly d).mag = √((d.x : ℝ) ^ 2 + (d.y : ℝ) ^ 2 + (d.z : ℝ) ^ 2) := rfl

theorem rowSum_real {u : ℝ} (hu : Precise u) {sum : ℚ → ℚ → ℚ → ℚ} (hs : SumTo u sum) (a b : D3) :
    |(rowSum sum a b : ℝ) - (exactly a).dot (exactly b)| ≤ 5 * u * ((exactly a).mag * (exactly b).mag) + 10 * 2 ^ (-1075 : ℤ) := by
  obtain ⟨u0, u1, τ0, τ2, τ1, τu⟩ := tiny hu
  have c := cauchy (exactly a) (exactly b)
  have r1 := rnd_real hu (a.x * b.x)
  have r2 := rnd_real hu (a.y * b.y)
  have r3 := rnd_real hu (a.z * b.z)
  have s := hs.2 (rnd (a.x * b.x)) (rnd (a.y * b.y)) (rnd (a.z * b.z))
  rw [show (2 : ℝ) ^ (-1073 : ℤ) = 4 * 2 ^ (-1075 : ℤ) by rw [show (-1073 : ℤ) = 2 + -1075 by norm_num, zpow_add₀ (by norm_num)]; norm_num] at s
  unfold rowSum V3.dot
  push_cast at r1 r2 r3
  simp only [exactly] at c ⊢
  generalize (⟨(a.x : ℝ), (a.y : ℝ), (a.z : ℝ)⟩ : V3).mag * (⟨(b.x : ℝ), (b.y : ℝ), (b.z : ℝ)⟩ : V3).mag = m at *
  generalize ((sum (rnd (a.x * b.x)) (rnd (a.y * b.y)) (rnd (a.z * b.z)) : ℚ) : ℝ) = t at *
  generalize ((rnd (a.x * b.x) : ℚ) : ℝ) = p at *
  generalize ((rnd (a.y * b.y) : ℚ) : ℝ) = q at *
  generalize ((rnd (a.z * b.z) : ℚ) : ℝ) = r at *
  generalize (a.x : ℝ) * b.x = x at *
  generalize (a.y : ℝ) * b.y = y at *
  generalize (a.z : ℝ) * b.z = z at *
  generalize (2 : ℝ) ^ (-1075 : ℤ) = e at *
  clear τ1 τ2
  have bp : |p| ≤ |x| + (u * |x| + e) := by
    have := abs_sub_abs_le_abs_sub p x
    linarith
  have bq : |q| ≤ |y| + (u * |y| + e) := by
    have := abs_sub_abs_le_abs_sub q y
    linarith
  have br : |r| ≤ |z| + (u * |z| + e) := by
    have := abs_sub_abs_le_abs_sub r z
    linarith
  have k0 : 0 ≤ |x| + |y| + |z| := by positivity
  have um := mul_le_mul_of_nonneg_left c u0.le
  have b1 : 3 * u * (|p| + |q| + |r|) ≤ 3 * u * ((|x| + |y| + |z|) * (1 + u) + 3 * e) := mul_le_mul_of_nonneg_left (by linarith) (by positivity)
  have b2 : 3 * u * ((|x| + |y| + |z|) * (1 + u) + 3 * e) ≤ 7 / 2 * (u * (|x| + |y| + |z|)) + e := by
    have p1 : u * (u * (|x| + |y| + |z|)) ≤ 1 / 1000000000000 * (u * (|x| + |y| + |z|)) := mul_le_mul_of_nonneg_right u1 (by positivity)
    have p2 : u * e ≤ 1 / 1000000000000 * e := mul_le_mul_of_nonneg_right u1 τ0.le
    have p3 : 0 ≤ u * (|x| + |y| + |z|) := by positivity
    nlinarith
  rw [abs_le] at r1 r2 r3 s ⊢
  have p3 : 0 ≤ u * (|x| + |y| + |z|) := by positivity
  constructor <;> linarith

theorem squares_mag (d : D3) : sqrtRnd (squares d) = d.mag fun x => rnd (x * x) := rfl

/-- Vectors with components that are near each other have nearly the same length. -/
theorem mag_near {a b : V3} {e : ℝ} (hx : |a.x - b.x| ≤ e) (hy : |a.y - b.y| ≤ e) (hz : |a.z - b.z| ≤ e) : |a.mag - b.mag| ≤ 2 * e :=
  le_trans (triangle hx hy hz) (by linarith [le_trans (abs_nonneg _) hx])

theorem mag_le {a : V3} {e : ℝ} (hx : |a.x| ≤ e) (hy : |a.y| ≤ e) (hz : |a.z| ≤ e) : a.mag ≤ 2 * e := by
  have h := mag_near (a := a) (b := ⟨0, 0, 0⟩) (e := e) (by simpa using hx) (by simpa using hy) (by simpa using hz)
  have z : (⟨0, 0, 0⟩ : V3).mag = 0 := by simp [V3.mag]
  rw [z, sub_zero] at h
  exact le_trans (le_abs_self _) h

/-- The point that is chosen. -/
theorem chosen {u : ℝ} (hu : Precise u) {sum : ℚ → ℚ → ℚ → ℚ} (hs : SumTo u sum) {M : ℝ} (hM : 1 ≤ M) {p0 p1 : D3} (h0 : Within M p0) (h1 : Within M p1) :
    ∃ (X : D3) (τ : ℝ), sqrtRnd (segmentSq sum p0 p1) = X.mag (fun x => rnd (x * x)) ∧ 0 ≤ τ ∧ τ ≤ 1 ∧
      (∀ s, 0 ≤ s → s ≤ 1 → ((exactly p0).add ((exactly (p1.sub p0)).mul τ)).mag ≤ ((exactly p0).add ((exactly (p1.sub p0)).mul s)).mag +
        5 * u * (exactly p0).mag + 7 * u * (exactly (p1.sub p0)).mag + u) ∧
      |(X.x : ℝ) - (p0.x + (p1.sub p0).x * τ)| ≤ 9 * (u * M) ∧ |(X.y : ℝ) - (p0.y + (p1.sub p0).y * τ)| ≤ 9 * (u * M) ∧ |(X.z : ℝ) - (p0.z + (p1.sub p0).z * τ)| ≤ 9 * (u * M) := by
  obtain ⟨u0, u1, τ0, τ2, τ1, τu⟩ := tiny hu
  have uM : u ≤ u * M := le_mul_of_one_le_right u0.le hM
  have c1 := rowSum_real hu hs p0 (p1.sub p0)
  have c2 := rowSum_real hu hs (p1.sub p0) (p1.sub p0)
  rw [← sq (exactly (p1.sub p0)).mag] at c2
  have dd : (exactly (p1.sub p0)).dot (exactly (p1.sub p0)) = (exactly (p1.sub p0)).mag ^ 2 := by
    rw [mag_sq]; simp only [V3.dot]; ring
  rw [dd] at c2
  have c1' : |(((-rowSum sum p0 (p1.sub p0) : ℚ)) : ℝ) + (exactly p0).dot (exactly (p1.sub p0))| ≤ 5 * u * ((exactly p0).mag * (exactly (p1.sub p0)).mag) + 10 * 2 ^ (-1075 : ℤ) := by
    rw [← abs_neg]
    refine le_trans (le_of_eq ?_) c1
    congr 1
    push_cast
    ring
  have use := fun {τ : ℝ} hτ (s : ℝ) (s0 : 0 ≤ s) (s1 : s ≤ 1) => select u0 τ0.le τ2 (exactly p0) (exactly (p1.sub p0)) c1' c2 (τ := τ) hτ s0 s1
  have diff : ∀ a b : ℚ, |(a : ℝ)| ≤ M → |(b : ℝ)| ≤ M → |((rnd (b - a) : ℚ) : ℝ) - (b - a)| ≤ 3 * (u * M) := by
    intro a b ha hb
    have r := rnd_real hu (b - a)
    push_cast at r
    have : |(b : ℝ) - a| ≤ 2 * M := by
      rw [abs_le] at *
      constructor <;> linarith
    have := mul_le_mul_of_nonneg_left this u0.le
    linarith
  unfold segmentSq
  dsimp only
  by_cases hB : rowSum sum (p1.sub p0) (p1.sub p0) ≤ -rowSum sum p0 (p1.sub p0)
  · refine ⟨p1, 1, ?_, by norm_num, le_refl _, use (.inr (.inl ⟨by exact_mod_cast hB, rfl⟩)), ?_, ?_, ?_⟩
    · rw [if_neg (by tauto), if_pos hB, squares_mag]
    · have := diff p0.x p1.x h0.1 h1.1
      simp only [D3.sub]
      rw [abs_le] at *
      constructor <;> linarith
    · have := diff p0.y p1.y h0.2.1 h1.2.1
      simp only [D3.sub]
      rw [abs_le] at *
      constructor <;> linarith
    · have := diff p0.z p1.z h0.2.2 h1.2.2
      simp only [D3.sub]
      rw [abs_le] at *
      constructor <;> linarith
  · by_cases hA : -rowSum sum p0 (p1.sub p0) ≤ 0
    · refine ⟨p0, 0, ?_, le_refl _, by norm_num, use (.inl ⟨by exact_mod_cast hA, rfl⟩), ?_, ?_, ?_⟩
      · rw [if_neg (by tauto), if_neg hB, if_pos hA, squares_mag]
      all_goals
        rw [mul_zero, add_zero, sub_self, abs_zero]
        positivity
    · have ne : p0 ≠ p1 := by
        rintro rfl
        apply hA
        have : rowSum sum p0 (p0.sub p0) = 0 := by
          unfold rowSum D3.sub
          simp only [sub_self, rnd_zero, mul_zero]
          exact hs.1
        rw [this, neg_zero]
      push Not at hA hB
      have hq0 : 0 ≤ -rowSum sum p0 (p1.sub p0) / rowSum sum (p1.sub p0) (p1.sub p0) := div_nonneg hA.le (lt_trans hA hB).le
      have hq1 : -rowSum sum p0 (p1.sub p0) / rowSum sum (p1.sub p0) (p1.sub p0) ≤ 1 := by rw [div_le_one (lt_trans hA hB)]; exact hB.le
      have q0 : (0 : ℝ) ≤ (rnd (-rowSum sum p0 (p1.sub p0) / rowSum sum (p1.sub p0) (p1.sub p0)) : ℚ) := by exact_mod_cast (rnd_nonneg hq0)
      have q1 : ((rnd (-rowSum sum p0 (p1.sub p0) / rowSum sum (p1.sub p0) (p1.sub p0)) : ℚ) : ℝ) ≤ 1 := by exact_mod_cast (rnd_le_one hq1)
      have r := rnd_real hu (-rowSum sum p0 (p1.sub p0) / rowSum sum (p1.sub p0) (p1.sub p0))
      rw [abs_of_nonneg (by exact_mod_cast hq0 : (0 : ℝ) ≤ ((-rowSum sum p0 (p1.sub p0) / rowSum sum (p1.sub p0) (p1.sub p0) : ℚ) : ℝ))] at r
      have hq1' : (((-rowSum sum p0 (p1.sub p0) / rowSum sum (p1.sub p0) (p1.sub p0) : ℚ)) : ℝ) ≤ 1 := by exact_mod_cast hq1
      have r' : |((rnd (-rowSum sum p0 (p1.sub p0) / rowSum sum (p1.sub p0) (p1.sub p0)) : ℚ) : ℝ) - ((-rowSum sum p0 (p1.sub p0) : ℚ) : ℝ) / ((rowSum sum (p1.sub p0) (p1.sub p0) : ℚ) : ℝ)| ≤ 2 * u := by
        have := mul_le_mul_of_nonneg_left hq1' u0.le
        rw [← Rat.cast_div]
        linarith
      refine ⟨p0.add ((p1.sub p0).mul (rnd (-rowSum sum p0 (p1.sub p0) / rowSum sum (p1.sub p0) (p1.sub p0)))), _, ?_, q0, q1,
        use (.inr (.inr ⟨by exact_mod_cast hA, by exact_mod_cast hB, q0, q1, r'⟩)), ?_⟩
      · rw [if_pos (by rintro (h | h | h); exacts [absurd h (not_le.2 hA), ne h, absurd h (not_le.2 hB)]), squares_mag]
      · have step : ∀ a b t : ℚ, |(a : ℝ)| ≤ M → |(b : ℝ)| ≤ M → (0 : ℝ) ≤ t → (t : ℝ) ≤ 1 → |((rnd (a + rnd (rnd (b - a) * t)) : ℚ) : ℝ) - (a + (rnd (b - a) : ℚ) * t)| ≤ 9 * (u * M) := by
          intro a b t ha hb t0 t1
          have d := diff a b ha hb
          have r1 := rnd_real hu (rnd (b - a) * t)
          have r2 := rnd_real hu (a + rnd (rnd (b - a) * t))
          push_cast at r1 r2
          generalize ((rnd (a + rnd (rnd (b - a) * t)) : ℚ) : ℝ) = X at *
          generalize ((rnd (rnd (b - a) * t) : ℚ) : ℝ) = Y at *
          generalize ((rnd (b - a) : ℚ) : ℝ) = v at *
          generalize (2 : ℝ) ^ (-1075 : ℤ) = e at *
          have uM1 : u * M ≤ M / 1000000000000 := by
            have := mul_le_mul_of_nonneg_right u1 (by linarith : 0 ≤ M)
            linarith
          have v3 : |v| ≤ 5 / 2 * M := by
            rw [abs_le] at *
            constructor <;> linarith
          have vt : |v * t| ≤ 5 / 2 * M := by
            rw [abs_mul, abs_of_nonneg t0]
            calc |v| * t ≤ |v| * 1 := mul_le_mul_of_nonneg_left t1 (abs_nonneg _)
              _ ≤ _ := by rw [mul_one]; exact v3
          have m1 := mul_le_mul_of_nonneg_left vt u0.le
          have e1 : e ≤ u * M := by linarith
          have Y3 : |a + Y| ≤ 4 * M := by
            have : |Y - v * t| ≤ M / 2 := by linarith
            rw [abs_le] at *
            constructor <;> linarith
          have m2 := mul_le_mul_of_nonneg_left Y3 u0.le
          have e2 : 2 * e ≤ 2 * (u * M) := by linarith
          clear d v3 vt Y3
          rw [abs_le] at *
          constructor <;> linarith
        exact ⟨step _ _ _ h0.1 h1.1 q0 q1, step _ _ _ h0.2.1 h1.2.1 q0 q1, step _ _ _ h0.2.2 h1.2.2 q0 q1⟩

/-- There are libraries of every accuracy. -/
theorem some_right {u : ℝ} (hu : Precise u) : ∃ L : MathLib, RightTo u L ∧ L.sq = fun x => rnd (x * x) := by
  have u0 := (tiny hu).1
  choose f hf using fun y : ℝ => approx_exists u0 y
  refine ⟨_, Edge.product_right hu (L := ⟨fun x => f (Real.sin x), fun x => f (Real.cos x), fun x => x ^ 2, fun x => f (Real.arcsin x)⟩) ⟨fun x _ => hf _, fun x _ => hf _, fun x => ?_,
    fun x => sq_nonneg x, by simp, fun x h0 _ => ?_⟩, rfl⟩
  · show |((x ^ 2 : ℚ) : ℝ) - (x : ℝ) ^ 2| ≤ _
    rw [Rat.cast_pow, sub_self, abs_zero]
    positivity
  · have := hf (Real.arcsin x)
    rwa [abs_of_nonneg (Real.arcsin_nonneg.2 (by exact_mod_cast h0))] at this

/-- The distance to a segment, seen from the origin. -/
theorem segment_near {u : ℝ} (hu : Precise u) {sum : ℚ → ℚ → ℚ → ℚ} (hs : SumTo u sum) {M : ℝ} (hM : 1 ≤ M) {p0 p1 : D3} (h0 : Within M p0) (h1 : Within M p1) :
    (∃ y ∈ Spec.segment (exactly p0) (exactly p1), |(sqrtRnd (segmentSq sum p0 p1) : ℝ) - y.mag| ≤ 100 * (u * M)) ∧
    ∀ y ∈ Spec.segment (exactly p0) (exactly p1), (sqrtRnd (segmentSq sum p0 p1) : ℝ) ≤ y.mag + 200 * (u * M) := by
  obtain ⟨u0, u1, τ0, τ2, τ1, τu⟩ := tiny hu
  obtain ⟨X, τ, e, t0, t1, best, bx, bY, bz⟩ := chosen hu hs hM h0 h1
  have uM : u ≤ u * M := le_mul_of_one_le_right u0.le hM
  have uM0 : 0 ≤ u * M := by positivity
  have uM1 : u * M ≤ M / 1000000000000 := by
    have := mul_le_mul_of_nonneg_right u1 (by linarith : 0 ≤ M)
    linarith
  have diff : ∀ a b : ℚ, |(a : ℝ)| ≤ M → |(b : ℝ)| ≤ M → |((rnd (b - a) : ℚ) : ℝ) - (b - a)| ≤ 3 * (u * M) := by
    intro a b ha hb
    have r := rnd_real hu (b - a)
    push_cast at r
    have : |(b : ℝ) - a| ≤ 2 * M := by
      rw [abs_le] at *
      constructor <;> linarith
    have := mul_le_mul_of_nonneg_left this u0.le
    linarith
  have dx := diff p0.x p1.x h0.1 h1.1
  have dy := diff p0.y p1.y h0.2.1 h1.2.1
  have dz := diff p0.z p1.z h0.2.2 h1.2.2
  -- the segment with the rounded difference is near the segment
  have way : ∀ s, 0 ≤ s → s ≤ 1 → |((exactly p0).add ((exactly (p1.sub p0)).mul s)).mag - (combine (exactly p0) (exactly p1) (exactly p0) s 0).mag| ≤ 2 * (3 * (u * M)) := by
    intro s s0 s1
    have one : ∀ a b v : ℝ, |v - (b - a)| ≤ 3 * (u * M) → |a + v * s - (a + s * (b - a) + 0 * (a - a))| ≤ 3 * (u * M) := by
      intro a b v h
      rw [show a + v * s - (a + s * (b - a) + 0 * (a - a)) = (v - (b - a)) * s by ring, abs_mul, abs_of_nonneg s0]
      calc |v - (b - a)| * s ≤ |v - (b - a)| * 1 := mul_le_mul_of_nonneg_left s1 (abs_nonneg _)
        _ ≤ _ := by rw [mul_one]; exact h
    exact mag_near (one _ _ _ dx) (one _ _ _ dy) (one _ _ _ dz)
  have Xn : |(exactly X).mag - ((exactly p0).add ((exactly (p1.sub p0)).mul τ)).mag| ≤ 2 * (9 * (u * M)) := mag_near bx bY bz
  have pm : (exactly p0).mag ≤ 2 * M := mag_le h0.1 h0.2.1 h0.2.2
  have sz : ∀ a b v : ℝ, |a| ≤ M → |b| ≤ M → |v - (b - a)| ≤ 3 * (u * M) → |v| ≤ 5 / 2 * M := by
    intro a b v ha hb h
    rw [abs_le] at *
    constructor <;> linarith
  have vm : (exactly (p1.sub p0)).mag ≤ 2 * (5 / 2 * M) := mag_le (sz _ _ _ h0.1 h1.1 dx) (sz _ _ _ h0.2.1 h1.2.1 dy) (sz _ _ _ h0.2.2 h1.2.2 dz)
  have pl : ((exactly p0).add ((exactly (p1.sub p0)).mul τ)).mag ≤ 7 * M := by
    have := mag_add (exactly p0) ((exactly (p1.sub p0)).mul τ)
    rw [mag_mul, abs_of_nonneg t0] at this
    have v0 := mag_nonneg (exactly (p1.sub p0))
    nlinarith
  obtain ⟨L, hL, hsq⟩ := some_right hu
  have Xm := (mag_real hu hL X).2
  rw [← exactly_mag, hsq] at Xm
  rw [e]
  have m0 := mag_nonneg (exactly X)
  generalize ((D3.mag (fun x => rnd (x * x)) X : ℚ) : ℝ) = d at *
  generalize (exactly X).mag = m at *
  have m8 : m ≤ 8 * M := by linarith [(abs_le.1 Xn).2]
  have um := mul_le_mul_of_nonneg_left m8 u0.le
  have up := mul_le_mul_of_nonneg_left pm u0.le
  have uv := mul_le_mul_of_nonneg_left vm u0.le
  constructor
  · refine ⟨_, ⟨τ, t0, t1, rfl⟩, ?_⟩
    have w := way τ t0 t1
    clear dx dy dz bx bY bz way best diff sz
    rw [abs_le] at *
    constructor <;> linarith
  · rintro y ⟨s, s0, s1, rfl⟩
    have w := way s s0 s1
    have b := best s s0 s1
    clear dx dy dz bx bY bz way best diff sz
    rw [abs_le] at *
    linarith

theorem squares_nonneg (d : D3) : 0 ≤ squares d :=
  rnd_nonneg (add_nonneg (rnd_nonneg (add_nonneg (rnd_nonneg (mul_self_nonneg _)) (rnd_nonneg (mul_self_nonneg _)))) (rnd_nonneg (mul_self_nonneg _)))

theorem segmentSq_nonneg (sum : ℚ → ℚ → ℚ → ℚ) (p0 p1 : D3) : 0 ≤ segmentSq sum p0 p1 := by
  have r : 0 ≤ sqrtRnd (squares p0) := sqrtRnd_nonneg' precise49 (squares_nonneg _)
  unfold segmentSq
  dsimp only
  split_ifs <;> first | exact squares_nonneg _ | exact r | exact le_refl _

/-- Adding from left to right with two roundings. -/
theorem two_roundings {u : ℝ} (hu : Precise u) : SumTo u fun a b c => rnd (rnd (a + b) + c) := by
  obtain ⟨u0, u1, τ0, τ2, τ1, τu⟩ := tiny hu
  refine ⟨by simp [rnd_zero], fun a b c => ?_⟩
  have r1 := rnd_real hu (a + b)
  have r2 := rnd_real hu (rnd (a + b) + c)
  push_cast at r1 r2
  have e : (2 : ℝ) ^ (-1073 : ℤ) = 4 * 2 ^ (-1075 : ℤ) := by rw [show (-1073 : ℤ) = 2 + -1075 by norm_num, zpow_add₀ (by norm_num)]; norm_num
  rw [e]
  show |((rnd (rnd (a + b) + c) : ℚ) : ℝ) - (a + b + c)| ≤ _
  generalize ((rnd (rnd (a + b) + c) : ℚ) : ℝ) = t at *
  generalize ((rnd (a + b) : ℚ) : ℝ) = s at *
  generalize (a : ℝ) = x at *
  generalize (b : ℝ) = y at *
  generalize (c : ℝ) = z at *
  generalize (2 : ℝ) ^ (-1075 : ℤ) = τ at *
  have a1 : |x + y| ≤ |x| + |y| := abs_add_le x y
  have a2 : |s + z| ≤ |s - (x + y)| + (|x| + |y| + |z|) := by
    have := abs_add_three (s - (x + y)) (x + y) z
    rw [show s - (x + y) + (x + y) + z = s + z by ring] at this
    linarith
  have a3 : |t - (x + y + z)| ≤ |t - (s + z)| + |s - (x + y)| := by
    have := abs_add_le (t - (s + z)) (s - (x + y))
    rwa [show t - (s + z) + (s - (x + y)) = t - (x + y + z) by ring] at this
  have n1 : 0 ≤ |x| + |y| := by positivity
  have n2 := abs_nonneg z
  generalize |x| + |y| = m at *
  generalize |z| = k at *
  generalize |x + y| = xy at *
  generalize |s - (x + y)| = d1 at *
  generalize |s + z| = sz at *
  have m1 := mul_le_mul_of_nonneg_left a1 u0.le
  have m2 := mul_le_mul_of_nonneg_left a2 u0.le
  have m3 := mul_le_mul_of_nonneg_left (r1.trans (by linarith : _ ≤ u * m + τ)) u0.le
  have k1 : u * (u * m + τ) ≤ 1 * (u * m + τ) := mul_le_mul_of_nonneg_right (by linarith) (by positivity)
  have k2 : 0 ≤ u * k := by positivity
  nlinarith

end Seg

/-- C208, first part: in binary arithmetic the square of the distance to a segment is right, if the library adds three numbers with the errors of a few roundings. Its root, as `_quad_distance` takes it,
is the distance from the origin to some point of the segment up to 100 times the error of one operation times the size of the coordinates, and is not larger than the distance to any point of the
segment by more than 200 times that. -/
theorem C208_near {u : ℝ} (hu : Precise u) {sum : ℚ → ℚ → ℚ → ℚ} (hs : SumTo u sum) {M : ℝ} (hM : 1 ≤ M) {p0 p1 : D3} (h0 : Within M p0) (h1 : Within M p1) :
    (∃ y ∈ Spec.segment (exactly p0) (exactly p1), |(sqrtRnd (segmentSq sum p0 p1) : ℝ) - fromOrigin y| ≤ 100 * (u * M)) ∧
    ∀ y ∈ Spec.segment (exactly p0) (exactly p1), (sqrtRnd (segmentSq sum p0 p1) : ℝ) ≤ fromOrigin y + 200 * (u * M) :=
  Seg.segment_near hu hs hM h0 h1

/-- C208, second part: it is never negative. For two end points that are the same it is the square of the distance to that point, and not the distance that the code first stores in its place. -/
theorem C208_point {u : ℝ} {sum : ℚ → ℚ → ℚ → ℚ} (hs : SumTo u sum) : (∀ p0 p1 : D3, 0 ≤ segmentSq sum p0 p1) ∧
    ∀ p : D3, segmentSq sum p p = rnd (rnd (rnd (p.x * p.x) + rnd (p.y * p.y)) + rnd (p.z * p.z)) := by
  refine ⟨Seg.segmentSq_nonneg sum, fun p => ?_⟩
  have v : p.sub p = ⟨0, 0, 0⟩ := by simp [D3.sub, rnd_zero]
  have c : ∀ a : D3, rowSum sum a ⟨0, 0, 0⟩ = 0 := by
    intro a
    unfold rowSum
    simp only [mul_zero, rnd_zero]
    exact hs.1
  unfold segmentSq
  simp only [v, c, neg_zero, le_refl, if_true, true_or, not_true_eq_false, if_false]
  rfl

/-- Adding from left to right meets the condition on sums. For a segment from (3, 4, 0) to (3, -4, 0), which the origin is 3 from, the square is 9; for one from (3, 4, 0) to (6, 8, 0) it is 25. -/
example : SumTo (2 ^ (-49 : ℤ)) (fun a b c => rnd (rnd (a + b) + c)) ∧ Within 10 ⟨3, 4, 0⟩ ∧ Within 10 ⟨3, -4, 0⟩ ∧
    segmentSq (fun a b c => rnd (rnd (a + b) + c)) ⟨3, 4, 0⟩ ⟨3, -4, 0⟩ = 9 ∧ segmentSq (fun a b c => rnd (rnd (a + b) + c)) ⟨3, 4, 0⟩ ⟨6, 8, 0⟩ = 25 :=
  ⟨Seg.two_roundings Geo.precise49, by norm_num [Within, abs_le], by norm_num [Within, abs_le], by decide +kernel, by decide +kernel⟩

end Verif.Props
