import Verif.Props.RuptureDouble
import Verif.Props.VectorDouble
import Verif.Spec.QuadWidth

/-!
# Widths and areas of ruptures in binary arithmetic

C220.
-/

namespace Verif.Props
open Verif.Spec
open Verif.Dbl
open Verif.Rup (Quad sumProd outerNormal)
open Verif.Vec (V3)

namespace Wid
open Geo Len Edge Seg Shape Sur

theorem inner_real {u : ℝ} (hu : Precise u) {dot : D3 → D3 → ℚ} (hd : InnerProduct dot) (a b : D3) :
    |(dot a b : ℝ) - (exactly a).dot (exactly b)| ≤ 5 * u * ((exactly a).mag * (exactly b).mag) + 10 * 2 ^ (-1075 : ℤ) := by
  obtain ⟨u0, u1, τ0, τ2, τ1, τu⟩ := tiny hu
  have c := cauchy (exactly a) (exactly b)
  have h := (Rat.cast_le (K := ℝ)).2 (C195_dot a b _ (hd a b))
  push_cast at h
  rw [show (2 : ℝ) ^ (-1072 : ℤ) = 8 * 2 ^ (-1075 : ℤ) by rw [show (-1072 : ℤ) = 3 + -1075 by norm_num, zpow_add₀ (by norm_num)]; norm_num] at h
  have u53 : (2 : ℝ) ^ (-53 : ℤ) ≤ u := hu.1
  have p : (1 : ℝ) / 2 ^ 51 ≤ 4 * u := by
    have : (1 : ℝ) / 2 ^ 51 = 4 * 2 ^ (-53 : ℤ) := by norm_num
    rw [this]; linarith
  simp only [exactly, V3.dot] at c ⊢
  generalize (⟨(a.x : ℝ), (a.y : ℝ), (a.z : ℝ)⟩ : V3).mag * (⟨(b.x : ℝ), (b.y : ℝ), (b.z : ℝ)⟩ : V3).mag = m at *
  have c0 : 0 ≤ |(a.x : ℝ) * b.x| + |(a.y : ℝ) * b.y| + |(a.z : ℝ) * b.z| := by positivity
  have k := mul_le_mul p c c0 (by positivity)
  generalize |(a.x : ℝ) * b.x| + |(a.y : ℝ) * b.y| + |(a.z : ℝ) * b.z| = n at *
  refine h.trans ?_
  have : n / 2 ^ 51 = 1 / 2 ^ 51 * n := by ring
  have : 0 ≤ u * m := mul_nonneg u0.le (by linarith)
  linarith

theorem inner_near {u : ℝ} (hu : Precise u) {dot : D3 → D3 → ℚ} (hd : InnerProduct dot) {a b : D3} {A B : V3} {s t : ℝ} (ha : Near s a A) (hb : Near t b B) :
    |(dot a b : ℝ) - sumProd A B| ≤ 2 * s * (B.mag + 2 * t) + 2 * t * A.mag + 5 * (u * ((A.mag + 2 * s) * (B.mag + 2 * t))) + 10 * 2 ^ (-1075 : ℤ) := by
  obtain ⟨u0, u1, τ0, τ2, τ1, τu⟩ := tiny hu
  have r := inner_real hu hd a b
  have m1 := (abs_le.1 (near_mag ha)).2
  have m2 := (abs_le.1 (near_mag hb)).2
  have A0 := mag_nonneg A
  have B0 := mag_nonneg B
  have a0 := mag_nonneg (exactly a)
  have b0 := mag_nonneg (exactly b)
  have d1 : ((exactly a).sub A).mag ≤ 2 * s := mag_le ha.1 ha.2.1 ha.2.2
  have d2 : ((exactly b).sub B).mag ≤ 2 * t := mag_le hb.1 hb.2.1 hb.2.2
  have cs : ∀ v w : V3, |sumProd v w| ≤ v.mag * w.mag := by
    intro v w
    refine le_trans ?_ (cauchy v w)
    unfold sumProd
    exact abs_add_three _ _ _
  have c1 := cs ((exactly a).sub A) (exactly b)
  have c2 := cs A ((exactly b).sub B)
  have e : (exactly a).dot (exactly b) - sumProd A B = sumProd ((exactly a).sub A) (exactly b) + sumProd A ((exactly b).sub B) := by
    simp only [V3.dot, sumProd, V3.sub]; ring
  have s0 := (abs_nonneg _).trans ha.1
  have t0 := (abs_nonneg _).trans hb.1
  have k1 := mul_le_mul d1 (by linarith : (exactly b).mag ≤ B.mag + 2 * t) b0 (by linarith)
  have k2 := mul_le_mul_of_nonneg_left d2 A0
  have k3 := mul_le_mul (by linarith : (exactly a).mag ≤ A.mag + 2 * s) (by linarith : (exactly b).mag ≤ B.mag + 2 * t) b0 (by linarith)
  have k4 := mul_le_mul_of_nonneg_left k3 u0.le
  have t1 := abs_sub_le (dot a b : ℝ) ((exactly a).dot (exactly b)) (sumProd A B)
  rw [e] at t1
  have t2 := abs_add_le (sumProd ((exactly a).sub A) (exactly b)) (sumProd A ((exactly b).sub B))
  nlinarith

/-- The vector across the top edge: its length, and its component along the other edge. -/
theorem across (A C : V3) (hA : 0 < A.mag) (hN : 0 < (A.cross C).mag) :
    ((A.cross C).cross A).mag = (A.cross C).mag * A.mag ∧ sumProd ((A.cross C).cross A).norm C = (A.cross C).mag / A.mag ∧ (((A.cross C).cross A).norm).mag = 1 := by
  have m : ((A.cross C).cross A).mag = (A.cross C).mag * A.mag := by
    refine (sq_eq_sq₀ (mag_nonneg _) (by positivity)).1 ?_
    rw [mul_pow, mag_sq, mag_sq, mag_sq]
    simp only [V3.cross]
    ring
  have M0 : 0 < ((A.cross C).cross A).mag := by rw [m]; positivity
  refine ⟨m, ?_, ?_⟩
  · have e : sumProd ((A.cross C).cross A) C = (A.cross C).mag ^ 2 := by
      rw [mag_sq]
      simp only [sumProd, V3.cross]
      ring
    have n : sumProd ((A.cross C).cross A).norm C = sumProd ((A.cross C).cross A) C / ((A.cross C).cross A).mag := by
      simp only [sumProd, V3.norm, V3.mag]
      ring
    rw [n, e, m]
    field_simp
  · have e := mag_sq ((A.cross C).cross A)
    have : (((A.cross C).cross A).norm).mag ^ 2 = 1 := by
      rw [mag_sq]
      generalize (A.cross C).cross A = M at *
      simp only [V3.norm]
      have : √(M.x ^ 2 + M.y ^ 2 + M.z ^ 2) = M.mag := rfl
      rw [this]
      field_simp
      linarith
    have p := mag_nonneg (((A.cross C).cross A).norm)
    nlinarith

/-- The size of the errors. -/
structure Sizes (u k P Q W κ : ℝ) : Prop where
  k1 : 1 ≤ k
  κ0 : 0 < κ
  κQ : κ * Q = 200000000 * u * k
  κ1 : κ ≤ 1 / 1500
  both : 200000000 * u * (P + Q) ≤ κ * (P * W)
  eP : 200000000 * u ≤ κ * P
  eQ : 200000000 * u ≤ κ * Q

theorem sizes {u k P Q W : ℝ} (hu : 0 < u) (hP : 1 ≤ P) (hW : 1 ≤ W) (hQ : W ≤ Q) (hk : (P + Q) * Q ≤ k * (P * W)) (hs : 300000000000 * (k * u) ≤ 1) :
    Sizes u k P Q W (200000000 * u * k / Q) := by
  have Q0 : 0 < Q := by linarith
  have k1 : 1 ≤ k := by
    by_contra h
    push Not at h
    have h1 : k * (P * W) ≤ P * W := by
      have : 0 ≤ P * W := by positivity
      nlinarith
    have h2 : P * W ≤ P * Q := mul_le_mul_of_nonneg_left hQ (by linarith)
    have h3 : 0 < Q * Q := by positivity
    nlinarith
  have both : 200000000 * u * (P + Q) ≤ 200000000 * u * k / Q * (P * W) := by
    rw [div_mul_eq_mul_div, le_div_iff₀ Q0]
    have := mul_le_mul_of_nonneg_left hk (by positivity : 0 ≤ 200000000 * u)
    linarith
  have κ0 : 0 < 200000000 * u * k / Q := by positivity
  have κQ : 200000000 * u * k / Q * Q = 200000000 * u * k := by field_simp
  refine ⟨k1, κ0, κQ, ?_, both, ?_, ?_⟩
  · rw [div_le_iff₀ Q0]
    nlinarith
  · set κ := 200000000 * u * k / Q
    have h1 : κ * (P * W) ≤ κ * P * Q := by
      rw [mul_assoc]
      exact mul_le_mul_of_nonneg_left (mul_le_mul_of_nonneg_left hQ (by linarith)) κ0.le
    have h2 : 0 ≤ 200000000 * u * P := by positivity
    have h3 : 200000000 * u * Q ≤ κ * P * Q := by linarith
    exact le_of_mul_le_mul_right h3 Q0
  · rw [κQ]
    nlinarith

/-- The vector across, as it is computed. -/
theorem across_near {u k : ℝ} (hu : Precise u) {L : MathLib} (hL : RightTo u L) {a c : D3} {A C : V3} {W κ : ℝ} (ha : Near (3 * (200000000 * u)) a A) (hc : Near (3 * (200000000 * u)) c C)
    (mA : A.mag ≤ 40000000) (hP : 1 ≤ A.mag) (hW : 1 ≤ W) (hQ : W ≤ C.mag) (hN : (A.cross C).mag = A.mag * W) (hS : Sizes u k A.mag C.mag W κ) :
    ∃ n, ((a.cross c).cross a).norm L.sq = some n ∧ Near (75 * κ) n ((A.cross C).cross A).norm := by
  obtain ⟨u0, u1, τ0, τ2, τ1, τu⟩ := tiny hu
  obtain ⟨k1, κ0, κQ, κ1, both, eP, eQ⟩ := hS
  have h1 := Sur.cross_near hu ha hc
  obtain ⟨m, -, -⟩ := across A C (by linarith) (by rw [hN]; positivity)
  rw [hN] at m
  set P := A.mag
  set Q := C.mag
  set ε := 200000000 * u with hε
  have ε0 : 0 < ε := by positivity
  have P0 : 0 < P := by linarith
  have Q0 : 0 < Q := by linarith
  have W0 : 0 < W := by linarith
  have PW : 1 ≤ P * W := by nlinarith
  have εP : ε ≤ P / 1500 := eP.trans (by have := mul_le_mul_of_nonneg_right κ1 P0.le; linarith)
  have εQ : ε ≤ Q / 1500 := eQ.trans (by have := mul_le_mul_of_nonneg_right κ1 Q0.le; linarith)
  have uP : u * P ≤ ε / 5 := by
    have := mul_le_mul_of_nonneg_left mA u0.le
    linarith
  have bound : 2 * (3 * ε * Q + 3 * ε * P + 3 * ε * (3 * ε)) + 5 * (u * ((P + 3 * ε) * (Q + 3 * ε))) + 4 * 2 ^ (-1075 : ℤ) ≤ 8 * (κ * (P * W)) := by
    have k1 : ε * ε ≤ ε * (P / 1500) := mul_le_mul_of_nonneg_left εP ε0.le
    have k2 : u * (P + 3 * ε) ≤ 21 / 100 * ε := by
      have : u * (P + 3 * ε) ≤ u * (P + 3 * (P / 1500)) := mul_le_mul_of_nonneg_left (by linarith) u0.le
      linarith
    have k3 : u * ((P + 3 * ε) * (Q + 3 * ε)) ≤ 21 / 100 * ε * (Q + 3 * (Q / 1500)) := by
      rw [← mul_assoc]
      exact mul_le_mul k2 (by linarith) (by linarith) (by positivity)
    have k4 : 4 * (2 : ℝ) ^ (-1075 : ℤ) ≤ ε / 100 := by linarith
    have k5 : ε ≤ ε * Q := le_mul_of_one_le_right ε0.le (by linarith)
    have k6 : 0 < ε * P := by positivity
    generalize (2 : ℝ) ^ (-1075 : ℤ) = τ at *
    clear_value ε P Q
    nlinarith
  have h1' : Near (8 * (κ * (P * W))) (a.cross c) (A.cross C) := ⟨h1.1.trans bound, h1.2.1.trans bound, h1.2.2.trans bound⟩
  have h2 := Sur.cross_near hu h1' ha
  rw [hN] at h2
  have fine : κ * (P * W) ≤ P * W / 1500 := by
    have := mul_le_mul_of_nonneg_right κ1 (by positivity : 0 ≤ P * W)
    linarith
  have X0 : 0 < κ * (P * W) := by positivity
  have bound2 : 2 * (8 * (κ * (P * W)) * P + 3 * ε * (P * W) + 8 * (κ * (P * W)) * (3 * ε)) + 5 * (u * ((P * W + 8 * (κ * (P * W))) * (P + 3 * ε))) + 4 * 2 ^ (-1075 : ℤ) ≤ 24 * (κ * (P * W * P)) := by
    have j1 : ε * (P * W) ≤ κ * P * (P * W) := mul_le_mul_of_nonneg_right eP (by positivity)
    have j2 : κ * (P * W) * ε ≤ κ * (P * W) * (P / 1500) := mul_le_mul_of_nonneg_left εP X0.le
    have j3 : u * (P + 3 * ε) ≤ 21 / 100 * ε := by
      have : u * (P + 3 * ε) ≤ u * (P + 3 * (P / 1500)) := mul_le_mul_of_nonneg_left (by linarith) u0.le
      linarith
    have j4 : u * (P + 3 * ε) * (P * W + 8 * (κ * (P * W))) ≤ 21 / 100 * ε * (P * W + 8 * (P * W / 1500)) := mul_le_mul j3 (by linarith) (by positivity) (by positivity)
    have j5 : 4 * (2 : ℝ) ^ (-1075 : ℤ) ≤ ε / 100 := by linarith
    have j6 : ε ≤ ε * (P * W) := le_mul_of_one_le_right ε0.le PW
    have e1 : u * ((P * W + 8 * (κ * (P * W))) * (P + 3 * ε)) = u * (P + 3 * ε) * (P * W + 8 * (κ * (P * W))) := by ring
    have e2 : κ * P * (P * W) = κ * (P * W * P) := by ring
    have e3 : 8 * (κ * (P * W)) * P = 8 * (κ * (P * W * P)) := by ring
    have e4 : κ * (P * W) * (P / 1500) = κ * (P * W * P) / 1500 := by ring
    have e5 : 8 * (κ * (P * W)) * (3 * ε) = 24 * (κ * (P * W) * ε) := by ring
    have e6 : 21 / 100 * ε * (P * W + 8 * (P * W / 1500)) = 21 / 100 * (1 + 8 / 1500) * (ε * (P * W)) := by ring
    rw [e1, e3, e5]
    rw [e6] at j4
    rw [e2] at j1
    rw [e4] at j2
    have : 3 * ε * (P * W) = 3 * (ε * (P * W)) := by ring
    rw [this]
    generalize (2 : ℝ) ^ (-1075 : ℤ) = τ at *
    have y0 : 0 < κ * (P * W * P) := by positivity
    linarith
  have h2' : Near (24 * (κ * (P * W * P))) ((a.cross c).cross a) ((A.cross C).cross A) := ⟨h2.1.trans bound2, h2.2.1.trans bound2, h2.2.2.trans bound2⟩
  have M0 : 1 ≤ P * W * P := by nlinarith
  obtain ⟨n, hn, b⟩ := unit_real hu hL h2' (by rw [m]; exact M0) (by
    rw [m]
    have := mul_le_mul_of_nonneg_right κ1 (by linarith : 0 ≤ P * W * P)
    linarith)
  refine ⟨n, hn, ?_⟩
  rw [m] at b
  have e : 24 * (κ * (P * W * P)) / (P * W * P) = 24 * κ := by
    field_simp
  rw [e] at b
  have uk : 5 * u ≤ κ := by
    have : κ * P ≤ κ * 40000000 := mul_le_mul_of_nonneg_left mA κ0.le
    linarith
  have fin : 3 * (24 * κ) + 13 * u ≤ 75 * κ := by linarith
  exact ⟨b.1.trans fin, b.2.1.trans fin, b.2.2.trans fin⟩

/-- The inner product with the other edge. -/
theorem height_near {u k : ℝ} (hu : Precise u) {dot : D3 → D3 → ℚ} (hd : InnerProduct dot) {n c : D3} {N C : V3} {P W κ : ℝ} (hn : Near (75 * κ) n N) (hc : Near (3 * (200000000 * u)) c C)
    (hN : N.mag = 1) (mC : C.mag ≤ 40000000) (hQ : 1 ≤ C.mag) (hS : Sizes u k P C.mag W κ) : |(dot n c : ℝ) - sumProd N C| ≤ 32000000000 * (k * u) := by
  obtain ⟨u0, u1, τ0, τ2, τ1, τu⟩ := tiny hu
  obtain ⟨k1, κ0, κQ, κ1, both, eP, eQ⟩ := hS
  refine (inner_near hu hd hn hc).trans ?_
  rw [hN]
  set Q := C.mag
  set ε := 200000000 * u with hε
  have ε0 : 0 < ε := by positivity
  have Q0 : 0 < Q := by linarith
  have εQ : ε ≤ Q / 1500 := eQ.trans (by have := mul_le_mul_of_nonneg_right κ1 Q0.le; linarith)
  have uQ : u * Q ≤ ε / 5 := by
    have := mul_le_mul_of_nonneg_left mC u0.le
    linarith
  have j1 : κ * (Q + 2 * (3 * ε)) ≤ κ * (Q + Q / 250) := mul_le_mul_of_nonneg_left (by linarith) κ0.le
  have j2 : u * (Q + 2 * (3 * ε)) ≤ 21 / 100 * ε := by
    have : u * (Q + 2 * (3 * ε)) ≤ u * (Q + Q / 250) := mul_le_mul_of_nonneg_left (by linarith) u0.le
    linarith
  have j3 : (1 + 2 * (75 * κ)) * (u * (Q + 2 * (3 * ε))) ≤ 11 / 10 * (21 / 100 * ε) := mul_le_mul (by linarith) j2 (by positivity) (by norm_num)
  have j4 : 10 * (2 : ℝ) ^ (-1075 : ℤ) ≤ ε / 100 := by linarith
  have e1 : u * ((1 + 2 * (75 * κ)) * (Q + 2 * (3 * ε))) = (1 + 2 * (75 * κ)) * (u * (Q + 2 * (3 * ε))) := by ring
  have e2 : 2 * (75 * κ) * (Q + 2 * (3 * ε)) = 150 * (κ * (Q + 2 * (3 * ε))) := by ring
  rw [e1, e2]
  have : 32000000000 * (k * u) = 160 * (ε * k) := by rw [hε]; ring
  rw [this, ← κQ]
  generalize (2 : ℝ) ^ (-1075 : ℤ) = τ at *
  linarith

theorem mag_neg {a b : V3} (h1 : a.x ^ 2 = b.x ^ 2) (h2 : a.y ^ 2 = b.y ^ 2) (h3 : a.z ^ 2 = b.z ^ 2) : a.mag = b.mag := by
  unfold V3.mag
  rw [h1, h2, h3]

/-- The distance of a corner from a line, as a length. -/
theorem height_eq {p a b : V3} {D : ℝ} (hD : 0 ≤ D) (h : IsMinDistSq (line p a) b (D ^ 2)) (hA : 0 < (p.sub a).mag) : ((p.sub a).cross (p.sub b)).mag = (p.sub a).mag * D := by
  have m1 : (a.sub p).mag = (p.sub a).mag := mag_neg (by simp only [V3.sub]; ring) (by simp only [V3.sub]; ring) (by simp only [V3.sub]; ring)
  have m2 : ((a.sub p).cross (b.sub p)).mag = ((p.sub a).cross (p.sub b)).mag := by
    congr 1
    simp only [V3.sub, V3.cross]
    ext <;> simp only <;> ring
  have low := height_cross (r := D) (fun y hy => by
    rw [← Real.sqrt_sq hD]
    exact Real.sqrt_le_sqrt (h.2 y hy)) (by rw [m1]; exact hA : 0 < (a.sub p).mag)
  rw [m1, m2] at low
  refine le_antisymm ?_ (by linarith)
  obtain ⟨y, ⟨s, rfl⟩, hy⟩ := h.1
  have e : (p.sub a).cross (p.sub b) = (p.sub a).cross ((combine p a p s 0).sub b) := by
    simp only [V3.sub, V3.cross, combine]
    ext <;> simp only <;> ring
  rw [e]
  have n : ((combine p a p s 0).sub b).mag = D := by
    rw [← Real.sqrt_sq hD, ← hy]
    unfold V3.mag distSq V3.sub
    congr 1
    ring
  rw [← n]
  refine (sq_le_sq₀ (mag_nonneg _) (mul_nonneg (mag_nonneg _) (mag_nonneg _))).1 ?_
  rw [mul_pow, mag_sq, mag_sq, mag_sq]
  generalize p.sub a = E
  generalize (combine p a p s 0).sub b = F
  simp only [V3.cross]
  nlinarith [sq_nonneg (E.x * F.x + E.y * F.y + E.z * F.z)]

theorem distance_zero (v : V3) : √(distSq v v) = 0 := by
  simp [distSq]

/-- The width of one quadrilateral as it is computed. -/
theorem width_near {u k : ℝ} (hu : Precise u) {L : MathLib} (hL : RightTo u L) {dot : D3 → D3 → ℚ} (hd : InnerProduct dot) (hk : 300000000000 * (k * u) ≤ 1) {q : Quad GeoPoint} (hq : Proportions k q) {w : ℝ}
    (hw : WidthIs q w) : 1 ≤ k ∧ w ≤ 40000 ∧ ∃ W, quadWidth L dot q = some W ∧ |(W : ℝ) - w| ≤ 33000000 * (k * u) := by
  obtain ⟨u0, u1, τ0, τ2, τ1, τu⟩ := tiny hu
  obtain ⟨⟨g0, g1, -, g3⟩, shape⟩ := hq
  obtain ⟨w0, c, hc, hmin⟩ := hw
  obtain ⟨s1, s2⟩ := shape c hc
  obtain ⟨a0, a1, -, a3⟩ := hc
  have n0 := place_big hu hL g0 a0 (distance_zero c.p0).le (by norm_num)
  have n1 := place_big hu hL g1 a1 (distance_zero c.p1).le (by norm_num)
  have n3 := place_big hu hL g3 a3 (distance_zero c.p3).le (by norm_num)
  rw [add_zero] at n0 n1 n3
  obtain ⟨nA, mA⟩ := sub_near hu le_rfl n0 n1
  obtain ⟨nC, mC⟩ := sub_near hu le_rfl n0 n3
  obtain ⟨y, hy, ey⟩ := hmin.1
  obtain ⟨s3, s4⟩ := s2 y hy
  rw [ey, Real.sqrt_sq (by positivity)] at s3 s4
  have dA : √(distSq c.p0 c.p1) = (c.p0.sub c.p1).mag := by rw [← distance_distSq, distance_mag]
  have dC : √(distSq c.p0 c.p3) = (c.p0.sub c.p3).mag := by rw [← distance_distSq, distance_mag]
  rw [dA] at s1
  rw [dA, dC] at s4
  have hN := height_eq (by positivity : 0 ≤ 1000 * w) hmin (by linarith)
  have hQ : 1000 * w ≤ (c.p0.sub c.p3).mag := by
    have h := hmin.2 c.p0 ⟨0, by ext <;> simp [combine]⟩
    rw [← dC, ← Real.sqrt_sq (by positivity : 0 ≤ 1000 * w)]
    refine Real.sqrt_le_sqrt (h.trans (le_of_eq ?_))
    unfold distSq
    ring
  have hS := sizes u0 s1 s3 hQ s4 hk
  obtain ⟨n, hn, nn⟩ := across_near hu hL nA nC mA s1 s3 hQ hN hS
  obtain ⟨-, M1, M2⟩ := across (c.p0.sub c.p1) (c.p0.sub c.p3) (by linarith) (by rw [hN]; positivity)
  have hh := height_near hu hd nn nC M2 mC (by linarith) hS
  rw [M1, hN, mul_div_cancel_left₀ _ (by linarith)] at hh
  have k1 := hS.k1
  refine ⟨k1, by linarith, _, by unfold quadWidth; simp only [hn, Option.map_some]; rfl, ?_⟩
  have r := rnd_real hu (dot n ((fromPoint L q.p0).sub (fromPoint L q.p3)) / 1000)
  push_cast at r
  generalize ((dot n ((fromPoint L q.p0).sub (fromPoint L q.p3)) : ℚ) : ℝ) = d at *
  generalize ((rnd (dot n ((fromPoint L q.p0).sub (fromPoint L q.p3)) / 1000) : ℚ) : ℝ) = z at *
  generalize (2 : ℝ) ^ (-1075 : ℤ) = τ at *
  have d1 : |d / 1000| ≤ 40001 := by
    rw [abs_le] at *
    constructor <;> linarith
  have d2 := mul_le_mul_of_nonneg_left d1 u0.le
  have uk : u ≤ k * u := le_mul_of_one_le_left u0.le k1
  rw [abs_le] at *
  constructor <;> linarith

/-- The sum of the widths. -/
theorem sum_near {u k : ℝ} (hu : Precise u) {L : MathLib} (hL : RightTo u L) {dot : D3 → D3 → ℚ} (hd : InnerProduct dot) (hk : 300000000000 * (k * u) ≤ 1) :
    ∀ (qs : List (Quad GeoPoint)) (ws : List ℝ) (n : ℕ) (s : ℚ) (σ : ℝ), List.Forall₂ WidthIs qs ws → (∀ q ∈ qs, Proportions k q) →
      n + qs.length ≤ 1000000 → 0 ≤ σ → σ ≤ 40000 * n → |(s : ℝ) - σ| ≤ n * (34000000 * k + 50000 * n) * u →
      ∃ S, widthSum L dot qs (some s) = some S ∧ 0 ≤ ws.sum ∧ ws.sum ≤ 40000 * qs.length ∧
        |(S : ℝ) - (σ + ws.sum)| ≤ (n + qs.length : ℕ) * (34000000 * k + 50000 * (n + qs.length : ℕ)) * u := by
  obtain ⟨u0, u1, τ0, τ2, τ1, τu⟩ := tiny hu
  intro qs
  induction qs with
  | nil =>
    intro ws n s σ h _ _ _ _ hs
    cases h
    exact ⟨s, rfl, by simp, by simp, by simpa using hs⟩
  | cons q qs ih =>
    intro ws n s σ h hq hn h0 h1 hs
    cases h with
    | @cons _ w _ ws hw h =>
      obtain ⟨k1, w1, W, hW, nW⟩ := width_near hu hL hd hk (hq q (by simp)) hw
      have w0 := hw.1
      have r := rnd_real hu (s + W)
      rw [List.length_cons] at hn ⊢
      obtain ⟨S, hS, S0, S1, nS⟩ := ih ws (n + 1) (rnd (s + W)) (σ + w) h (fun q hq' => hq q (by simp [hq'])) (by omega) (by linarith)
        (by push_cast; linarith) (by
          rw [Rat.cast_add] at r
          clear τ1 τ2
          generalize (2 : ℝ) ^ (-1075 : ℤ) = τ at *
          have hn' : (n : ℝ) ≤ 1000000 := by exact_mod_cast (by omega : n ≤ 1000000)
          have hn0 : (0 : ℝ) ≤ n := Nat.cast_nonneg n
          push_cast
          generalize (n : ℝ) = K at *
          have hKu : K * (34000000 * k + 50000 * K) * u ≤ K := by
            have e : K * (34000000 * k + 50000 * K) * u = K * (34000000 * (k * u) + 50000 * (K * u)) := by ring
            rw [e]
            have : K * u ≤ 1000000 * (1 / 1000000000000) := mul_le_mul hn' u1 u0.le (by norm_num)
            exact mul_le_of_le_one_right hn0 (by linarith)
          have hsum : |(s : ℝ) + W| ≤ 40001 * (K + 1) + 1 := by
            rw [abs_le] at *
            constructor <;> linarith
          have hu' := mul_le_mul_of_nonneg_left hsum u0.le
          have uk : u ≤ k * u := le_mul_of_one_le_left u0.le k1
          have t : |((rnd (s + W) : ℚ) : ℝ) - (σ + w)| ≤ u * (40001 * (K + 1) + 1) + τ + K * (34000000 * k + 50000 * K) * u + 33000000 * (k * u) := by
            rw [abs_le] at *
            constructor <;> linarith
          refine t.trans ?_
          have Ku : 0 ≤ K * u := by positivity
          have e1 : (K + 1) * (34000000 * k + 50000 * (K + 1)) * u = K * (34000000 * k + 50000 * K) * u + 34000000 * (k * u) + 100000 * (K * u) + 50000 * u := by ring
          have e2 : u * (40001 * (K + 1) + 1) = 40001 * (K * u) + 40002 * u := by ring
          rw [e1, e2]
          linarith)
      refine ⟨S, ?_, ?_, ?_, ?_⟩
      · rw [← hS]
        unfold widthSum
        rw [List.foldl_cons]
        simp only [Option.bind_some, hW, Option.map_some]
      · rw [List.sum_cons]; linarith
      · rw [List.sum_cons]; push_cast; linarith
      · rw [List.sum_cons, ← add_assoc, show n + (qs.length + 1) = n + 1 + qs.length by omega]
        exact nS

/-- The product of a width and a length. -/
theorem product_near {u k Λ B w ℓ : ℝ} (hu : Precise u) (hk : 300000000000 * (k * u) ≤ 1) (k1 : 1 ≤ k) (hΛ : 1 ≤ Λ) (hB : 1 ≤ B) (hB' : B ≤ 40000) (w0 : 0 ≤ w) (wB : w ≤ B) (l0 : 0 ≤ ℓ) (lΛ : ℓ ≤ Λ) {W l : ℚ}
    (hW : |(W : ℝ) - w| ≤ 33000000 * (k * u)) (hl : |(l : ℝ) - ℓ| ≤ 1000000 * u) : |((rnd (W * l) : ℚ) : ℝ) - w * ℓ| ≤ (33500000 * k * Λ + 1500000 * B) * u := by
  obtain ⟨u0, u1, τ0, τ2, τ1, τu⟩ := tiny hu
  have r := rnd_real hu (W * l)
  push_cast at r
  generalize ((rnd (W * l) : ℚ) : ℝ) = z at *
  generalize (W : ℝ) = W at *
  generalize (l : ℝ) = l at *
  generalize (2 : ℝ) ^ (-1075 : ℤ) = τ at *
  have ku0 : 0 < k * u := by positivity
  have uk : u ≤ k * u := le_mul_of_one_le_left u0.le k1
  have l1 : |l| ≤ 1001 / 1000 * Λ := by
    rw [abs_le] at *
    constructor <;> linarith
  have W1 : |W| ≤ 1001 / 1000 * B := by
    rw [abs_le] at *
    constructor <;> linarith
  have e : W * l - w * ℓ = (W - w) * l + w * (l - ℓ) := by ring
  have p1 : |(W - w) * l| ≤ 33000000 * (k * u) * (1001 / 1000 * Λ) := by
    rw [abs_mul]
    exact mul_le_mul hW l1 (abs_nonneg _) (by positivity)
  have p2 : |w * (l - ℓ)| ≤ B * (1000000 * u) := by
    rw [abs_mul, abs_of_nonneg w0]
    exact mul_le_mul wB hl (abs_nonneg _) (by linarith)
  have p3 : |W * l| ≤ 1001 / 1000 * B * (1001 / 1000 * Λ) := by
    rw [abs_mul]
    exact mul_le_mul W1 l1 (abs_nonneg _) (by positivity)
  have p4 : u * |W * l| ≤ 41000 * (k * u) * Λ := by
    have h1 := mul_le_mul_of_nonneg_left p3 u0.le
    have h2 : B * (u * Λ) ≤ 40000 * (k * u * Λ) := mul_le_mul hB' (mul_le_mul_of_nonneg_right uk (by linarith)) (by positivity) (by norm_num)
    have h3 : u * (1001 / 1000 * B * (1001 / 1000 * Λ)) = 1001 / 1000 * (1001 / 1000) * (B * (u * Λ)) := by ring
    have h4 : 0 < k * u * Λ := by positivity
    have h5 : 41000 * (k * u) * Λ = 41000 * (k * u * Λ) := by ring
    rw [h5]
    linarith
  have p5 : τ ≤ k * u * Λ := by
    have : k * u ≤ k * u * Λ := le_mul_of_one_le_right ku0.le hΛ
    linarith
  have e1 : (33500000 * k * Λ + 1500000 * B) * u = 33500000 * (k * u * Λ) + 1500000 * (B * u) := by ring
  have e2 : 33000000 * (k * u) * (1001 / 1000 * Λ) = 33033000 * (k * u * Λ) := by ring
  have e3 : 41000 * (k * u) * Λ = 41000 * (k * u * Λ) := by ring
  have e4 : B * (1000000 * u) = 1000000 * (B * u) := by ring
  have b0 : 0 < B * u := by positivity
  rw [e1]
  rw [e2] at p1
  rw [e3] at p4
  rw [e4] at p2
  have t1 := abs_sub_le z (W * l) (w * ℓ)
  rw [e] at t1
  have t2 := abs_add_le ((W - w) * l) (w * (l - ℓ))
  linarith

/-- The sum of the areas. -/
theorem area_near {u k Λ B : ℝ} (hu : Precise u) {L : MathLib} (hL : RightTo u L) {dot : D3 → D3 → ℚ} (hd : InnerProduct dot) (hk : 300000000000 * (k * u) ≤ 1) (hΛ : 1 ≤ Λ) (hB : 1 ≤ B) (hB' : B ≤ 40000) :
    ∀ (qs : List (Quad GeoPoint)) (sizes : List (ℝ × ℝ)) (n : ℕ) (s : ℚ) (σ : ℝ), List.Forall₂ (fun q p => WidthIs q p.1 ∧ TopEdge q p.2) qs sizes → (∀ p ∈ sizes, p.1 ≤ B ∧ p.2 ≤ Λ) → (∀ q ∈ qs, Proportions k q) →
      n + qs.length ≤ 1000000 → 0 ≤ σ → σ ≤ B * Λ * n → |(s : ℝ) - σ| ≤ n * (34000000 * k * Λ + 2000000 * B + 2 * B * Λ * n) * u →
      ∃ S, qs.foldl (fun s q => s.bind fun s => (quadWidth L dot q).map fun w => rnd (s + rnd (w * quadLength L q))) (some s) = some S ∧
        |(S : ℝ) - (σ + (sizes.map fun p => p.1 * p.2).sum)| ≤ (n + qs.length : ℕ) * (34000000 * k * Λ + 2000000 * B + 2 * B * Λ * (n + qs.length : ℕ)) * u := by
  obtain ⟨u0, u1, τ0, τ2, τ1, τu⟩ := tiny hu
  intro qs
  induction qs with
  | nil =>
    intro ws n s σ h _ _ _ _ _ hs
    cases h
    exact ⟨s, rfl, by simpa using hs⟩
  | cons q qs ih =>
    intro ws n s σ h hp hq hn h0 h1 hs
    cases h with
    | @cons _ p _ ws hw h =>
      obtain ⟨w, ℓ⟩ := p
      obtain ⟨hw, hl⟩ := hw
      obtain ⟨wB, lΛ⟩ := hp _ (List.mem_cons_self ..)
      have hP := hq q (by simp)
      obtain ⟨k1, w1, W, hW, nW⟩ := width_near hu hL hd hk hP hw
      have w0 := hw.1
      obtain ⟨l0, -⟩ := edge_bounds hP.1.1 hP.1.2.1 hl
      obtain ⟨-, nl⟩ := edge_near hu hL hP.1.1 hP.1.2.1 hl
      have nP := product_near hu hk k1 hΛ hB hB' w0 wB l0 lΛ nW nl
      have r := rnd_real hu (s + rnd (W * quadLength L q))
      rw [List.length_cons] at hn ⊢
      simp only at w0 wB l0 lΛ nP
      have x0 : 0 ≤ w * ℓ := mul_nonneg w0 l0
      have x1 : w * ℓ ≤ B * Λ := mul_le_mul wB lΛ l0 (by linarith)
      obtain ⟨S, hS, nS⟩ := ih ws (n + 1) (rnd (s + rnd (W * quadLength L q))) (σ + w * ℓ) h (fun p hp' => hp p (by simp [hp'])) (fun q hq' => hq q (by simp [hq'])) (by omega) (by linarith)
        (by push_cast; linarith) (by
          rw [Rat.cast_add] at r
          clear τ1 τ2
          generalize (2 : ℝ) ^ (-1075 : ℤ) = τ at *
          have hn' : (n : ℝ) ≤ 1000000 := by exact_mod_cast (by omega : n ≤ 1000000)
          have hn0 : (0 : ℝ) ≤ n := Nat.cast_nonneg n
          push_cast
          generalize (n : ℝ) = K at *
          generalize ((rnd (W * quadLength L q) : ℚ) : ℝ) = x at *
          generalize ((rnd (s + rnd (W * quadLength L q)) : ℚ) : ℝ) = z at *
          generalize (s : ℝ) = s at *
          have uk : u ≤ k * u := le_mul_of_one_le_left u0.le k1
          have BΛ : Λ ≤ B * Λ := le_mul_of_one_le_left (by linarith) hB
          have ΛB : B ≤ B * Λ := le_mul_of_one_le_right (by linarith) hΛ
          have d1 : k * u * Λ ≤ 1 / 300000000000 * Λ := mul_le_mul_of_nonneg_right (by linarith) (by linarith)
          have d2 : B * u ≤ B * (1 / 1000000000000) := mul_le_mul_of_nonneg_left u1 (by linarith)
          have d3 : B * Λ * (K * u) ≤ B * Λ * (1 / 1000000) := by
            refine mul_le_mul_of_nonneg_left ?_ (by positivity)
            have := mul_le_mul hn' u1 u0.le (by norm_num : (0 : ℝ) ≤ 1000000)
            linarith
          have hKu : K * (34000000 * k * Λ + 2000000 * B + 2 * B * Λ * K) * u ≤ K * (B * Λ / 100) := by
            have e : K * (34000000 * k * Λ + 2000000 * B + 2 * B * Λ * K) * u = K * (34000000 * (k * u * Λ) + 2000000 * (B * u) + 2 * (B * Λ * (K * u))) := by ring
            rw [e]
            exact mul_le_mul_of_nonneg_left (by linarith) hn0
          have hx : (33500000 * k * Λ + 1500000 * B) * u ≤ B * Λ / 100 := by
            have e : (33500000 * k * Λ + 1500000 * B) * u = 33500000 * (k * u * Λ) + 1500000 * (B * u) := by ring
            rw [e]
            linarith
          have hsum : |s + x| ≤ 101 / 100 * (B * Λ * (K + 1)) := by
            rw [abs_le] at *
            constructor <;> linarith
          have hu' := mul_le_mul_of_nonneg_left hsum u0.le
          have t : |z - (σ + w * ℓ)| ≤ u * (101 / 100 * (B * Λ * (K + 1))) + τ + K * (34000000 * k * Λ + 2000000 * B + 2 * B * Λ * K) * u + (33500000 * k * Λ + 1500000 * B) * u := by
            rw [abs_le] at *
            constructor <;> linarith
          refine t.trans ?_
          have y1 : 0 ≤ B * Λ * u := by positivity
          have y2 : 0 ≤ B * Λ * (K * u) := by positivity
          have y3 : 0 ≤ k * u * Λ := by positivity
          have y4 : u ≤ B * u := le_mul_of_one_le_left u0.le hB
          have e1 : (K + 1) * (34000000 * k * Λ + 2000000 * B + 2 * B * Λ * (K + 1)) * u =
              K * (34000000 * k * Λ + 2000000 * B + 2 * B * Λ * K) * u + 34000000 * (k * u * Λ) + 2000000 * (B * u) + 4 * (B * Λ * (K * u)) + 2 * (B * Λ * u) := by ring
          have e2 : u * (101 / 100 * (B * Λ * (K + 1))) = 101 / 100 * (B * Λ * (K * u)) + 101 / 100 * (B * Λ * u) := by ring
          have e3 : (33500000 * k * Λ + 1500000 * B) * u = 33500000 * (k * u * Λ) + 1500000 * (B * u) := by ring
          rw [e1, e2, e3]
          linarith)
      refine ⟨S, ?_, ?_⟩
      · rw [← hS, List.foldl_cons]
        simp only [Option.bind_some, hW, Option.map_some]
      · rw [List.map_cons, List.sum_cons, ← add_assoc, show n + (qs.length + 1) = n + 1 + qs.length by omega]
        exact nS

end Wid

/-- C220, first part: the width that is computed for a quadrilateral is a number, and is the distance of its last corner from the line through its first two, up to 33000000ku kilometres. -/
theorem C220_width {u k : ℝ} (hu : Precise u) {L : MathLib} (hL : RightTo u L) {dot : D3 → D3 → ℚ} (hd : InnerProduct dot) (hk : 300000000000 * (k * u) ≤ 1) {q : Quad GeoPoint} (hq : Proportions k q) {w : ℝ}
    (hw : WidthIs q w) : ∃ W, quadWidth L dot q = some W ∧ |(W : ℝ) - w| ≤ 33000000 * (k * u) :=
  (Wid.width_near hu hL hd hk hq hw).2.2

/-- C220: `getIndividualWidths` has one width for each quadrilateral, in their order, each a number and right to 33000000ku kilometres. -/
theorem C220_each {u k : ℝ} (hu : Precise u) {L : MathLib} (hL : RightTo u L) {dot : D3 → D3 → ℚ} (hd : InnerProduct dot) (hk : 300000000000 * (k * u) ≤ 1) {qs : List (Quad GeoPoint)} (hq : ∀ q ∈ qs, Proportions k q)
    {ws : List ℝ} (hw : List.Forall₂ WidthIs qs ws) : List.Forall₂ (fun W w => ∃ x : ℚ, W = some x ∧ |(x : ℝ) - w| ≤ 33000000 * (k * u)) (eachWidth L dot qs) ws := by
  induction hw with
  | nil => exact .nil
  | cons h _ ih => exact .cons (C220_width hu hL hd hk (hq _ (by simp)) h) (ih fun q hq' => hq q (by simp [hq']))

/-- C220, second part: `getWidth` of up to a million quadrilaterals is the mean of these distances, up to (35000000k + 100000n)u kilometres for n quadrilaterals. Without quadrilaterals it divides by zero. -/
theorem C220_mean {u k : ℝ} (hu : Precise u) {L : MathLib} (hL : RightTo u L) {dot : D3 → D3 → ℚ} (hd : InnerProduct dot) (hk : 300000000000 * (k * u) ≤ 1) {qs : List (Quad GeoPoint)} (hne : qs ≠ [])
    (hq : ∀ q ∈ qs, Proportions k q) {ws : List ℝ} (hw : List.Forall₂ WidthIs qs ws) (hn : qs.length ≤ 1000000) :
    (∃ W, ruptureWidth L dot qs = .ok (some W) ∧ |(W : ℝ) - ws.sum / qs.length| ≤ (35000000 * k + 100000 * qs.length) * u) ∧ ruptureWidth L dot [] = .error () := by
  obtain ⟨u0, u1, τ0, τ2, τ1, τu⟩ := Geo.tiny hu
  refine ⟨?_, rfl⟩
  obtain ⟨S, hS, S0, S1, nS⟩ := Wid.sum_near hu hL hd hk qs ws 0 0 0 hw hq (by omega) le_rfl (by simp) (by simp)
  have l0 : qs.length ≠ 0 := by simpa using hne
  refine ⟨rnd (S / qs.length), by simp [ruptureWidth, l0, hS], ?_⟩
  have k1 : 1 ≤ k := by
    cases hw with
    | nil => exact absurd rfl hne
    | @cons q w qs' ws' h _ => exact (Wid.width_near hu hL hd hk (hq q (by simp)) h).1
  have r := Geo.rnd_real hu (S / qs.length)
  push_cast at r
  simp only [zero_add] at nS
  have hn' : (qs.length : ℝ) ≤ 1000000 := by exact_mod_cast hn
  have hn1 : (1 : ℝ) ≤ qs.length := by exact_mod_cast Nat.one_le_iff_ne_zero.2 l0
  generalize ((rnd (S / qs.length) : ℚ) : ℝ) = z at *
  generalize (qs.length : ℝ) = n at *
  generalize (2 : ℝ) ^ (-1075 : ℤ) = τ at *
  have n0 : 0 < n := by linarith
  have d : |(S : ℝ) / n - ws.sum / n| ≤ (34000000 * k + 50000 * n) * u := by
    rw [← sub_div, abs_div, abs_of_pos n0, div_le_iff₀ n0]
    refine nS.trans (le_of_eq (by ring))
  have m0 : 0 ≤ ws.sum / n := by positivity
  have m1 : ws.sum / n ≤ 40000 := by rw [div_le_iff₀ n0]; linarith
  have small : (34000000 * k + 50000 * n) * u ≤ 1 := by
    have : n * u ≤ 1000000 * (1 / 1000000000000) := mul_le_mul hn' u1 u0.le (by norm_num)
    have e : (34000000 * k + 50000 * n) * u = 34000000 * (k * u) + 50000 * (n * u) := by ring
    rw [e]
    linarith
  have b : |(S : ℝ) / n| ≤ 40001 := by
    rw [abs_le] at *
    constructor <;> linarith
  have b' := mul_le_mul_of_nonneg_left b u0.le
  have uk : u ≤ k * u := le_mul_of_one_le_left u0.le k1
  have nu : 0 ≤ n * u := by positivity
  have e1 : (34000000 * k + 50000 * n) * u = 34000000 * (k * u) + 50000 * (n * u) := by ring
  have e2 : (35000000 * k + 100000 * n) * u = 35000000 * (k * u) + 100000 * (n * u) := by ring
  rw [e1] at d
  rw [e2]
  rw [abs_le] at *
  constructor <;> linarith

/-- C220, third part: `getArea` of up to a million quadrilaterals with top edges of up to `Λ` and widths of up to `B` kilometres is the sum of the products of these lengths and widths, up to
n(34000000kΛ + 2000000B + 2BΛn)u square kilometres for n quadrilaterals. -/
theorem C220_area {u k Λ B : ℝ} (hu : Precise u) {L : MathLib} (hL : RightTo u L) {dot : D3 → D3 → ℚ} (hd : InnerProduct dot) (hk : 300000000000 * (k * u) ≤ 1) (hΛ : 1 ≤ Λ) (hB : 1 ≤ B) (hB' : B ≤ 40000)
    {qs : List (Quad GeoPoint)} (hq : ∀ q ∈ qs, Proportions k q) {sizes : List (ℝ × ℝ)} (hw : List.Forall₂ (fun q p => WidthIs q p.1 ∧ TopEdge q p.2) qs sizes) (hp : ∀ p ∈ sizes, p.1 ≤ B ∧ p.2 ≤ Λ)
    (hn : qs.length ≤ 1000000) :
    ∃ S, ruptureArea L dot qs = some S ∧
      |(S : ℝ) - (sizes.map fun p => p.1 * p.2).sum| ≤ qs.length * (34000000 * k * Λ + 2000000 * B + 2 * B * Λ * qs.length) * u := by
  obtain ⟨S, hS, nS⟩ := Wid.area_near hu hL hd hk hΛ hB hB' qs sizes 0 0 0 hw hp hq (by omega) le_rfl (by simp) (by simp)
  exact ⟨S, hS, by simpa using nS⟩

/-- C220: every quadrilateral has one width. -/
theorem C220_one {q : Quad GeoPoint} {w w' : ℝ} (h : WidthIs q w) (h' : WidthIs q w') : w = w' := by
  obtain ⟨w0, c, ⟨a0, a1, a2, a3⟩, ⟨y, hy, ey⟩, hm⟩ := h
  obtain ⟨w0', c', ⟨b0, b1, b2, b3⟩, ⟨y', hy', ey'⟩, hm'⟩ := h'
  have same : ∀ {p : GeoPoint} {v v' : V3}, PlacedAt p v → PlacedAt p v' → v = v' := by
    intro p v v' h h'
    obtain ⟨x, y, z, -, uniq⟩ := C203_point p.lat p.lon p.depth
    obtain ⟨e1, e2, e3⟩ := uniq _ _ _ h
    obtain ⟨f1, f2, f3⟩ := uniq _ _ _ h'
    ext <;> simp [*]
  rw [← same a0 b0, ← same a1 b1, ← same a3 b3] at *
  have l1 := hm _ hy'
  have l2 := hm' _ hy
  rw [ey'] at l1
  rw [ey] at l2
  have := (sq_eq_sq₀ (by positivity : 0 ≤ 1000 * w) (by positivity : 0 ≤ 1000 * w')).1 (le_antisymm l1 l2)
  linarith

/-- The inner product that rounds every product and adds from the left. -/
def Wid.leftDot (a b : D3) : ℚ := rnd (rnd (rnd (a.x * b.x) + rnd (a.y * b.y)) + rnd (a.z * b.z))

theorem Wid.leftDot_inner : InnerProduct Wid.leftDot := by
  intro a b
  simp [Wid.leftDot, D3.dots]

/-- A quadrilateral below the equator, from longitude 0 to longitude 90 and 10 kilometres deep. -/
def Wid.quarter : Quad GeoPoint := ⟨⟨0, 0, 0⟩, ⟨90, 0, 0⟩, ⟨90, 0, 10⟩, ⟨0, 0, 10⟩⟩

theorem Wid.quarter_at {c : Quad V3} (h : CornersAt Wid.quarter c) : c.p0 = ⟨equatorial, 0, 0⟩ ∧ c.p1 = ⟨0, equatorial, 0⟩ ∧ c.p3 = ⟨equatorial - 10000, 0, 0⟩ := by
  obtain ⟨h0, h1, -, h3⟩ := h
  have r : Ecef.radius 0 = equatorial := by simp [Ecef.radius]
  have h90 : (90 : ℝ) * (Real.pi / 180) = Real.pi / 2 := by ring
  obtain ⟨a0, a1, a2⟩ := Ecef.geodetic_eq h0
  obtain ⟨b0, b1, b2⟩ := Ecef.geodetic_eq h1
  obtain ⟨d0, d1, d2⟩ := Ecef.geodetic_eq h3
  simp only [quarter, Oq.radians, Rat.cast_zero, Rat.cast_ofNat, zero_mul, Real.sin_zero, Real.cos_zero, mul_zero, mul_one, neg_zero, add_zero, h90, Real.cos_pi_div_two, Real.sin_pi_div_two, r] at a0 a1 a2 b0 b1 b2 d0 d1 d2
  refine ⟨?_, ?_, ?_⟩
  · ext <;> assumption
  · ext <;> assumption
  · ext
    · rw [d0]; ring
    · exact d1
    · exact d2

theorem Wid.quarter_least (s : ℝ) : 50000000 ≤ distSq ⟨equatorial - 10000, 0, 0⟩ (combine ⟨equatorial, 0, 0⟩ ⟨0, equatorial, 0⟩ ⟨equatorial, 0, 0⟩ s 0) := by
  simp only [distSq, combine]
  nlinarith [sq_nonneg (2 * equatorial * s - 10000)]

/-- Its width is √50 kilometres. -/
theorem Wid.quarter_width : WidthIs Wid.quarter (√50) := by
  refine ⟨by positivity, ?_⟩
  obtain ⟨x0, y0, z0, h0, -⟩ := C203_point ((0 : ℚ) : ℝ) ((0 : ℚ) : ℝ) ((0 : ℚ) : ℝ)
  obtain ⟨x1, y1, z1, h1, -⟩ := C203_point ((0 : ℚ) : ℝ) ((90 : ℚ) : ℝ) ((0 : ℚ) : ℝ)
  obtain ⟨x2, y2, z2, h2, -⟩ := C203_point ((0 : ℚ) : ℝ) ((90 : ℚ) : ℝ) ((10 : ℚ) : ℝ)
  obtain ⟨x3, y3, z3, h3, -⟩ := C203_point ((0 : ℚ) : ℝ) ((0 : ℚ) : ℝ) ((10 : ℚ) : ℝ)
  have hc : CornersAt Wid.quarter ⟨⟨x0, y0, z0⟩, ⟨x1, y1, z1⟩, ⟨x2, y2, z2⟩, ⟨x3, y3, z3⟩⟩ := ⟨h0, h1, h2, h3⟩
  refine ⟨_, hc, ?_⟩
  obtain ⟨e0, e1, e3⟩ := Wid.quarter_at hc
  rw [e0, e1, e3, mul_pow, Real.sq_sqrt (by norm_num)]
  refine ⟨⟨_, ⟨5000 / equatorial, rfl⟩, ?_⟩, ?_⟩
  · have : equatorial ≠ 0 := by norm_num [equatorial]
    simp only [distSq, combine]
    field_simp
    ring
  · rintro y ⟨s, rfl⟩
    have := Wid.quarter_least s
    linarith

theorem Wid.quarter_proportions : Proportions 2 Wid.quarter := by
  refine ⟨by norm_num [QuadOnEarth, PlaceOnEarth, quarter, abs_le], fun c hc => ?_⟩
  obtain ⟨e0, e1, e3⟩ := Wid.quarter_at hc
  rw [e0, e1, e3]
  have P : 8000000 ≤ √(distSq ⟨equatorial, 0, 0⟩ ⟨0, equatorial, 0⟩) := Real.le_sqrt_of_sq_le (by norm_num [distSq, equatorial])
  have Q : √(distSq ⟨equatorial, 0, 0⟩ ⟨equatorial - 10000, 0, 0⟩) = 10000 := by
    rw [show distSq ⟨equatorial, 0, 0⟩ ⟨equatorial - 10000, 0, 0⟩ = 10000 ^ 2 by simp only [distSq]; ring]
    exact Real.sqrt_sq (by norm_num)
  rw [Q]
  refine ⟨by linarith, ?_⟩
  rintro y ⟨s, rfl⟩
  have W : 7000 ≤ √(distSq ⟨equatorial - 10000, 0, 0⟩ (combine ⟨equatorial, 0, 0⟩ ⟨0, equatorial, 0⟩ ⟨equatorial, 0, 0⟩ s 0)) :=
    Real.le_sqrt_of_sq_le (by linarith [Wid.quarter_least s])
  refine ⟨by linarith, ?_⟩
  have := mul_le_mul_of_nonneg_left W (by linarith : 0 ≤ √(distSq ⟨equatorial, 0, 0⟩ ⟨0, equatorial, 0⟩))
  linarith

/-- The width of this quadrilateral is computed to a millimetre, and so is the mean width of two of them. -/
example : ∃ W M : ℚ, quadWidth Geo.someLib Wid.leftDot Wid.quarter = some W ∧ |(W : ℝ) - √50| ≤ 1 / 1000000 ∧
    ruptureWidth Geo.someLib Wid.leftDot [Wid.quarter, Wid.quarter] = .ok (some M) ∧ |(M : ℝ) - √50| ≤ 1 / 1000000 := by
  obtain ⟨W, hW, nW⟩ := C220_width Geo.precise49 Geo.someLib_right Wid.leftDot_inner (by norm_num) Wid.quarter_proportions Wid.quarter_width
  obtain ⟨⟨M, hM, nM⟩, -⟩ := C220_mean Geo.precise49 Geo.someLib_right Wid.leftDot_inner (k := 2) (by norm_num) (qs := [Wid.quarter, Wid.quarter]) (by simp)
    (by simp [Wid.quarter_proportions]) (.cons Wid.quarter_width (.cons Wid.quarter_width .nil)) (by simp)
  refine ⟨W, M, hW, nW.trans (by norm_num), hM, ?_⟩
  have e : [√50, √50].sum / (([Wid.quarter, Wid.quarter].length : ℕ) : ℝ) = √50 := by
    simp
  rw [e] at nM
  refine nM.trans ?_
  simp only [List.length_cons, List.length_nil]
  norm_num

/-- So is its area, to a hundredth of a square kilometre. -/
example : ∃ (ℓ : ℝ) (A : ℚ), TopEdge Wid.quarter ℓ ∧ ruptureArea Geo.someLib Wid.leftDot [Wid.quarter] = some A ∧ |(A : ℝ) - √50 * ℓ| ≤ 1 / 100 := by
  obtain ⟨ℓ, hl, -⟩ := C205_edge Wid.quarter
  have hP := Wid.quarter_proportions
  obtain ⟨-, l1⟩ := Len.edge_bounds hP.1.1 hP.1.2.1 hl
  have s8 : √50 ≤ 8 := Real.sqrt_le_iff.2 (by norm_num)
  obtain ⟨A, hA, nA⟩ := C220_area Geo.precise49 Geo.someLib_right Wid.leftDot_inner (k := 2) (Λ := 26000) (B := 8) (by norm_num) (by norm_num) (by norm_num) (by norm_num) (qs := [Wid.quarter])
    (by simp [hP]) (sizes := [(√50, ℓ)]) (.cons ⟨Wid.quarter_width, hl⟩ .nil) (by simp [s8, l1]) (by simp)
  refine ⟨ℓ, A, hl, hA, ?_⟩
  simp only [List.map_cons, List.map_nil, List.sum_cons, List.sum_nil, add_zero, List.length_cons, List.length_nil] at nA
  exact nA.trans (by norm_num)

end Verif.Props
