import Verif.Props.QuadWidth
import Verif.Spec.QuadDip
import Mathlib.Analysis.SpecialFunctions.Trigonometric.Deriv
import Mathlib.Analysis.Calculus.Deriv.MeanValue

/-!
# Directions and dips of quadrilaterals in binary arithmetic

C221.
-/

namespace Verif.Props
open Verif.Spec
open Verif.Dbl
open Verif.Rup (Quad sumProd outerNormal)
open Verif.Vec (V3)

namespace Dip
open Geo Len Edge Seg Shape Sur Wid

/-- The distance of a point from a line. -/
theorem line_distance {p a b : V3} (hA : 0 < (p.sub a).mag) : IsMinDistSq (line p a) b ((((p.sub a).cross (p.sub b)).mag / (p.sub a).mag) ^ 2) := by
  have hA2 := mag_sq (p.sub a)
  have hC2 := mag_sq ((p.sub a).cross (p.sub b))
  have pos : 0 < (p.sub a).mag ^ 2 := by positivity
  have all : ∀ s, distSq b (combine p a p s 0) * (p.sub a).mag ^ 2 = ((p.sub a).cross (p.sub b)).mag ^ 2 + (sumProd (p.sub a) (p.sub b) - s * (p.sub a).mag ^ 2) ^ 2 := by
    intro s
    rw [hC2, hA2]
    simp only [distSq, combine, sumProd, V3.cross, V3.sub]
    ring
  rw [div_pow]
  refine ⟨⟨_, ⟨sumProd (p.sub a) (p.sub b) / (p.sub a).mag ^ 2, rfl⟩, ?_⟩, ?_⟩
  · rw [eq_div_iff pos.ne', all, div_mul_cancel₀ _ pos.ne']
    ring
  · rintro y ⟨s, rfl⟩
    rw [div_le_iff₀ pos, all]
    nlinarith [sq_nonneg (sumProd (p.sub a) (p.sub b) - s * (p.sub a).mag ^ 2)]

theorem mag_one {v : V3} : innerOf v v = 1 ↔ v.mag = 1 := by
  unfold innerOf V3.mag
  rw [Real.sqrt_eq_one]
  ring_nf

theorem mag_swap (a b : V3) : (a.sub b).mag = (b.sub a).mag := mag_neg (by simp only [V3.sub]; ring) (by simp only [V3.sub]; ring) (by simp only [V3.sub]; ring)

theorem norm_scaled {d : V3} (h : innerOf d d = 1) {t : ℝ} (ht : 0 < t) : (d.mul t).norm = d ∧ (d.mul t).mag = t := by
  have e : √((d.mul t).x ^ 2 + (d.mul t).y ^ 2 + (d.mul t).z ^ 2) = t := by
    rw [show (d.mul t).x ^ 2 + (d.mul t).y ^ 2 + (d.mul t).z ^ 2 = t ^ 2 * innerOf d d by simp only [V3.mul, innerOf]; ring, h, mul_one, Real.sqrt_sq ht.le]
  refine ⟨?_, e⟩
  unfold V3.norm
  rw [e]
  ext <;> simp only [V3.mul] <;> field_simp

/-- What a quadrilateral of good proportions has. -/
structure Facts (u k b : ℝ) (L : MathLib) (q : Quad GeoPoint) (c : Quad V3) (κ W : ℝ) : Prop where
  n1 : Near (3 * (200000000 * u)) ((fromPoint L q.p1).sub (fromPoint L q.p0)) (c.p1.sub c.p0)
  n3 : Near (3 * (200000000 * u)) ((fromPoint L q.p3).sub (fromPoint L q.p0)) (c.p3.sub c.p0)
  m1 : (c.p1.sub c.p0).mag ≤ 40000000
  P1 : 1 ≤ (c.p1.sub c.p0).mag
  W1 : 1 ≤ W
  WQ : W ≤ (c.p3.sub c.p0).mag
  area : ((c.p3.sub c.p0).cross (c.p1.sub c.p0)).mag = (c.p1.sub c.p0).mag * W
  sizes : Sizes u k (c.p1.sub c.p0).mag (c.p3.sub c.p0).mag W κ
  κb : κ ≤ 200000000 * u * k / b
  κ2 : κ ≤ 1 / 5000

theorem facts {u k b : ℝ} (hu : Precise u) {L : MathLib} (hL : RightTo u L) (hk : 1000000000000 * (k * u) ≤ 1) {q : Quad GeoPoint} (hq : Proportions k q) (b0 : 0 < b) (hb : SideAtLeast b q) {c : Quad V3} (hc : CornersAt q c) :
    ∃ κ W, Facts u k b L q c κ W := by
  obtain ⟨u0, u1, τ0, τ2, τ1, τu⟩ := tiny hu
  obtain ⟨⟨g0, g1, -, g3⟩, shape⟩ := hq
  obtain ⟨s1, s2⟩ := shape c hc
  have side := hb.2 c hc
  obtain ⟨a0, a1, -, a3⟩ := hc
  have n0 := place_big hu hL g0 a0 (distance_zero c.p0).le (by norm_num)
  have n1 := place_big hu hL g1 a1 (distance_zero c.p1).le (by norm_num)
  have n3 := place_big hu hL g3 a3 (distance_zero c.p3).le (by norm_num)
  rw [add_zero] at n0 n1 n3
  obtain ⟨nA, mA⟩ := sub_near hu le_rfl n1 n0
  obtain ⟨nC, mC⟩ := sub_near hu le_rfl n3 n0
  have dA : √(distSq c.p0 c.p1) = (c.p1.sub c.p0).mag := by rw [← distance_distSq, distance_mag, mag_swap]
  have dC : √(distSq c.p0 c.p3) = (c.p3.sub c.p0).mag := by rw [← distance_distSq, distance_mag, mag_swap]
  rw [dA] at s1
  rw [dC] at side
  have hmin := line_distance (p := c.p0) (a := c.p1) (b := c.p3) (by rw [mag_swap]; linarith)
  have e : ((c.p0.sub c.p1).cross (c.p0.sub c.p3)).mag = ((c.p3.sub c.p0).cross (c.p1.sub c.p0)).mag := by
    apply mag_neg <;> simp only [V3.cross, V3.sub] <;> ring
  rw [e, mag_swap] at hmin
  set W := ((c.p3.sub c.p0).cross (c.p1.sub c.p0)).mag / (c.p1.sub c.p0).mag with hW
  have W0 : 0 ≤ W := div_nonneg (mag_nonneg _) (mag_nonneg _)
  obtain ⟨y, hy, ey⟩ := hmin.1
  obtain ⟨s3, s4⟩ := s2 y hy
  rw [ey, Real.sqrt_sq W0] at s3 s4
  rw [dA, dC] at s4
  have hQ : W ≤ (c.p3.sub c.p0).mag := by
    have h := hmin.2 c.p0 ⟨0, by ext <;> simp [combine]⟩
    rw [← dC, ← Real.sqrt_sq W0]
    refine Real.sqrt_le_sqrt (h.trans (le_of_eq ?_))
    unfold distSq
    ring
  have hS := sizes u0 s1 s3 hQ s4 (by linarith)
  refine ⟨_, W, nA, nC, mA, s1, s3, hQ, ?_, hS, ?_, ?_⟩
  · rw [hW]
    field_simp
  · have := hS.k1
    exact div_le_div_of_nonneg_left (by positivity) b0 side
  · rw [div_le_iff₀ (by linarith)]
    nlinarith

variable {u k b κ W : ℝ} {L : MathLib} {q : Quad GeoPoint} {c : Quad V3}

theorem Facts.fine (hu : Precise u) (h : Facts u k b L q c κ W) : 5 * u ≤ κ := by
  obtain ⟨u0, u1, -⟩ := tiny hu
  have : κ * (c.p1.sub c.p0).mag ≤ κ * 40000000 := mul_le_mul_of_nonneg_left h.m1 h.sizes.κ0.le
  linarith [h.sizes.eP]

theorem near_weaken {e f : ℝ} {a : D3} {A : V3} (h : Near e a A) (hf : e ≤ f) : Near f a A := ⟨h.1.trans hf, h.2.1.trans hf, h.2.2.trans hf⟩

/-- The normal as it is computed. -/
theorem normal_computed (hu : Precise u) (hL : RightTo u L) (h : Facts u k b L q c κ W) :
    ∃ n, unitNormal L q = some n ∧ Near (27 * κ) n ((c.p3.sub c.p0).cross (c.p1.sub c.p0)).norm := by
  obtain ⟨u0, u1, τ0, τ2, τ1, τu⟩ := tiny hu
  have uk := h.fine hu
  obtain ⟨n1, n3, mA, P1, W1, WQ, area, ⟨k1, κ0, κQ, κ1, both, eP, eQ⟩, κb, κ2⟩ := h
  have h1 := Sur.cross_near hu n3 n1
  set P := (c.p1.sub c.p0).mag
  set Q := (c.p3.sub c.p0).mag
  set ε := 200000000 * u with hε
  have ε0 : 0 < ε := by positivity
  have P0 : 0 < P := by linarith
  have Q0 : 0 < Q := by linarith
  have W0 : 0 < W := by linarith
  have PW : 1 ≤ P * W := by nlinarith
  have εP : ε ≤ P / 1500 := eP.trans (by have := mul_le_mul_of_nonneg_right κ1 P0.le; linarith)
  have εQ : ε ≤ Q / 1500 := eQ.trans (by have := mul_le_mul_of_nonneg_right κ1 Q0.le; linarith)
  have uP : u * P ≤ ε / 5 := by
    have := mul_le_mul_of_nonneg_left mA u0.le
    linarith
  have bound : 2 * (3 * ε * P + 3 * ε * Q + 3 * ε * (3 * ε)) + 5 * (u * ((Q + 3 * ε) * (P + 3 * ε))) + 4 * 2 ^ (-1075 : ℤ) ≤ 8 * (κ * (P * W)) := by
    have k1 : ε * ε ≤ ε * (P / 1500) := mul_le_mul_of_nonneg_left εP ε0.le
    have k2 : u * (P + 3 * ε) ≤ 21 / 100 * ε := by
      have : u * (P + 3 * ε) ≤ u * (P + 3 * (P / 1500)) := mul_le_mul_of_nonneg_left (by linarith) u0.le
      linarith
    have k3 : u * ((Q + 3 * ε) * (P + 3 * ε)) ≤ 21 / 100 * ε * (Q + 3 * (Q / 1500)) := by
      rw [mul_comm (Q + 3 * ε), ← mul_assoc]
      exact mul_le_mul k2 (by linarith) (by linarith) (by positivity)
    have k4 : 4 * (2 : ℝ) ^ (-1075 : ℤ) ≤ ε / 100 := by linarith
    have k5 : ε ≤ ε * Q := le_mul_of_one_le_right ε0.le (by linarith)
    have k6 : 0 < ε * P := by positivity
    generalize (2 : ℝ) ^ (-1075 : ℤ) = τ at *
    clear_value ε P Q
    nlinarith
  obtain ⟨n, hn, nn⟩ := unit_real hu hL (near_weaken h1 bound) (by rw [area]; exact PW) (by
    rw [area]
    have := mul_le_mul_of_nonneg_right κ1 (by linarith : 0 ≤ P * W)
    linarith)
  refine ⟨n, hn, near_weaken nn ?_⟩
  rw [area, show 8 * (κ * (P * W)) / (P * W) = 8 * κ by field_simp]
  linarith

/-- The normal is the unit vector along the cross product. -/
theorem normal_unique {n : V3} (h : NormalOf c n) : n = ((c.p3.sub c.p0).cross (c.p1.sub c.p0)).norm := by
  obtain ⟨h1, h2, h3, h4⟩ := h
  generalize c.p1.sub c.p0 = a at *
  generalize c.p3.sub c.p0 = b at *
  have e : det b a n = innerOf (b.cross a) n := by simp only [det, innerOf, V3.cross]; ring
  rw [e] at h4
  have z1 : n.y * (b.cross a).z - n.z * (b.cross a).y = 0 := by
    have : n.y * (b.cross a).z - n.z * (b.cross a).y = b.x * innerOf n a - a.x * innerOf n b := by simp only [innerOf, V3.cross]; ring
    rw [this, h2, h3]; ring
  have z2 : n.z * (b.cross a).x - n.x * (b.cross a).z = 0 := by
    have : n.z * (b.cross a).x - n.x * (b.cross a).z = b.y * innerOf n a - a.y * innerOf n b := by simp only [innerOf, V3.cross]; ring
    rw [this, h2, h3]; ring
  have z3 : n.x * (b.cross a).y - n.y * (b.cross a).x = 0 := by
    have : n.x * (b.cross a).y - n.y * (b.cross a).x = b.z * innerOf n a - a.z * innerOf n b := by simp only [innerOf, V3.cross]; ring
    rw [this, h2, h3]; ring
  have m2 := mag_sq (b.cross a)
  have m0 := mag_nonneg (b.cross a)
  have root : √((b.cross a).x ^ 2 + (b.cross a).y ^ 2 + (b.cross a).z ^ 2) = (b.cross a).mag := rfl
  unfold V3.norm
  rw [root]
  generalize (b.cross a).mag = m at *
  generalize b.cross a = C at *
  have hm : innerOf C n = m := by
    refine (sq_eq_sq₀ h4.le m0).1 ?_
    have : innerOf C n ^ 2 = (C.x ^ 2 + C.y ^ 2 + C.z ^ 2) * innerOf n n - (n.y * C.z - n.z * C.y) ^ 2 - (n.z * C.x - n.x * C.z) ^ 2 - (n.x * C.y - n.y * C.x) ^ 2 := by
      simp only [innerOf]; ring
    rw [this, z1, z2, z3, h1, m2]; ring
  have mp : m ≠ 0 := by rw [← hm]; exact h4.ne'
  unfold innerOf at hm
  ext
  · simp only
    rw [eq_div_iff mp]
    refine mul_right_cancel₀ mp ?_
    linear_combination n.x * m2 + C.x * hm + C.y * z3 - C.z * z2
  · simp only
    rw [eq_div_iff mp]
    refine mul_right_cancel₀ mp ?_
    linear_combination n.y * m2 + C.y * hm + C.z * z1 - C.x * z3
  · simp only
    rw [eq_div_iff mp]
    refine mul_right_cancel₀ mp ?_
    linear_combination n.z * m2 + C.z * hm + C.x * z2 - C.y * z1

/-- The direction of the top edge as it is computed. -/
theorem strike_computed (hu : Precise u) (hL : RightTo u L) (h : Facts u k b L q c κ W) :
    ∃ n, strikeVector L q = some n ∧ Near (27 * κ) n (c.p1.sub c.p0).norm := by
  obtain ⟨u0, u1, τ0, τ2, τ1, τu⟩ := tiny hu
  have uk := h.fine hu
  have eP := h.sizes.eP
  have κ1 := h.sizes.κ1
  have P1 := h.P1
  have P0 : 0 < (c.p1.sub c.p0).mag := by linarith
  have k1 := mul_le_mul_of_nonneg_right κ1 P0.le
  obtain ⟨n, hn, nn⟩ := unit_real hu hL h.n1 P1 (by linarith)
  refine ⟨n, hn, near_weaken nn ?_⟩
  have : 3 * (200000000 * u) / (c.p1.sub c.p0).mag ≤ 3 * κ := by
    rw [div_le_iff₀ P0]
    linarith
  have := h.sizes.κ0
  linarith

/-- The down-dip direction as it is computed. -/
theorem down_computed (hu : Precise u) (hL : RightTo u L) (h : Facts u k b L q c κ W) {N : V3} (hN : NormalOf c N) :
    ∃ n, downDipVector L q = some n ∧ Near (190 * κ) n ((c.p1.sub c.p0).cross N).norm := by
  obtain ⟨u0, u1, τ0, τ2, τ1, τu⟩ := tiny hu
  have uk := h.fine hu
  obtain ⟨m, hm, nm⟩ := normal_computed hu hL h
  rw [← normal_unique hN] at nm
  have N1 := mag_one.1 hN.1
  have h1 := Sur.cross_near hu h.n1 nm
  rw [N1] at h1
  have eP := h.sizes.eP
  have κ1 := h.sizes.κ1
  have κ0 := h.sizes.κ0
  have P1 := h.P1
  have mA := h.m1
  have cm : ((c.p1.sub c.p0).cross N).mag = (c.p1.sub c.p0).mag := by
    refine (sq_eq_sq₀ (mag_nonneg _) (mag_nonneg _)).1 ?_
    have e : ((c.p1.sub c.p0).cross N).mag ^ 2 = (c.p1.sub c.p0).mag ^ 2 * N.mag ^ 2 - innerOf N (c.p1.sub c.p0) ^ 2 := by
      rw [mag_sq, mag_sq, mag_sq]
      simp only [V3.cross, innerOf]
      ring
    rw [e, N1, hN.2.1]
    ring
  set P := (c.p1.sub c.p0).mag
  set ε := 200000000 * u with hε
  have ε0 : 0 < ε := by positivity
  have P0 : 0 < P := by linarith
  have εP : ε ≤ P / 1500 := eP.trans (by have := mul_le_mul_of_nonneg_right κ1 P0.le; linarith)
  have uP : u * P ≤ ε / 5 := by
    have := mul_le_mul_of_nonneg_left mA u0.le
    linarith
  have bound : 2 * (3 * ε * 1 + 27 * κ * P + 3 * ε * (27 * κ)) + 5 * (u * ((P + 3 * ε) * (1 + 27 * κ))) + 4 * 2 ^ (-1075 : ℤ) ≤ 62 * (κ * P) := by
    have k1 : ε * κ ≤ P / 1500 * κ := mul_le_mul_of_nonneg_right εP κ0.le
    have k2 : u * (P + 3 * ε) ≤ 21 / 100 * ε := by
      have : u * (P + 3 * ε) ≤ u * (P + 3 * (P / 1500)) := mul_le_mul_of_nonneg_left (by linarith) u0.le
      linarith
    have k3 : u * ((P + 3 * ε) * (1 + 27 * κ)) ≤ 21 / 100 * ε * (102 / 100) := by
      rw [← mul_assoc]
      exact mul_le_mul k2 (by linarith) (by linarith) (by positivity)
    have k4 : 4 * (2 : ℝ) ^ (-1075 : ℤ) ≤ ε / 100 := by linarith
    have e1 : 3 * ε * (27 * κ) = 81 * (ε * κ) := by ring
    have e2 : P / 1500 * κ = κ * P / 1500 := by ring
    have e3 : 27 * κ * P = 27 * (κ * P) := by ring
    rw [e1, e3]
    rw [e2] at k1
    have : 0 < κ * P := by positivity
    generalize (2 : ℝ) ^ (-1075 : ℤ) = τ at *
    linarith
  have κP := mul_le_mul_of_nonneg_right h.κ2 P0.le
  obtain ⟨n, hn, nn⟩ := unit_real hu hL (near_weaken h1 bound) (by rw [cm]; exact P1) (by
    rw [cm]
    linarith)
  refine ⟨n, by unfold downDipVector; rw [hm]; exact hn, near_weaken nn ?_⟩
  rw [cm, show 62 * (κ * P) / P = 62 * κ by field_simp]
  linarith

/-- The down-dip direction is the unit vector along the cross product of the top edge and the normal. -/
theorem down_unique {N d : V3} (hN : NormalOf c N) (hd : DownDipOf c d) : d = ((c.p1.sub c.p0).cross N).norm := by
  obtain ⟨h1, h2, h3, h4⟩ := hN
  obtain ⟨d1, d2, s, t, t0, hd⟩ := hd
  generalize c.p1.sub c.p0 = a at *
  generalize c.p3.sub c.p0 = b at *
  have d3 : innerOf N d = 0 := by
    have : innerOf N d = s * innerOf N a + t * innerOf N b := by rw [hd]; simp only [innerOf, V3.mul, V3.add]; ring
    rw [this, h2, h3]; ring
  have side : 0 < innerOf (a.cross N) d := by
    have : innerOf (a.cross N) d = t * det b a N := by rw [hd]; simp only [innerOf, det, V3.cross, V3.mul, V3.add]; ring
    rw [this]; positivity
  have e := normal_unique (c := ⟨⟨0, 0, 0⟩, N, ⟨0, 0, 0⟩, a⟩) (n := d) ⟨d1, by
    refine Eq.trans ?_ d3; simp only [innerOf, V3.sub]; ring, by refine Eq.trans ?_ d2; simp only [innerOf, V3.sub]; ring, by
    have : det (a.sub ⟨0, 0, 0⟩) (N.sub ⟨0, 0, 0⟩) d = innerOf (a.cross N) d := by simp only [det, innerOf, V3.sub, V3.cross]; ring
    simp only
    rw [this]
    exact side⟩
  rw [e]
  congr 1
  simp only [V3.sub, V3.cross, sub_zero]

/-- Up as it is computed. -/
theorem up_computed (hu : Precise u) (hL : RightTo u L) (g0 : PlaceOnEarth q.p0) (hd : |q.p0.depth| ≤ 998) : ∃ v, verticalVector L q = some v ∧ Near (2000000 * u) v (upAt q.p0) := by
  obtain ⟨u0, u1, τ0, τ2, τ1, τu⟩ := tiny hu
  have unit : innerOf (upAt q.p0) (upAt q.p0) = 1 := by
    have h1 := Real.sin_sq_add_cos_sq ((q.p0.lat : ℝ) * (Real.pi / 180))
    have h2 := Real.sin_sq_add_cos_sq ((q.p0.lon : ℝ) * (Real.pi / 180))
    simp only [innerOf, upAt, vertical]
    linear_combination Real.cos ((q.p0.lat : ℝ) * (Real.pi / 180)) ^ 2 * h2 + h1
  have r := rnd_real hu (q.p0.depth - 1)
  push_cast at r
  have hd' : |(q.p0.depth : ℝ)| ≤ 998 := by exact_mod_cast hd
  have k1 : |(q.p0.depth : ℝ) - 1| ≤ 999 := by
    rw [abs_le] at *
    constructor <;> linarith
  have k2 := mul_le_mul_of_nonneg_left k1 u0.le
  have r' : |((rnd (q.p0.depth - 1) : ℚ) : ℝ) - ((q.p0.depth : ℝ) - 1)| ≤ 1 / 1000 := by linarith
  have gu : PlaceOnEarth { q.p0 with depth := rnd (q.p0.depth - 1) } := by
    refine ⟨g0.1, g0.2.1, ?_⟩
    have : |((rnd (q.p0.depth - 1) : ℚ) : ℝ)| ≤ 1000 := by
      rw [abs_le] at *
      constructor <;> linarith
    exact_mod_cast this
  obtain ⟨x, y, z, h, -⟩ := C203_point q.p0.lat q.p0.lon q.p0.depth
  have hup : PlacedAt { q.p0 with depth := rnd (q.p0.depth - 1) } ((⟨x, y, z⟩ : V3).add ((upAt q.p0).mul (1000 * (q.p0.depth - rnd (q.p0.depth - 1))))) := by
    obtain ⟨X, Y, Z, k, e, k0, ex, ey, ez, hx, hy, hz⟩ := h
    refine ⟨X, Y, Z, k, e, k0, ex, ey, ez, ?_, ?_, ?_⟩ <;> simp only [V3.add, V3.mul, upAt, hx, hy, hz] <;> ring
  have n0 := place_big hu hL g0 (v := ⟨x, y, z⟩) h (distance_zero _).le (by norm_num)
  have n1 := place_big hu hL gu hup (distance_zero _).le (by norm_num)
  rw [add_zero] at n0 n1
  obtain ⟨nU, mU⟩ := sub_near hu le_rfl n1 n0
  have e : ((⟨x, y, z⟩ : V3).add ((upAt q.p0).mul (1000 * (q.p0.depth - rnd (q.p0.depth - 1))))).sub ⟨x, y, z⟩ = (upAt q.p0).mul (1000 * (q.p0.depth - rnd (q.p0.depth - 1))) := by
    simp only [V3.add, V3.sub, V3.mul]
    ext <;> simp only <;> ring
  rw [e] at nU
  have t0 : 999 ≤ 1000 * ((q.p0.depth : ℝ) - rnd (q.p0.depth - 1)) := by
    rw [abs_le] at r'
    linarith
  obtain ⟨s1, s2⟩ := norm_scaled unit (by linarith : 0 < 1000 * ((q.p0.depth : ℝ) - rnd (q.p0.depth - 1)))
  obtain ⟨n, hn, nn⟩ := unit_real hu hL nU (by rw [s2]; linarith) (by rw [s2]; linarith)
  rw [s1, s2] at nn
  refine ⟨n, hn, near_weaken nn ?_⟩
  have : 3 * (200000000 * u) / (1000 * ((q.p0.depth : ℝ) - rnd (q.p0.depth - 1))) ≤ 3 * (200000000 * u) / 999 := div_le_div_of_nonneg_left (by positivity) (by norm_num) t0
  linarith

/-- The cosine of the dip as it is computed. -/
theorem cosine_computed (hu : Precise u) (hL : RightTo u L) {dot : D3 → D3 → ℚ} (hdot : InnerProduct dot) (h : Facts u k b L q c κ W) (g0 : PlaceOnEarth q.p0) (hd : |q.p0.depth| ≤ 998) {N : V3} (hN : NormalOf c N) :
    ∃ n v, unitNormal L q = some n ∧ verticalVector L q = some v ∧ |(dot n v : ℝ) - innerOf N (upAt q.p0)| ≤ 55 * κ + 5000000 * u := by
  obtain ⟨u0, u1, τ0, τ2, τ1, τu⟩ := tiny hu
  obtain ⟨n, hn, nn⟩ := normal_computed hu hL h
  rw [← normal_unique hN] at nn
  obtain ⟨v, hv, nv⟩ := up_computed hu hL g0 hd
  refine ⟨n, v, hn, hv, ?_⟩
  have N1 := mag_one.1 hN.1
  have V1 : (upAt q.p0).mag = 1 := by
    rw [← mag_one]
    have h1 := Real.sin_sq_add_cos_sq ((q.p0.lat : ℝ) * (Real.pi / 180))
    have h2 := Real.sin_sq_add_cos_sq ((q.p0.lon : ℝ) * (Real.pi / 180))
    simp only [innerOf, upAt, vertical]
    linear_combination Real.cos ((q.p0.lat : ℝ) * (Real.pi / 180)) ^ 2 * h2 + h1
  have r := inner_near hu hdot nn nv
  rw [N1, V1] at r
  have e : sumProd N (upAt q.p0) = innerOf N (upAt q.p0) := rfl
  rw [e] at r
  refine r.trans ?_
  have κ0 := h.sizes.κ0
  have κ2 := h.κ2
  have k1 : κ * (1 + 2 * (2000000 * u)) ≤ κ * (1001 / 1000) := mul_le_mul_of_nonneg_left (by linarith) κ0.le
  have k2 : (1 + 2 * (27 * κ)) * (1 + 2 * (2000000 * u)) ≤ 2 * 2 := mul_le_mul (by linarith) (by linarith) (by positivity) (by norm_num)
  have k3 := mul_le_mul_of_nonneg_left k2 u0.le
  have e2 : 2 * (27 * κ) * (1 + 2 * (2000000 * u)) = 54 * (κ * (1 + 2 * (2000000 * u))) := by ring
  rw [e2]
  generalize (2 : ℝ) ^ (-1075 : ℤ) = τ at *
  linarith

/-- The angle of a cosine that is nearly known. -/
theorem angle_close {a θ η E : ℝ} (a0 : 0 ≤ a) (a1 : a ≤ Real.pi) (θ0 : 0 ≤ θ) (θ1 : θ ≤ Real.pi) (hη : 0 < η) (hc : |Real.cos θ| ≤ 1 - η) (hE : |Real.cos a - Real.cos θ| ≤ E) (h2 : 2 * E ≤ η) :
    |a - θ| ≤ E / √(η / 2) := by
  have r0 : 0 < √(η / 2) := by positivity
  have key : ∀ {x y : ℝ}, x < y → 0 ≤ x → y ≤ Real.pi → |Real.cos x| ≤ 1 - η / 2 → |Real.cos y| ≤ 1 - η / 2 → |y - x| * √(η / 2) ≤ |Real.cos y - Real.cos x| := by
    intro x y hxy x0 y1 cx cy
    obtain ⟨z, ⟨z0, z1⟩, hz⟩ := exists_deriv_eq_slope Real.cos hxy Real.continuous_cos.continuousOn Real.differentiable_cos.differentiableOn
    rw [Real.deriv_cos, eq_div_iff (by linarith)] at hz
    rw [← hz, abs_mul, abs_neg, mul_comm]
    refine mul_le_mul_of_nonneg_right ?_ (abs_nonneg _)
    refine Real.sqrt_le_iff.2 ⟨abs_nonneg _, ?_⟩
    rw [sq_abs]
    have c1 := Real.cos_le_cos_of_nonneg_of_le_pi x0 (by linarith : z ≤ Real.pi) z0.le
    have c2 := Real.cos_le_cos_of_nonneg_of_le_pi (by linarith : 0 ≤ z) y1 z1.le
    have hs := Real.sin_sq_add_cos_sq z
    have cz : |Real.cos z| ≤ 1 - η / 2 := by
      rw [abs_le] at *
      constructor <;> linarith
    have : Real.cos z ^ 2 ≤ 1 - η / 2 := by
      rw [← sq_abs]
      have := abs_nonneg (Real.cos z)
      nlinarith
    linarith
  have ca : |Real.cos a| ≤ 1 - η / 2 := by
    rw [abs_le] at *
    constructor <;> linarith
  have cθ : |Real.cos θ| ≤ 1 - η / 2 := by linarith
  rw [le_div_iff₀ r0]
  rcases lt_trichotomy a θ with h | h | h
  · have := key h a0 θ1 ca cθ
    rw [abs_sub_comm a]
    rw [abs_sub_comm (Real.cos θ)] at this
    linarith
  · rw [h, sub_self, abs_zero, zero_mul]
    exact (abs_nonneg _).trans hE
  · have := key h θ0 a1 cθ ca
    linarith

/-- The dip as it is computed. -/
theorem dip_computed (hu : Precise u) (hL : RightTo u L) {dot : D3 → D3 → ℚ} (hdot : InnerProduct dot) {acos : ℚ → ℚ} (ha : ArcCosine u acos) (hk : 1000000000000 * (k * u) ≤ 1) (hq : Proportions k q) (b0 : 0 < b)
    (hb : SideAtLeast b q) {θ η E : ℝ} (hθ : DipIs q θ) (hη : 0 < η) (hc : |Real.cos (θ * (Real.pi / 180))| ≤ 1 - η) (hE : E = (11000000000 * k / b + 5000000) * u) (h2 : 2 * E ≤ η) :
    ∃ D, quadDip L dot acos q = some D ∧ |(D : ℝ) - θ| ≤ 700 * u + 82 * (E / √η) := by
  obtain ⟨u0, u1, τ0, τ2, τ1, τu⟩ := tiny hu
  obtain ⟨θ0, θ1, c, N, hcor, hN, eθ⟩ := hθ
  obtain ⟨κ, W, hF⟩ := facts hu hL hk hq b0 hb hcor
  obtain ⟨n, v, hn, hv, near⟩ := cosine_computed hu hL hdot hF hq.1.1 hb.1 hN
  rw [← eθ] at near
  have κE : 55 * κ + 5000000 * u ≤ E := by
    have e : (11000000000 * k / b + 5000000) * u = 55 * (200000000 * u * k / b) + 5000000 * u := by ring
    rw [hE, e]
    linarith [hF.κb]
  have near' := near.trans κE
  have E0 := (abs_nonneg _).trans near'
  have x1 : |(dot n v : ℝ)| ≤ 1 := by
    rw [abs_le] at *
    constructor <;> linarith
  have x1' : |dot n v| ≤ 1 := by exact_mod_cast x1
  refine ⟨npDegrees (acos (dot n v)), by simp [quadDip, hn, hv, x1'], ?_⟩
  have ac := ha _ x1'
  have p0 := Real.pi_gt_d2
  have p1 := Real.pi_lt_d2
  have A0 := Real.arccos_nonneg (dot n v : ℝ)
  have A1 := Real.arccos_le_pi (dot n v : ℝ)
  have dn := degrees_near hu ac (by rw [abs_of_nonneg A0]; linarith)
  have π0 := Real.pi_pos
  have cl := angle_close (a := Real.arccos (dot n v)) (θ := θ * (Real.pi / 180)) A0 A1 (by positivity) (by nlinarith) hη hc
    (by rw [Real.cos_arccos (abs_le.1 x1).1 (abs_le.1 x1).2]; exact near') h2
  have r : E / √(η / 2) ≤ 1415 / 1000 * (E / √η) := by
    have s0 : 0 < √η := by positivity
    have h : √η ≤ 1415 / 1000 * √(η / 2) := by
      refine Real.sqrt_le_iff.2 ⟨by positivity, ?_⟩
      rw [mul_pow, Real.sq_sqrt (by positivity)]
      linarith
    rw [mul_div_assoc', div_le_div_iff₀ (by positivity) s0]
    nlinarith
  have fin : |Real.arccos (dot n v) * (180 / Real.pi) - θ| ≤ 573 / 10 * |Real.arccos (dot n v) - θ * (Real.pi / 180)| := by
    have e : Real.arccos (dot n v) * (180 / Real.pi) - θ = 180 / Real.pi * (Real.arccos (dot n v) - θ * (Real.pi / 180)) := by
      field_simp
    rw [e, abs_mul, abs_of_pos (by positivity)]
    refine mul_le_mul_of_nonneg_right ?_ (abs_nonneg _)
    rw [div_le_iff₀ π0]
    have := Real.pi_gt_d4
    linarith
  have y0 : 0 ≤ E / √η := by positivity
  have t := abs_sub_le (npDegrees (acos (dot n v)) : ℝ) (Real.arccos (dot n v) * (180 / Real.pi)) θ
  linarith

/-- The sum of the dips. -/
theorem dips_near (hu : Precise u) {dot : D3 → D3 → ℚ} {acos : ℚ → ℚ} {δ : ℝ} (δ1 : δ ≤ 1) :
    ∀ (qs : List (Quad GeoPoint)) (θs : List ℝ) (n : ℕ) (s : ℚ) (σ : ℝ), List.Forall₂ (fun q θ => (0 ≤ θ ∧ θ ≤ 180) ∧ ∃ D, quadDip L dot acos q = some D ∧ |(D : ℝ) - θ| ≤ δ) qs θs →
      n + qs.length ≤ 1000000 → 0 ≤ σ → σ ≤ 180 * n → |(s : ℝ) - σ| ≤ n * (δ + 200 * n * u) →
      ∃ S, dipSum L dot acos qs (some s) = some S ∧ 0 ≤ θs.sum ∧ θs.sum ≤ 180 * qs.length ∧ |(S : ℝ) - (σ + θs.sum)| ≤ (n + qs.length : ℕ) * (δ + 200 * (n + qs.length : ℕ) * u) := by
  obtain ⟨u0, u1, τ0, τ2, τ1, τu⟩ := tiny hu
  intro qs
  induction qs with
  | nil =>
    intro ws n s σ h _ _ _ hs
    cases h
    exact ⟨s, rfl, by simp, by simp, by simpa using hs⟩
  | cons q qs ih =>
    intro ws n s σ h hn h0 h1 hs
    cases h with
    | @cons _ θ _ ws hθ h =>
      obtain ⟨⟨θ0, θ1⟩, D, hD, nD⟩ := hθ
      have r := rnd_real hu (s + D)
      rw [List.length_cons] at hn ⊢
      obtain ⟨S, hS, S0, S1, nS⟩ := ih ws (n + 1) (rnd (s + D)) (σ + θ) h (by omega) (by linarith)
        (by push_cast; linarith) (by
          rw [Rat.cast_add] at r
          clear τ1 τ2
          generalize (2 : ℝ) ^ (-1075 : ℤ) = τ at *
          have hn' : (n : ℝ) ≤ 1000000 := by exact_mod_cast (by omega : n ≤ 1000000)
          have hn0 : (0 : ℝ) ≤ n := Nat.cast_nonneg n
          push_cast
          generalize (n : ℝ) = K at *
          have Ku : K * u ≤ 1 / 1000000 := by
            have := mul_le_mul hn' u1 u0.le (by norm_num : (0 : ℝ) ≤ 1000000)
            linarith
          have Ku0 : 0 ≤ K * u := by positivity
          have hK : K * (δ + 200 * K * u) ≤ K * (101 / 100) := mul_le_mul_of_nonneg_left (by linarith) hn0
          have hsum : |(s : ℝ) + D| ≤ 182 * (K + 1) := by
            rw [abs_le] at *
            constructor <;> linarith
          have hu' := mul_le_mul_of_nonneg_left hsum u0.le
          have t : |((rnd (s + D) : ℚ) : ℝ) - (σ + θ)| ≤ u * (182 * (K + 1)) + τ + K * (δ + 200 * K * u) + δ := by
            rw [abs_le] at *
            constructor <;> linarith
          refine t.trans ?_
          have e1 : (K + 1) * (δ + 200 * (K + 1) * u) = K * (δ + 200 * K * u) + δ + 400 * (K * u) + 200 * u := by ring
          have e2 : u * (182 * (K + 1)) = 182 * (K * u) + 182 * u := by ring
          rw [e1, e2]
          linarith)
      refine ⟨S, ?_, ?_, ?_, ?_⟩
      · rw [← hS]
        unfold dipSum
        rw [List.foldl_cons]
        simp only [Option.bind_some, hD, Option.map_some]
      · rw [List.sum_cons]; linarith
      · rw [List.sum_cons]; push_cast; linarith
      · rw [List.sum_cons, ← add_assoc, show n + (qs.length + 1) = n + 1 + qs.length by omega]
        exact nS

theorem across_pos {k : ℝ} {q : Quad GeoPoint} (hq : Proportions k q) {c : Quad V3} (hc : CornersAt q c) : 0 < (c.p1.sub c.p0).mag ∧ 0 < ((c.p3.sub c.p0).cross (c.p1.sub c.p0)).mag := by
  obtain ⟨s1, s2⟩ := hq.2 c hc
  have dA : √(distSq c.p0 c.p1) = (c.p1.sub c.p0).mag := by rw [← distance_distSq, distance_mag, mag_swap]
  rw [dA] at s1
  have P0 : 0 < (c.p1.sub c.p0).mag := by linarith
  refine ⟨P0, lt_of_le_of_ne (mag_nonneg _) fun h => ?_⟩
  have hmin := line_distance (p := c.p0) (a := c.p1) (b := c.p3) (by rw [mag_swap]; exact P0)
  have e : ((c.p0.sub c.p1).cross (c.p0.sub c.p3)).mag = ((c.p3.sub c.p0).cross (c.p1.sub c.p0)).mag := by
    apply mag_neg <;> simp only [V3.cross, V3.sub] <;> ring
  rw [e, ← h, zero_div] at hmin
  obtain ⟨y, hy, ey⟩ := hmin.1
  have := (s2 y hy).1
  rw [ey] at this
  norm_num at this

theorem frame_exists {k : ℝ} {q : Quad GeoPoint} (hq : Proportions k q) {c : Quad V3} (hc : CornersAt q c) : (∃ n, NormalOf c n) ∧ ∃ d, DownDipOf c d := by
  obtain ⟨P0, C0⟩ := across_pos hq hc
  unfold NormalOf DownDipOf
  generalize c.p1.sub c.p0 = a at *
  generalize c.p3.sub c.p0 = b at *
  have m2 := mag_sq (b.cross a)
  have a2 := mag_sq a
  set m := (b.cross a).mag
  set P := a.mag
  have mne := C0.ne'
  have Pne := P0.ne'
  refine ⟨⟨(b.cross a).mul (1 / m), ?_, ?_, ?_, ?_⟩, ⟨(a.mul (-innerOf a b / (P * m))).add (b.mul (P / m)), ?_, ?_, _, _, by positivity, rfl⟩⟩
  · have : innerOf ((b.cross a).mul (1 / m)) ((b.cross a).mul (1 / m)) = m ^ 2 / m ^ 2 := by
      rw [m2]
      rw [← m2]
      have : innerOf ((b.cross a).mul (1 / m)) ((b.cross a).mul (1 / m)) = ((b.cross a).x ^ 2 + (b.cross a).y ^ 2 + (b.cross a).z ^ 2) / m ^ 2 := by
        simp only [innerOf, V3.mul]
        field_simp
      rw [this, m2]
    rw [this]
    field_simp
  · simp only [innerOf, V3.mul, V3.cross]; ring
  · simp only [innerOf, V3.mul, V3.cross]; ring
  · have : det b a ((b.cross a).mul (1 / m)) = ((b.cross a).x ^ 2 + (b.cross a).y ^ 2 + (b.cross a).z ^ 2) / m := by
      simp only [det, V3.mul, V3.cross]; ring
    rw [this, ← m2]
    positivity
  · have : innerOf ((a.mul (-innerOf a b / (P * m))).add (b.mul (P / m))) ((a.mul (-innerOf a b / (P * m))).add (b.mul (P / m))) =
        (-innerOf a b / (P * m)) ^ 2 * (a.x ^ 2 + a.y ^ 2 + a.z ^ 2) + 2 * (-innerOf a b / (P * m)) * (P / m) * innerOf a b + (P / m) ^ 2 * innerOf b b := by
      simp only [innerOf, V3.mul, V3.add]; ring
    have l : (b.cross a).x ^ 2 + (b.cross a).y ^ 2 + (b.cross a).z ^ 2 = (a.x ^ 2 + a.y ^ 2 + a.z ^ 2) * innerOf b b - innerOf a b ^ 2 := by
      simp only [innerOf, V3.cross]; ring
    rw [this, ← a2]
    rw [l, ← a2] at m2
    field_simp
    linear_combination -m2
  · have : innerOf ((a.mul (-innerOf a b / (P * m))).add (b.mul (P / m))) a = -innerOf a b / (P * m) * (a.x ^ 2 + a.y ^ 2 + a.z ^ 2) + P / m * innerOf a b := by
      simp only [innerOf, V3.mul, V3.add]; ring
    rw [this, ← a2]
    field_simp
    ring

theorem up_unit (p : GeoPoint) : innerOf (upAt p) (upAt p) = 1 := by
  have h1 := Real.sin_sq_add_cos_sq ((p.lat : ℝ) * (Real.pi / 180))
  have h2 := Real.sin_sq_add_cos_sq ((p.lon : ℝ) * (Real.pi / 180))
  simp only [innerOf, upAt, vertical]
  linear_combination Real.cos ((p.lat : ℝ) * (Real.pi / 180)) ^ 2 * h2 + h1

theorem inner_le {a b : V3} (ha : innerOf a a = 1) (hb : innerOf b b = 1) : -1 ≤ innerOf a b ∧ innerOf a b ≤ 1 := by
  have : innerOf a b ^ 2 ≤ 1 := by
    have e : innerOf a b ^ 2 = innerOf a a * innerOf b b - (a.y * b.z - a.z * b.y) ^ 2 - (a.z * b.x - a.x * b.z) ^ 2 - (a.x * b.y - a.y * b.x) ^ 2 := by
      simp only [innerOf]; ring
    rw [e, ha, hb]
    nlinarith [sq_nonneg (a.y * b.z - a.z * b.y), sq_nonneg (a.z * b.x - a.x * b.z), sq_nonneg (a.x * b.y - a.y * b.x)]
  constructor <;> nlinarith

theorem corners_exist (q : Quad GeoPoint) : ∃ c, CornersAt q c := by
  obtain ⟨x0, y0, z0, h0, -⟩ := C203_point q.p0.lat q.p0.lon q.p0.depth
  obtain ⟨x1, y1, z1, h1, -⟩ := C203_point q.p1.lat q.p1.lon q.p1.depth
  obtain ⟨x2, y2, z2, h2, -⟩ := C203_point q.p2.lat q.p2.lon q.p2.depth
  obtain ⟨x3, y3, z3, h3, -⟩ := C203_point q.p3.lat q.p3.lon q.p3.depth
  exact ⟨⟨⟨x0, y0, z0⟩, ⟨x1, y1, z1⟩, ⟨x2, y2, z2⟩, ⟨x3, y3, z3⟩⟩, h0, h1, h2, h3⟩

theorem place_one {p : GeoPoint} {v v' : V3} (h : PlacedAt p v) (h' : PlacedAt p v') : v = v' := by
  obtain ⟨x, y, z, -, uniq⟩ := C203_point p.lat p.lon p.depth
  obtain ⟨e1, e2, e3⟩ := uniq _ _ _ h
  obtain ⟨f1, f2, f3⟩ := uniq _ _ _ h'
  ext <;> simp [*]

end Dip

/-- C221, first part: the vectors that are computed for a quadrilateral with a side of at least `b` metres are numbers. They are the direction of its top edge, its normal and its down-dip direction, up to
40000000000ku/b in each component, and up at its first corner, up to 2000000u. -/
theorem C221_frame {u k b : ℝ} (hu : Precise u) {L : MathLib} (hL : RightTo u L) (hk : 1000000000000 * (k * u) ≤ 1) {q : Quad GeoPoint} (hq : Proportions k q) (b0 : 0 < b) (hb : SideAtLeast b q) {c : Quad V3}
    (hc : CornersAt q c) {e n d : V3} (he : DirectionOf c.p0 c.p1 e) (hn : NormalOf c n) (hd : DownDipOf c d) :
    ∃ E N D V, strikeVector L q = some E ∧ AgreesTo (40000000000 * (k * u) / b) E e ∧ unitNormal L q = some N ∧ AgreesTo (40000000000 * (k * u) / b) N n ∧
      downDipVector L q = some D ∧ AgreesTo (40000000000 * (k * u) / b) D d ∧ verticalVector L q = some V ∧ AgreesTo (2000000 * u) V (upAt q.p0) := by
  obtain ⟨κ, W, hF⟩ := Dip.facts hu hL hk hq b0 hb hc
  obtain ⟨E, hE, nE⟩ := Dip.strike_computed hu hL hF
  obtain ⟨N, hN, nN⟩ := Dip.normal_computed hu hL hF
  obtain ⟨D, hD, nD⟩ := Dip.down_computed hu hL hF hn
  obtain ⟨V, hV, nV⟩ := Dip.up_computed hu hL hq.1.1 hb.1
  obtain ⟨e1, t, t0, et⟩ := he
  rw [et, (Dip.norm_scaled e1 t0).1] at nE
  rw [← Dip.normal_unique hn] at nN
  rw [← Dip.down_unique hn hd] at nD
  have κ0 := hF.sizes.κ0
  have big : 190 * κ ≤ 40000000000 * (k * u) / b := by
    have e : 40000000000 * (k * u) / b = 200 * (200000000 * u * k / b) := by ring
    rw [e]
    linarith [hF.κb]
  exact ⟨E, N, D, V, hE, Dip.near_weaken nE (by linarith), hN, Dip.near_weaken nN (by linarith), hD, Dip.near_weaken nD big, hV, nV⟩

/-- C221, second part: the dip that is computed for a quadrilateral whose normal is not too near to the vertical is a number, and is the angle between the two. With E = (11000000000k/b + 5000000)u, and a
cosine of the dip between -(1 - η) and 1 - η, where η is at least 2E, the error is at most 700u + 82E/√η degrees. -/
theorem C221_dip {u k b : ℝ} (hu : Precise u) {L : MathLib} (hL : RightTo u L) {dot : D3 → D3 → ℚ} (hdot : InnerProduct dot) {acos : ℚ → ℚ} (ha : ArcCosine u acos) (hk : 1000000000000 * (k * u) ≤ 1)
    {q : Quad GeoPoint} (hq : Proportions k q) (b0 : 0 < b) (hb : SideAtLeast b q) {θ η E : ℝ} (hθ : DipIs q θ) (hη : 0 < η) (hc : |Real.cos (θ * (Real.pi / 180))| ≤ 1 - η)
    (hE : E = (11000000000 * k / b + 5000000) * u) (h2 : 2 * E ≤ η) : ∃ D, quadDip L dot acos q = some D ∧ |(D : ℝ) - θ| ≤ 700 * u + 82 * (E / √η) :=
  Dip.dip_computed hu hL hdot ha hk hq b0 hb hθ hη hc hE h2

/-- C221, third part: `getDip` of up to a million such quadrilaterals is the mean of these angles, up to 700u + 82E/√η + 500nu degrees for n quadrilaterals. Without quadrilaterals it divides by zero. -/
theorem C221_mean {u k b : ℝ} (hu : Precise u) {L : MathLib} (hL : RightTo u L) {dot : D3 → D3 → ℚ} (hdot : InnerProduct dot) {acos : ℚ → ℚ} (ha : ArcCosine u acos) (hk : 1000000000000 * (k * u) ≤ 1)
    {qs : List (Quad GeoPoint)} (hne : qs ≠ []) (hq : ∀ q ∈ qs, Proportions k q ∧ SideAtLeast b q) (b0 : 0 < b) {θs : List ℝ} {η E : ℝ} (hθ : List.Forall₂ DipIs qs θs) (hη : 0 < η)
    (hc : ∀ θ ∈ θs, |Real.cos (θ * (Real.pi / 180))| ≤ 1 - η) (hE : E = (11000000000 * k / b + 5000000) * u) (h2 : 2 * E ≤ η) (h3 : 82 * (E / √η) ≤ 1 / 2) (hn : qs.length ≤ 1000000) :
    (∃ D, ruptureDip L dot acos qs = .ok (some D) ∧ |(D : ℝ) - θs.sum / qs.length| ≤ 700 * u + 82 * (E / √η) + 500 * (qs.length * u)) ∧ ruptureDip L dot acos [] = .error () := by
  obtain ⟨u0, u1, τ0, τ2, τ1, τu⟩ := Geo.tiny hu
  refine ⟨?_, rfl⟩
  have all : List.Forall₂ (fun q θ => (0 ≤ θ ∧ θ ≤ 180) ∧ ∃ D, quadDip L dot acos q = some D ∧ |(D : ℝ) - θ| ≤ 700 * u + 82 * (E / √η)) qs θs := by
    clear hne hn
    induction hθ with
    | nil => exact .nil
    | @cons q θ qs θs h _ ih =>
      refine .cons ⟨⟨h.1, h.2.1⟩, ?_⟩ (ih (fun q hq' => hq q (by simp [hq'])) fun θ hθ' => hc θ (by simp [hθ']))
      obtain ⟨h4, h5⟩ := hq q (by simp)
      exact C221_dip hu hL hdot ha hk h4 b0 h5 h hη (hc θ (by simp)) hE h2
  have l0 : qs.length ≠ 0 := by simpa using hne
  obtain ⟨S, hS, S0, S1, nS⟩ := Dip.dips_near hu (by linarith) qs θs 0 0 0 all (by omega) le_rfl (by simp) (by simp)
  refine ⟨rnd (S / qs.length), by simp [ruptureDip, l0, hS], ?_⟩
  have r := Geo.rnd_real hu (S / qs.length)
  push_cast at r
  simp only [zero_add] at nS
  have hn' : (qs.length : ℝ) ≤ 1000000 := by exact_mod_cast hn
  have hn1 : (1 : ℝ) ≤ qs.length := by exact_mod_cast Nat.one_le_iff_ne_zero.2 l0
  generalize ((rnd (S / qs.length) : ℚ) : ℝ) = z at *
  generalize (qs.length : ℝ) = n at *
  generalize (2 : ℝ) ^ (-1075 : ℤ) = τ at *
  have n0 : 0 < n := by linarith
  have nu : u ≤ n * u := le_mul_of_one_le_left u0.le hn1
  have nu1 : n * u ≤ 1 / 1000000 := by
    have := mul_le_mul hn' u1 u0.le (by norm_num : (0 : ℝ) ≤ 1000000)
    linarith
  have d : |(S : ℝ) / n - θs.sum / n| ≤ 700 * u + 82 * (E / √η) + 200 * n * u := by
    rw [← sub_div, abs_div, abs_of_pos n0, div_le_iff₀ n0]
    refine nS.trans (le_of_eq (by ring))
  have m0 : 0 ≤ θs.sum / n := by positivity
  have m1 : θs.sum / n ≤ 180 := by rw [div_le_iff₀ n0]; linarith
  have b : |(S : ℝ) / n| ≤ 182 := by
    rw [abs_le] at *
    constructor <;> linarith
  have b' := mul_le_mul_of_nonneg_left b u0.le
  rw [abs_le] at *
  constructor <;> linarith

/-- C221: a quadrilateral of good proportions has one normal, one down-dip direction and one dip. -/
theorem C221_one {k : ℝ} {q : Quad GeoPoint} (hq : Proportions k q) : (∃ θ, DipIs q θ) ∧ (∀ θ θ', DipIs q θ → DipIs q θ' → θ = θ') ∧
    ∀ c, CornersAt q c → (∃ n, NormalOf c n ∧ ∀ n', NormalOf c n' → n' = n) ∧ ∃ d, DownDipOf c d ∧ ∀ d', DownDipOf c d' → d' = d := by
  have π0 := Real.pi_pos
  refine ⟨?_, ?_, fun c hc => ?_⟩
  · obtain ⟨c, hc⟩ := Dip.corners_exist q
    obtain ⟨⟨n, hn⟩, -⟩ := Dip.frame_exists hq hc
    obtain ⟨l1, l2⟩ := Dip.inner_le hn.1 (Dip.up_unit q.p0)
    refine ⟨Real.arccos (innerOf n (upAt q.p0)) * (180 / Real.pi), ?_, ?_, c, n, hc, hn, ?_⟩
    · have := Real.arccos_nonneg (innerOf n (upAt q.p0))
      positivity
    · have := mul_le_mul_of_nonneg_right (Real.arccos_le_pi (innerOf n (upAt q.p0))) (by positivity : 0 ≤ 180 / Real.pi)
      rwa [mul_div_cancel₀ _ π0.ne'] at this
    · rw [mul_assoc, div_mul_div_cancel₀ π0.ne', div_self (by norm_num), mul_one, Real.cos_arccos l1 l2]
  · rintro θ θ' ⟨a0, a1, c, n, ⟨h0, h1, h2, h3⟩, hn, e⟩ ⟨b0, b1, c', n', ⟨g0, g1, g2, g3⟩, hn', e'⟩
    have same : n' = n := by
      rw [Dip.normal_unique hn, Dip.normal_unique hn', Dip.place_one h0 g0, Dip.place_one h1 g1, Dip.place_one h3 g3]
    rw [same, ← e] at e'
    have r : ∀ {x : ℝ}, 0 ≤ x → x ≤ 180 → x * (Real.pi / 180) ∈ Set.Icc 0 Real.pi := fun h0 h1 => ⟨by positivity, by nlinarith⟩
    have := Real.injOn_cos (r b0 b1) (r a0 a1) e'
    exact (mul_right_cancel₀ (by positivity) this).symm
  · obtain ⟨⟨n, hn⟩, d, hd⟩ := Dip.frame_exists hq hc
    exact ⟨⟨n, hn, fun n' h => by rw [Dip.normal_unique hn, Dip.normal_unique h]⟩, d, hd, fun d' h => by rw [Dip.down_unique hn hd, Dip.down_unique hn h]⟩

/-- C220: a quadrilateral whose first two corners are different places has a width. -/
theorem C220_width_exists {q : Quad GeoPoint} {c : Quad V3} (hc : CornersAt q c) (h : c.p0 ≠ c.p1) : ∃ w, WidthIs q w := by
  have P0 : 0 < (c.p0.sub c.p1).mag := by
    refine lt_of_le_of_ne (mag_nonneg _) fun e => h ?_
    have := mag_sq (c.p0.sub c.p1)
    rw [← e] at this
    simp only [V3.sub] at this
    ext <;> nlinarith [sq_nonneg (c.p0.x - c.p1.x), sq_nonneg (c.p0.y - c.p1.y), sq_nonneg (c.p0.z - c.p1.z)]
  refine ⟨((c.p0.sub c.p1).cross (c.p0.sub c.p3)).mag / (c.p0.sub c.p1).mag / 1000, div_nonneg (div_nonneg (mag_nonneg _) (mag_nonneg _)) (by norm_num), c, hc, ?_⟩
  rw [mul_div_cancel₀ _ (by norm_num)]
  exact Dip.line_distance P0

/-- There are arc cosines of every precision. -/
theorem Dip.arccosine_exists {u : ℝ} (hu : 0 < u) : ∃ acos, ArcCosine u acos := by
  have h : ∀ x : ℚ, ∃ r : ℚ, |(r : ℝ) - Real.arccos x| ≤ 4 * u := by
    intro x
    obtain ⟨r, h1, h2⟩ := exists_rat_btwn (show Real.arccos x < Real.arccos x + 4 * u by linarith)
    exact ⟨r, by rw [abs_le]; constructor <;> linarith⟩
  choose f hf using h
  exact ⟨f, fun x _ => hf x⟩

theorem Dip.quarter_normal {c : Quad V3} (hc : CornersAt Wid.quarter c) : NormalOf c ⟨0, 0, -1⟩ := by
  obtain ⟨e0, e1, e3⟩ := Wid.quarter_at hc
  have : 0 < equatorial := by norm_num [equatorial]
  unfold NormalOf
  rw [e0, e1, e3]
  simp only [innerOf, det, V3.sub]
  refine ⟨by norm_num, by ring, by ring, ?_⟩
  ring_nf
  linarith

theorem Dip.quarter_side : SideAtLeast 10000 Wid.quarter := by
  refine ⟨by norm_num [Wid.quarter], fun c hc => ?_⟩
  obtain ⟨e0, -, e3⟩ := Wid.quarter_at hc
  rw [e0, e3]
  refine Real.le_sqrt_of_sq_le (le_of_eq ?_)
  simp only [distSq]
  ring

/-- The quadrilateral below the equator is vertical. -/
theorem Dip.quarter_dip : DipIs Wid.quarter 90 := by
  obtain ⟨c, hc⟩ := Dip.corners_exist Wid.quarter
  refine ⟨by norm_num, by norm_num, c, _, hc, Dip.quarter_normal hc, ?_⟩
  rw [show (90 : ℝ) * (Real.pi / 180) = Real.pi / 2 by ring, Real.cos_pi_div_two]
  simp [innerOf, upAt, vertical, Wid.quarter]

/-- Its dip is computed to a hundred thousandth of a degree, and so is the mean dip of two of them; its normal is computed to six digits. -/
example : ∃ (acos : ℚ → ℚ) (D M : ℚ) (N : D3), ArcCosine (2 ^ (-49 : ℤ)) acos ∧ quadDip Geo.someLib Wid.leftDot acos Wid.quarter = some D ∧ |(D : ℝ) - 90| ≤ 1 / 100000 ∧
    ruptureDip Geo.someLib Wid.leftDot acos [Wid.quarter, Wid.quarter] = .ok (some M) ∧ |(M : ℝ) - 90| ≤ 1 / 100000 ∧
    unitNormal Geo.someLib Wid.quarter = some N ∧ AgreesTo (1 / 1000000) N ⟨0, 0, -1⟩ := by
  obtain ⟨acos, ha⟩ := Dip.arccosine_exists (u := 2 ^ (-49 : ℤ)) (by positivity)
  have flat : |Real.cos (90 * (Real.pi / 180))| ≤ 1 - 1 / 4 := by
    rw [show (90 : ℝ) * (Real.pi / 180) = Real.pi / 2 by ring, Real.cos_pi_div_two]
    norm_num
  have root : √(1 / 4 : ℝ) = 1 / 2 := by
    rw [show (1 / 4 : ℝ) = (1 / 2) ^ 2 by norm_num, Real.sqrt_sq (by norm_num)]
  obtain ⟨D, hD, nD⟩ := C221_dip Geo.precise49 Geo.someLib_right Wid.leftDot_inner ha (k := 2) (by norm_num) Wid.quarter_proportions (b := 10000) (by norm_num) Dip.quarter_side Dip.quarter_dip (by norm_num : (0 : ℝ) < 1 / 4)
    flat rfl (by norm_num)
  obtain ⟨⟨M, hM, nM⟩, -⟩ := C221_mean Geo.precise49 Geo.someLib_right Wid.leftDot_inner ha (k := 2) (b := 10000) (by norm_num) (qs := [Wid.quarter, Wid.quarter]) (by simp)
    (by simp [Wid.quarter_proportions, Dip.quarter_side]) (by norm_num) (.cons Dip.quarter_dip (.cons Dip.quarter_dip .nil)) (by norm_num : (0 : ℝ) < 1 / 4) (by simpa using flat) rfl (by norm_num)
    (by rw [root]; norm_num) (by simp)
  obtain ⟨c, hc⟩ := Dip.corners_exist Wid.quarter
  obtain ⟨-, -, frame⟩ := C221_one Wid.quarter_proportions
  obtain ⟨-, d, hd, -⟩ := frame c hc
  have he : DirectionOf c.p0 c.p1 ⟨-(1 / √2), 1 / √2, 0⟩ := by
    obtain ⟨e0, e1, -⟩ := Wid.quarter_at hc
    have s2 : √2 ^ 2 = (2 : ℝ) := Real.sq_sqrt (by norm_num)
    have s0 : (0 : ℝ) < √2 := by positivity
    rw [e0, e1]
    refine ⟨?_, equatorial * √2, by have : 0 < equatorial := by norm_num [equatorial]
                                    positivity, ?_⟩
    · simp only [innerOf]
      field_simp
      linarith
    · simp only [V3.sub, V3.mul]
      ext <;> simp only <;> field_simp <;> ring
  obtain ⟨-, N, -, -, -, -, hN, nN, -⟩ := C221_frame Geo.precise49 Geo.someLib_right (k := 2) (by norm_num) Wid.quarter_proportions (b := 10000) (by norm_num) Dip.quarter_side hc he (Dip.quarter_normal hc) hd
  rw [root] at nD nM
  have e : [(90 : ℝ), 90].sum / (([Wid.quarter, Wid.quarter].length : ℕ) : ℝ) = 90 := by
    simp
  rw [e] at nM
  refine ⟨acos, D, M, N, ha, hD, nD.trans (by norm_num), hM, nM.trans ?_, hN, Dip.near_weaken nN (by norm_num)⟩
  simp only [List.length_cons, List.length_nil]
  norm_num

end Verif.Props
