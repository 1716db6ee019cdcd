import Verif.Props.QuadShape
import Verif.Props.QuadDistDouble

/-!
# Distances to quadrilaterals in binary arithmetic

C209.
-/

namespace Verif.Props
open Verif.Spec
open Verif.Dbl
open Verif.Rup (Quad sumProd outerNormal)
open Verif.Vec (V3)

namespace Sur
open Geo Len Edge Seg Shape

theorem cross_real {u : ℝ} (hu : Precise u) {a b c d : ℚ} {A B C D s t P Q : ℝ} (ha : |(a : ℝ) - A| ≤ s) (hc : |(c : ℝ) - C| ≤ s) (hb : |(b : ℝ) - B| ≤ t) (hd : |(d : ℝ) - D| ≤ t)
    (hA : |A| ≤ P) (hC : |C| ≤ P) (hB : |B| ≤ Q) (hD : |D| ≤ Q) :
    |((rnd (rnd (a * b) - rnd (c * d)) : ℚ) : ℝ) - (A * B - C * D)| ≤ 2 * (s * Q + t * P + s * t) + 5 * (u * ((P + s) * (Q + t))) + 4 * 2 ^ (-1075 : ℤ) := by
  obtain ⟨u0, u1, τ0, τ2, τ1, τu⟩ := tiny hu
  have r1 := rnd_real hu (a * b)
  have r2 := rnd_real hu (c * d)
  have r3 := rnd_real hu (rnd (a * b) - rnd (c * d))
  push_cast at r1 r2 r3
  have prod : ∀ {a b A B : ℝ}, |a - A| ≤ s → |b - B| ≤ t → |A| ≤ P → |B| ≤ Q → |a * b - A * B| ≤ s * Q + t * P + s * t ∧ |a * b| ≤ (P + s) * (Q + t) := by
    intro a b A B ha hb hA hB
    have s0 := (abs_nonneg _).trans ha
    have t0 := (abs_nonneg _).trans hb
    have P0 := (abs_nonneg _).trans hA
    have ab : |b| ≤ Q + t := by
      have := abs_add_le B (b - B)
      rw [show B + (b - B) = b by ring] at this
      linarith
    have aa : |a| ≤ P + s := by
      have := abs_add_le A (a - A)
      rw [show A + (a - A) = a by ring] at this
      linarith
    constructor
    · have h := abs_add_le ((a - A) * b) (A * (b - B))
      rw [show (a - A) * b + A * (b - B) = a * b - A * B by ring, abs_mul, abs_mul] at h
      have h1 := mul_le_mul ha ab (abs_nonneg _) s0
      have h2 := mul_le_mul hA hb (abs_nonneg _) P0
      nlinarith
    · rw [abs_mul]
      exact mul_le_mul aa ab (abs_nonneg _) (by linarith)
  obtain ⟨p1, p2⟩ := prod ha hb hA hB
  obtain ⟨p3, p4⟩ := prod hc hd hC hD
  generalize (P + s) * (Q + t) = m at *
  generalize s * Q + t * P + s * t = k at *
  generalize ((rnd (rnd (a * b) - rnd (c * d)) : ℚ) : ℝ) = z at *
  generalize ((rnd (a * b) : ℚ) : ℝ) = x at *
  generalize ((rnd (c * d) : ℚ) : ℝ) = y at *
  generalize (a : ℝ) * (b : ℝ) = ab at *
  generalize (c : ℝ) * (d : ℝ) = cd at *
  generalize (2 : ℝ) ^ (-1075 : ℤ) = τ at *
  have m0 := (abs_nonneg _).trans p2
  have um0 : 0 ≤ u * m := by positivity
  have x1 := mul_le_mul_of_nonneg_left p2 u0.le
  have x2 := mul_le_mul_of_nonneg_left p4 u0.le
  have h1 : |x - y| ≤ 2 * (m + (u * m + τ)) := by
    rw [abs_le] at *
    constructor <;> linarith
  have h2 := mul_le_mul_of_nonneg_left h1 u0.le
  have h3 : u * (u * m + τ) ≤ 1 / 4 * (u * m + τ) := mul_le_mul_of_nonneg_right (by linarith) (by linarith)
  rw [abs_le] at *
  constructor <;> linarith

theorem component_le (a : V3) : |a.x| ≤ a.mag ∧ |a.y| ≤ a.mag ∧ |a.z| ≤ a.mag := by
  unfold V3.mag
  refine ⟨Real.abs_le_sqrt ?_, Real.abs_le_sqrt ?_, Real.abs_le_sqrt ?_⟩ <;> nlinarith [sq_nonneg a.x, sq_nonneg a.y, sq_nonneg a.z]

theorem cross_near {u : ℝ} (hu : Precise u) {a b : D3} {A B : V3} {s t : ℝ} (ha : Near s a A) (hb : Near t b B) :
    Near (2 * (s * B.mag + t * A.mag + s * t) + 5 * (u * ((A.mag + s) * (B.mag + t))) + 4 * 2 ^ (-1075 : ℤ)) (a.cross b) (A.cross B) := by
  obtain ⟨a1, a2, a3⟩ := component_le A
  obtain ⟨b1, b2, b3⟩ := component_le B
  exact ⟨cross_real hu ha.2.1 ha.2.2 hb.2.2 hb.2.1 a2 a3 b3 b2, cross_real hu ha.2.2 ha.1 hb.1 hb.2.2 a3 a1 b1 b3, cross_real hu ha.1 ha.2.1 hb.2.1 hb.1 a1 a2 b2 b1⟩

theorem near_mag {a : D3} {A : V3} {s : ℝ} (h : Near s a A) : |(exactly a).mag - A.mag| ≤ 2 * s := mag_near h.1 h.2.1 h.2.2

theorem dot_near {u : ℝ} (hu : Precise u) {sum : ℚ → ℚ → ℚ → ℚ} (hs : SumTo u sum) {a b : D3} {A B : V3} {s t : ℝ} (ha : Near s a A) (hb : Near t b B) :
    |(rowSum sum a b : ℝ) - sumProd A B| ≤ 2 * s * (B.mag + 2 * t) + 2 * t * A.mag + 5 * (u * ((A.mag + 2 * s) * (B.mag + 2 * t))) + 10 * 2 ^ (-1075 : ℤ) := by
  obtain ⟨u0, u1, τ0, τ2, τ1, τu⟩ := tiny hu
  have r := rowSum_real hu hs a b
  have m1 := (abs_le.1 (near_mag ha)).2
  have m2 := (abs_le.1 (near_mag hb)).2
  have A0 := mag_nonneg A
  have B0 := mag_nonneg B
  have a0 := mag_nonneg (exactly a)
  have b0 := mag_nonneg (exactly b)
  have d1 : ((exactly a).sub A).mag ≤ 2 * s := mag_le ha.1 ha.2.1 ha.2.2
  have d2 : ((exactly b).sub B).mag ≤ 2 * t := mag_le hb.1 hb.2.1 hb.2.2
  have cs : ∀ v w : V3, |sumProd v w| ≤ v.mag * w.mag := by
    intro v w
    refine le_trans ?_ (cauchy v w)
    unfold sumProd
    exact abs_add_three _ _ _
  have c1 := cs ((exactly a).sub A) (exactly b)
  have c2 := cs A ((exactly b).sub B)
  have e : (exactly a).dot (exactly b) - sumProd A B = sumProd ((exactly a).sub A) (exactly b) + sumProd A ((exactly b).sub B) := by
    simp only [V3.dot, sumProd, V3.sub]; ring
  have s0 := (abs_nonneg _).trans ha.1
  have t0 := (abs_nonneg _).trans hb.1
  have k1 := mul_le_mul d1 (by linarith : (exactly b).mag ≤ B.mag + 2 * t) b0 (by linarith)
  have k2 := mul_le_mul_of_nonneg_left d2 A0
  have k3 := mul_le_mul (by linarith : (exactly a).mag ≤ A.mag + 2 * s) (by linarith : (exactly b).mag ≤ B.mag + 2 * t) b0 (by linarith)
  have k4 := mul_le_mul_of_nonneg_left k3 u0.le
  have t1 := abs_sub_le (rowSum sum a b : ℝ) ((exactly a).dot (exactly b)) (sumProd A B)
  rw [e] at t1
  have t2 := abs_add_le (sumProd ((exactly a).sub A) (exactly b)) (sumProd A ((exactly b).sub B))
  nlinarith

/-- The direction of a vector that is known up to `K` in each component. -/
theorem unit_real {u : ℝ} (hu : Precise u) {L : MathLib} (hL : RightTo u L) {v : D3} {C : V3} {K : ℝ} (h : Near K v C) (h1 : 1 ≤ C.mag) (hK : K ≤ C.mag / 50) :
    ∃ n, v.norm L.sq = some n ∧ Near (3 * (K / C.mag) + 13 * u) n C.norm := by
  obtain ⟨u0, u1, τ0, τ2, τ1, τu⟩ := tiny hu
  have w := near_mag h
  obtain ⟨m0, m⟩ := mag_real hu hL v
  rw [← exactly_mag] at m
  obtain ⟨x1, x2, x3⟩ := component_le (exactly v)
  have C0 : 0 < C.mag := by linarith
  have K0 := (abs_nonneg _).trans h.1
  set W := (exactly v).mag with hW
  have W1 : 9 / 10 ≤ W := by linarith [(abs_le.1 w).1]
  have W0 : 0 < W := by linarith
  have mW : |((v.mag L.sq : ℚ) : ℝ) - W| ≤ 10 * u * W := by
    have : u ≤ 2 * u * W := by nlinarith
    linarith
  have uW : u * W ≤ W / 1000000 := by
    have := mul_le_mul_of_nonneg_right u1 W0.le
    linarith
  have mp : 99 / 100 * W ≤ ((v.mag L.sq : ℚ) : ℝ) := by linarith [(abs_le.1 mW).1]
  have mp0 : (0 : ℝ) < ((v.mag L.sq : ℚ) : ℝ) := by linarith
  have mne : v.mag L.sq ≠ 0 := by
    intro e
    rw [e] at mp0
    simp at mp0
  refine ⟨_, by unfold D3.norm; rw [if_neg mne], ?_⟩
  have key : ∀ (a : ℚ) (A : ℝ), |(a : ℝ) - A| ≤ K → |(a : ℝ)| ≤ W → |((rnd (a / v.mag L.sq) : ℚ) : ℝ) - A / C.mag| ≤ 3 * (K / C.mag) + 13 * u := by
    intro a A ha haW
    have r := rnd_real hu (a / v.mag L.sq)
    push_cast at r
    generalize ((v.mag L.sq : ℚ) : ℝ) = M at *
    have e1 : |(a : ℝ) / M - a / W| ≤ 11 * u := by
      rw [show (a : ℝ) / M - a / W = a * (W - M) / (M * W) by field_simp, abs_div, abs_mul, abs_of_pos (mul_pos mp0 W0), div_le_iff₀ (mul_pos mp0 W0)]
      rw [abs_sub_comm]
      have := mul_le_mul haW mW (abs_nonneg _) W0.le
      have : 99 / 100 * W * W ≤ M * W := mul_le_mul_of_nonneg_right mp W0.le
      have := mul_le_mul_of_nonneg_left this u0.le
      have : 0 ≤ u * (W * W) := by positivity
      nlinarith
    have e2 : |(a : ℝ) / W - A / C.mag| ≤ 3 * (K / C.mag) := by
      have e : (a : ℝ) / W - A / C.mag = (a - A) / C.mag + a / W * ((C.mag - W) / C.mag) := by field_simp; ring
      rw [e]
      refine le_trans (abs_add_le _ _) ?_
      rw [abs_mul, abs_div, abs_div, abs_div, abs_of_pos C0, abs_of_pos W0]
      have k1 : |(a : ℝ) - A| / C.mag ≤ K / C.mag := div_le_div_of_nonneg_right ha C0.le
      have k2 : |(a : ℝ)| / W ≤ 1 := (div_le_one W0).2 haW
      have k3 : |C.mag - W| / C.mag ≤ 2 * K / C.mag := by
        rw [abs_sub_comm]
        exact div_le_div_of_nonneg_right w C0.le
      have k4 := mul_le_mul k2 k3 (by positivity) (by norm_num)
      have : 2 * K / C.mag = 2 * (K / C.mag) := by ring
      linarith
    have e3 : |(a : ℝ) / W| ≤ 1 := by
      rw [abs_div, abs_of_pos W0]
      exact (div_le_one W0).2 haW
    have e4 : |(a : ℝ) / M| ≤ 3 / 2 := by
      rw [abs_le] at *
      constructor <;> linarith
    have := mul_le_mul_of_nonneg_left e4 u0.le
    have t1 := abs_sub_le ((rnd (a / v.mag L.sq) : ℚ) : ℝ) ((a : ℝ) / M) (A / C.mag)
    have t2 := abs_sub_le ((a : ℝ) / M) ((a : ℝ) / W) (A / C.mag)
    linarith
  exact ⟨key _ _ h.1 x1, key _ _ h.2.1 x2, key _ _ h.2.2 x3⟩

/-- The cross product is large when the heights are. -/
theorem height_cross {p a b : V3} {r : ℝ} (h : ∀ y ∈ line p a, r ≤ √(distSq b y)) (hA : 0 < (a.sub p).mag) : r * (a.sub p).mag ≤ ((a.sub p).cross (b.sub p)).mag := by
  set A := a.sub p with hA'
  set B := b.sub p with hB'
  have hA2 : A.mag ^ 2 = A.x ^ 2 + A.y ^ 2 + A.z ^ 2 := mag_sq A
  have pos : 0 < A.x ^ 2 + A.y ^ 2 + A.z ^ 2 := by rw [← hA2]; positivity
  have key := h (combine p a p (sumProd A B / A.mag ^ 2) 0) ⟨_, rfl⟩
  rw [← distance_distSq, distance_mag] at key
  have e : (b.sub (combine p a p (sumProd A B / A.mag ^ 2) 0)).mag ^ 2 * A.mag ^ 2 = (A.cross B).mag ^ 2 := by
    rw [mag_sq, mag_sq (A.cross B), hA2]
    have c : ∀ β π' α B' A' : ℝ, B' = β - π' → A' = α - π' → β - (π' + sumProd A B / (A.x ^ 2 + A.y ^ 2 + A.z ^ 2) * (α - π') + 0 * (π' - π')) = B' - sumProd A B / (A.x ^ 2 + A.y ^ 2 + A.z ^ 2) * A' := by
      intro β π' α B' A' h1 h2
      rw [h1, h2]; ring
    show ((b.x - (p.x + _ * (a.x - p.x) + 0 * (p.x - p.x))) ^ 2 + (b.y - (p.y + _ * (a.y - p.y) + 0 * (p.y - p.y))) ^ 2 + (b.z - (p.z + _ * (a.z - p.z) + 0 * (p.z - p.z))) ^ 2) * _ = _
    rw [c _ _ _ B.x A.x rfl rfl, c _ _ _ B.y A.y rfl rfl, c _ _ _ B.z A.z rfl rfl]
    simp only [sumProd, V3.cross]
    field_simp
    ring
  rcases le_or_gt 0 r with r0 | r0
  · refine (sq_le_sq₀ (by positivity) (mag_nonneg _)).1 ?_
    rw [← e, mul_pow]
    exact mul_le_mul_of_nonneg_right (pow_le_pow_left₀ r0 key 2) (by positivity)
  · exact le_trans (by nlinarith) (mag_nonneg _)

/-- The sizes of the errors, the quadrilateral and the distances of the site. -/
structure Scale (u ε r X : ℝ) : Prop where
  eps : 200000000 * u ≤ ε
  one : 1 ≤ r
  far : r ≤ X
  fine : 1000 * (ε * X) ≤ r * r

def Big (A : V3) : Prop := |A.x| ≤ 10000000 ∧ |A.y| ≤ 10000000 ∧ |A.z| ≤ 10000000

/-- The computed corners and their places. -/
structure Nearby (ε : ℝ) (q : Quad D3) (c : Quad V3) : Prop where
  p0 : Near ε q.p0 c.p0 ∧ Big c.p0
  p1 : Near ε q.p1 c.p1 ∧ Big c.p1
  p2 : Near ε q.p2 c.p2 ∧ Big c.p2
  p3 : Near ε q.p3 c.p3 ∧ Big c.p3

variable {u ε r X l : ℝ} {L : MathLib} {sum : ℚ → ℚ → ℚ → ℚ} {q : Quad D3} {c : Quad V3} {x : D3} {y : V3}

theorem Scale.pos (hu : Precise u) (h : Scale u ε r X) : 0 < ε := by
  have := (tiny hu).1
  linarith [h.eps]

theorem Scale.ratio (hu : Precise u) (h : Scale u ε r X) : 0 < ε / r ∧ ε / r * r = ε ∧ ε / r ≤ 1 / 1000 ∧ ε ≤ r / 1000 := by
  have e0 := h.pos hu
  have r0 : 0 < r := by linarith [h.one]
  have k : 1000 * ε ≤ r := by
    have h1 := mul_le_mul_of_nonneg_left h.far e0.le
    have h2 : 1000 * ε * r ≤ r * r := by linarith [h.fine]
    exact le_of_mul_le_mul_right h2 r0
  exact ⟨by positivity, by field_simp, by rw [div_le_iff₀ r0]; linarith, by linarith⟩

theorem sub_near (hu : Precise u) (h : 200000000 * u ≤ ε) {a b : D3} {A B : V3} (ha : Near ε a A ∧ Big A) (hb : Near ε b B ∧ Big B) :
    Near (3 * ε) (a.sub b) (A.sub B) ∧ (A.sub B).mag ≤ 40000000 := by
  obtain ⟨u0, u1, τ0, τ2, τ1, τu⟩ := tiny hu
  have key : ∀ {p q : ℚ} {P Q : ℝ}, |(p : ℝ) - P| ≤ ε → |(q : ℝ) - Q| ≤ ε → |P| ≤ 10000000 → |Q| ≤ 10000000 →
      |((rnd (p - q) : ℚ) : ℝ) - (P - Q)| ≤ 3 * ε ∧ |P - Q| ≤ 20000000 := by
    intro p q P Q hp hq hP hQ
    have e0 := (abs_nonneg _).trans hp
    have r := rnd_real hu (p - q)
    push_cast at r
    have k1 : |(p : ℝ) - q| ≤ 20000000 + 2 * ε := by
      rw [abs_le] at *
      constructor <;> linarith
    have k2 := mul_le_mul_of_nonneg_left k1 u0.le
    have k3 : u * ε ≤ 1 / 1000000000000 * ε := mul_le_mul_of_nonneg_right u1 e0
    constructor
    · generalize ((rnd (p - q) : ℚ) : ℝ) = z at *
      rw [abs_le] at *
      constructor <;> linarith
    · rw [abs_le] at *
      constructor <;> linarith
  obtain ⟨⟨a1, a2, a3⟩, A1, A2, A3⟩ := ha
  obtain ⟨⟨b1, b2, b3⟩, B1, B2, B3⟩ := hb
  refine ⟨⟨(key a1 b1 A1 B1).1, (key a2 b2 A2 B2).1, (key a3 b3 A3 B3).1⟩, ?_⟩
  refine le_trans (mag_le (a := A.sub B) (e := 20000000) (key a1 b1 A1 B1).2 (key a2 b2 A2 B2).2 (key a3 b3 A3 B3).2) ?_
  norm_num

/-- The normal as it is computed. -/
theorem normal_near (hu : Precise u) (hL : RightTo u L) (hS : Scale u ε r X) (hw : WellShaped r l c) (hq : Nearby ε q c) :
    ∃ n, quadNormal L q = some n ∧ Near (60 * (ε / r)) n (outerNormal c) := by
  obtain ⟨u0, u1, τ0, τ2, τ1, τu⟩ := tiny hu
  obtain ⟨κ0, κr, κ1, εr⟩ := hS.ratio hu
  have ε0 := hS.pos hu
  have r1 := hS.one
  have ue := hS.eps
  obtain ⟨nA, mA⟩ := sub_near hu ue hq.p1 hq.p0
  obtain ⟨nB, mB⟩ := sub_near hu ue hq.p2 hq.p0
  have rP := (sides_pos hw).1
  have rQ : r ≤ (c.p2.sub c.p0).mag := by
    have := hw.heights.1 c.p0 ⟨0, by ext <;> simp [combine]⟩
    rwa [← distance_distSq, distance_mag] at this
  have hc := cross_near hu nA nB
  have c1 := height_cross hw.heights.1 (by linarith)
  have c2 := height_cross hw.heights.2 (by linarith)
  have c3 : ((c.p2.sub c.p0).cross (c.p1.sub c.p0)).mag = ((c.p1.sub c.p0).cross (c.p2.sub c.p0)).mag := by
    unfold V3.mag
    congr 1
    simp only [V3.cross]
    ring
  rw [c3] at c2
  unfold quadNormal
  unfold outerNormal
  set P := (c.p1.sub c.p0).mag
  set Q := (c.p2.sub c.p0).mag
  set C := (c.p1.sub c.p0).cross (c.p2.sub c.p0)
  have P0 : 0 < P := by linarith
  have Q0 : 0 < Q := by linarith
  have bound : 2 * (3 * ε * Q + 3 * ε * P + 3 * ε * (3 * ε)) + 5 * (u * ((P + 3 * ε) * (Q + 3 * ε))) + 4 * 2 ^ (-1075 : ℤ) ≤ 8 * (ε * (P + Q)) := by
    have k1 : ε * ε ≤ ε * (P / 1000) := mul_le_mul_of_nonneg_left (by linarith) ε0.le
    have k2 : u * (P + 3 * ε) ≤ 21 / 100 * ε := by
      have : u * (P + 3 * ε) ≤ u * 42000000 := mul_le_mul_of_nonneg_left (by linarith) u0.le
      linarith
    have k3 : u * ((P + 3 * ε) * (Q + 3 * ε)) ≤ 21 / 100 * ε * (Q + 3 * (Q / 1000)) := by
      rw [← mul_assoc]
      exact mul_le_mul k2 (by linarith) (by linarith) (by positivity)
    have k4 : 4 * (2 : ℝ) ^ (-1075 : ℤ) ≤ ε / 100 := by linarith
    have k5 : ε ≤ ε * Q := le_mul_of_one_le_right ε0.le (by linarith)
    have : 0 < ε * P := by positivity
    nlinarith
  have hc' : Near (8 * (ε * (P + Q))) (((q.p1.sub q.p0).cross (q.p2.sub q.p0))) C := ⟨hc.1.trans bound, hc.2.1.trans bound, hc.2.2.trans bound⟩
  have C1 : 1 ≤ C.mag := le_trans (by nlinarith) c1
  have big : 8 * (ε * (P + Q)) ≤ 16 * (ε / r) * C.mag := by
    have e : 8 * (ε * (P + Q)) = 8 * (ε / r) * (r * P + r * Q) := by
      field_simp
    rw [e]
    have := mul_le_mul_of_nonneg_left (by linarith : r * P + r * Q ≤ 2 * C.mag) (by positivity : 0 ≤ 8 * (ε / r))
    linarith
  obtain ⟨n, hn, b⟩ := unit_real hu hL hc' C1 (by
    refine big.trans ?_
    have := mul_le_mul_of_nonneg_right κ1 (by linarith : 0 ≤ C.mag)
    linarith)
  refine ⟨n, hn, ?_⟩
  have fin : 3 * (8 * (ε * (P + Q)) / C.mag) + 13 * u ≤ 60 * (ε / r) := by
    have k1 : 8 * (ε * (P + Q)) / C.mag ≤ 16 * (ε / r) := by
      rw [div_le_iff₀ (by linarith)]
      exact big
    have k2 : u ≤ ε / r / 5 := by
      have : ε / r * r ≤ ε / r * 40000000 := mul_le_mul_of_nonneg_left (by linarith) κ0.le
      linarith
    linarith
  exact ⟨b.1.trans fin, b.2.1.trans fin, b.2.2.trans fin⟩

/-- The sums that decide whether a point is inside. -/
theorem gap_near (hu : Precise u) (hs : SumTo u sum) (hS : Scale u ε r X) {n : D3} {N : V3} (hn : Near (60 * (ε / r)) n N) (hN : N.mag = 1) {a b : D3} {A B : V3} (ha : Near ε a A ∧ Big A)
    (hb : Near ε b B ∧ Big B) (hE : r ≤ (B.sub A).mag) (hx : Near ε x y ∧ Big y) (hX : (A.sub y).mag ≤ X) :
    |(rowSum sum ((b.sub a).cross n) (a.sub x) : ℝ) - gap N A B y| ≤ 300 * (ε / r) * X * (B.sub A).mag := by
  obtain ⟨u0, u1, τ0, τ2, τ1, τu⟩ := tiny hu
  obtain ⟨κ0, κr, κ1, εr⟩ := hS.ratio hu
  have ε0 := hS.pos hu
  have r1 := hS.one
  have ue := hS.eps
  have rX := hS.far
  obtain ⟨nE, mE⟩ := sub_near hu ue hb ha
  obtain ⟨nW, mW⟩ := sub_near hu ue ha hx
  have hc := cross_near hu nE hn
  have gE : ((B.sub A).cross N).mag ≤ (B.sub A).mag := by
    refine (sq_le_sq₀ (mag_nonneg _) (mag_nonneg _)).1 ?_
    have : (B.sub A).mag ^ 2 = (B.sub A).mag ^ 2 * N.mag ^ 2 := by rw [hN]; ring
    rw [this, mag_sq, mag_sq, mag_sq]
    generalize B.sub A = E
    simp only [V3.cross]
    nlinarith [sq_nonneg (E.x * N.x + E.y * N.y + E.z * N.z)]
  rw [hN] at hc
  have g0 := mag_nonneg ((B.sub A).cross N)
  have w0 := mag_nonneg (A.sub y)
  unfold gap
  set E := (B.sub A).mag
  set κ := ε / r
  have E0 : 0 < E := by linarith
  have X0 : 0 < X := by linarith
  have εE : ε ≤ κ * E := by
    rw [← κr]
    exact mul_le_mul_of_nonneg_left hE κ0.le
  have εX : ε ≤ κ * X := by
    rw [← κr]
    exact mul_le_mul_of_nonneg_left rX κ0.le
  have κE0 : 0 < κ * E := by positivity
  have bound : 2 * (3 * ε * 1 + 60 * κ * E + 3 * ε * (60 * κ)) + 5 * (u * ((E + 3 * ε) * (1 + 60 * κ))) + 4 * 2 ^ (-1075 : ℤ) ≤ 130 * (κ * E) := by
    have k1 : ε * κ ≤ ε * (1 / 1000) := mul_le_mul_of_nonneg_left κ1 ε0.le
    have k2 : u * (E + 3 * ε) ≤ 21 / 100 * ε := by
      have : u * (E + 3 * ε) ≤ u * 42000000 := mul_le_mul_of_nonneg_left (by linarith) u0.le
      linarith
    have k3 : u * ((E + 3 * ε) * (1 + 60 * κ)) ≤ 21 / 100 * ε * 2 := by
      rw [← mul_assoc]
      exact mul_le_mul k2 (by linarith) (by linarith) (by positivity)
    have k4 : 4 * (2 : ℝ) ^ (-1075 : ℤ) ≤ ε / 1000 := by linarith
    nlinarith
  have hc' : Near (130 * (κ * E)) ((b.sub a).cross n) ((B.sub A).cross N) := ⟨hc.1.trans bound, hc.2.1.trans bound, hc.2.2.trans bound⟩
  refine (dot_near hu hs hc' nW).trans ?_
  generalize ((B.sub A).cross N).mag = G at *
  generalize (A.sub y).mag = W at *
  have W6 : W + 2 * (3 * ε) ≤ 101 / 100 * X := by linarith
  have W6' : 0 ≤ W + 2 * (3 * ε) := by linarith
  have t1 : 2 * (130 * (κ * E)) * (W + 2 * (3 * ε)) ≤ 2 * (130 * (κ * E)) * (101 / 100 * X) := mul_le_mul_of_nonneg_left W6 (by positivity)
  have t2 : ε * G ≤ κ * X * E := mul_le_mul εX gE g0 (by positivity)
  have t3 : u * (G + 2 * (130 * (κ * E))) ≤ 26 / 100 * (κ * E) := by
    have k : G + 2 * (130 * (κ * E)) ≤ 126 / 100 * E := by
      have := mul_le_mul_of_nonneg_right κ1 E0.le
      linarith
    have k2 : u * (G + 2 * (130 * (κ * E))) ≤ u * (126 / 100 * 40000000) := mul_le_mul_of_nonneg_left (by linarith) u0.le
    linarith
  have t4 : u * ((G + 2 * (130 * (κ * E))) * (W + 2 * (3 * ε))) ≤ 26 / 100 * (κ * E) * (101 / 100 * X) := by
    rw [← mul_assoc]
    exact mul_le_mul t3 W6 W6' (by positivity)
  have t5 : 10 * (2 : ℝ) ^ (-1075 : ℤ) ≤ κ * X * E := by
    have : ε * 1 ≤ κ * X * E := mul_le_mul εX (by linarith) (by norm_num) (by positivity)
    linarith
  have e1 : κ * E * X = κ * X * E := by ring
  nlinarith

/-- The distance from the plane as it is computed. -/
theorem height_near (hu : Precise u) (hs : SumTo u sum) (hS : Scale u ε r X) {n : D3} {N : V3} (hn : Near (60 * (ε / r)) n N) (hN : N.mag = 1) {a : D3} {A : V3} (ha : Near ε a A ∧ Big A)
    (hx : Near ε x y ∧ Big y) (hX : (A.sub y).mag ≤ X) :
    |(rowSum sum (a.sub x) n : ℝ) - sumProd (A.sub y) N| ≤ 140 * (ε / r * X) := by
  obtain ⟨u0, u1, τ0, τ2, τ1, τu⟩ := tiny hu
  obtain ⟨κ0, κr, κ1, εr⟩ := hS.ratio hu
  have ε0 := hS.pos hu
  have r1 := hS.one
  have ue := hS.eps
  have rX := hS.far
  obtain ⟨nW, mW⟩ := sub_near hu ue ha hx
  have w0 := mag_nonneg (A.sub y)
  refine (dot_near hu hs nW hn).trans ?_
  rw [hN]
  generalize (A.sub y).mag = W at *
  set κ := ε / r
  have X0 : 0 < X := by linarith
  have εX : ε ≤ κ * X := by
    rw [← κr]
    exact mul_le_mul_of_nonneg_left rX κ0.le
  have t1 : κ * W ≤ κ * X := mul_le_mul_of_nonneg_left hX κ0.le
  have t2 : ε * κ ≤ ε * (1 / 1000) := mul_le_mul_of_nonneg_left κ1 ε0.le
  have t3 : u * (W + 2 * (3 * ε)) ≤ 3 / 10 * ε := by
    by_cases big : r ≤ 50000000
    · have : u * (W + 2 * (3 * ε)) ≤ u * 42000000 := mul_le_mul_of_nonneg_left (by linarith) u0.le
      linarith
    · have : u * (W + 2 * (3 * ε)) = u * W + 6 * (u * ε) := by ring
      have k1 : u * W ≤ u * 40000000 := mul_le_mul_of_nonneg_left mW u0.le
      have k2 : u * ε ≤ 1 / 1000000000000 * ε := mul_le_mul_of_nonneg_right u1 ε0.le
      linarith
  have t4 : u * ((W + 2 * (3 * ε)) * (1 + 2 * (60 * κ))) ≤ 3 / 10 * ε * 2 := by
    rw [← mul_assoc]
    exact mul_le_mul t3 (by linarith) (by linarith) (by positivity)
  nlinarith

/-- The distance from one side as it is computed. -/
theorem side_near (hu : Precise u) (hs : SumTo u sum) (ue : 200000000 * u ≤ ε) (hε : ε ≤ 1000000) {a b : D3} {A B : V3} (ha : Near ε a A ∧ Big A) (hb : Near ε b B ∧ Big B)
    (hx : Near ε x y ∧ Big y) :
    (∃ z ∈ Spec.segment A B, |(sqrtRnd (segmentSq sum (a.sub x) (b.sub x)) : ℝ) - y.distance z| ≤ 29 * ε) ∧
    (∀ z ∈ Spec.segment A B, (sqrtRnd (segmentSq sum (a.sub x) (b.sub x)) : ℝ) ≤ y.distance z + 51 * ε) ∧ (sqrtRnd (segmentSq sum (a.sub x) (b.sub x)) : ℝ) ≤ 200000000 := by
  obtain ⟨u0, u1, -⟩ := tiny hu
  have ε0 : 0 < ε := by linarith
  obtain ⟨na, ma⟩ := sub_near hu ue ha hx
  obtain ⟨nb, mb⟩ := sub_near hu ue hb hx
  have wit : ∀ {v : D3} {V : V3}, Near (3 * ε) v V → V.mag ≤ 40000000 → Within 45000000 v := by
    intro v V hv hV
    obtain ⟨c1, c2, c3⟩ := component_le V
    obtain ⟨d1, d2, d3⟩ := hv
    refine ⟨?_, ?_, ?_⟩ <;> rw [abs_le] at * <;> constructor <;> linarith
  have wa := wit na ma
  have wb := wit nb mb
  obtain ⟨h1, h2⟩ := segment_near hu hs (M := 45000000) (by norm_num) wa wb
  have move : ∀ s, 0 ≤ s → s ≤ 1 → |(combine (exactly (a.sub x)) (exactly (b.sub x)) (exactly (a.sub x)) s 0).mag - y.distance (combine A B A s 0)| ≤ 6 * ε := by
    intro s s0 s1
    have one : ∀ {p q P Q Y : ℝ}, |p - (P - Y)| ≤ 3 * ε → |q - (Q - Y)| ≤ 3 * ε → |p + s * (q - p) + 0 * (p - p) - (P + s * (Q - P) + 0 * (P - P) - Y)| ≤ 3 * ε := by
      intro p q P Q Y hp hq
      rw [show p + s * (q - p) + 0 * (p - p) - (P + s * (Q - P) + 0 * (P - P) - Y) = (1 - s) * (p - (P - Y)) + s * (q - (Q - Y)) by ring]
      rw [abs_le] at *
      constructor <;> nlinarith
    rw [distance_comm, distance_mag]
    have := mag_near (a := combine (exactly (a.sub x)) (exactly (b.sub x)) (exactly (a.sub x)) s 0) (b := (combine A B A s 0).sub y) (one na.1 nb.1) (one na.2.1 nb.2.1) (one na.2.2 nb.2.2)
    linarith
  have near0 : ∀ s, 0 ≤ s → s ≤ 1 → (combine (exactly (a.sub x)) (exactly (b.sub x)) (exactly (a.sub x)) s 0).mag ≤ 90000000 := by
    intro s s0 s1
    have one : ∀ {p q : ℝ}, |p| ≤ 45000000 → |q| ≤ 45000000 → |p + s * (q - p) + 0 * (p - p)| ≤ 45000000 := by
      intro p q hp hq
      rw [show p + s * (q - p) + 0 * (p - p) = (1 - s) * p + s * q by ring]
      rw [abs_le] at *
      constructor <;> nlinarith
    have := mag_le (a := combine (exactly (a.sub x)) (exactly (b.sub x)) (exactly (a.sub x)) s 0) (one wa.1 wb.1) (one wa.2.1 wb.2.1) (one wa.2.2 wb.2.2)
    linarith
  generalize (sqrtRnd (segmentSq sum (a.sub x) (b.sub x)) : ℝ) = D at *
  obtain ⟨z, ⟨s, s0, s1, rfl⟩, hz⟩ := h1
  refine ⟨⟨_, ⟨s, s0, s1, rfl⟩, ?_⟩, ?_, ?_⟩
  · have m := move s s0 s1
    rw [abs_le] at *
    constructor <;> linarith
  · rintro z ⟨t, t0, t1, rfl⟩
    have m := move t t0 t1
    have k := h2 _ ⟨t, t0, t1, rfl⟩
    rw [abs_le] at *
    linarith
  · have := near0 s s0 s1
    rw [abs_le] at *
    linarith

/-- The root of a number that is at most another. -/
theorem root_le (hu : Precise u) (ue : 200000000 * u ≤ ε) {m v : ℚ} (m0 : 0 ≤ m) (hm : m ≤ v) (hv : (sqrtRnd v : ℝ) ≤ 200000000) : (sqrtRnd m : ℝ) ≤ sqrtRnd v + 3 * ε := by
  obtain ⟨u0, u1, -⟩ := tiny hu
  have r1 := sqrtRnd_real hu m0
  have r2 := sqrtRnd_real hu (m0.trans hm)
  have k := Real.sqrt_le_sqrt ((Rat.cast_le (K := ℝ)).2 hm)
  have k0 := Real.sqrt_nonneg (m : ℝ)
  generalize √(m : ℝ) = a at *
  generalize √(v : ℝ) = b at *
  have b1 : b ≤ 210000000 := by
    have := mul_le_mul_of_nonneg_right u1 (k0.trans k)
    linarith [(abs_le.1 r2).1]
  have h1 := mul_le_mul_of_nonneg_left b1 u0.le
  have h2 := mul_le_mul_of_nonneg_left k u0.le
  rw [abs_le] at *
  linarith

/-- The distance from the boundary as it is computed. -/
theorem edges_near (hu : Precise u) (hs : SumTo u sum) (ue : 200000000 * u ≤ ε) (hε : ε ≤ 1000000) (hq : Nearby ε q c) (hx : Near ε x y ∧ Big y) :
    |(sqrtRnd (edgesSq sum q x) : ℝ) - rim c y| ≤ 54 * ε := by
  have ε0 : 0 < ε := by linarith [(tiny hu).1]
  obtain ⟨i0, j0, b0⟩ := side_near hu hs ue hε hq.p0 hq.p1 hx
  obtain ⟨i1, j1, b1⟩ := side_near hu hs ue hε hq.p1 hq.p2 hx
  obtain ⟨i2, j2, b2⟩ := side_near hu hs ue hε hq.p2 hq.p3 hx
  obtain ⟨i3, j3, b3⟩ := side_near hu hs ue hε hq.p3 hq.p0 hx
  obtain ⟨⟨z, hz, e⟩, least⟩ := edgeDist_spec c y
  have n0 := segmentSq_nonneg sum (q.p0.sub x) (q.p1.sub x)
  have n1 := segmentSq_nonneg sum (q.p1.sub x) (q.p2.sub x)
  have n2 := segmentSq_nonneg sum (q.p2.sub x) (q.p3.sub x)
  have n3 := segmentSq_nonneg sum (q.p3.sub x) (q.p0.sub x)
  have m0 : 0 ≤ edgesSq sum q x := le_min (le_min n0 n1) (le_min n2 n3)
  have l0 : edgesSq sum q x ≤ segmentSq sum (q.p0.sub x) (q.p1.sub x) := (min_le_left _ _).trans (min_le_left _ _)
  have l1 : edgesSq sum q x ≤ segmentSq sum (q.p1.sub x) (q.p2.sub x) := (min_le_left _ _).trans (min_le_right _ _)
  have l2 : edgesSq sum q x ≤ segmentSq sum (q.p2.sub x) (q.p3.sub x) := (min_le_right _ _).trans (min_le_left _ _)
  have l3 : edgesSq sum q x ≤ segmentSq sum (q.p3.sub x) (q.p0.sub x) := (min_le_right _ _).trans (min_le_right _ _)
  have one : edgesSq sum q x = segmentSq sum (q.p0.sub x) (q.p1.sub x) ∨ edgesSq sum q x = segmentSq sum (q.p1.sub x) (q.p2.sub x) ∨
      edgesSq sum q x = segmentSq sum (q.p2.sub x) (q.p3.sub x) ∨ edgesSq sum q x = segmentSq sum (q.p3.sub x) (q.p0.sub x) := by
    unfold edgesSq
    rcases min_choice (min (segmentSq sum (q.p0.sub x) (q.p1.sub x)) (segmentSq sum (q.p1.sub x) (q.p2.sub x)))
      (min (segmentSq sum (q.p2.sub x) (q.p3.sub x)) (segmentSq sum (q.p3.sub x) (q.p0.sub x))) with h | h <;> rw [h]
    · rcases min_choice (segmentSq sum (q.p0.sub x) (q.p1.sub x)) (segmentSq sum (q.p1.sub x) (q.p2.sub x)) with k | k <;> rw [k] <;> simp
    · rcases min_choice (segmentSq sum (q.p2.sub x) (q.p3.sub x)) (segmentSq sum (q.p3.sub x) (q.p0.sub x)) with k | k <;> rw [k] <;> simp
  have k0 := root_le hu ue m0 l0 b0
  have k1 := root_le hu ue m0 l1 b1
  have k2 := root_le hu ue m0 l2 b2
  have k3 := root_le hu ue m0 l3 b3
  have rz : rim c y = y.distance z := by
    unfold rim
    rw [distance_distSq, e]
  rw [abs_le]
  constructor
  · have low : ∀ w ∈ Spec.segment c.p0 c.p1 ∪ Spec.segment c.p1 c.p2 ∪ Spec.segment c.p2 c.p3 ∪ Spec.segment c.p3 c.p0, rim c y ≤ y.distance w := by
      intro w hw
      unfold rim
      rw [distance_distSq]
      exact Real.sqrt_le_sqrt (least w hw)
    have get : ∃ w ∈ Spec.segment c.p0 c.p1 ∪ Spec.segment c.p1 c.p2 ∪ Spec.segment c.p2 c.p3 ∪ Spec.segment c.p3 c.p0, |(sqrtRnd (edgesSq sum q x) : ℝ) - y.distance w| ≤ 29 * ε := by
      rcases one with o | o | o | o <;> rw [o]
      · obtain ⟨w, hw, h⟩ := i0
        exact ⟨w, .inl (.inl (.inl hw)), h⟩
      · obtain ⟨w, hw, h⟩ := i1
        exact ⟨w, .inl (.inl (.inr hw)), h⟩
      · obtain ⟨w, hw, h⟩ := i2
        exact ⟨w, .inl (.inr hw), h⟩
      · obtain ⟨w, hw, h⟩ := i3
        exact ⟨w, .inr hw, h⟩
    obtain ⟨w, hw, h⟩ := get
    have := low w hw
    linarith [(abs_le.1 h).1]
  · rw [rz]
    rcases hz with ((h | h) | h) | h
    · linarith [j0 z h]
    · linarith [j1 z h]
    · linarith [j2 z h]
    · linarith [j3 z h]

/-- The root of the square of a number. -/
theorem root_sq (hu : Precise u) (hL : RightTo u L) (h : ℚ) : 0 ≤ sqrtRnd (L.sq |h|) ∧ |(sqrtRnd (L.sq |h|) : ℝ) - abs (h : ℝ)| ≤ 8 * u * |(h : ℝ)| + u := by
  obtain ⟨u0, u1, τ0, τ2, τ1, τu⟩ := tiny hu
  have h0 := hL.sq_nonneg |h|
  have s := hL.sq |h|
  rw [Rat.cast_abs, sq_abs, τ1] at s
  have hr := root_near (a := ((L.sq |h| : ℚ) : ℝ)) (y := (h : ℝ) ^ 2) (e := 2 ^ (-1075 : ℤ)) u0 (by linarith) (by positivity) (by exact_mod_cast h0) (by linarith) (by
    have : 0 ≤ u * (h : ℝ) ^ 2 := by positivity
    linarith)
  rw [Real.sqrt_sq_eq_abs] at hr
  have hs := sqrtRnd_real hu h0
  refine ⟨sqrtRnd_nonneg' hu h0, ?_⟩
  have p := abs_nonneg (h : ℝ)
  generalize |(h : ℝ)| = A at *
  generalize √((L.sq |h| : ℚ) : ℝ) = B at *
  have t := abs_sub_le ((sqrtRnd (L.sq |h|) : ℚ) : ℝ) B A
  have hB : B ≤ A + (6 * u * A + u / 2) := by linarith [(abs_le.1 hr).2]
  have := mul_le_mul_of_nonneg_left hB u0.le
  have uA : 0 ≤ u * A := by positivity
  have : u * (6 * u * A) ≤ u * A / 2 := by nlinarith
  have : u * (u / 2) ≤ u / 4 := by nlinarith
  linarith

theorem sign_true {z : Bool} {g : ℚ} (h : signBit z g = true) : g ≤ 0 := by
  unfold signBit at h
  split_ifs at h with k
  · exact k.le
  · exact (of_decide_eq_true h).le

theorem sign_false {z : Bool} {g : ℚ} (h : signBit z g = false) : 0 ≤ g := by
  unfold signBit at h
  split_ifs at h with k
  · exact k.ge
  · exact not_lt.1 (of_decide_eq_false h)

theorem sign_pos {z : Bool} {g : ℚ} (h : 0 < g) : signBit z g = false := by
  unfold signBit
  rw [if_neg h.ne']
  exact decide_eq_false (not_lt.2 h.le)

/-- What the computed test says, and the distances in both cases. -/
theorem quad_core (hu : Precise u) (hL : RightTo u L) (hs : SumTo u sum) (hS : Scale u ε r X) (hw : WellShaped r l c) (hq : Nearby ε q c) (hx : Near ε x y ∧ Big y)
    (hX0 : (c.p0.sub y).mag ≤ X) (hX1 : (c.p1.sub y).mag ≤ X) (hX2 : (c.p2.sub y).mag ≤ X) (hX3 : (c.p3.sub y).mag ≤ X) (zeros : Quad Bool) :
    ∃ n, quadNormal L q = some n ∧ r ≤ l ∧ near c y ≤ 40000000 ∧
      (insideQuad sum zeros n q x = true → 0 ≤ sqrtRnd (L.sq |rowSum sum (q.p0.sub x) n|) ∧ (sqrtRnd (L.sq |rowSum sum (q.p0.sub x) n|) : ℝ) ≤ 300000000 ∧ |(sqrtRnd (L.sq |rowSum sum (q.p0.sub x) n|) : ℝ) - near c y| ≤ 1500 * (ε / r * X * (l / r)) ∧
        ∃ z ∈ surfaceOf c.p0 c.p1 c.p2 c.p3, (foot c y).distance z ≤ 300 * (ε / r * X * (l / r))) ∧
      (insideQuad sum zeros n q x = false → 0 ≤ sqrtRnd (edgesSq sum q x) ∧ (sqrtRnd (edgesSq sum q x) : ℝ) ≤ 300000000 ∧ |(sqrtRnd (edgesSq sum q x) : ℝ) - near c y| ≤ 1500 * (ε / r * X * (l / r))) ∧
      (300 * (ε / r * X) * (c.p1.sub c.p0).mag < (gaps c y).p0 → 300 * (ε / r * X) * (c.p2.sub c.p1).mag < (gaps c y).p1 →
        300 * (ε / r * X) * (c.p3.sub c.p2).mag < (gaps c y).p2 → 300 * (ε / r * X) * (c.p0.sub c.p3).mag < (gaps c y).p3 → insideQuad sum zeros n q x = true) := by
  obtain ⟨u0, u1, -⟩ := tiny hu
  obtain ⟨κ0, κr, κ1, εr⟩ := hS.ratio hu
  have ε0 := hS.pos hu
  have r1 := hS.one
  have ue := hS.eps
  have rX := hS.far
  have r0 : 0 < r := by linarith
  have X0 : 0 < X := by linarith
  obtain ⟨hN, hpl, hsf, -⟩ := Shape.frame hw.convex
  obtain ⟨s0, s1, s2, s3⟩ := sides_pos hw
  obtain ⟨n, hn, nn⟩ := normal_near hu hL hS hw hq
  have Nm : (outerNormal c).mag = 1 := by
    have : (outerNormal c).mag ^ 2 = 1 ^ 2 := by
      rw [one_pow, ← hN, mag_sq]; simp only [sumProd]; ring
    exact (sq_eq_sq₀ (mag_nonneg _) (by norm_num)).1 this
  have hε : ε ≤ 1000000 := by
    have := (sub_near hu ue hq.p1 hq.p0).2
    linarith
  have c0 : c.p0 ∈ surfaceOf c.p0 c.p1 c.p2 c.p3 := edges_subset (.inl (.inl (.inl ⟨0, le_refl _, by norm_num, by ext <;> simp [combine]⟩)))
  have c1 : c.p1 ∈ surfaceOf c.p0 c.p1 c.p2 c.p3 := edges_subset (.inl (.inl (.inr ⟨0, le_refl _, by norm_num, by ext <;> simp [combine]⟩)))
  have rl : r ≤ l := hw.sides.1.trans (hw.size _ c0 _ c1)
  have mA := (sub_near hu ue hq.p0 hx).2
  have hnear : near c y ≤ 40000000 := by
    refine le_trans ?_ mA
    unfold near
    rw [← distance_mag, distance_comm, distance_distSq]
    exact Real.sqrt_le_sqrt ((C96_surface_distance hw.convex y).1.2 _ c0)
  have lr1 : 1 ≤ l / r := (one_le_div r0).2 rl
  have κX0 : 0 < ε / r * X := by positivity
  have εX : ε ≤ ε / r * X := by
    conv_lhs => rw [← κr]
    exact mul_le_mul_of_nonneg_left rX κ0.le
  have kX : ε / r * X ≤ ε / r * X * (l / r) := le_mul_of_one_le_right κX0.le lr1
  have g0 := gap_near hu hs hS nn Nm hq.p0 hq.p1 s0 hx hX0
  have g1 := gap_near hu hs hS nn Nm hq.p1 hq.p2 s1 hx hX1
  have g2 := gap_near hu hs hS nn Nm hq.p2 hq.p3 s2 hx hX2
  have g3 := gap_near hu hs hS nn Nm hq.p3 hq.p0 s3 hx hX3
  have hh := height_near hu hs hS nn Nm hq.p0 hx hX0
  have small : 300 * (ε / r * X) < r / 2 := by
    have : 1000 * (ε / r * X) ≤ r := by
      have e : ε / r * X = ε * X / r := by ring
      rw [e, ← mul_div_assoc, div_le_iff₀ r0]
      exact hS.fine
    linarith
  have eg : ∀ m : ℝ, 300 * (ε / r) * X * m = 300 * (ε / r * X) * m := fun m => by ring
  rw [eg] at g0 g1 g2 g3
  have tot : 300 * (ε / r * X) * l / r = 300 * (ε / r * X * (l / r)) := by ring
  refine ⟨n, hn, rl, hnear, ?_, ?_, ?_⟩
  · intro hi
    have low : -(300 * (ε / r * X) * (c.p1.sub c.p0).mag) ≤ (gaps c y).p0 ∧ -(300 * (ε / r * X) * (c.p2.sub c.p1).mag) ≤ (gaps c y).p1 ∧
        -(300 * (ε / r * X) * (c.p3.sub c.p2).mag) ≤ (gaps c y).p2 ∧ -(300 * (ε / r * X) * (c.p0.sub c.p3).mag) ≤ (gaps c y).p3 := by
      unfold insideQuad at hi
      simp only [Bool.and_eq_true, beq_iff_eq] at hi
      obtain ⟨⟨e1, e2⟩, e3⟩ := hi
      simp only [gaps]
      rcases Bool.eq_false_or_eq_true (signBit zeros.p0 (rowSum sum ((q.p1.sub q.p0).cross n) (q.p0.sub x))) with t | f
      · have a0 : (rowSum sum ((q.p1.sub q.p0).cross n) (q.p0.sub x) : ℝ) ≤ 0 := by exact_mod_cast sign_true t
        have a1 : (rowSum sum ((q.p2.sub q.p1).cross n) (q.p1.sub x) : ℝ) ≤ 0 := by exact_mod_cast sign_true (e1 ▸ t)
        have a2 : (rowSum sum ((q.p3.sub q.p2).cross n) (q.p2.sub x) : ℝ) ≤ 0 := by exact_mod_cast sign_true (e2 ▸ e1 ▸ t)
        have a3 : (rowSum sum ((q.p0.sub q.p3).cross n) (q.p3.sub x) : ℝ) ≤ 0 := by exact_mod_cast sign_true (e3 ▸ e2 ▸ e1 ▸ t)
        exfalso
        refine not_all_outside hw r0 (η := 300 * (ε / r * X)) (x := y) (by linarith) ?_ ?_ ?_ ?_ <;> simp only [gaps]
        · linarith [(abs_le.1 g0).1]
        · linarith [(abs_le.1 g1).1]
        · linarith [(abs_le.1 g2).1]
        · linarith [(abs_le.1 g3).1]
      · have a0 : (0 : ℝ) ≤ (rowSum sum ((q.p1.sub q.p0).cross n) (q.p0.sub x) : ℝ) := by exact_mod_cast sign_false f
        have a1 : (0 : ℝ) ≤ (rowSum sum ((q.p2.sub q.p1).cross n) (q.p1.sub x) : ℝ) := by exact_mod_cast sign_false (e1 ▸ f)
        have a2 : (0 : ℝ) ≤ (rowSum sum ((q.p3.sub q.p2).cross n) (q.p2.sub x) : ℝ) := by exact_mod_cast sign_false (e2 ▸ e1 ▸ f)
        have a3 : (0 : ℝ) ≤ (rowSum sum ((q.p0.sub q.p3).cross n) (q.p3.sub x) : ℝ) := by exact_mod_cast sign_false (e3 ▸ e2 ▸ e1 ▸ f)
        exact ⟨by linarith [(abs_le.1 g0).2], by linarith [(abs_le.1 g1).2], by linarith [(abs_le.1 g2).2], by linarith [(abs_le.1 g3).2]⟩
    obtain ⟨z, hz, dz⟩ := hardly_outside r0 hw (η := 300 * (ε / r * X)) (by positivity) low.1 low.2.1 low.2.2.1 low.2.2.2
    rw [tot] at dz
    obtain ⟨f0, f1, -⟩ := foot_spec hN y
    have up : near c y ≤ height c y + 300 * (ε / r * X * (l / r)) := by
      have t := distance_tri y (foot c y) z
      have : near c y ≤ y.distance z := by
        unfold near
        rw [distance_distSq]
        exact Real.sqrt_le_sqrt ((C96_surface_distance hw.convex y).1.2 _ hz)
      linarith
    have dn := (order hw.convex y).1
    obtain ⟨v0, v⟩ := root_sq hu hL (rowSum sum (q.p0.sub x) n)
    have ha : |(|(rowSum sum (q.p0.sub x) n : ℝ)|) - height c y| ≤ 140 * (ε / r * X) := (abs_abs_sub_abs_le _ _).trans hh
    have hb : |(rowSum sum (q.p0.sub x) n : ℝ)| ≤ 40000000 + r := by
      have := (abs_le.1 ha).2
      linarith
    have hb2 : |(rowSum sum (q.p0.sub x) n : ℝ)| ≤ 80000000 := by
      have := (sub_near hu ue hq.p1 hq.p0).2
      linarith
    have hc := mul_le_mul_of_nonneg_left hb2 u0.le
    refine ⟨v0, by linarith [(abs_le.1 v).2], ?_, z, hz, dz⟩
    generalize (sqrtRnd (L.sq |rowSum sum (q.p0.sub x) n|) : ℝ) = V at *
    generalize |(rowSum sum (q.p0.sub x) n : ℝ)| = H at *
    clear g0 g1 g2 g3 low
    rw [abs_le] at *
    constructor <;> linarith
  · intro hi
    have some : (gaps c y).p0 ≤ 300 * (ε / r * X) * (c.p1.sub c.p0).mag ∨ (gaps c y).p1 ≤ 300 * (ε / r * X) * (c.p2.sub c.p1).mag ∨
        (gaps c y).p2 ≤ 300 * (ε / r * X) * (c.p3.sub c.p2).mag ∨ (gaps c y).p3 ≤ 300 * (ε / r * X) * (c.p0.sub c.p3).mag := by
      simp only [gaps]
      by_contra hc
      push Not at hc
      obtain ⟨b0, b1, b2, b3⟩ := hc
      have p0 : 0 < rowSum sum ((q.p1.sub q.p0).cross n) (q.p0.sub x) := by
        have : (0 : ℝ) < (rowSum sum ((q.p1.sub q.p0).cross n) (q.p0.sub x) : ℝ) := by linarith [(abs_le.1 g0).1]
        exact_mod_cast this
      have p1 : 0 < rowSum sum ((q.p2.sub q.p1).cross n) (q.p1.sub x) := by
        have : (0 : ℝ) < (rowSum sum ((q.p2.sub q.p1).cross n) (q.p1.sub x) : ℝ) := by linarith [(abs_le.1 g1).1]
        exact_mod_cast this
      have p2 : 0 < rowSum sum ((q.p3.sub q.p2).cross n) (q.p2.sub x) := by
        have : (0 : ℝ) < (rowSum sum ((q.p3.sub q.p2).cross n) (q.p2.sub x) : ℝ) := by linarith [(abs_le.1 g2).1]
        exact_mod_cast this
      have p3 : 0 < rowSum sum ((q.p0.sub q.p3).cross n) (q.p3.sub x) := by
        have : (0 : ℝ) < (rowSum sum ((q.p0.sub q.p3).cross n) (q.p3.sub x) : ℝ) := by linarith [(abs_le.1 g3).1]
        exact_mod_cast this
      unfold insideQuad at hi
      simp only [sign_pos p0, sign_pos p1, sign_pos p2, sign_pos p3] at hi
      simp at hi
    have in1 := hardly_inside r0 hw (η := 300 * (ε / r * X)) (by positivity) small some
    rw [tot] at in1
    have in2 := (order hw.convex y).2
    have e := edges_near hu hs ue hε hq hx
    have m0 : 0 ≤ edgesSq sum q x := by
      refine le_min (le_min ?_ ?_) (le_min ?_ ?_) <;> exact segmentSq_nonneg _ _ _
    refine ⟨sqrtRnd_nonneg' hu m0, ?_, ?_⟩
    · have b := (side_near hu hs ue hε hq.p0 hq.p1 hx).2.2
      have := root_le hu ue m0 ((min_le_left _ _).trans (min_le_left _ _)) b
      linarith
    · generalize (sqrtRnd (edgesSq sum q x) : ℝ) = V at *
      clear g0 g1 g2 g3
      rw [abs_le] at *
      constructor <;> linarith
  · intro b0 b1 b2 b3
    simp only [gaps] at b0 b1 b2 b3
    have p0 : 0 < rowSum sum ((q.p1.sub q.p0).cross n) (q.p0.sub x) := by
      have : (0 : ℝ) < (rowSum sum ((q.p1.sub q.p0).cross n) (q.p0.sub x) : ℝ) := by linarith [(abs_le.1 g0).1]
      exact_mod_cast this
    have p1 : 0 < rowSum sum ((q.p2.sub q.p1).cross n) (q.p1.sub x) := by
      have : (0 : ℝ) < (rowSum sum ((q.p2.sub q.p1).cross n) (q.p1.sub x) : ℝ) := by linarith [(abs_le.1 g1).1]
      exact_mod_cast this
    have p2 : 0 < rowSum sum ((q.p3.sub q.p2).cross n) (q.p2.sub x) := by
      have : (0 : ℝ) < (rowSum sum ((q.p3.sub q.p2).cross n) (q.p2.sub x) : ℝ) := by linarith [(abs_le.1 g2).1]
      exact_mod_cast this
    have p3 : 0 < rowSum sum ((q.p0.sub q.p3).cross n) (q.p3.sub x) := by
      have : (0 : ℝ) < (rowSum sum ((q.p0.sub q.p3).cross n) (q.p3.sub x) : ℝ) := by linarith [(abs_le.1 g3).1]
      exact_mod_cast this
    unfold insideQuad
    simp only [sign_pos p0, sign_pos p1, sign_pos p2, sign_pos p3]
    rfl

/-- The distance from one quadrilateral in kilometres. -/
theorem quad_distance (hu : Precise u) (hL : RightTo u L) (hs : SumTo u sum) (hS : Scale u ε r X) (hw : WellShaped r l c) (hq : Nearby ε q c) (hx : Near ε x y ∧ Big y)
    (hX : CornersIn X y c) (zeros : Quad Bool) (flat : Bool) :
    ∃ d, quadDistance L sum zeros flat q x = some d ∧ 0 ≤ d ∧ d ≤ 10 ^ 16 ∧ (d : ℝ) ≤ near c y / 1000 + 2 * (ε * X * l / r ^ 2) ∧
      (|(d : ℝ) - near c y / 1000| ≤ 2 * (ε * X * l / r ^ 2) ∨ flat = true ∧ d = 0 ∧ ∃ z ∈ surfaceOf c.p0 c.p1 c.p2 c.p3, (foot c y).distance z ≤ 300 * (ε * X * l / r ^ 2)) ∧
      (flat = true → 300 * (ε * X / r) * (c.p1.sub c.p0).mag < (gaps c y).p0 → 300 * (ε * X / r) * (c.p2.sub c.p1).mag < (gaps c y).p1 →
        300 * (ε * X / r) * (c.p3.sub c.p2).mag < (gaps c y).p2 → 300 * (ε * X / r) * (c.p0.sub c.p3).mag < (gaps c y).p3 → d = 0) := by
  obtain ⟨u0, u1, τ0, τ2, τ1, τu⟩ := tiny hu
  obtain ⟨κ0, κr, κ1, εr⟩ := hS.ratio hu
  have ε0 := hS.pos hu
  have r1 := hS.one
  have ue := hS.eps
  have rX := hS.far
  have r0 : 0 < r := by linarith
  have X0 : 0 < X := by linarith
  have mX : ∀ {p : V3}, √(distSq y p) ≤ X → (p.sub y).mag ≤ X := by
    intro p h
    rwa [← distance_distSq, distance_comm, distance_mag] at h
  obtain ⟨n, hn, rl, nr, inn, out, mid⟩ := quad_core hu hL hs hS hw hq hx (mX hX.1) (mX hX.2.1) (mX hX.2.2.1) (mX hX.2.2.2) zeros
  have e1 : ε / r * X * (l / r) = ε * X * l / r ^ 2 := by field_simp
  have e2 : ε / r * X = ε * X / r := by ring
  have εt : ε ≤ ε * X * l / r ^ 2 := by
    rw [← e1]
    have h1 : ε ≤ ε / r * X := by
      conv_lhs => rw [← κr]
      exact mul_le_mul_of_nonneg_left rX κ0.le
    exact h1.trans (le_mul_of_one_le_right (by positivity) ((one_le_div r0).2 rl))
  rw [e1] at inn out
  rw [e2] at mid
  generalize ht : ε * X * l / r ^ 2 = t at *
  have near0 : 0 ≤ near c y := Real.sqrt_nonneg _
  have finish : ∀ v : ℚ, 0 ≤ v → (v : ℝ) ≤ 300000000 → |(v : ℝ) - near c y| ≤ 1500 * t →
      0 ≤ rnd (v / 1000) ∧ rnd (v / 1000) ≤ 10 ^ 16 ∧ |((rnd (v / 1000) : ℚ) : ℝ) - near c y / 1000| ≤ 2 * t := by
    intro v v0 v1 hv
    have rr := rnd_real hu (v / 1000)
    push_cast at rr
    have v0' : (0 : ℝ) ≤ v := by exact_mod_cast v0
    have v2' : (0 : ℝ) ≤ (v : ℝ) / 1000 := by positivity
    rw [abs_of_nonneg v2'] at rr
    have k1 : u * ((v : ℝ) / 1000) ≤ u * 300000 := mul_le_mul_of_nonneg_left (by linarith) u0.le
    have n0 : 0 ≤ rnd (v / 1000) := rnd_nonneg (by positivity)
    refine ⟨n0, ?_, ?_⟩
    · have : ((rnd (v / 1000) : ℚ) : ℝ) ≤ 10 ^ 16 := by
        have := (abs_le.1 rr).2
        have : (u : ℝ) * 300000 ≤ 1 := by linarith
        linarith
      exact_mod_cast this
    · generalize ((rnd (v / 1000) : ℚ) : ℝ) = d at *
      rw [abs_le] at *
      constructor <;> linarith
  unfold quadDistance
  rw [hn, Option.map_some]
  rcases Bool.eq_false_or_eq_true (insideQuad sum zeros n q x) with hi | hi
  · obtain ⟨v0, v1, v2, z, hz, dz⟩ := inn hi
    rw [hi]
    cases flat with
    | false =>
      obtain ⟨a, b, d⟩ := finish _ v0 v1 v2
      refine ⟨_, rfl, a, b, ?_, .inl d, by simp⟩
      simp only [if_true, Bool.false_eq_true, if_false]
      linarith [(abs_le.1 d).2]
    | true =>
      have zz : rnd (sqrtRnd 0 / 1000) = 0 := by
        rw [sqrtRnd_zero, zero_div, rnd_zero]
      refine ⟨0, by simp [zz], le_refl _, by norm_num, ?_, .inr ⟨rfl, rfl, z, hz, dz⟩, fun _ _ _ _ _ => rfl⟩
      rw [Rat.cast_zero]
      linarith
  · obtain ⟨v0, v1, v2⟩ := out hi
    rw [hi]
    obtain ⟨a, b, d⟩ := finish _ v0 v1 v2
    refine ⟨_, rfl, a, b, ?_, .inl d, ?_⟩
    · simp only [Bool.false_eq_true, if_false]
      linarith [(abs_le.1 d).2]
    · intro _ g0 g1 g2 g3
      rw [mid g0 g1 g2 g3] at hi
      exact absurd hi (by simp)

/-- The loop over the quadrilaterals. -/
theorem least_spec (zeros : Quad D3 → Quad Bool) (flat : Bool) (qs : List (Quad D3)) (h : ∀ q ∈ qs, ∃ d, quadDistance L sum (zeros q) flat q x = some d) (least : ℚ) :
    ∃ D, leastDistance L sum zeros flat x qs least = some D ∧ (D = least ∨ ∃ q ∈ qs, quadDistance L sum (zeros q) flat q x = some D) ∧ D ≤ least ∧
      ∀ q ∈ qs, ∀ d, quadDistance L sum (zeros q) flat q x = some d → D ≤ d := by
  induction qs generalizing least with
  | nil => exact ⟨least, rfl, .inl rfl, le_refl _, by simp⟩
  | cons q qs ih =>
    obtain ⟨d, hd⟩ := h q (by simp)
    obtain ⟨D, e, from_, le, all⟩ := ih (fun p hp => h p (by simp [hp])) (min least d)
    refine ⟨D, by rw [leastDistance, hd]; exact e, ?_, le.trans (min_le_left _ _), ?_⟩
    · rcases from_ with rfl | ⟨p, hp, hD⟩
      · rcases min_choice least d with k | k <;> rw [k]
        · exact .inl rfl
        · exact .inr ⟨q, by simp, hd⟩
      · exact .inr ⟨p, by simp [hp], hD⟩
    · intro p hp d' hd'
      rcases List.mem_cons.1 hp with rfl | hp
      · rw [hd] at hd'
        cases hd'
        exact le.trans (min_le_right _ _)
      · exact all p hp d' hd'

theorem place_big (hu : Precise u) (hL : RightTo u L) {e : ℝ} {p : GeoPoint} (hp : PlaceOnEarth p) {v w : V3} (h : PlacedAt p v) (hw : √(distSq v w) ≤ e) (he : e ≤ 1000000) :
    Near (200000000 * u + e) (fromPoint L p) w ∧ Big w := by
  obtain ⟨n, i⟩ := Edge.place_near hu hL hp h
  rw [← distance_distSq, distance_mag] at hw
  obtain ⟨c1, c2, c3⟩ := component_le (v.sub w)
  simp only [V3.sub] at c1 c2 c3
  obtain ⟨n1, n2, n3⟩ := n
  obtain ⟨i1, i2, i3⟩ := i
  have k1 := c1.trans hw
  have k2 := c2.trans hw
  have k3 := c3.trans hw
  clear c1 c2 c3
  refine ⟨⟨?_, ?_, ?_⟩, ?_, ?_, ?_⟩ <;> rw [abs_le] at * <;> constructor <;> linarith

theorem corners_near (hu : Precise u) (hL : RightTo u L) {e : ℝ} (he : e ≤ r / 1000) (he0 : 0 ≤ e) {g : Quad GeoPoint} (h : FlatWithin e r l g c) : Nearby (200000000 * u + e) (corners L g) c := by
  obtain ⟨⟨g0, g1, g2, g3⟩, hw, p, ⟨a0, a1, a2, a3⟩, d0, d1, d2, d3⟩ := h
  have small : e ≤ 1000000 := by
    have s := hw.sides.1
    obtain ⟨-, i0⟩ := Edge.place_near hu hL g0 a0
    obtain ⟨-, i1⟩ := Edge.place_near hu hL g1 a1
    rw [← distance_distSq] at s d0 d1
    have t1 := distance_tri c.p0 p.p0 c.p1
    have t2 := distance_tri p.p0 p.p1 c.p1
    rw [distance_comm c.p0 p.p0] at t1
    have sub : ∀ {a b : ℝ}, |a| ≤ 7410000 → |b| ≤ 7410000 → |a - b| ≤ 14820000 := by
      intro a b h1 h2
      rw [abs_le] at *
      constructor <;> linarith
    have t3 : p.p0.distance p.p1 ≤ 2 * 14820000 := by
      rw [distance_mag]
      exact mag_le (sub i0.1 i1.1) (sub i0.2.1 i1.2.1) (sub i0.2.2 i1.2.2)
    linarith
  exact ⟨place_big hu hL g0 a0 d0 small, place_big hu hL g1 a1 d1 small, place_big hu hL g2 a2 d2 small, place_big hu hL g3 a3 d3 small⟩

/-- The foot of the perpendicular. -/
theorem foot_of (h : ConvexPlanar c.p0 c.p1 c.p2 c.p3) (f : V3) : FootOf c y f ↔ f = foot c y := by
  obtain ⟨hN, hpl, -⟩ := Shape.frame h
  obtain ⟨f0, -, -⟩ := foot_spec hN y
  have pyth : ∀ p, sumProd (outerNormal c) (p.sub c.p0) = 0 → distSq y p = distSq y (foot c y) + distSq (foot c y) p := by
    intro p hp
    have e : distSq y p - distSq y (foot c y) - distSq (foot c y) p = -2 * sumProd (c.p0.sub y) (outerNormal c) * (sumProd (outerNormal c) ((foot c y).sub c.p0) - sumProd (outerNormal c) (p.sub c.p0)) := by
      simp only [foot, distSq, sumProd, V3.add, V3.mul, V3.sub]
      ring
    rw [f0, hp] at e
    linarith
  constructor
  · rintro ⟨hf, least⟩
    have k := least _ ((hpl _).2 f0)
    have e := pyth f ((hpl f).1 hf)
    have z : distSq (foot c y) f ≤ 0 := by linarith
    unfold distSq at z
    ext <;> nlinarith [sq_nonneg ((foot c y).x - f.x), sq_nonneg ((foot c y).y - f.y), sq_nonneg ((foot c y).z - f.z)]
  · rintro rfl
    refine ⟨(hpl _).2 f0, fun p hp => ?_⟩
    have := pyth p ((hpl p).1 hp)
    have : 0 ≤ distSq (foot c y) p := by
      unfold distSq
      positivity
    linarith

end Sur

end Verif.Props
