import Verif.Spec.QuadDistDouble
import Verif.Props.RuptureDistance
import Verif.Props.EdgeDistance

/-!
# Distances to a quadrilateral when the test for points inside is slightly wrong

Real geometry, used by C209.
-/

namespace Verif.Props
open Verif.Spec
open Verif.Rup
open Verif.Vec (V3)

namespace Shape

/-- How far a point is inside of the side from `a` to `b`, times the length of the side. -/
noncomputable def gap (N a b x : V3) : ℝ := sumProd ((b.sub a).cross N) (a.sub x)

/-- The gaps of the four sides. -/
noncomputable def gaps (q : Quad V3) (x : V3) : Quad ℝ :=
  ⟨gap (outerNormal q) q.p0 q.p1 x, gap (outerNormal q) q.p1 q.p2 x, gap (outerNormal q) q.p2 q.p3 x, gap (outerNormal q) q.p3 q.p0 x⟩

theorem inside_gaps (q : Quad V3) (x : V3) : inside q x = true ↔
    (0 ≤ (gaps q x).p0 ∧ 0 ≤ (gaps q x).p1 ∧ 0 ≤ (gaps q x).p2 ∧ 0 ≤ (gaps q x).p3) ∨ ((gaps q x).p0 < 0 ∧ (gaps q x).p1 < 0 ∧ (gaps q x).p2 < 0 ∧ (gaps q x).p3 < 0) := by
  change ((signbit (gaps q x).p0 == signbit (gaps q x).p1) && (signbit (gaps q x).p1 == signbit (gaps q x).p2) && (signbit (gaps q x).p2 == signbit (gaps q x).p3)) = true ↔ _
  unfold signbit
  generalize (gaps q x).p0 = a, (gaps q x).p1 = b, (gaps q x).p2 = c, (gaps q x).p3 = d
  by_cases ha : a < 0 <;> by_cases hb : b < 0 <;> by_cases hc : c < 0 <;> by_cases hd : d < 0 <;> simp [ha, hb, hc, hd] <;> (push Not at *; tauto)

theorem gap_total (N : V3) (q : Quad V3) (x z : V3) :
    gap N q.p0 q.p1 x + gap N q.p1 q.p2 x + gap N q.p2 q.p3 x + gap N q.p3 q.p0 x = gap N q.p0 q.p1 z + gap N q.p1 q.p2 z + gap N q.p2 q.p3 z + gap N q.p3 q.p0 z := by
  simp only [gap, sumProd, V3.cross, V3.sub]
  ring

/-- The point at the part `s` of the way from `y` to `z`, which may lie outside of the way. -/
noncomputable def toward (y z : V3) (s : ℝ) : V3 := ⟨y.x + s * (z.x - y.x), y.y + s * (z.y - y.y), y.z + s * (z.z - y.z)⟩

theorem gap_toward (N a b y z : V3) (s : ℝ) : gap N a b (toward y z s) = gap N a b y + s * (gap N a b z - gap N a b y) := by
  simp only [gap, sumProd, V3.cross, V3.sub, toward]
  ring

theorem gap_mean (N a b c0 c1 c2 c3 : V3) {w0 w1 w2 w3 : ℝ} (h : w0 + w1 + w2 + w3 = 1) :
    gap N a b (mean4 c0 c1 c2 c3 w0 w1 w2 w3) = w0 * gap N a b c0 + w1 * gap N a b c1 + w2 * gap N a b c2 + w3 * gap N a b c3 := by
  have : w0 = 1 - w1 - w2 - w3 := by linarith
  subst this
  simp only [gap, sumProd, V3.cross, V3.sub, mean4]
  ring

theorem distance_toward (y z : V3) (s : ℝ) : y.distance (toward y z s) = |s| * y.distance z := by
  unfold V3.distance toward
  simp only
  rw [← Real.sqrt_sq_eq_abs, ← Real.sqrt_mul (sq_nonneg s)]
  congr 1
  ring

theorem distance_comm (a b : V3) : a.distance b = b.distance a := by
  unfold V3.distance
  congr 1
  ring

theorem distance_nonneg (a b : V3) : 0 ≤ a.distance b := Real.sqrt_nonneg _

/-- What is known of the normal. -/
theorem frame {q : Quad V3} (h : ConvexPlanar q.p0 q.p1 q.p2 q.p3) :
    sumProd (outerNormal q) (outerNormal q) = 1 ∧ (∀ y, y ∈ plane q.p0 q.p1 q.p2 ↔ sumProd (outerNormal q) (y.sub q.p0) = 0) ∧
    (∀ y ∈ surfaceOf q.p0 q.p1 q.p2 q.p3, sumProd (outerNormal q) (y.sub q.p0) = 0 ∧ 0 ≤ (gaps q y).p0 ∧ 0 ≤ (gaps q y).p1 ∧ 0 ≤ (gaps q y).p2 ∧ 0 ≤ (gaps q y).p3) ∧
    sumProd (outerNormal q) (q.p1.sub q.p0) = 0 ∧ sumProd (outerNormal q) (q.p2.sub q.p0) = 0 ∧ sumProd (outerNormal q) (q.p3.sub q.p0) = 0 := by
  obtain ⟨h, α, β, hα, hβ, hab, hc⟩ := h
  have hpos := normal_pos h
  set n := (q.p1.sub q.p0).cross (q.p3.sub q.p0) with hn
  have e1 : (q.p1.sub q.p0).cross (q.p2.sub q.p0) = n.mul β := by
    rw [hc]
    ext <;> simp only [hn, V3.cross, V3.sub, V3.mul, combine] <;> ring
  have e2 : sumProd (n.mul β) (n.mul β) = β ^ 2 * sumProd n n := by
    simp only [sumProd, V3.mul]; ring
  have hne : n.mul β ≠ zeroVec := by
    apply ne_zero_of_pos; rw [e2]; positivity
  obtain ⟨a1, a2, a3, a4⟩ := norm_spec hne
  have oN : outerNormal q = (n.mul β).norm := by unfold outerNormal; rw [e1]
  have k0 : 0 < β / (n.mul β).mag := by positivity
  have oN' : outerNormal q = n.mul (β / (n.mul β).mag) := by
    rw [oN]
    ext <;> simp only [V3.norm, V3.mul, V3.mag] <;> ring
  have dots : ∀ y, sumProd (outerNormal q) y = β / (n.mul β).mag * sumProd n y := by
    intro y
    rw [oN']
    simp only [sumProd, V3.mul]; ring
  have z1 : sumProd (outerNormal q) (q.p1.sub q.p0) = 0 := by
    rw [dots]; simp only [hn, sumProd, V3.cross, V3.sub]; ring
  have z3 : sumProd (outerNormal q) (q.p3.sub q.p0) = 0 := by
    rw [dots]; simp only [hn, sumProd, V3.cross, V3.sub]; ring
  have z2 : sumProd (outerNormal q) (q.p2.sub q.p0) = 0 := by
    rw [hc]
    have : sumProd (outerNormal q) ((combine q.p0 q.p1 q.p3 α β).sub q.p0) = α * sumProd (outerNormal q) (q.p1.sub q.p0) + β * sumProd (outerNormal q) (q.p3.sub q.p0) := by
      simp only [sumProd, V3.sub, combine]; ring
    rw [this, z1, z3]; ring
  have corner : ∀ s1 t1 s2 t2 s t : ℝ, gap (outerNormal q) (combine q.p0 q.p1 q.p3 s1 t1) (combine q.p0 q.p1 q.p3 s2 t2) (combine q.p0 q.p1 q.p3 s t) =
      β / (n.mul β).mag * (((s2 - s1) * (t - t1) - (t2 - t1) * (s - s1)) * sumProd n n) := by
    intro s1 t1 s2 t2 s t
    rw [oN']
    generalize β / (n.mul β).mag = k
    have ea : (combine q.p0 q.p1 q.p3 s2 t2).sub (combine q.p0 q.p1 q.p3 s1 t1) = ((q.p1.sub q.p0).mul (s2 - s1)).add ((q.p3.sub q.p0).mul (t2 - t1)) := by
      ext <;> simp only [V3.sub, V3.mul, V3.add, combine] <;> ring
    have eb : (combine q.p0 q.p1 q.p3 s1 t1).sub (combine q.p0 q.p1 q.p3 s t) = ((q.p1.sub q.p0).mul (s1 - s)).add ((q.p3.sub q.p0).mul (t1 - t)) := by
      ext <;> simp only [V3.sub, V3.mul, V3.add, combine] <;> ring
    unfold gap
    rw [ea, eb, hn]
    generalize q.p1.sub q.p0 = u
    generalize q.p3.sub q.p0 = v
    simp only [sumProd, V3.cross, V3.mul, V3.add]
    ring
  have c0 : q.p0 = combine q.p0 q.p1 q.p3 0 0 := by ext <;> simp only [combine] <;> ring
  have c1 : q.p1 = combine q.p0 q.p1 q.p3 1 0 := by ext <;> simp only [combine] <;> ring
  have c3 : q.p3 = combine q.p0 q.p1 q.p3 0 1 := by ext <;> simp only [combine] <;> ring
  refine ⟨by rw [oN]; exact a3, ?_, ?_, z1, z2, z3⟩
  · intro y
    rw [mem_plane (by rw [e1, e2]; positivity), e1, dots]
    have : sumProd (n.mul β) (y.sub q.p0) = β * sumProd n (y.sub q.p0) := by simp only [sumProd, V3.mul]; ring
    rw [this, mul_eq_zero, mul_eq_zero]
    constructor
    · rintro (h | h)
      · exact absurd h hβ.ne'
      · exact .inr h
    · rintro (h | h)
      · exact absurd h k0.ne'
      · exact .inr h
  · rintro y ⟨w0, w1, w2, w3, h0, h1, h2, h3, hw, rfl⟩
    constructor
    · have e : sumProd (outerNormal q) ((mean4 q.p0 q.p1 q.p2 q.p3 w0 w1 w2 w3).sub q.p0) =
          w1 * sumProd (outerNormal q) (q.p1.sub q.p0) + w2 * sumProd (outerNormal q) (q.p2.sub q.p0) + w3 * sumProd (outerNormal q) (q.p3.sub q.p0) := by
        have : w0 = 1 - w1 - w2 - w3 := by linarith
        subst this
        simp only [sumProd, V3.sub, mean4]; ring
      rw [e, z1, z2, z3]; ring
    · unfold gaps
      dsimp only
      rw [gap_mean _ _ _ _ _ _ _ hw, gap_mean _ _ _ _ _ _ _ hw, gap_mean _ _ _ _ _ _ _ hw, gap_mean _ _ _ _ _ _ _ hw]
      have g : ∀ a b x : V3, ∀ s1 t1 s2 t2 s t, a = combine q.p0 q.p1 q.p3 s1 t1 → b = combine q.p0 q.p1 q.p3 s2 t2 → x = combine q.p0 q.p1 q.p3 s t → 0 ≤ (s2 - s1) * (t - t1) - (t2 - t1) * (s - s1) →
          0 ≤ gap (outerNormal q) a b x := by
        rintro a b x s1 t1 s2 t2 s t ha hb hx hk
        rw [ha, hb, hx, corner]
        positivity
      refine ⟨?_, ?_, ?_, ?_⟩
      · have g0 := g _ _ _ 0 0 1 0 0 0 c0 c1 c0 (by norm_num)
        have g1 := g _ _ _ 0 0 1 0 1 0 c0 c1 c1 (by norm_num)
        have g2 := g _ _ _ 0 0 1 0 α β c0 c1 hc (by linarith)
        have g3 := g _ _ _ 0 0 1 0 0 1 c0 c1 c3 (by norm_num)
        positivity
      · have g0 := g _ _ _ 1 0 α β 0 0 c1 hc c0 (by linarith)
        have g1 := g _ _ _ 1 0 α β 1 0 c1 hc c1 (by linarith)
        have g2 := g _ _ _ 1 0 α β α β c1 hc hc (by linarith)
        have g3 := g _ _ _ 1 0 α β 0 1 c1 hc c3 (by linarith)
        positivity
      · have g0 := g _ _ _ α β 0 1 0 0 hc c3 c0 (by linarith)
        have g1 := g _ _ _ α β 0 1 1 0 hc c3 c1 (by linarith)
        have g2 := g _ _ _ α β 0 1 α β hc c3 hc (by linarith)
        have g3 := g _ _ _ α β 0 1 0 1 hc c3 c3 (by linarith)
        positivity
      · have g0 := g _ _ _ 0 1 0 0 0 0 c3 c0 c0 (by norm_num)
        have g1 := g _ _ _ 0 1 0 0 1 0 c3 c0 c1 (by norm_num)
        have g2 := g _ _ _ 0 1 0 0 α β c3 c0 hc (by linarith)
        have g3 := g _ _ _ 0 1 0 0 0 1 c3 c0 c3 (by norm_num)
        positivity

/-- A point of the plane that is on the inner side of all sides belongs to the surface. -/
theorem mem_surface {q : Quad V3} (h : ConvexPlanar q.p0 q.p1 q.p2 q.p3) {y : V3} (hp : sumProd (outerNormal q) (y.sub q.p0) = 0)
    (h0 : 0 ≤ (gaps q y).p0) (h1 : 0 ≤ (gaps q y).p1) (h2 : 0 ≤ (gaps q y).p2) (h3 : 0 ≤ (gaps q y).p3) : y ∈ surfaceOf q.p0 q.p1 q.p2 q.p3 := by
  obtain ⟨⟨z, hz, e⟩, -⟩ := (C96_surface_distance h y).1
  have hi : inside q y = true := (inside_gaps q y).2 (.inl ⟨h0, h1, h2, h3⟩)
  have c : sumProd (q.p0.sub y) (outerNormal q) = 0 := by
    have : sumProd (q.p0.sub y) (outerNormal q) = -sumProd (outerNormal q) (y.sub q.p0) := by simp only [sumProd, V3.sub]; ring
    rw [this, hp, neg_zero]
  unfold quadDistSq at e
  rw [if_pos hi, if_neg (by simp), c, abs_zero] at e
  unfold distSq at e
  have ex : y.x = z.x := by nlinarith [sq_nonneg (y.x - z.x), sq_nonneg (y.y - z.y), sq_nonneg (y.z - z.z)]
  have ey : y.y = z.y := by nlinarith [sq_nonneg (y.x - z.x), sq_nonneg (y.y - z.y), sq_nonneg (y.z - z.z)]
  have ez : y.z = z.z := by nlinarith [sq_nonneg (y.x - z.x), sq_nonneg (y.y - z.y), sq_nonneg (y.z - z.z)]
  rwa [show y = z from V3.ext ex ey ez]

/-- The side as a length. -/
theorem side_mag {N e : V3} (hN : sumProd N N = 1) (he : sumProd N e = 0) : sumProd (e.cross N) (e.cross N) = e.mag ^ 2 := by
  rw [mag_sq]
  have : sumProd (e.cross N) (e.cross N) = (e.x ^ 2 + e.y ^ 2 + e.z ^ 2) * sumProd N N - sumProd N e ^ 2 := by
    simp only [sumProd, V3.cross]; ring
  rw [this, hN, he]; ring

/-- The middle of the disc is `r` inside of each side. -/
theorem disc_gap {r : ℝ} (hr : 0 ≤ r) {N a b z : V3} (hN : sumProd N N = 1) (he : sumProd N (b.sub a) = 0)
    (h : ∀ y, sumProd N (y.sub z) = 0 → z.distance y ≤ r → 0 ≤ gap N a b y) : r * (b.sub a).mag ≤ gap N a b z := by
  rcases (mag_nonneg (b.sub a)).eq_or_lt with h0 | h0
  · have := h z (by simp only [sumProd, V3.sub]; ring) (by unfold V3.distance; simp [hr])
    rw [← h0, mul_zero]
    exact this
  · have s := side_mag hN he
    have t := h (z.add (((b.sub a).cross N).mul (r / (b.sub a).mag))) ?_ ?_
    · have e : gap N a b (z.add (((b.sub a).cross N).mul (r / (b.sub a).mag))) = gap N a b z - r / (b.sub a).mag * sumProd ((b.sub a).cross N) ((b.sub a).cross N) := by
        simp only [gap, sumProd, V3.sub, V3.add, V3.mul]; ring
      rw [e, s] at t
      have : r / (b.sub a).mag * (b.sub a).mag ^ 2 = r * (b.sub a).mag := by field_simp
      linarith
    · simp only [sumProd, V3.sub, V3.add, V3.mul, V3.cross]; ring
    · rw [distance_mag]
      have e : z.sub (z.add (((b.sub a).cross N).mul (r / (b.sub a).mag))) = ((b.sub a).cross N).mul (-(r / (b.sub a).mag)) := by
        ext <;> simp only [V3.sub, V3.add, V3.mul] <;> ring
      have m : ((b.sub a).cross N).mag = (b.sub a).mag := by
        have : ((b.sub a).cross N).mag ^ 2 = (b.sub a).mag ^ 2 := by
          rw [← s, mag_sq]; simp only [sumProd]; ring
        exact (sq_eq_sq₀ (mag_nonneg _) (mag_nonneg _)).1 this
      rw [e, mag_mul, abs_neg, abs_of_nonneg (by positivity), m]
      refine le_of_eq ?_
      field_simp

/-- Nearest distances change by at most the distance of the points. -/
theorem least_step {S : Set V3} {x y : V3} {d e : ℝ} (hd : IsMinDistSq S x d) (he : IsMinDistSq S y e) : √d ≤ √e + x.distance y := by
  obtain ⟨⟨z, hz, rfl⟩, -⟩ := he
  have h := Real.sqrt_le_sqrt (hd.2 z hz)
  rw [← distance_distSq] at h ⊢
  have := distance_tri x y z
  linarith

/-- The point of the plane below a point. -/
noncomputable def foot (q : Quad V3) (x : V3) : V3 := x.add ((outerNormal q).mul (sumProd (q.p0.sub x) (outerNormal q)))

/-- How far a point is from the plane, the boundary and the surface. -/
noncomputable def height (q : Quad V3) (x : V3) : ℝ := |sumProd (q.p0.sub x) (outerNormal q)|
noncomputable def rim (q : Quad V3) (x : V3) : ℝ := √(edgeDistSq q x)
noncomputable def near (q : Quad V3) (x : V3) : ℝ := √(quadDistSq q x false)

theorem foot_spec {q : Quad V3} (hN : sumProd (outerNormal q) (outerNormal q) = 1) (x : V3) :
    sumProd (outerNormal q) ((foot q x).sub q.p0) = 0 ∧ x.distance (foot q x) = height q x ∧ ∀ a b, gap (outerNormal q) a b (foot q x) = gap (outerNormal q) a b x := by
  refine ⟨?_, ?_, ?_⟩
  · have : sumProd (outerNormal q) ((foot q x).sub q.p0) = sumProd (q.p0.sub x) (outerNormal q) * (sumProd (outerNormal q) (outerNormal q) - 1) := by
      unfold foot
      simp only [sumProd, V3.sub, V3.add, V3.mul]; ring
    rw [this, hN]; ring
  · rw [distance_mag]
    have e : x.sub (foot q x) = (outerNormal q).mul (-(sumProd (q.p0.sub x) (outerNormal q))) := by
      unfold foot
      ext <;> simp only [V3.sub, V3.add, V3.mul] <;> ring
    have m : (outerNormal q).mag = 1 := by
      have : (outerNormal q).mag ^ 2 = 1 ^ 2 := by
        rw [one_pow, ← hN, mag_sq]; simp only [sumProd]; ring
      exact (sq_eq_sq₀ (mag_nonneg _) (by norm_num)).1 this
    rw [e, mag_mul, abs_neg, m]
    unfold height
    ring
  · intro a b
    unfold foot gap
    simp only [sumProd, V3.sub, V3.add, V3.mul, V3.cross]; ring

variable {q : Quad V3} {r l : ℝ}

/-- What a well-shaped quadrilateral offers: a middle. -/
theorem middle (hr : 0 < r) (h : WellShaped r l q) : ∃ z ∈ surfaceOf q.p0 q.p1 q.p2 q.p3, sumProd (outerNormal q) (z.sub q.p0) = 0 ∧
    r * (q.p1.sub q.p0).mag ≤ (gaps q z).p0 ∧ r * (q.p2.sub q.p1).mag ≤ (gaps q z).p1 ∧ r * (q.p3.sub q.p2).mag ≤ (gaps q z).p2 ∧ r * (q.p0.sub q.p3).mag ≤ (gaps q z).p3 := by
  obtain ⟨hN, hpl, hs, z1, z2, z3⟩ := frame h.convex
  obtain ⟨z, hz, room⟩ := h.room
  have hz0 := (hpl z).1 hz
  have inn : ∀ y, sumProd (outerNormal q) (y.sub z) = 0 → z.distance y ≤ r → y ∈ surfaceOf q.p0 q.p1 q.p2 q.p3 := by
    intro y hy hd
    refine room y ((hpl y).2 ?_) (by rw [← distance_distSq]; exact hd)
    have : sumProd (outerNormal q) (y.sub q.p0) = sumProd (outerNormal q) (y.sub z) + sumProd (outerNormal q) (z.sub q.p0) := by
      simp only [sumProd, V3.sub]; ring
    rw [this, hy, hz0, add_zero]
  refine ⟨z, inn z (by simp only [sumProd, V3.sub]; ring) (by unfold V3.distance; simp [hr.le]), hz0, ?_, ?_, ?_, ?_⟩
  · exact disc_gap hr.le hN z1 fun y hy hd => (hs y (inn y hy hd)).2.1
  · refine disc_gap hr.le hN ?_ fun y hy hd => (hs y (inn y hy hd)).2.2.1
    have : sumProd (outerNormal q) (q.p2.sub q.p1) = sumProd (outerNormal q) (q.p2.sub q.p0) - sumProd (outerNormal q) (q.p1.sub q.p0) := by simp only [sumProd, V3.sub]; ring
    rw [this, z2, z1, sub_zero]
  · refine disc_gap hr.le hN ?_ fun y hy hd => (hs y (inn y hy hd)).2.2.2.1
    have : sumProd (outerNormal q) (q.p3.sub q.p2) = sumProd (outerNormal q) (q.p3.sub q.p0) - sumProd (outerNormal q) (q.p2.sub q.p0) := by simp only [sumProd, V3.sub]; ring
    rw [this, z3, z2, sub_zero]
  · refine disc_gap hr.le hN ?_ fun y hy hd => (hs y (inn y hy hd)).2.2.2.2
    have : sumProd (outerNormal q) (q.p0.sub q.p3) = -sumProd (outerNormal q) (q.p3.sub q.p0) := by simp only [sumProd, V3.sub]; ring
    rw [this, z3, neg_zero]

theorem sides_pos (h : WellShaped r l q) : r ≤ (q.p1.sub q.p0).mag ∧ r ≤ (q.p2.sub q.p1).mag ∧ r ≤ (q.p3.sub q.p2).mag ∧ r ≤ (q.p0.sub q.p3).mag := by
  obtain ⟨a, b, c, d⟩ := h.sides
  rw [← distance_distSq, distance_comm, distance_mag] at a b c d
  exact ⟨a, b, c, d⟩

/-- A point that is hardly outside of any side is over or near the surface. -/
theorem hardly_outside (hr : 0 < r) (h : WellShaped r l q) {η : ℝ} (h0 : 0 ≤ η) {x : V3} (g0 : -(η * (q.p1.sub q.p0).mag) ≤ (gaps q x).p0) (g1 : -(η * (q.p2.sub q.p1).mag) ≤ (gaps q x).p1)
    (g2 : -(η * (q.p3.sub q.p2).mag) ≤ (gaps q x).p2) (g3 : -(η * (q.p0.sub q.p3).mag) ≤ (gaps q x).p3) :
    ∃ y ∈ surfaceOf q.p0 q.p1 q.p2 q.p3, (foot q x).distance y ≤ η * l / r := by
  obtain ⟨hN, hpl, hs, -⟩ := frame h.convex
  obtain ⟨z, hz, hz0, m0, m1, m2, m3⟩ := middle hr h
  obtain ⟨f0, f1, f2⟩ := foot_spec hN x
  have rη : 0 < r + η := by linarith
  set w := η / (r + η) with hw
  have l0 : 0 ≤ w := by positivity
  have l1 : w ≤ 1 := by rw [hw, div_le_one rη]; linarith
  have key : ∀ gx gz m : ℝ, 0 ≤ m → -(η * m) ≤ gx → r * m ≤ gz → 0 ≤ gx + w * (gz - gx) := by
    intro gx gz m hm a b
    have e : (gx + w * (gz - gx)) * (r + η) = gx * r + η * gz := by rw [hw]; field_simp; ring
    have : 0 ≤ (gx + w * (gz - gx)) * (r + η) := by
      rw [e]
      have := mul_le_mul_of_nonneg_right a hr.le
      have := mul_le_mul_of_nonneg_left b h0
      linarith
    exact nonneg_of_mul_nonneg_left this rη
  have mem : toward (foot q x) z w ∈ surfaceOf q.p0 q.p1 q.p2 q.p3 := by
    refine mem_surface h.convex ?_ ?_ ?_ ?_ ?_
    · have : sumProd (outerNormal q) ((toward (foot q x) z w).sub q.p0) = (1 - w) * sumProd (outerNormal q) ((foot q x).sub q.p0) + w * sumProd (outerNormal q) (z.sub q.p0) := by
        simp only [sumProd, V3.sub, toward]; ring
      rw [this, f0, hz0]; ring
    · simp only [gaps] at g0 m0 ⊢
      rw [gap_toward, f2]
      exact key _ _ _ (mag_nonneg _) g0 m0
    · simp only [gaps] at g1 m1 ⊢
      rw [gap_toward, f2]
      exact key _ _ _ (mag_nonneg _) g1 m1
    · simp only [gaps] at g2 m2 ⊢
      rw [gap_toward, f2]
      exact key _ _ _ (mag_nonneg _) g2 m2
    · simp only [gaps] at g3 m3 ⊢
      rw [gap_toward, f2]
      exact key _ _ _ (mag_nonneg _) g3 m3
  refine ⟨_, mem, ?_⟩
  have d1 := h.size _ mem z hz
  rw [← distance_distSq] at d1
  have d2 : (toward (foot q x) z w).distance z = (1 - w) * (foot q x).distance z := by
    have e : toward (foot q x) z w = toward z (foot q x) (1 - w) := by
      ext <;> simp only [toward] <;> ring
    rw [distance_comm, e, distance_toward, abs_of_nonneg (by linarith), distance_comm]
  rw [distance_toward, abs_of_nonneg l0]
  rw [d2] at d1
  have e1 : 1 - w = r / (r + η) := by rw [hw]; field_simp; ring
  rw [e1] at d1
  have := mul_le_mul_of_nonneg_left d1 (div_nonneg h0 hr.le)
  calc w * (foot q x).distance z = η / r * (r / (r + η) * (foot q x).distance z) := by rw [hw]; field_simp
    _ ≤ η / r * l := this
    _ = η * l / r := by ring

/-- No point is outside of all sides. -/
theorem not_all_outside (h : WellShaped r l q) (hr : 0 < r) {η : ℝ} (h1 : η < r) {x : V3} (g0 : (gaps q x).p0 ≤ η * (q.p1.sub q.p0).mag) (g1 : (gaps q x).p1 ≤ η * (q.p2.sub q.p1).mag)
    (g2 : (gaps q x).p2 ≤ η * (q.p3.sub q.p2).mag) (g3 : (gaps q x).p3 ≤ η * (q.p0.sub q.p3).mag) : False := by
  obtain ⟨z, -, -, m0, m1, m2, m3⟩ := middle hr h
  obtain ⟨s0, s1, s2, s3⟩ := sides_pos h
  have t := gap_total (outerNormal q) q x z
  simp only [gaps] at *
  have : 0 < (r - η) * ((q.p1.sub q.p0).mag + (q.p2.sub q.p1).mag + (q.p3.sub q.p2).mag + (q.p0.sub q.p3).mag) := mul_pos (by linarith) (by linarith)
  nlinarith

/-- The distances to the plane, the surface and the boundary in order. -/
theorem order (h : ConvexPlanar q.p0 q.p1 q.p2 q.p3) (x : V3) : height q x ≤ near q x ∧ near q x ≤ rim q x := by
  obtain ⟨hN, hpl, hs, -⟩ := frame h
  have c := (C96_surface_distance h x).1
  have e := edgeDist_spec q x
  constructor
  · obtain ⟨⟨y, hy, hd⟩, -⟩ := c
    unfold near height
    rw [← hd]
    refine Real.abs_le_sqrt ?_
    have hy0 := (hs y hy).1
    have e1 : sumProd (q.p0.sub x) (outerNormal q) = sumProd (y.sub x) (outerNormal q) - sumProd (outerNormal q) (y.sub q.p0) := by simp only [sumProd, V3.sub]; ring
    rw [e1, hy0, sub_zero]
    have e2 : distSq x y = distSq x y * sumProd (outerNormal q) (outerNormal q) := by rw [hN, mul_one]
    rw [e2]
    simp only [distSq, sumProd, V3.sub]
    generalize outerNormal q = n
    nlinarith [sq_nonneg ((y.x - x.x) * n.y - (y.y - x.y) * n.x), sq_nonneg ((y.x - x.x) * n.z - (y.z - x.z) * n.x), sq_nonneg ((y.y - x.y) * n.z - (y.z - x.z) * n.y)]
  · obtain ⟨⟨y, hy, hd⟩, -⟩ := e
    unfold near rim
    rw [← hd]
    exact Real.sqrt_le_sqrt (c.2 y (edges_subset hy))

/-- A point that is hardly inside of some side is nearly as far from the boundary as from the surface. -/
theorem hardly_inside (hr : 0 < r) (h : WellShaped r l q) {η : ℝ} (h0 : 0 < η) (h1 : η < r / 2) {x : V3} (g : (gaps q x).p0 ≤ η * (q.p1.sub q.p0).mag ∨ (gaps q x).p1 ≤ η * (q.p2.sub q.p1).mag ∨
    (gaps q x).p2 ≤ η * (q.p3.sub q.p2).mag ∨ (gaps q x).p3 ≤ η * (q.p0.sub q.p3).mag) : rim q x ≤ near q x + 4 * (η * l / r) := by
  obtain ⟨hN, hpl, hs, -⟩ := frame h.convex
  obtain ⟨z, hz, hz0, m0, m1, m2, m3⟩ := middle hr h
  obtain ⟨s0, s1, s2, s3⟩ := sides_pos h
  obtain ⟨f0, f1, f2⟩ := foot_spec hN x
  have l0 : 0 ≤ l := by
    have := h.size z hz z hz
    exact le_trans (Real.sqrt_nonneg _) this
  by_cases hi : inside q x = true
  swap
  · have : near q x = rim q x := by
      unfold near rim quadDistSq
      rw [if_neg hi]
    rw [this]
    have : 0 ≤ η * l / r := by positivity
    linarith
  have allin : 0 ≤ (gaps q x).p0 ∧ 0 ≤ (gaps q x).p1 ∧ 0 ≤ (gaps q x).p2 ∧ 0 ≤ (gaps q x).p3 := by
    rcases (inside_gaps q x).1 hi with a | ⟨a, b, c, d⟩
    · exact a
    · exact absurd (not_all_outside h hr (η := 0) (x := x) hr (by linarith) (by linarith) (by linarith) (by linarith)) id
  obtain ⟨a0, a1, a2, a3⟩ := allin
  have fm : foot q x ∈ surfaceOf q.p0 q.p1 q.p2 q.p3 := by
    refine mem_surface h.convex f0 ?_ ?_ ?_ ?_ <;> simp only [gaps] at * <;> rw [f2] <;> assumption
  set y := toward (foot q x) z (-(2 * η / r)) with hy
  have key : ∀ gx gz m : ℝ, r ≤ m → gx ≤ η * m → r * m ≤ gz → gx + -(2 * η / r) * (gz - gx) < 0 := by
    intro gx gz m hm a b
    have e : (gx + -(2 * η / r) * (gz - gx)) * r = gx * r - 2 * η * (gz - gx) := by field_simp; ring
    have : (gx + -(2 * η / r) * (gz - gx)) * r < 0 := by
      rw [e]
      have p1 := mul_le_mul_of_nonneg_right a (by linarith : 0 ≤ r + 2 * η)
      have p2 := mul_le_mul_of_nonneg_left b h0.le
      have p3 : 0 < η * m * (r - 2 * η) := mul_pos (mul_pos h0 (by linarith)) (by linarith)
      nlinarith
    by_contra hc
    push Not at hc
    nlinarith
  have out : ¬inside q y = true := by
    rw [inside_gaps]
    rintro (⟨b0, b1, b2, b3⟩ | ⟨b0, b1, b2, b3⟩)
    · simp only [gaps] at *
      rw [hy, gap_toward, f2] at b0 b1 b2 b3
      rcases g with g | g | g | g
      · exact absurd (key _ _ _ s0 g m0) (not_lt.2 b0)
      · exact absurd (key _ _ _ s1 g m1) (not_lt.2 b1)
      · exact absurd (key _ _ _ s2 g m2) (not_lt.2 b2)
      · exact absurd (key _ _ _ s3 g m3) (not_lt.2 b3)
    · exact not_all_outside h hr (η := 0) (x := y) hr (by linarith) (by linarith) (by linarith) (by linarith)
  have same : quadDistSq q y false = edgeDistSq q y := by
    unfold quadDistSq
    rw [if_neg out]
  have cy := (C96_surface_distance h.convex y).1
  have d0 : (foot q x).distance y ≤ 2 * η / r * l := by
    rw [hy, distance_toward, abs_neg, abs_of_nonneg (by positivity)]
    refine mul_le_mul_of_nonneg_left ?_ (by positivity)
    rw [distance_distSq]
    exact h.size _ fm z hz
  have d1 : rim q y ≤ 2 * η / r * l := by
    unfold rim
    rw [← same]
    refine le_trans (Real.sqrt_le_sqrt (cy.2 _ fm)) ?_
    rw [← distance_distSq, distance_comm]
    exact d0
  have d2 : rim q x ≤ rim q y + x.distance y := least_step (edgeDist_spec q x) (edgeDist_spec q y)
  have d3 := distance_tri x (foot q x) y
  have d4 := (order h.convex x).1
  rw [f1] at d3
  have : 4 * (η * l / r) = 2 * η / r * l + 2 * η / r * l := by ring
  linarith

end Shape

end Verif.Props
