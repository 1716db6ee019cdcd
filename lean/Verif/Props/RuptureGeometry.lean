import Mathlib.Tactic.Ring
import Mathlib.Tactic.FieldSimp
import Mathlib.Tactic.NormNum
import Mathlib.Tactic.Positivity
import Mathlib.Tactic.LinearCombination
import Mathlib.Topology.Order.IntermediateValue
import Mathlib.Topology.Algebra.Order.Field
import Verif.Model.RuptureUtils
import Verif.Spec.Geometry
import Verif.Props.Vector

/-!
# Geometry of quadrilaterals: C63-C65, C96-C99
-/

namespace Verif.Props
open Verif.Vec Verif.Rup Verif.Spec Real

/-! ### C65 -/

/-- Squared distance from the origin to a segment. -/
theorem segment_spec (p0 p1 : V3) :
    IsMinDistSq (Spec.segment p0 p1) zeroVec (distanceSqToSegment p0 p1) := by
  have hd : ∀ y : V3, distSq zeroVec y = y.x ^ 2 + y.y ^ 2 + y.z ^ 2 := by
    intro y; simp only [distSq, zeroVec]; ring
  -- squared distance along the segment
  set c1 := -1 * sumProd p0 (p1.sub p0) with hc1
  set c2 := sumProd (p1.sub p0) (p1.sub p0) with hc2
  set n0 := p0.x ^ 2 + p0.y ^ 2 + p0.z ^ 2 with hn0
  have hc2n : 0 ≤ c2 := by simp only [hc2, sumProd]; nlinarith [sq_nonneg (p1.sub p0).x, sq_nonneg (p1.sub p0).y, sq_nonneg (p1.sub p0).z]
  have hpoly : ∀ s : ℝ, distSq zeroVec (combine p0 p1 p0 s 0) = n0 - 2 * s * c1 + s ^ 2 * c2 := by
    intro s
    simp only [hd, combine, hc1, hc2, hn0, sumProd, V3.sub]; ring
  have hn1 : p1.x ^ 2 + p1.y ^ 2 + p1.z ^ 2 = n0 - 2 * c1 + c2 := by
    simp only [hc1, hc2, hn0, sumProd, V3.sub]; ring
  have hval : distanceSqToSegment p0 p1 =
      if c2 ≤ c1 then n0 - 2 * c1 + c2 else if c1 ≤ 0 then n0 else n0 - c1 ^ 2 / c2 := by
    unfold distanceSqToSegment
    simp only [← hc1, ← hc2, ← hn0]
    rw [hn1]
    by_cases h1 : c2 ≤ c1
    · rw [if_pos h1, if_pos h1, if_neg (by simp [h1])]
    · rw [if_neg h1, if_neg h1]
      by_cases h2 : c1 ≤ 0
      · rw [if_pos h2, if_pos h2, if_neg (by simp [h2])]
      · have h3 : ¬ (p0.x = p1.x ∧ p0.y = p1.y ∧ p0.z = p1.z) := by
          rintro ⟨a, b, c⟩
          apply h1
          have e1 : c1 = 0 := by simp only [hc1, sumProd, V3.sub, a, b, c]; ring
          have e2 : c2 = 0 := by simp only [hc2, sumProd, V3.sub, a, b, c]; ring
          rw [e1, e2]
        have hpos : 0 < c2 := by push Not at h1 h2; linarith
        rw [if_pos (by simp only [not_or]; exact ⟨h2, h3, h1⟩), if_neg h2]
        have := hpoly (c1 / c2)
        rw [hd] at this
        have e : (p0.add ((p1.sub p0).mul (c1 / c2))) = combine p0 p1 p0 (c1 / c2) 0 := by
          ext <;> simp only [V3.add, V3.sub, V3.mul, combine] <;> ring
        rw [e, this]
        field_simp
        ring
  rw [hval]
  by_cases h1 : c2 ≤ c1
  · rw [if_pos h1]
    refine ⟨⟨_, ⟨1, by norm_num, le_refl _, rfl⟩, by rw [hpoly]; ring⟩, ?_⟩
    rintro y ⟨s, hs0, hs1, rfl⟩
    rw [hpoly]
    nlinarith [mul_nonneg (sub_nonneg.2 hs1) (sub_nonneg.2 h1), mul_nonneg (sub_nonneg.2 hs1) (mul_nonneg (sub_nonneg.2 hs1) hc2n)]
  · rw [if_neg h1]
    push Not at h1
    by_cases h2 : c1 ≤ 0
    · rw [if_pos h2]
      refine ⟨⟨_, ⟨0, le_refl _, by norm_num, rfl⟩, by rw [hpoly]; ring⟩, ?_⟩
      rintro y ⟨s, hs0, hs1, rfl⟩
      rw [hpoly]
      nlinarith [mul_nonneg hs0 (neg_nonneg.2 h2), mul_nonneg (mul_nonneg hs0 hs0) hc2n]
    · rw [if_neg h2]
      push Not at h2
      have hpos : 0 < c2 := by linarith
      refine ⟨⟨_, ⟨c1 / c2, by positivity, by rw [div_le_one hpos]; exact h1.le, rfl⟩, ?_⟩, ?_⟩
      · rw [hpoly]; field_simp; ring
      · rintro y ⟨s, hs0, hs1, rfl⟩
        rw [hpoly]
        have : n0 - 2 * s * c1 + s ^ 2 * c2 - (n0 - c1 ^ 2 / c2) = (s * c2 - c1) ^ 2 / c2 := by
          field_simp; ring
        have h3 : 0 ≤ (s * c2 - c1) ^ 2 / c2 := by positivity
        linarith

/-- **C65.** The squared distance to a segment is attained at a point of the segment and is not larger
than the squared distance to any point of it. -/
theorem C65_segment_distance (p0 p1 : V3) :
    IsMinDistSq (Spec.segment p0 p1) ⟨0, 0, 0⟩ (distanceSqToSegment p0 p1) := segment_spec p0 p1

/-- The same from any point, with the segment shifted as the caller does. -/
theorem segment_spec_at (p0 p1 x : V3) :
    IsMinDistSq (Spec.segment p0 p1) x (distanceSqToSegment (p0.sub x) (p1.sub x)) := by
  have hshift : ∀ s, distSq x (combine p0 p1 p0 s 0) =
      distSq zeroVec (combine (p0.sub x) (p1.sub x) (p0.sub x) s 0) := by
    intro s; simp only [distSq, combine, V3.sub, zeroVec]; ring
  obtain ⟨⟨y, ⟨s, h0, h1, rfl⟩, h2⟩, h3⟩ := segment_spec (p0.sub x) (p1.sub x)
  refine ⟨⟨_, ⟨s, h0, h1, rfl⟩, by rw [hshift, h2]⟩, ?_⟩
  rintro y ⟨s, h0, h1, rfl⟩
  rw [hshift]
  exact h3 _ ⟨s, h0, h1, rfl⟩

/-! ### C64 -/

/-- The normal of the plane, and what it says about the determinants. -/
theorem det3_normal (p0 p1 p2 : V3) :
    det3 ⟨1, p0.y, p0.z⟩ ⟨1, p1.y, p1.z⟩ ⟨1, p2.y, p2.z⟩ = ((p1.sub p0).cross (p2.sub p0)).x ∧
    det3 ⟨p0.x, 1, p0.z⟩ ⟨p1.x, 1, p1.z⟩ ⟨p2.x, 1, p2.z⟩ = ((p1.sub p0).cross (p2.sub p0)).y ∧
    det3 ⟨p0.x, p0.y, 1⟩ ⟨p1.x, p1.y, 1⟩ ⟨p2.x, p2.y, 1⟩ = ((p1.sub p0).cross (p2.sub p0)).z ∧
    det3 p0 p1 p2 = ((p1.sub p0).cross (p2.sub p0)).dot p0 := by
  refine ⟨?_, ?_, ?_, ?_⟩ <;> simp only [det3, V3.cross, V3.sub, V3.dot] <;> ring

/-- The plane in terms of its normal. -/
theorem mem_plane {a b c : V3} (h : 0 < sumProd ((b.sub a).cross (c.sub a)) ((b.sub a).cross (c.sub a)))
    (p : V3) : p ∈ plane a b c ↔ sumProd ((b.sub a).cross (c.sub a)) (p.sub a) = 0 := by
  constructor
  · rintro ⟨s, t, rfl⟩
    simp only [sumProd, V3.cross, V3.sub, combine]; ring
  · intro h0
    -- coordinates by Cramer's rule
    set u := b.sub a with hu
    set v := c.sub a with hv
    set w := p.sub a with hw
    set n := u.cross v with hn
    refine ⟨sumProd (w.cross v) n / sumProd n n, sumProd (u.cross w) n / sumProd n n, ?_⟩
    have hne : sumProd n n ≠ 0 := h.ne'
    have key : ∀ (wi ui vi ni : ℝ), sumProd n n * wi =
        sumProd (w.cross v) n * ui + sumProd (u.cross w) n * vi + sumProd n w * ni →
        wi = sumProd (w.cross v) n / sumProd n n * ui + sumProd (u.cross w) n / sumProd n n * vi := by
      intro wi ui vi ni e
      rw [h0] at e
      field_simp
      linarith
    have kx := key w.x u.x v.x n.x (by simp only [hn, sumProd, V3.cross]; ring)
    have ky := key w.y u.y v.y n.y (by simp only [hn, sumProd, V3.cross]; ring)
    have kz := key w.z u.z v.z n.z (by simp only [hn, sumProd, V3.cross]; ring)
    ext
    · simp only [combine]
      have : p.x = a.x + w.x := by simp only [hw, V3.sub]; ring
      rw [this, kx]; simp only [hu, hv, V3.sub]; ring
    · simp only [combine]
      have : p.y = a.y + w.y := by simp only [hw, V3.sub]; ring
      rw [this, ky]; simp only [hu, hv, V3.sub]; ring
    · simp only [combine]
      have : p.z = a.z + w.z := by simp only [hw, V3.sub]; ring
      rw [this, kz]; simp only [hu, hv, V3.sub]; ring

/-- Squared distance to a plane with normal `n`. -/
theorem plane_dist {a b c : V3} (h : 0 < sumProd ((b.sub a).cross (c.sub a)) ((b.sub a).cross (c.sub a)))
    (x : V3) : IsMinDistSq (plane a b c) x
      (sumProd ((b.sub a).cross (c.sub a)) (x.sub a) ^ 2 /
        sumProd ((b.sub a).cross (c.sub a)) ((b.sub a).cross (c.sub a))) := by
  have hm := mem_plane h
  set n := (b.sub a).cross (c.sub a) with hn
  set N := sumProd n n with hN
  set k := sumProd n (x.sub a) with hk
  constructor
  · refine ⟨x.sub (n.mul (k / N)), ?_, ?_⟩
    · rw [hm]
      have : sumProd n ((x.sub (n.mul (k / N))).sub a) = k - k / N * N := by
        simp only [hk, hN, sumProd, V3.sub, V3.mul]; ring
      rw [this]; field_simp; ring
    · have : distSq x (x.sub (n.mul (k / N))) = (k / N) ^ 2 * N := by
        simp only [hN, sumProd, V3.sub, V3.mul, distSq]; ring
      rw [this]; field_simp
  · intro y hy
    rw [hm] at hy
    rw [div_le_iff₀ h]
    have e : k = sumProd n (x.sub y) := by
      have : sumProd n (x.sub y) = k - sumProd n (y.sub a) := by
        simp only [hk, sumProd, V3.sub]; ring
      rw [this, hy]; ring
    rw [e]
    have : distSq x y * N - sumProd n (x.sub y) ^ 2 =
        sumProd (n.cross (x.sub y)) (n.cross (x.sub y)) := by
      simp only [hN, distSq, sumProd, V3.cross, V3.sub]; ring
    have h2 : 0 ≤ sumProd (n.cross (x.sub y)) (n.cross (x.sub y)) := by
      simp only [sumProd]; nlinarith [sq_nonneg (n.cross (x.sub y)).x, sq_nonneg (n.cross (x.sub y)).y, sq_nonneg (n.cross (x.sub y)).z]
    linarith

/-- Value computed for a plane off the origin. -/
theorem distanceToPlane_eq {p0 p1 p2 : V3} (h : det3 p0 p1 p2 ≠ 0) (x : V3) :
    distanceToPlane p0 p1 p2 x ^ 2 =
      sumProd ((p1.sub p0).cross (p2.sub p0)) (x.sub p0) ^ 2 /
        sumProd ((p1.sub p0).cross (p2.sub p0)) ((p1.sub p0).cross (p2.sub p0)) ∧
    0 < sumProd ((p1.sub p0).cross (p2.sub p0)) ((p1.sub p0).cross (p2.sub p0)) := by
  obtain ⟨h1, h2, h3, h4⟩ := det3_normal p0 p1 p2
  set n := (p1.sub p0).cross (p2.sub p0) with hn
  set D := det3 p0 p1 p2 with hD
  have hpos : 0 < sumProd n n := by
    have hne : n ≠ zeroVec := by
      intro h0; apply h; rw [h4, h0]; simp [V3.dot, zeroVec]
    have := sq_pos_of_ne hne
    simp only [sumProd]; nlinarith
  refine ⟨?_, hpos⟩
  unfold distanceToPlane
  simp only [← hD, h1, h2, h3]
  rw [if_pos h, div_pow, sq_abs, Real.sq_sqrt (by positivity)]
  have e1 : (-(-1) / D * n.x * x.x + -(-1) / D * n.y * x.y + -(-1) / D * n.z * x.z + -1) =
      sumProd n (x.sub p0) / D := by
    have : sumProd n (x.sub p0) = n.x * x.x + n.y * x.y + n.z * x.z - D := by
      rw [h4]; simp only [sumProd, V3.sub, V3.dot]; ring
    rw [this]; field_simp; ring
  have e2 : (-(-1) / D * n.x) ^ 2 + (-(-1) / D * n.y) ^ 2 + (-(-1) / D * n.z) ^ 2 =
      sumProd n n / D ^ 2 := by
    simp only [sumProd]; field_simp
  rw [e1, e2]
  field_simp

theorem normal_pos {a b c : V3} (h : NonCollinear a b c) :
    0 < sumProd ((b.sub a).cross (c.sub a)) ((b.sub a).cross (c.sub a)) := by
  set u := b.sub a with hu
  set v := c.sub a with hv
  by_contra hneg
  have hz : u.cross v = zeroVec := by
    by_contra hne
    have := sq_pos_of_ne hne
    apply hneg
    simp only [sumProd]; nlinarith
  have hx : u.y * v.z - u.z * v.y = 0 := congrArg V3.x hz
  have hy : u.z * v.x - u.x * v.z = 0 := congrArg V3.y hz
  have hz' : u.x * v.y - u.y * v.x = 0 := congrArg V3.z hz
  have h1 := h (-(sumProd u v)) (sumProd u u) (by
    ext <;> simp only [combine, sumProd]
    · have e1 : b.x - a.x = u.x := rfl
      have e2 : c.x - a.x = v.x := rfl
      rw [e1, e2]; linear_combination u.z * hy - u.y * hz'
    · have e1 : b.y - a.y = u.y := rfl
      have e2 : c.y - a.y = v.y := rfl
      rw [e1, e2]; linear_combination u.x * hz' - u.z * hx
    · have e1 : b.z - a.z = u.z := rfl
      have e2 : c.z - a.z = v.z := rfl
      rw [e1, e2]; linear_combination u.y * hx - u.x * hy)
  have hu0 : u = zeroVec := by
    by_contra hne
    have := sq_pos_of_ne hne
    have h2 := h1.2
    simp only [sumProd] at h2
    nlinarith
  have hux : b.x - a.x = 0 := congrArg V3.x hu0
  have huy : b.y - a.y = 0 := congrArg V3.y hu0
  have huz : b.z - a.z = 0 := congrArg V3.z hu0
  have := (h 1 0 (by ext <;> simp only [combine] <;> [rw [hux]; rw [huy]; rw [huz]] <;> ring)).1
  exact one_ne_zero this

/-- **C64.** For three points whose plane does not contain the origin, the result is the
distance to the nearest point of the plane. Planes through the origin: see below. -/
theorem C64_plane_distance {p0 p1 p2 : V3} (h : (⟨0, 0, 0⟩ : V3) ∉ plane p0 p1 p2)
    (hn : NonCollinear p0 p1 p2) (x : V3) :
    0 ≤ distanceToPlane p0 p1 p2 x ∧
    IsMinDistSq (plane p0 p1 p2) x (distanceToPlane p0 p1 p2 x ^ 2) := by
  have hpos := normal_pos hn
  have hD : det3 p0 p1 p2 ≠ 0 := by
    intro h0
    apply h
    rw [mem_plane hpos]
    rw [(det3_normal p0 p1 p2).2.2.2] at h0
    simp only [sumProd, V3.sub, V3.dot] at h0 ⊢
    linarith
  constructor
  · unfold distanceToPlane
    simp only
    rw [if_pos hD]
    positivity
  · rw [(distanceToPlane_eq hD x).1]
    exact plane_dist hpos x

/-- Three such points. -/
example : (⟨0, 0, 0⟩ : V3) ∉ plane ⟨1, 0, 0⟩ ⟨0, 1, 0⟩ ⟨0, 0, 1⟩ ∧
    NonCollinear ⟨1, 0, 0⟩ ⟨0, 1, 0⟩ ⟨0, 0, 1⟩ := by
  constructor
  · rintro ⟨s, t, h⟩
    have h1 := congrArg V3.x h
    have h2 := congrArg V3.y h
    have h3 := congrArg V3.z h
    simp only [combine] at h1 h2 h3
    linarith
  · intro s t h
    have h2 := congrArg V3.y h
    have h3 := congrArg V3.z h
    simp only [combine] at h2 h3
    constructor <;> linarith

/-- Beyond **C64**: for a plane through the origin, such as that of a vertical rupture along a
meridian, the result is 0 for every point, also for points off the plane. -/
theorem C64_origin_violated {p0 p1 p2 : V3} (h : (⟨0, 0, 0⟩ : V3) ∈ plane p0 p1 p2) (x : V3) :
    distanceToPlane p0 p1 p2 x = 0 ∧
    ∀ y, y ∉ plane p0 p1 p2 → NonCollinear p0 p1 p2 →
      ¬ IsMinDistSq (plane p0 p1 p2) y (distanceToPlane p0 p1 p2 y ^ 2) := by
  have hD : det3 p0 p1 p2 = 0 := by
    obtain ⟨s, t, h⟩ := h
    rw [(det3_normal p0 p1 p2).2.2.2]
    have h1 := congrArg V3.x h
    have h2 := congrArg V3.y h
    have h3 := congrArg V3.z h
    simp only [combine] at h1 h2 h3
    simp only [V3.dot, V3.cross, V3.sub]
    have e1 : p0.x = -(s * (p1.x - p0.x) + t * (p2.x - p0.x)) := by linarith
    have e2 : p0.y = -(s * (p1.y - p0.y) + t * (p2.y - p0.y)) := by linarith
    have e3 : p0.z = -(s * (p1.z - p0.z) + t * (p2.z - p0.z)) := by linarith
    linear_combination ((p1.y - p0.y) * (p2.z - p0.z) - (p1.z - p0.z) * (p2.y - p0.y)) * e1 +
      ((p1.z - p0.z) * (p2.x - p0.x) - (p1.x - p0.x) * (p2.z - p0.z)) * e2 +
      ((p1.x - p0.x) * (p2.y - p0.y) - (p1.y - p0.y) * (p2.x - p0.x)) * e3
  have hzero : ∀ y, distanceToPlane p0 p1 p2 y = 0 := by
    intro y
    unfold distanceToPlane
    simp only
    rw [if_neg (by simp [hD])]
  refine ⟨hzero x, ?_⟩
  rintro y hy - ⟨⟨z, hz, hd⟩, -⟩
  rw [hzero] at hd
  apply hy
  have : y = z := by
    simp only [distSq] at hd
    have h1 : y.x - z.x = 0 := by nlinarith [sq_nonneg (y.x - z.x), sq_nonneg (y.y - z.y), sq_nonneg (y.z - z.z)]
    have h2 : y.y - z.y = 0 := by nlinarith [sq_nonneg (y.x - z.x), sq_nonneg (y.y - z.y), sq_nonneg (y.z - z.z)]
    have h3 : y.z - z.z = 0 := by nlinarith [sq_nonneg (y.x - z.x), sq_nonneg (y.y - z.y), sq_nonneg (y.z - z.z)]
    ext <;> linarith
  rw [this]; exact hz

example : (⟨0, 0, 0⟩ : V3) ∈ plane ⟨1, 0, 0⟩ ⟨0, 1, 0⟩ ⟨1, 1, 0⟩ ∧
    (⟨0, 0, 1⟩ : V3) ∉ plane ⟨1, 0, 0⟩ ⟨0, 1, 0⟩ ⟨1, 1, 0⟩ := by
  constructor
  · exact ⟨1, -1, by ext <;> simp [combine]⟩
  · rintro ⟨s, t, h⟩
    have h3 := congrArg V3.z h
    simp [combine] at h3

/-! ### C63 -/

/-- **C63** violated: every four points whatsoever are reported to be in a plane. -/
theorem C63_always_accepted_violated (q : Quad Point) : (isQuad q).1 = true := by
  have h0 : ∀ p0 p1 p2 : V3, distanceToPlane p0 p1 p2 p2 = 0 := by
    intro p0 p1 p2
    by_cases hD : det3 p0 p1 p2 = 0
    · unfold distanceToPlane
      simp only
      rw [if_neg (by simp [hD])]
    · have h := (distanceToPlane_eq hD p2).1
      have : sumProd ((p1.sub p0).cross (p2.sub p0)) (p2.sub p0) = 0 := by
        simp only [sumProd, V3.cross, V3.sub]; ring
      rw [this] at h
      simpa using h
  show onPlane q.ecef = true
  unfold onPlane
  rw [h0]
  simp [offplaneTolerance]
  norm_num

/-- **C63** (partial). The corrected quadrilateral is in a plane: its third corner is in the plane of
the other three, it is as far from the fourth as it was, in the direction of the top edge. What is
missing: the verdict itself. -/
theorem C63_corrected_partial (q : Quad V3) (h : q.p0 ≠ q.p1) :
    newP2 q ∈ plane q.p0 q.p1 q.p3 ∧
    distSq (newP2 q) q.p3 = distSq q.p2 q.p3 ∧
    ∃ k : ℝ, 0 ≤ k ∧ newP2 q = combine q.p3 (q.p3.add (q.p1.sub q.p0)) q.p3 k 0 := by
  have hne : q.p1.sub q.p0 ≠ zeroVec := by
    intro h0
    apply h
    have h1 := congrArg V3.x h0
    have h2 := congrArg V3.y h0
    have h3 := congrArg V3.z h0
    simp only [V3.sub, zeroVec] at h1 h2 h3
    ext <;> linarith
  have hpos := sq_pos_of_ne hne
  set L := √((q.p1.sub q.p0).x ^ 2 + (q.p1.sub q.p0).y ^ 2 + (q.p1.sub q.p0).z ^ 2) with hL
  have hLpos : 0 < L := Real.sqrt_pos.2 hpos
  have hL2 : L ^ 2 = (q.p1.sub q.p0).x ^ 2 + (q.p1.sub q.p0).y ^ 2 + (q.p1.sub q.p0).z ^ 2 :=
    Real.sq_sqrt hpos.le
  have hd2 : bottomLength q ^ 2 = distSq q.p2 q.p3 := by
    unfold bottomLength V3.mag
    rw [Real.sq_sqrt (by positivity)]
    simp only [V3.sub, distSq]; ring
  have hd0 : 0 ≤ bottomLength q := Real.sqrt_nonneg _
  have hform : newP2 q = ⟨q.p3.x + bottomLength q / L * (q.p1.x - q.p0.x),
      q.p3.y + bottomLength q / L * (q.p1.y - q.p0.y), q.p3.z + bottomLength q / L * (q.p1.z - q.p0.z)⟩ := by
    unfold newP2 V3.norm
    rw [← hL]
    ext <;> simp only [V3.add, V3.mul, V3.sub] <;> ring
  refine ⟨⟨bottomLength q / L, 1, ?_⟩, ?_, bottomLength q / L, by positivity, ?_⟩
  · rw [hform]; ext <;> simp only [combine] <;> ring
  · rw [hform, ← hd2]
    have : distSq ⟨q.p3.x + bottomLength q / L * (q.p1.x - q.p0.x),
        q.p3.y + bottomLength q / L * (q.p1.y - q.p0.y),
        q.p3.z + bottomLength q / L * (q.p1.z - q.p0.z)⟩ q.p3 = (bottomLength q / L) ^ 2 * L ^ 2 := by
      rw [hL2]; simp only [distSq, V3.sub]; ring
    rw [this]; field_simp
  · rw [hform]; ext <;> simp only [combine, V3.add, V3.sub] <;> ring

end Verif.Props
