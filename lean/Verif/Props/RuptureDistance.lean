import Verif.Props.RuptureSlip

/-!
# Distance to a quadrilateral: C96
-/

namespace Verif.Props
open Verif.Vec Verif.Rup Verif.Spec Real

/-- Position relative to the four edges, for a point with coordinates `s` and `t`. -/
def edgeSide (α β s t : ℝ) : ℝ × ℝ × ℝ × ℝ :=
  (t, (α - 1) * t - β * (s - 1), -α * (t - 1) - (1 - β) * s, s)

/-- On the inner side of all edges. -/
def Inner (α β s t : ℝ) : Prop :=
  0 ≤ (edgeSide α β s t).1 ∧ 0 ≤ (edgeSide α β s t).2.1 ∧ 0 ≤ (edgeSide α β s t).2.2.1 ∧
    0 ≤ (edgeSide α β s t).2.2.2

/-- Inner points are weighted means of the corners. -/
theorem inner_mem {a b c d : V3} {α β : ℝ} (hab : 1 < α + β)
    (hc : c = combine a b d α β) {s t : ℝ} (h : Inner α β s t) : combine a b d s t ∈ surfaceOf a b c d := by
  obtain ⟨h0, h1, h2, h3⟩ := h
  simp only [edgeSide] at h0 h1 h2 h3
  rcases le_total (s + t) 1 with hst | hst
  · refine ⟨1 - s - t, s, 0, t, by linarith, h3, le_refl _, h0, by ring, ?_⟩
    ext <;> simp only [combine, mean4] <;> ring
  · have hpos : 0 < α + β - 1 := by linarith
    refine ⟨0, s - α * ((s + t - 1) / (α + β - 1)), (s + t - 1) / (α + β - 1),
      t - β * ((s + t - 1) / (α + β - 1)), le_refl _, ?_, ?_, ?_, ?_, ?_⟩
    · rw [mul_div_assoc', sub_nonneg, div_le_iff₀ hpos]; nlinarith
    · apply div_nonneg <;> linarith
    · rw [mul_div_assoc', sub_nonneg, div_le_iff₀ hpos]; nlinarith
    · field_simp; ring
    · rw [hc]
      have hne : α + β - 1 ≠ 0 := hpos.ne'
      have e : (α + β - 1) * ((s + t - 1) / (α + β - 1)) = s + t - 1 := by field_simp
      ext <;> simp only [combine, mean4]
      · linear_combination a.x * e
      · linear_combination a.y * e
      · linear_combination a.z * e

/-- Weighted means of the corners are inner points. -/
theorem mem_inner {a b c d : V3} {α β : ℝ} (hα : 0 < α) (hβ : 0 < β) (hab : 1 < α + β)
    (hc : c = combine a b d α β) {p : V3} (h : p ∈ surfaceOf a b c d) :
    ∃ s t, Inner α β s t ∧ p = combine a b d s t := by
  obtain ⟨w0, w1, w2, w3, h0, h1, h2, h3, hs, rfl⟩ := h
  refine ⟨w1 + α * w2, w3 + β * w2, ⟨?_, ?_, ?_, ?_⟩, ?_⟩
  · simp only [edgeSide]; positivity
  · simp only [edgeSide]
    have : (α - 1) * (w3 + β * w2) - β * (w1 + α * w2 - 1) = (α + β - 1) * w3 + β * w0 := by
      have : w0 = 1 - w1 - w2 - w3 := by linarith
      rw [this]; ring
    rw [this]
    have : 0 ≤ (α + β - 1) * w3 := mul_nonneg (by linarith) h3
    positivity
  · simp only [edgeSide]
    have : -α * (w3 + β * w2 - 1) - (1 - β) * (w1 + α * w2) = (α + β - 1) * w1 + α * w0 := by
      have : w0 = 1 - w1 - w2 - w3 := by linarith
      rw [this]; ring
    rw [this]
    have : 0 ≤ (α + β - 1) * w1 := mul_nonneg (by linarith) h1
    positivity
  · simp only [edgeSide]; positivity
  · rw [hc]
    have : w0 = 1 - w1 - w2 - w3 := by linarith
    rw [this]
    ext <;> simp only [combine, mean4] <;> ring

/-- An inner point on one of the edge lines is on that edge. -/
theorem inner_boundary {a b c d : V3} {α β : ℝ} (hα : 0 < α) (hβ : 0 < β) (hab : 1 < α + β)
    (hc : c = combine a b d α β) {s t : ℝ} (h : Inner α β s t)
    (hz : (edgeSide α β s t).1 = 0 ∨ (edgeSide α β s t).2.1 = 0 ∨ (edgeSide α β s t).2.2.1 = 0 ∨
      (edgeSide α β s t).2.2.2 = 0) :
    combine a b d s t ∈ Spec.segment a b ∨ combine a b d s t ∈ Spec.segment b c ∨
    combine a b d s t ∈ Spec.segment c d ∨ combine a b d s t ∈ Spec.segment d a := by
  obtain ⟨h0, h1, h2, h3⟩ := h
  simp only [edgeSide] at h0 h1 h2 h3 hz
  have hpos : 0 < α + β - 1 := by linarith
  rcases hz with hz | hz | hz | hz
  · left
    subst hz
    refine ⟨s, h3, by nlinarith, ?_⟩
    ext <;> simp only [combine] <;> ring
  · right; left
    have hs : s = 1 + (α - 1) * (t / β) := by field_simp; linarith
    have ht : t = β * (t / β) := by field_simp
    set l := t / β with hl
    refine ⟨l, by positivity, ?_, ?_⟩
    · rw [hs, ht] at h2
      have e : -α * (β * l - 1) - (1 - β) * (1 + (α - 1) * l) = (α + β - 1) * (1 - l) := by ring
      rw [e] at h2
      have := nonneg_of_mul_nonneg_right h2 hpos
      linarith
    · rw [hc, hs, ht]
      ext <;> simp only [combine] <;> ring
  · right; right; left
    have ht : t = 1 - (1 - β) * (s / α) := by field_simp; linarith
    have hs : s = α * (s / α) := by field_simp
    set l := s / α with hl
    refine ⟨1 - l, ?_, by linarith [div_nonneg h3 hα.le], ?_⟩
    · rw [hs, ht] at h1
      have e : (α - 1) * (1 - (1 - β) * l) - β * (α * l - 1) = (α + β - 1) * (1 - l) := by ring
      rw [e] at h1
      exact nonneg_of_mul_nonneg_right h1 hpos
    · rw [hc, hs, ht]
      ext <;> simp only [combine] <;> ring
  · right; right; right
    subst hz
    refine ⟨1 - t, by nlinarith, by linarith, ?_⟩
    ext <;> simp only [combine] <;> ring

/-- Between an inner point and one that is not, there is an inner point on an edge line. -/
theorem crossing {α β s t s' t' : ℝ} (h : Inner α β s t) (h' : ¬ Inner α β s' t') :
    ∃ τ : ℝ, 0 ≤ τ ∧ τ ≤ 1 ∧ Inner α β (s + τ * (s' - s)) (t + τ * (t' - t)) ∧
      ((edgeSide α β (s + τ * (s' - s)) (t + τ * (t' - t))).1 = 0 ∨
       (edgeSide α β (s + τ * (s' - s)) (t + τ * (t' - t))).2.1 = 0 ∨
       (edgeSide α β (s + τ * (s' - s)) (t + τ * (t' - t))).2.2.1 = 0 ∨
       (edgeSide α β (s + τ * (s' - s)) (t + τ * (t' - t))).2.2.2 = 0) := by
  let e := fun τ : ℝ => edgeSide α β (s + τ * (s' - s)) (t + τ * (t' - t))
  let g : ℝ → ℝ := fun τ => min (min (e τ).1 (e τ).2.1) (min (e τ).2.2.1 (e τ).2.2.2)
  have hcont : ContinuousOn g (Set.Icc 0 1) := by
    apply Continuous.continuousOn
    simp only [g, e, edgeSide]
    fun_prop
  have hg0 : 0 ≤ g 0 := by
    obtain ⟨h0, h1, h2, h3⟩ := h
    simp only [g, e, zero_mul, add_zero]
    exact le_min (le_min h0 h1) (le_min h2 h3)
  have hg1 : g 1 ≤ 0 := by
    by_contra hneg
    push Not at hneg
    apply h'
    simp only [g, e, one_mul, add_sub_cancel, lt_min_iff] at hneg
    exact ⟨hneg.1.1.le, hneg.1.2.le, hneg.2.1.le, hneg.2.2.le⟩
  obtain ⟨τ, ⟨hτ0, hτ1⟩, hτ⟩ := intermediate_value_Icc' (by norm_num) hcont ⟨hg1, hg0⟩
  refine ⟨τ, hτ0, hτ1, ?_, ?_⟩
  · have : 0 ≤ g τ := hτ.ge
    simp only [g, e, le_min_iff] at this
    exact ⟨this.1.1, this.1.2, this.2.1, this.2.2⟩
  · have h2 : g τ = 0 := hτ
    simp only [g, e] at h2
    rcases min_choice (min (edgeSide α β (s + τ * (s' - s)) (t + τ * (t' - t))).1
      (edgeSide α β (s + τ * (s' - s)) (t + τ * (t' - t))).2.1)
      (min (edgeSide α β (s + τ * (s' - s)) (t + τ * (t' - t))).2.2.1
      (edgeSide α β (s + τ * (s' - s)) (t + τ * (t' - t))).2.2.2) with k | k
    · rw [k] at h2
      rcases min_choice (edgeSide α β (s + τ * (s' - s)) (t + τ * (t' - t))).1
        (edgeSide α β (s + τ * (s' - s)) (t + τ * (t' - t))).2.1 with l | l
      · rw [l] at h2; exact Or.inl h2
      · rw [l] at h2; exact Or.inr (Or.inl h2)
    · rw [k] at h2
      rcases min_choice (edgeSide α β (s + τ * (s' - s)) (t + τ * (t' - t))).2.2.1
        (edgeSide α β (s + τ * (s' - s)) (t + τ * (t' - t))).2.2.2 with l | l
      · rw [l] at h2; exact Or.inr (Or.inr (Or.inl h2))
      · rw [l] at h2; exact Or.inr (Or.inr (Or.inr h2))

theorem edges_subset {a b c d : V3} : Spec.segment a b ∪ Spec.segment b c ∪ Spec.segment c d ∪
    Spec.segment d a ⊆ surfaceOf a b c d := by
  rintro p (((⟨s, h0, h1, rfl⟩ | ⟨s, h0, h1, rfl⟩) | ⟨s, h0, h1, rfl⟩) | ⟨s, h0, h1, rfl⟩)
  · exact ⟨1 - s, s, 0, 0, by linarith, h0, le_refl _, le_refl _, by ring,
      by ext <;> simp only [combine, mean4] <;> ring⟩
  · exact ⟨0, 1 - s, s, 0, le_refl _, by linarith, h0, le_refl _, by ring,
      by ext <;> simp only [combine, mean4] <;> ring⟩
  · exact ⟨0, 0, 1 - s, s, le_refl _, le_refl _, by linarith, h0, by ring,
      by ext <;> simp only [combine, mean4] <;> ring⟩
  · exact ⟨s, 0, 0, 1 - s, h0, le_refl _, le_refl _, by linarith, by ring,
      by ext <;> simp only [combine, mean4] <;> ring⟩

/-- `edgeDistSq` is the squared distance to the boundary. -/
theorem edgeDist_spec (q : Quad V3) (x : V3) :
    IsMinDistSq (Spec.segment q.p0 q.p1 ∪ Spec.segment q.p1 q.p2 ∪ Spec.segment q.p2 q.p3 ∪
      Spec.segment q.p3 q.p0) x (edgeDistSq q x) := by
  obtain ⟨⟨y0, m0, e0⟩, l0⟩ := segment_spec_at q.p0 q.p1 x
  obtain ⟨⟨y1, m1, e1⟩, l1⟩ := segment_spec_at q.p1 q.p2 x
  obtain ⟨⟨y2, m2, e2⟩, l2⟩ := segment_spec_at q.p2 q.p3 x
  obtain ⟨⟨y3, m3, e3⟩, l3⟩ := segment_spec_at q.p3 q.p0 x
  unfold edgeDistSq
  generalize distanceSqToSegment (q.p0.sub x) (q.p1.sub x) = d0 at *
  generalize distanceSqToSegment (q.p1.sub x) (q.p2.sub x) = d1 at *
  generalize distanceSqToSegment (q.p2.sub x) (q.p3.sub x) = d2 at *
  generalize distanceSqToSegment (q.p3.sub x) (q.p0.sub x) = d3 at *
  constructor
  · rcases min_choice (min d0 d1) (min d2 d3) with k | k
    · rcases min_choice d0 d1 with l | l
      · exact ⟨y0, Or.inl (Or.inl (Or.inl m0)), by rw [k, l, e0]⟩
      · exact ⟨y1, Or.inl (Or.inl (Or.inr m1)), by rw [k, l, e1]⟩
    · rcases min_choice d2 d3 with l | l
      · exact ⟨y2, Or.inl (Or.inr m2), by rw [k, l, e2]⟩
      · exact ⟨y3, Or.inr m3, by rw [k, l, e3]⟩
  · rintro y (((m | m) | m) | m)
    · exact le_trans (le_trans (min_le_left _ _) (min_le_left _ _)) (l0 y m)
    · exact le_trans (le_trans (min_le_left _ _) (min_le_right _ _)) (l1 y m)
    · exact le_trans (le_trans (min_le_right _ _) (min_le_left _ _)) (l2 y m)
    · exact le_trans (le_trans (min_le_right _ _) (min_le_right _ _)) (l3 y m)

/-- The point of the plane below `x`, and the squared distance to points of the plane. -/
theorem project {a b d : V3} (h : NonCollinear a b d) (x : V3) :
    ∃ s t : ℝ, (∃ κ, combine a b d s t = x.add (((b.sub a).cross (d.sub a)).mul κ)) ∧ ∀ s' t', distSq x (combine a b d s' t') =
      sumProd ((b.sub a).cross (d.sub a)) (x.sub a) ^ 2 /
        sumProd ((b.sub a).cross (d.sub a)) ((b.sub a).cross (d.sub a)) +
      distSq (combine a b d s t) (combine a b d s' t') ∧
      (∀ e : V3, (∃ ea eb : ℝ, e = ((b.sub a).mul ea).add ((d.sub a).mul eb)) → ∀ p : V3,
        sumProd (e.cross ((b.sub a).cross (d.sub a))) (p.sub x) =
        sumProd (e.cross ((b.sub a).cross (d.sub a))) (p.sub (combine a b d s t))) := by
  have hpos := normal_pos h
  have hm := mem_plane hpos
  set n := (b.sub a).cross (d.sub a) with hn
  set N := sumProd n n with hN
  set k := sumProd n (x.sub a) with hk
  have hmem : x.sub (n.mul (k / N)) ∈ plane a b d := by
    rw [hm]
    have : sumProd n ((x.sub (n.mul (k / N))).sub a) = k - k / N * N := by
      simp only [hk, hN, sumProd, V3.sub, V3.mul]; ring
    rw [this]; field_simp; ring
  obtain ⟨s, t, hst⟩ := hmem
  refine ⟨s, t, ⟨-(k / N), by rw [← hst]; ext <;> simp only [V3.sub, V3.add, V3.mul] <;> ring⟩,
    fun s' t' => ⟨?_, ?_⟩⟩
  · have hy : sumProd n ((combine a b d s' t').sub a) = 0 := by
      simp only [hn, sumProd, V3.cross, V3.sub, combine]; ring
    rw [← hst]
    set y := combine a b d s' t'
    have hky : k = sumProd n (x.sub y) := by
      have : sumProd n (x.sub y) = k - sumProd n (y.sub a) := by
        simp only [hk, sumProd, V3.sub]; ring
      rw [this, hy]; ring
    have : distSq (x.sub (n.mul (k / N))) y = distSq x y - 2 * (k / N) * sumProd n (x.sub y) +
        (k / N) ^ 2 * N := by
      simp only [distSq, hN, sumProd, V3.sub, V3.mul]; ring
    rw [this, ← hky]
    field_simp
    ring
  · rintro e ⟨ea, eb, rfl⟩ p
    rw [← hst]
    have : sumProd ((((b.sub a).mul ea).add ((d.sub a).mul eb)).cross n) (p.sub (x.sub (n.mul (k / N)))) =
        sumProd ((((b.sub a).mul ea).add ((d.sub a).mul eb)).cross n) (p.sub x) +
        (k / N) * sumProd ((((b.sub a).mul ea).add ((d.sub a).mul eb)).cross n) n := by
      simp only [sumProd, V3.sub, V3.mul]; ring
    rw [this]
    have : sumProd ((((b.sub a).mul ea).add ((d.sub a).mul eb)).cross n) n = 0 := by
      simp only [sumProd, V3.cross]; ring
    rw [this]; ring

theorem neg_iff_of_mul {k v : ℝ} (hk : 0 < k) : k * v < 0 ↔ v < 0 := by
  constructor
  · intro h; by_contra h'; push Not at h'; nlinarith [mul_nonneg hk.le h']
  · intro h; nlinarith

/-- The test of the code, in coordinates. -/
theorem inside_iff {q : Quad V3} {α β : ℝ} (h : NonCollinear q.p0 q.p1 q.p3) (hα : 0 < α) (hβ : 0 < β)
    (hc : q.p2 = combine q.p0 q.p1 q.p3 α β) {x : V3} {s t : ℝ}
    (hst : ∀ e : V3, (∃ ea eb : ℝ, e = ((q.p1.sub q.p0).mul ea).add ((q.p3.sub q.p0).mul eb)) → ∀ p : V3,
        sumProd (e.cross ((q.p1.sub q.p0).cross (q.p3.sub q.p0))) (p.sub x) =
        sumProd (e.cross ((q.p1.sub q.p0).cross (q.p3.sub q.p0)))
          (p.sub (combine q.p0 q.p1 q.p3 s t))) :
    inside q x = true ↔ Inner α β s t := by
  have hpos := normal_pos h
  set u := q.p1.sub q.p0 with hu
  set v := q.p3.sub q.p0 with hv
  set n := u.cross v with hn
  -- the normal of the code is a positive multiple of `n`
  have hout : ∃ k : ℝ, 0 < k ∧ outerNormal q = n.mul k := by
    have e1 : (q.p1.sub q.p0).cross (q.p2.sub q.p0) = n.mul β := by
      rw [hc]
      ext <;> simp only [hn, hu, hv, V3.cross, V3.sub, V3.mul, combine] <;> ring
    have hne : n.mul β ≠ zeroVec := by
      apply ne_zero_of_pos
      have : sumProd (n.mul β) (n.mul β) = β ^ 2 * sumProd n n := by
        simp only [sumProd, V3.mul]; ring
      rw [this]; positivity
    obtain ⟨a1, -⟩ := norm_spec hne
    refine ⟨β / (n.mul β).mag, by positivity, ?_⟩
    unfold outerNormal
    rw [e1]
    ext <;> simp only [V3.norm, V3.mul, V3.mag] <;> ring
  obtain ⟨k, hk, hout⟩ := hout
  have hkn : 0 < k * sumProd n n := mul_pos hk hpos
  -- the four values
  have sgn : ∀ (e p : V3) (ea eb f : ℝ), e = (u.mul ea).add (v.mul eb) →
      (sumProd (e.cross n) (p.sub (combine q.p0 q.p1 q.p3 s t)) = sumProd n n * f) →
      signbit (sumProd (e.cross (outerNormal q)) (p.sub x)) = decide (f < 0) := by
    intro e p ea eb f he hf
    have e1 : sumProd (e.cross (outerNormal q)) (p.sub x) = (k * sumProd n n) * f := by
      have : sumProd (e.cross (outerNormal q)) (p.sub x) = k * sumProd (e.cross n) (p.sub x) := by
        rw [hout]; simp only [sumProd, V3.cross, V3.mul]; ring
      rw [this, hst e ⟨ea, eb, he⟩ p, hf]; ring
    unfold signbit
    rw [e1]
    simp only [neg_iff_of_mul hkn]
  have s0 := sgn (q.p1.sub q.p0) q.p0 1 0 t
    (by ext <;> simp only [V3.add, V3.mul, ← hu] <;> ring)
    (by simp only [hn, hu, hv, sumProd, V3.cross, V3.sub, combine]; ring)
  have s1 := sgn (q.p2.sub q.p1) q.p1 (α - 1) β ((α - 1) * t - β * (s - 1))
    (by rw [hc]; ext <;> simp only [V3.add, V3.mul, V3.sub, hu, hv, combine] <;> ring)
    (by rw [hc]; simp only [hn, hu, hv, sumProd, V3.cross, V3.sub, combine]; ring)
  have s2 := sgn (q.p3.sub q.p2) q.p2 (-α) (1 - β) (-α * (t - 1) - (1 - β) * s)
    (by rw [hc]; ext <;> simp only [V3.add, V3.mul, V3.sub, hu, hv, combine] <;> ring)
    (by rw [hc]; simp only [hn, hu, hv, sumProd, V3.cross, V3.sub, combine]; ring)
  have s3 := sgn (q.p0.sub q.p3) q.p3 0 (-1) s
    (by ext <;> simp only [V3.add, V3.mul, V3.sub, hu, hv] <;> ring)
    (by simp only [hn, hu, hv, sumProd, V3.cross, V3.sub, combine]; ring)
  unfold inside
  simp only [s0, s1, s2, s3]
  simp only [Bool.and_eq_true, beq_iff_eq, decide_eq_decide]
  unfold Inner
  simp only [edgeSide]
  constructor
  · rintro ⟨⟨k1, k2⟩, k3⟩
    by_cases ht : t < 0
    · exfalso
      have h1 := k1.1 ht
      have h2 := k2.1 h1
      have h3 := k3.1 h2
      nlinarith
    · have h1 : ¬ _ := fun hh => ht (k1.2 hh)
      have h2 : ¬ _ := fun hh => h1 (k2.2 hh)
      have h3 : ¬ _ := fun hh => h2 (k3.2 hh)
      push Not at ht h1 h2 h3
      exact ⟨ht, h1, h2, h3⟩
  · rintro ⟨h0, h1, h2, h3⟩
    have n0 := not_lt.2 h0
    have n1 := not_lt.2 h1
    have n2 := not_lt.2 h2
    have n3 := not_lt.2 h3
    exact ⟨⟨iff_of_false n0 n1, iff_of_false n1 n2⟩, iff_of_false n2 n3⟩

/-- Value for inner points. -/
theorem inside_value {q : Quad V3} {α β : ℝ} (h : NonCollinear q.p0 q.p1 q.p3) (hβ : 0 < β)
    (hc : q.p2 = combine q.p0 q.p1 q.p3 α β) (x : V3) :
    |sumProd (q.p0.sub x) (outerNormal q)| ^ 2 =
      sumProd ((q.p1.sub q.p0).cross (q.p3.sub q.p0)) (x.sub q.p0) ^ 2 /
        sumProd ((q.p1.sub q.p0).cross (q.p3.sub q.p0)) ((q.p1.sub q.p0).cross (q.p3.sub q.p0)) := by
  have hpos := normal_pos h
  set n := (q.p1.sub q.p0).cross (q.p3.sub q.p0) with hn
  have e1 : (q.p1.sub q.p0).cross (q.p2.sub q.p0) = n.mul β := by
    rw [hc]
    ext <;> simp only [hn, V3.cross, V3.sub, V3.mul, combine] <;> ring
  have e2 : sumProd (n.mul β) (n.mul β) = β ^ 2 * sumProd n n := by
    simp only [sumProd, V3.mul]; ring
  have hne : n.mul β ≠ zeroVec := by
    apply ne_zero_of_pos; rw [e2]; positivity
  obtain ⟨a1, a2, -, a4⟩ := norm_spec hne
  have comm : sumProd (q.p0.sub x) (outerNormal q) = sumProd (outerNormal q) (q.p0.sub x) := by
    simp only [sumProd]; ring
  rw [sq_abs, comm]
  unfold outerNormal
  rw [e1, a4, div_pow, a2, e2]
  have e3 : sumProd (n.mul β) (q.p0.sub x) = -β * sumProd n (x.sub q.p0) := by
    simp only [sumProd, V3.mul, V3.sub]; ring
  rw [e3]
  field_simp

/-- **C96.** For a quadrilateral with its corners in a plane and turning the same way, the squared
distance is the distance to the nearest point of the surface spanned by the corners; with the horizontal
option it is 0 for points above or below the surface and the distance to the nearest point of the
boundary for all others. -/
theorem C96_surface_distance {q : Quad V3} (hq : ConvexPlanar q.p0 q.p1 q.p2 q.p3) (x : V3) :
    IsMinDistSq (surfaceOf q.p0 q.p1 q.p2 q.p3) x (quadDistSq q x false) ∧
    ((∃ k : ℝ, x.add (((q.p1.sub q.p0).cross (q.p3.sub q.p0)).mul k) ∈ surfaceOf q.p0 q.p1 q.p2 q.p3) → quadDistSq q x true = 0) ∧
    ((¬ ∃ k : ℝ, x.add (((q.p1.sub q.p0).cross (q.p3.sub q.p0)).mul k) ∈ surfaceOf q.p0 q.p1 q.p2 q.p3) →
      IsMinDistSq (surfaceOf q.p0 q.p1 q.p2 q.p3) x (quadDistSq q x true)) := by
  obtain ⟨h, α, β, hα, hβ, hab, hc⟩ := hq
  obtain ⟨s, t, ⟨κ, hκ⟩, hst⟩ := project h x
  have hd := fun s' t' => (hst s' t').1
  have hin := inside_iff h hα hβ hc (hst 0 0).2
  have hval := inside_value h hβ hc x
  set K := sumProd ((q.p1.sub q.p0).cross (q.p3.sub q.p0)) (x.sub q.p0) ^ 2 /
        sumProd ((q.p1.sub q.p0).cross (q.p3.sub q.p0)) ((q.p1.sub q.p0).cross (q.p3.sub q.p0)) with hK
  have hnn : ∀ a b : V3, 0 ≤ distSq a b := by intro a b; unfold distSq; positivity
  -- outside: nearest point on the boundary
  have houter : ¬ Inner α β s t → IsMinDistSq (surfaceOf q.p0 q.p1 q.p2 q.p3) x (edgeDistSq q x) := by
    intro hni
    obtain ⟨⟨y, hy, hye⟩, hle⟩ := edgeDist_spec q x
    refine ⟨⟨y, edges_subset hy, hye⟩, ?_⟩
    intro y hy
    obtain ⟨s', t', hi, rfl⟩ := mem_inner hα hβ hab hc hy
    obtain ⟨τ, h0, h1, hi2, hz⟩ := crossing hi hni
    have hb := inner_boundary hα hβ hab hc hi2 hz
    refine le_trans (hle (combine q.p0 q.p1 q.p3 (s' + τ * (s - s')) (t' + τ * (t - t'))) ?_) ?_
    · rcases hb with hb | hb | hb | hb
      · exact Or.inl (Or.inl (Or.inl hb))
      · exact Or.inl (Or.inl (Or.inr hb))
      · exact Or.inl (Or.inr hb)
      · exact Or.inr hb
    · rw [hd, hd]
      have e : distSq (combine q.p0 q.p1 q.p3 s t)
          (combine q.p0 q.p1 q.p3 (s' + τ * (s - s')) (t' + τ * (t - t'))) =
          (1 - τ) ^ 2 * distSq (combine q.p0 q.p1 q.p3 s t) (combine q.p0 q.p1 q.p3 s' t') := by
        simp only [distSq, combine]; ring
      rw [e]
      have := hnn (combine q.p0 q.p1 q.p3 s t) (combine q.p0 q.p1 q.p3 s' t')
      nlinarith [mul_nonneg h0 (by linarith : (0:ℝ) ≤ 2 - τ), mul_nonneg (mul_nonneg h0 (by linarith : (0:ℝ) ≤ 2 - τ)) this]
  -- inside: the foot of the perpendicular
  have hinner : Inner α β s t → IsMinDistSq (surfaceOf q.p0 q.p1 q.p2 q.p3) x K := by
    intro hi
    refine ⟨⟨_, inner_mem hab hc hi, ?_⟩, ?_⟩
    · rw [hd]
      have : distSq (combine q.p0 q.p1 q.p3 s t) (combine q.p0 q.p1 q.p3 s t) = 0 := by simp [distSq]
      rw [this]; ring
    · intro y hy
      obtain ⟨s', t', hi', rfl⟩ := mem_inner hα hβ hab hc hy
      rw [hd]
      linarith [hnn (combine q.p0 q.p1 q.p3 s t) (combine q.p0 q.p1 q.p3 s' t')]
  -- above or below the surface
  have hover : (∃ k : ℝ, x.add (((q.p1.sub q.p0).cross (q.p3.sub q.p0)).mul k) ∈ surfaceOf q.p0 q.p1 q.p2 q.p3) ↔ Inner α β s t := by
    constructor
    · rintro ⟨k, hk⟩
      obtain ⟨s', t', hi, he⟩ := mem_inner hα hβ hab hc hk
      have hpos := normal_pos h
      set n := (q.p1.sub q.p0).cross (q.p3.sub q.p0) with hn
      have hz : k - κ = 0 := by
        have e1 : sumProd n ((x.add (n.mul k)).sub (x.add (n.mul κ))) = (k - κ) * sumProd n n := by
          simp only [sumProd, V3.sub, V3.add, V3.mul]; ring
        rw [he, ← hκ] at e1
        have e2 : sumProd n ((combine q.p0 q.p1 q.p3 s' t').sub (combine q.p0 q.p1 q.p3 s t)) = 0 := by
          simp only [hn, sumProd, V3.cross, V3.sub, combine]; ring
        rw [e2] at e1
        rcases mul_eq_zero.1 e1.symm with e | e
        · exact e
        · exact absurd e hpos.ne'
      have hk' : k = κ := by linarith
      rw [hk', ← hκ] at he
      have := h (s - s') (t - t') (by
        have hx := congrArg V3.x he
        have hy := congrArg V3.y he
        have hz := congrArg V3.z he
        simp only [combine] at hx hy hz
        ext <;> simp only [combine] <;> linarith)
      have e1 : s = s' := by linarith [this.1]
      have e2 : t = t' := by linarith [this.2]
      rw [e1, e2]; exact hi
    · intro hi
      exact ⟨κ, hκ ▸ inner_mem hab hc hi⟩
  rw [hover]
  unfold quadDistSq
  by_cases hi : Inner α β s t
  · rw [if_pos (hin.2 hi), if_pos (hin.2 hi)]
    simp only [Bool.false_eq_true, if_false, if_true]
    rw [hval]
    exact ⟨hinner hi, fun _ => trivial, fun hn => absurd hi hn⟩
  · have : ¬ inside q x = true := fun hh => hi (hin.1 hh)
    rw [if_neg this, if_neg this]
    exact ⟨houter hi, fun hh => absurd hh hi, fun _ => houter hi⟩

/-- **C96**, for the distance in km that `_quad_distance` returns: to the surface itself, and with the
horizontal option to the surface spanned by the corners moved to depth 0. -/
theorem C96_distance_km (q : Quad Point) (x : V3) :
    (ConvexPlanar (fromPoint q.p0) (fromPoint q.p1) (fromPoint q.p2) (fromPoint q.p3) →
      ∃ d, IsMinDistSq (surfaceOf (fromPoint q.p0) (fromPoint q.p1) (fromPoint q.p2) (fromPoint q.p3)) x d ∧
        quadDistance q x false = √d / 1000) ∧
    (∀ a b c d : V3, a = fromPoint ⟨q.p0.lon, q.p0.lat, 0⟩ → b = fromPoint ⟨q.p1.lon, q.p1.lat, 0⟩ →
      c = fromPoint ⟨q.p2.lon, q.p2.lat, 0⟩ → d = fromPoint ⟨q.p3.lon, q.p3.lat, 0⟩ →
      ConvexPlanar a b c d →
      ((∃ k : ℝ, x.add (((b.sub a).cross (d.sub a)).mul k) ∈ surfaceOf a b c d) →
        quadDistance q x true = 0) ∧
      ((¬ ∃ k : ℝ, x.add (((b.sub a).cross (d.sub a)).mul k) ∈ surfaceOf a b c d) →
        ∃ m, IsMinDistSq (surfaceOf a b c d) x m ∧ quadDistance q x true = √m / 1000)) := by
  constructor
  · intro h
    exact ⟨_, (C96_surface_distance (q := q.ecef) h x).1, rfl⟩
  · rintro a b c d rfl rfl rfl rfl h
    have := C96_surface_distance (q := Quad.ecef ⟨surface q.p0, surface q.p1, surface q.p2, surface q.p3⟩) h x
    constructor
    · intro hk
      have := this.2.1 hk
      unfold quadDistance
      simp only [if_true]
      rw [this]; simp
    · intro hk
      exact ⟨_, this.2.2 hk, rfl⟩

/-- A trapezoid. -/
example : ConvexPlanar ⟨0, 0, 0⟩ ⟨3, 0, 0⟩ ⟨2, 0, -1⟩ ⟨0, 0, -1⟩ := by
  refine ⟨?_, 2 / 3, 1, by norm_num, by norm_num, by norm_num, ?_⟩
  · intro s t h
    have h1 := congrArg V3.x h
    have h3 := congrArg V3.z h
    simp only [combine] at h1 h3
    constructor <;> linarith
  · ext <;> simp only [combine] <;> norm_num

end Verif.Props
