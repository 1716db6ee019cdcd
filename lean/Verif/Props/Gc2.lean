import Mathlib.MeasureTheory.Integral.IntervalIntegral.FundThmCalculus
import Mathlib.Analysis.SpecialFunctions.Trigonometric.ArctanDeriv
import Verif.Model.Gc2
import Verif.Spec.Gc2

/-!
# GC2 coordinates of one trace: C74-C76, C119
-/

namespace Verif.Props
open Verif.Vec Verif.Rup Verif.Gc2 Real
open Verif.QuadR (P2)
open Verif.Spec (Leg totalWeight sumRight sumAlong traceLength)

/-! ### The weight -/

theorem weight_t {t : ℝ} (ht : t ≠ 0) (u l : ℝ) : weight t u l = ∫ s in (0 : ℝ)..l, 1 / (t ^ 2 + (s - u) ^ 2) := by
  have hd : ∀ s ∈ Set.uIcc 0 l, HasDerivAt (fun s => 1 / t * arctan ((s - u) / t)) (1 / (t ^ 2 + (s - u) ^ 2)) s := by
    intro s _
    have h1 : HasDerivAt (fun s => (s - u) / t) (1 / t) s := ((hasDerivAt_id s).sub_const u).div_const t
    have h2 := (h1.arctan).const_mul (1 / t)
    refine h2.congr_deriv ?_
    have : t ^ 2 + (s - u) ^ 2 ≠ 0 := by positivity
    have h3 : 1 + ((s - u) / t) ^ 2 ≠ 0 := by positivity
    field_simp
  have hi : IntervalIntegrable (fun s => 1 / (t ^ 2 + (s - u) ^ 2)) MeasureTheory.volume 0 l := by
    apply Continuous.intervalIntegrable
    apply Continuous.div continuous_const (by fun_prop)
    intro s
    positivity
  rw [intervalIntegral.integral_eq_sub_of_hasDerivAt hd hi]
  unfold weight
  rw [if_pos ht]
  ring_nf

theorem weight_line {u l : ℝ} (hl : 0 < l) (hu : u < 0 ∨ u > l) :
    weight 0 u l = ∫ s in (0 : ℝ)..l, 1 / ((0 : ℝ) ^ 2 + (s - u) ^ 2) := by
  have hne : ∀ s ∈ Set.uIcc 0 l, s - u ≠ 0 := by
    intro s hs
    rw [Set.uIcc_of_le hl.le] at hs
    rcases hu with hu | hu
    · have := hs.1; intro h; linarith
    · have := hs.2; intro h; linarith
  have hd : ∀ s ∈ Set.uIcc 0 l, HasDerivAt (fun s => -(s - u)⁻¹) (1 / ((0 : ℝ) ^ 2 + (s - u) ^ 2)) s := by
    intro s hs
    have h1 : HasDerivAt (fun s => s - u) 1 s := (hasDerivAt_id s).sub_const u
    have h2 := (h1.inv (hne s hs)).neg
    refine h2.congr_deriv ?_
    rw [neg_div, neg_neg]
    norm_num
  have hi : IntervalIntegrable (fun s => 1 / ((0 : ℝ) ^ 2 + (s - u) ^ 2)) MeasureTheory.volume 0 l := by
    apply ContinuousOn.intervalIntegrable
    apply ContinuousOn.div continuousOn_const (by fun_prop)
    intro s hs
    have := hne s hs
    positivity
  rw [intervalIntegral.integral_eq_sub_of_hasDerivAt hd hi]
  unfold weight
  rw [if_neg (by simp), if_pos hu]
  have h1 : u - l ≠ 0 := by rcases hu with hu | hu <;> (intro h; linarith)
  have h2 : u ≠ 0 := by rcases hu with hu | hu <;> (intro h; linarith)
  have h3 : l - u ≠ 0 := by intro h; apply h1; linarith
  have h4 : (0 : ℝ) - u ≠ 0 := by intro h; apply h2; linarith
  field_simp
  ring

/-- The weight off the segment is the integral of the inverse square of the distance. -/
theorem weight_integral {t u l : ℝ} (hl : 0 < l) (h : ¬ onTrace t u l) :
    weight t u l = ∫ s in (0 : ℝ)..l, 1 / (t ^ 2 + (s - u) ^ 2) := by
  by_cases ht : t = 0
  · subst ht
    apply weight_line hl
    by_contra hu
    push Not at hu
    exact h ⟨rfl, hu⟩
  · exact weight_t ht u l

theorem weight_pos {t u l : ℝ} (hl : 0 < l) (h : ¬ onTrace t u l) : 0 < weight t u l := by
  unfold weight
  by_cases ht : t = 0
  · rw [if_neg (by simpa using ht)]
    have hu : u < 0 ∨ u > l := by
      by_contra hu
      push Not at hu
      exact h ⟨ht, hu⟩
    rw [if_pos hu]
    rcases hu with hu | hu
    · have : 1 / (u - l) - 1 / u = l / (-u * (l - u)) := by
        have : u ≠ 0 := hu.ne
        have : u - l ≠ 0 := by linarith
        have : l - u ≠ 0 := by linarith
        field_simp; ring
      rw [this]
      apply div_pos hl
      apply mul_pos <;> linarith
    · have : 1 / (u - l) - 1 / u = l / (u * (u - l)) := by
        have : u ≠ 0 := by linarith
        have : u - l ≠ 0 := by linarith
        field_simp; ring
      rw [this]
      apply div_pos hl
      apply mul_pos <;> linarith
  · rw [if_pos ht]
    rcases lt_or_gt_of_ne ht with ht | ht
    · apply mul_pos_of_neg_of_neg (by rw [one_div]; exact inv_lt_zero.mpr ht)
      rw [sub_neg]
      apply arctan_strictMono
      exact div_lt_div_of_neg_of_lt ht (by linarith)
    · apply mul_pos (by positivity)
      rw [sub_pos]
      apply arctan_strictMono
      exact div_lt_div_of_pos_right (by linarith) ht

/-! ### Legs -/

/-- The leg of a quadrilateral in the projection: it runs from the first towards the second corner and is as long as the
top edge. -/
structure LegOf (proj : Point → P2) (q : Quad Point) (g : Leg) : Prop where
  start : proj q.p0 = ⟨g.px, g.py⟩
  ahead : ∃ r, 0 < r ∧ proj q.p1 = ⟨g.px + r * g.dx, g.py + r * g.dy⟩
  proper : g.Proper
  len : g.len = quadLength q.ecef

theorem leg_coords {proj : Point → P2} {q : Quad Point} {g : Leg} (h : LegOf proj q g) (x y : ℝ) :
    calcT (proj q.p0) (proj q.p1) ⟨x, y⟩ = g.right x y ∧ calcU (proj q.p0) (proj q.p1) ⟨x, y⟩ = g.along x y := by
  obtain ⟨r, hr, h1⟩ := h.ahead
  have hu := h.proper.1
  have s1 : √((g.px + r * g.dx - g.px) ^ 2 + (g.py + r * g.dy - g.py) ^ 2 + 0 ^ 2) = r := by
    rw [show (g.px + r * g.dx - g.px) ^ 2 + (g.py + r * g.dy - g.py) ^ 2 + (0 : ℝ) ^ 2 = r ^ 2 by
      linear_combination r ^ 2 * hu, sqrt_sq hr.le]
  have s2 : √((g.py + r * g.dy - g.py) ^ 2 + (-(g.px + r * g.dx - g.px)) ^ 2 + 0 ^ 2) = r := by
    rw [show (g.py + r * g.dy - g.py) ^ 2 + (-(g.px + r * g.dx - g.px)) ^ 2 + (0 : ℝ) ^ 2 = r ^ 2 by
      linear_combination r ^ 2 * hu, sqrt_sq hr.le]
  have hr' : r ≠ 0 := hr.ne'
  rw [h.start, h1]
  unfold calcT calcU V3.norm Leg.right Leg.along
  simp only
  rw [s1, s2]
  constructor <;> (field_simp; ring)

theorem leg_on {g : Leg} (h : g.Proper) (x y : ℝ) : onTrace (g.right x y) (g.along x y) g.len ↔ g.On x y := by
  have hu := h.1
  constructor
  · rintro ⟨h1, h2, h3⟩
    unfold Leg.right at h1
    refine ⟨g.along x y, h2, h3, ?_, ?_⟩
    · unfold Leg.along
      linear_combination (-(x - g.px)) * hu + g.dy * h1
    · unfold Leg.along
      linear_combination (-(y - g.py)) * hu - g.dx * h1
  · rintro ⟨s, h1, h2, h3, h4⟩
    have ha : g.along x y = s := by
      unfold Leg.along; rw [h3, h4]; linear_combination s * hu
    refine ⟨?_, ?_, ?_⟩
    · unfold Leg.right; rw [h3, h4]; ring
    · rw [ha]; exact h1
    · rw [ha]; exact h2

theorem leg_weight {g : Leg} (h : g.Proper) {x y : ℝ} (ho : ¬ g.On x y) :
    weight (g.right x y) (g.along x y) g.len = g.weight x y := by
  rw [weight_integral h.2 (fun hc => ho ((leg_on h x y).mp hc))]
  unfold Leg.weight
  congr 1
  funext s
  congr 1
  have hu := h.1
  unfold Leg.right Leg.along
  linear_combination ((x - g.px) ^ 2 + (y - g.py) ^ 2 - s ^ 2) * hu

/-! ### The sums -/

theorem addQuad_off {proj : Point → P2} {q : Quad Point} {g : Leg} (h : LegOf proj q g) {x y : ℝ} (ho : ¬ g.On x y)
    (a : Acc) : addQuad proj ⟨x, y⟩ a q =
      ⟨a.tot + g.weight x y, a.T + g.weight x y * g.right x y, a.U + g.weight x y * (g.along x y + a.off),
        a.off + g.len⟩ := by
  obtain ⟨h1, h2⟩ := leg_coords h x y
  unfold addQuad
  simp only
  rw [h1, h2, ← h.len, if_neg (fun hc => ho ((leg_on h.proper x y).mp hc)), leg_weight h.proper ho]

theorem addQuad_on {proj : Point → P2} {q : Quad Point} {g : Leg} (h : LegOf proj q g) {x y : ℝ} (ho : g.On x y)
    (a : Acc) : addQuad proj ⟨x, y⟩ a q = ⟨1, a.T, a.U, a.off + g.len⟩ := by
  obtain ⟨h1, h2⟩ := leg_coords h x y
  have hon := (leg_on h.proper x y).mpr ho
  have hw : weight (g.right x y) (g.along x y) g.len = 0 := by
    unfold weight
    rw [if_neg (by simpa using hon.1), if_neg (by have := hon.2; push Not; exact this)]
  unfold addQuad
  simp only
  rw [h1, h2, ← h.len, if_pos hon, hw]
  simp

theorem fold_off {proj : Point → P2} {x y : ℝ} {qs : List (Quad Point)} {gs : List Leg}
    (h : List.Forall₂ (LegOf proj) qs gs) (ho : ∀ g ∈ gs, ¬ g.On x y) (a : Acc) :
    qs.foldl (addQuad proj ⟨x, y⟩) a = ⟨a.tot + totalWeight x y gs, a.T + sumRight x y gs,
      a.U + sumAlong x y a.off gs, a.off + traceLength gs⟩ := by
  induction h generalizing a with
  | nil => simp [totalWeight, sumRight, sumAlong, traceLength]
  | cons hq _ ih =>
    rw [List.foldl_cons, addQuad_off hq (ho _ (by simp)), ih (fun g hg => ho g (by simp [hg]))]
    simp only [totalWeight, sumRight, sumAlong, traceLength, List.map_cons, List.sum_cons]
    congr 1 <;> ring

theorem leg_weight_pos {g : Leg} (h : g.Proper) {x y : ℝ} (ho : ¬ g.On x y) : 0 < g.weight x y := by
  rw [← leg_weight h ho]
  exact weight_pos h.2 (fun hc => ho ((leg_on h x y).mp hc))

theorem total_pos {gs : List Leg} (hne : gs ≠ []) (h : ∀ g ∈ gs, g.Proper) {x y : ℝ} (ho : ∀ g ∈ gs, ¬ g.On x y) :
    0 < totalWeight x y gs := by
  have nonneg : ∀ gs : List Leg, (∀ g ∈ gs, g.Proper) → (∀ g ∈ gs, ¬ g.On x y) → 0 ≤ totalWeight x y gs := by
    intro gs
    induction gs with
    | nil => intro _ _; exact le_rfl
    | cons g gs ih =>
      intro h ho
      exact add_nonneg (leg_weight_pos (h g (by simp)) (ho g (by simp))).le
        (ih (fun g hg => h g (by simp [hg])) (fun g hg => ho g (by simp [hg])))
  cases gs with
  | nil => exact absurd rfl hne
  | cons g gs =>
    exact add_pos_of_pos_of_nonneg (leg_weight_pos (h g (by simp)) (ho g (by simp)))
      (nonneg gs (fun g hg => h g (by simp [hg])) (fun g hg => ho g (by simp [hg])))

theorem unique_replicate (n k : ℕ) : (EdgeR.uniqueNat (List.replicate n k)).length ≤ 1 := by
  unfold EdgeR.uniqueNat
  rw [Finset.length_sort]
  calc (List.replicate n k).toFinset.card ≤ ({k} : Finset ℕ).card := by
        apply Finset.card_le_card
        intro a ha
        rw [List.mem_toFinset] at ha
        rw [Finset.mem_singleton]
        exact List.eq_of_mem_replicate ha
    _ = 1 := rfl

theorem one_group (dist : Point → Point → ℝ) (proj : Point → P2) (quads : List (Quad Point)) (n k : ℕ) (site : P2)
    (fuel : ℕ) : computeGC2 dist proj quads (List.replicate n k) site fuel =
      some (.ok (finish proj site [(0, quads)])) := by
  unfold computeGC2
  simp only
  rw [if_neg (by have := unique_replicate n k; omega)]

theorem legs_length {proj : Point → P2} {qs : List (Quad Point)} {gs : List Leg} (h : List.Forall₂ (LegOf proj) qs gs) :
    (qs.map fun q => quadLength q.ecef).sum = traceLength gs := by
  unfold traceLength
  induction h with
  | nil => rfl
  | cons hq _ ih => rw [List.map_cons, List.map_cons, List.sum_cons, List.sum_cons, ih, hq.len]

theorem legs_proper {proj : Point → P2} {qs : List (Quad Point)} {gs : List Leg} (h : List.Forall₂ (LegOf proj) qs gs) :
    ∀ g ∈ gs, g.Proper := by
  induction h with
  | nil => simp
  | cons hq _ ih =>
    intro g hg
    rcases List.mem_cons.mp hg with rfl | hg
    · exact hq.proper
    · exact ih g hg

theorem finish_off {proj : Point → P2} {x y : ℝ} {qs : List (Quad Point)} {gs : List Leg}
    (h : List.Forall₂ (LegOf proj) qs gs) (ho : ∀ g ∈ gs, ¬ g.On x y) :
    finish proj ⟨x, y⟩ [(0, qs)] =
      ⟨sumRight x y gs / totalWeight x y gs, sumAlong x y 0 gs / totalWeight x y gs,
       sumRight x y gs / totalWeight x y gs, sumAlong x y 0 gs / totalWeight x y gs - traceLength gs / 2,
       ry0Of (sumAlong x y 0 gs / totalWeight x y gs) (traceLength gs)⟩ := by
  unfold finish
  simp only [List.foldl_cons, List.foldl_nil, addGroup, List.flatMap_cons, List.flatMap_nil, List.append_nil]
  rw [fold_off h ho, legs_length h]
  simp

/-! ### C119 and C74 -/

/-- **C119**. For a rupture with one trace and a site off it, `T` (also returned as `rx`) and `U` are the coordinates of
Spudich and Chiou: averages of the distances to the right of the legs and along the trace, with the integrals of the inverse
square of the distance as weights. -/
theorem C119_gc2 (dist : Point → Point → ℝ) (proj : Point → P2) (quads : List (Quad Point)) (gs : List Leg)
    (h : List.Forall₂ (LegOf proj) quads gs) (hne : quads ≠ []) (n k fuel : ℕ) (x y : ℝ) (ho : ∀ g ∈ gs, ¬ g.On x y) :
    ∃ out, computeGC2 dist proj quads (List.replicate n k) ⟨x, y⟩ fuel = some (.ok out) ∧ 0 < totalWeight x y gs ∧
      out.T = sumRight x y gs / totalWeight x y gs ∧ out.rx = out.T ∧
      out.U = sumAlong x y 0 gs / totalWeight x y gs := by
  refine ⟨_, one_group .., ?_, ?_⟩
  · apply total_pos _ (legs_proper h) ho
    rintro rfl
    cases h
    exact hne rfl
  · rw [finish_off h ho]
    exact ⟨rfl, rfl, rfl⟩

theorem sumRight_bounds {gs : List Leg} (h : ∀ g ∈ gs, g.Proper) {x y : ℝ} (ho : ∀ g ∈ gs, ¬ g.On x y) {lo hi : ℝ}
    (hb : ∀ g ∈ gs, lo ≤ g.right x y ∧ g.right x y ≤ hi) :
    lo * totalWeight x y gs ≤ sumRight x y gs ∧ sumRight x y gs ≤ hi * totalWeight x y gs := by
  induction gs with
  | nil => simp [totalWeight, sumRight]
  | cons g gs ih =>
    obtain ⟨i1, i2⟩ := ih (fun g hg => h g (by simp [hg])) (fun g hg => ho g (by simp [hg]))
      (fun g hg => hb g (by simp [hg]))
    obtain ⟨b1, b2⟩ := hb g (by simp)
    have hw := leg_weight_pos (h g (by simp)) (ho g (by simp))
    unfold totalWeight sumRight
    constructor
    · nlinarith [mul_le_mul_of_nonneg_left b1 hw.le]
    · nlinarith [mul_le_mul_of_nonneg_left b2 hw.le]

/-- **C74**. The weight of every leg is positive for a site off the leg, and `T` and `rx` lie between bounds for the
distances to the right of the legs. -/
theorem C74_between (dist : Point → Point → ℝ) (proj : Point → P2) (quads : List (Quad Point)) (gs : List Leg)
    (h : List.Forall₂ (LegOf proj) quads gs) (hne : quads ≠ []) (n k fuel : ℕ) (x y : ℝ) (ho : ∀ g ∈ gs, ¬ g.On x y) :
    ∃ out, computeGC2 dist proj quads (List.replicate n k) ⟨x, y⟩ fuel = some (.ok out) ∧
      (∀ g ∈ gs, 0 < weight (g.right x y) (g.along x y) g.len) ∧
      ∀ lo hi, (∀ g ∈ gs, lo ≤ g.right x y ∧ g.right x y ≤ hi) →
        lo ≤ out.T ∧ out.T ≤ hi ∧ lo ≤ out.rx ∧ out.rx ≤ hi := by
  obtain ⟨out, h1, h2, h3, h4, -⟩ := C119_gc2 dist proj quads gs h hne n k fuel x y ho
  refine ⟨out, h1, ?_, ?_⟩
  · intro g hg
    exact weight_pos (legs_proper h g hg).2 (fun hc => ho g hg ((leg_on (legs_proper h g hg) x y).mp hc))
  · intro lo hi hb
    obtain ⟨b1, b2⟩ := sumRight_bounds (legs_proper h) ho hb
    have e1 : lo ≤ out.T := by rw [h3, le_div_iff₀ h2]; exact b1
    have e2 : out.T ≤ hi := by rw [h3, div_le_iff₀ h2]; exact b2
    exact ⟨e1, e2, h4 ▸ e1, h4 ▸ e2⟩

/-! ### C75: one leg, and sites on the trace -/

/-- **C75** (partial). For a rupture of one quadrilateral and a site off its trace, `T` is the distance to the right of the
trace and `U` the distance along it. What is missing: sites on the trace, see below. -/
theorem C75_one_leg_partial (dist : Point → Point → ℝ) (proj : Point → P2) (q : Quad Point) (g : Leg)
    (h : LegOf proj q g) (n k fuel : ℕ) (x y : ℝ) (ho : ¬ g.On x y) :
    ∃ out, computeGC2 dist proj [q] (List.replicate n k) ⟨x, y⟩ fuel = some (.ok out) ∧
      out.T = g.right x y ∧ out.U = g.along x y := by
  obtain ⟨out, h1, h2, h3, -, h4⟩ := C119_gc2 dist proj [q] [g] (.cons h .nil) (by simp) n k fuel x y (by simpa using ho)
  refine ⟨out, h1, ?_, ?_⟩
  · rw [h3]
    unfold totalWeight sumRight at *
    simp only [totalWeight, sumRight, add_zero] at h2 ⊢
    field_simp
  · rw [h4]
    simp only [totalWeight, sumAlong, add_zero] at h2 ⊢
    field_simp

/-- **C75** violated: for every site on the trace of a rupture of one quadrilateral, `U` is 0 instead of the distance along
the trace. -/
theorem C75_on_trace_violated (dist : Point → Point → ℝ) (proj : Point → P2) (q : Quad Point) (g : Leg)
    (h : LegOf proj q g) (n k fuel : ℕ) (s : ℝ) (h0 : 0 ≤ s) (h1 : s ≤ g.len) :
    ∃ out, computeGC2 dist proj [q] (List.replicate n k) ⟨g.px + s * g.dx, g.py + s * g.dy⟩ fuel = some (.ok out) ∧
      out.T = 0 ∧ out.U = 0 ∧ out.ry = -g.len / 2 := by
  refine ⟨_, one_group .., ?_⟩
  unfold finish
  simp only [List.foldl_cons, List.foldl_nil, addGroup, List.flatMap_cons, List.flatMap_nil, List.append_nil, List.map_cons,
    List.map_nil, List.sum_cons, List.sum_nil]
  rw [addQuad_on h ⟨s, h0, h1, rfl, rfl⟩, ← h.len]
  refine ⟨by simp, by simp, ?_⟩
  simp
  ring

/-- **C75** violated: a site on the first leg of a trace whose second leg turns so that the site is on its right has a
positive `T`, although it is on the trace. -/
theorem C75_bend_violated (dist : Point → Point → ℝ) (proj : Point → P2) (q q' : Quad Point) (g g' : Leg)
    (h : LegOf proj q g) (h' : LegOf proj q' g') (n k fuel : ℕ) (x y : ℝ) (ho : g.On x y) (hr : 0 < g'.right x y) :
    ∃ out, computeGC2 dist proj [q, q'] (List.replicate n k) ⟨x, y⟩ fuel = some (.ok out) ∧ 0 < out.T := by
  have ho' : ¬ g'.On x y := fun hc => hr.ne' ((leg_on h'.proper x y).mpr hc).1
  refine ⟨_, one_group .., ?_⟩
  unfold finish
  simp only [List.foldl_cons, List.foldl_nil, addGroup]
  rw [addQuad_on h ho, addQuad_off h' ho']
  have hw := leg_weight_pos h'.proper ho'
  simp only [zero_add]
  positivity

/-! ### C76: ry and ry0 -/

/-- **C76**. For a rupture with one trace and a site off it, `ry` is measured from the middle of the trace, and `ry0` is the
distance past its nearer end: 0 beside the trace, `-U` before its start, and the excess over the length after its end. -/
theorem C76_ry0 (dist : Point → Point → ℝ) (proj : Point → P2) (quads : List (Quad Point)) (gs : List Leg)
    (h : List.Forall₂ (LegOf proj) quads gs) (hne : quads ≠ []) (n k fuel : ℕ) (x y : ℝ) (ho : ∀ g ∈ gs, ¬ g.On x y) :
    ∃ out, computeGC2 dist proj quads (List.replicate n k) ⟨x, y⟩ fuel = some (.ok out) ∧
      out.ry = out.U - traceLength gs / 2 ∧ 0 ≤ out.ry0 ∧
      (0 ≤ out.U → out.U ≤ traceLength gs → out.ry0 = 0) ∧ (out.U < 0 → out.ry0 = -out.U) ∧
      (traceLength gs < out.U → out.ry0 = out.U - traceLength gs) := by
  have hL : 0 < traceLength gs := by
    have : ∀ gs : List Leg, (∀ g ∈ gs, g.Proper) → 0 ≤ traceLength gs ∧ (gs ≠ [] → 0 < traceLength gs) := by
      intro gs
      induction gs with
      | nil => intro _; simp [traceLength]
      | cons g gs ih =>
        intro hp
        have h1 := (hp g (by simp)).2
        have h2 := (ih fun g hg => hp g (by simp [hg])).1
        unfold traceLength at *
        rw [List.map_cons, List.sum_cons]
        exact ⟨by linarith, fun _ => by linarith⟩
    apply (this gs (legs_proper h)).2
    rintro rfl
    cases h
    exact hne rfl
  refine ⟨_, one_group .., ?_⟩
  rw [finish_off h ho]
  simp only
  generalize sumAlong x y 0 gs / totalWeight x y gs = U
  refine ⟨trivial, ?_, ?_, ?_, ?_⟩
  · unfold ry0Of
    split_ifs with h1 h2
    · linarith
    · exact abs_nonneg _
    · exact le_rfl
  · intro h1 h2
    unfold ry0Of
    rw [if_neg (not_lt.mpr h2), if_neg (not_lt.mpr h1)]
  · intro h1
    unfold ry0Of
    rw [if_neg (by linarith), if_pos h1, abs_of_neg h1]
  · intro h1
    unfold ry0Of
    rw [if_pos h1]

/-! ### A rupture that meets the hypotheses -/

/-- A quarter of the equator. -/
noncomputable def quarterQuad : Quad Point := ⟨⟨0, 0, 0⟩, ⟨90, 0, 0⟩, ⟨90, 0, 10⟩, ⟨0, 0, 10⟩⟩

theorem quarterQuad_length : 0 < quadLength quarterQuad.ecef := by
  have h : (fromPoint ⟨90, 0, 0⟩).y = wgsA := by
    simp [fromPoint, latlon2ecef, primeVertical, degToRad]
    rw [show (90 : ℝ) * (π / 180) = π / 2 by ring, sin_pi_div_two, mul_one]
  have h' : (fromPoint ⟨0, 0, 0⟩).y = 0 := by simp [fromPoint, latlon2ecef]
  unfold quadLength
  apply div_pos _ (by norm_num)
  unfold V3.mag
  apply sqrt_pos.mpr
  have : 0 < ((quarterQuad.ecef.p1.sub quarterQuad.ecef.p0).y) ^ 2 := by
    have e : (quarterQuad.ecef.p1.sub quarterQuad.ecef.p0).y = wgsA := by
      show (fromPoint ⟨90, 0, 0⟩).y - (fromPoint ⟨0, 0, 0⟩).y = wgsA
      rw [h, h', sub_zero]
    rw [e]
    unfold wgsA
    norm_num
  positivity

/-- Its leg in a projection that takes degrees for coordinates. -/
theorem quarterQuad_leg : LegOf (fun p => ⟨p.lon, p.lat⟩) quarterQuad ⟨0, 0, 1, 0, quadLength quarterQuad.ecef⟩ :=
  ⟨rfl, ⟨90, by norm_num, by simp [quarterQuad]⟩, ⟨by norm_num, quarterQuad_length⟩, rfl⟩

example : ¬ (Leg.mk 0 0 1 0 (quadLength quarterQuad.ecef)).On 3 5 := by
  rintro ⟨s, -, -, -, h⟩
  norm_num at h

end Verif.Props
