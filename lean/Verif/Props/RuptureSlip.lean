import Mathlib.Tactic.NormNum
import Mathlib.Tactic.Linarith
import Verif.Props.RuptureGeometry

/-!
# Slip vectors, mechanisms, quadrilateral frames and meshes: C66-C68, C97-C99
-/

namespace Verif.Props
open Verif.Vec Verif.Rup Verif.Spec Real

/-! ### C66, C67 -/

theorem slip_mag_sq (strike dip rake : ℝ) : (slip strike dip rake).mag ^ 2 = 1 +
    4 * (sin (radians rake) * cos (radians rake) * cos (radians dip) * sin (radians strike) *
      cos (radians strike)) := by
  unfold V3.mag
  rw [Real.sq_sqrt (by positivity)]
  simp only [slip]
  have h1 := Real.sin_sq_add_cos_sq (radians strike)
  have h2 := Real.sin_sq_add_cos_sq (radians dip)
  have h3 := Real.sin_sq_add_cos_sq (radians rake)
  linear_combination (sin (radians rake) ^ 2 * cos (radians dip) ^ 2 + cos (radians rake) ^ 2) * h1 +
    sin (radians rake) ^ 2 * h2 + h3

/-- **C66** (partial). The slip vector has length one exactly when the strike, the rake or the dip is
special: north-south or east-west strike, vertical dip, or pure strike slip or dip slip. What is missing:
all other directions. -/
theorem C66_unit_partial (strike dip rake : ℝ) :
    (slip strike dip rake).mag = 1 ↔
      sin (radians strike) = 0 ∨ cos (radians strike) = 0 ∨ cos (radians dip) = 0 ∨
      sin (radians rake) = 0 ∨ cos (radians rake) = 0 := by
  have h := slip_mag_sq strike dip rake
  have h0 : 0 ≤ (slip strike dip rake).mag := Real.sqrt_nonneg _
  constructor
  · intro h1
    rw [h1] at h
    have : sin (radians rake) * cos (radians rake) * cos (radians dip) * sin (radians strike) *
      cos (radians strike) = 0 := by linarith
    simp only [mul_eq_zero] at this
    tauto
  · intro h1
    have : sin (radians rake) * cos (radians rake) * cos (radians dip) * sin (radians strike) *
      cos (radians strike) = 0 := by
      simp only [mul_eq_zero]; tauto
    rw [this] at h
    nlinarith

theorem radians_45 : radians 45 = π / 4 := by unfold radians; ring

/-- **C66** violated: for strike 45 and rake 45 on a horizontal plane the squared length is 2. -/
theorem C66_unit_violated : (slip 45 0 45).mag ^ 2 = 2 := by
  rw [slip_mag_sq, radians_45]
  have h0 : radians 0 = 0 := by unfold radians; ring
  rw [h0, Real.cos_zero, Real.sin_pi_div_four, Real.cos_pi_div_four]
  have : (√2 / 2) * (√2 / 2) = 1 / 2 := by
    have := Real.mul_self_sqrt (show (0 : ℝ) ≤ 2 by norm_num)
    linarith
  linear_combination 4 * (√2 / 2 * (√2 / 2) + 1 / 2) * this

/-- **C67.** The dip-slip and the strike-slip component add up to the slip vector; the strike-slip
component is horizontal with the length of the cosine of the rake, the dip-slip component has the length
of its sine. -/
theorem C67_decomposition (strike dip rake : ℝ) :
    (slipDS strike dip rake).add (slipSS strike dip rake) = slip strike dip rake ∧
    (slipSS strike dip rake).z = 0 ∧
    (slipSS strike dip rake).mag = |cos (radians rake)| ∧
    (slipDS strike dip rake).mag = |sin (radians rake)| := by
  refine ⟨?_, rfl, ?_, ?_⟩
  · ext <;> simp [slip, slipDS, slipSS, V3.add]
  · unfold V3.mag
    rw [← Real.sqrt_sq_eq_abs]
    congr 1
    simp only [slipSS]
    linear_combination cos (radians rake) ^ 2 * Real.sin_sq_add_cos_sq (radians strike)
  · unfold V3.mag
    rw [← Real.sqrt_sq_eq_abs]
    congr 1
    simp only [slipDS]
    linear_combination sin (radians rake) ^ 2 * cos (radians dip) ^ 2 *
      Real.sin_sq_add_cos_sq (radians strike) +
      sin (radians rake) ^ 2 * Real.sin_sq_add_cos_sq (radians dip)

/-! ### C68 -/

theorem three_way {A B C : Prop} [Decidable A] [Decidable B] [Decidable C] (d12 : ¬ (A ∧ B))
    (d13 : ¬ (A ∧ C)) (d23 : ¬ (B ∧ C)) :
    ((if C then Mech.RS else if B then .NM else if A then .SS else .ALL) = .SS ↔ A) ∧
    ((if C then Mech.RS else if B then .NM else if A then .SS else .ALL) = .NM ↔ B) ∧
    ((if C then Mech.RS else if B then .NM else if A then .SS else .ALL) = .RS ↔ C) ∧
    ((if C then Mech.RS else if B then .NM else if A then .SS else .ALL) = .ALL ↔ ¬ A ∧ ¬ B ∧ ¬ C) ∧
    rakeToMech none = .ALL := by
  refine ⟨?_, ?_, ?_, ?_, rfl⟩ <;> by_cases h3 : C <;> by_cases h2 : B <;> by_cases h1 : A <;> simp_all

/-- **C68.** Strike slip within 30 degrees of 0, 180 and -180, normal within 30 degrees of -90, reverse
within 30 degrees of 90, and `ALL` for every other rake from -180 to 180, for larger ones and for none. -/
theorem C68_rake_to_mech (r : ℝ) :
    (rakeToMech (some r) = .SS ↔ |r| ≤ 30 ∨ (150 ≤ |r| ∧ |r| ≤ 180)) ∧
    (rakeToMech (some r) = .NM ↔ |r - -90| ≤ 30) ∧
    (rakeToMech (some r) = .RS ↔ |r - 90| ≤ 30) ∧
    (rakeToMech (some r) = .ALL ↔
      ¬ (|r| ≤ 30 ∨ (150 ≤ |r| ∧ |r| ≤ 180)) ∧ ¬ |r - -90| ≤ 30 ∧ ¬ |r - 90| ≤ 30) ∧
    rakeToMech none = .ALL := by
  have e1 : ((r ≥ -180 ∧ r ≤ -150) ∨ (r ≥ -30 ∧ r ≤ 30) ∨ (r ≥ 150 ∧ r ≤ 180)) ↔
      (|r| ≤ 30 ∨ (150 ≤ |r| ∧ |r| ≤ 180)) := by
    rcases abs_cases r with ⟨h, h'⟩ | ⟨h, h'⟩
    · rw [h]
      constructor
      · rintro (⟨a, b⟩ | ⟨a, b⟩ | ⟨a, b⟩)
        · linarith
        · exact Or.inl b
        · exact Or.inr ⟨a, b⟩
      · rintro (a | ⟨a, b⟩)
        · exact Or.inr (Or.inl ⟨by linarith, a⟩)
        · exact Or.inr (Or.inr ⟨a, b⟩)
    · rw [h]
      constructor
      · rintro (⟨a, b⟩ | ⟨a, b⟩ | ⟨a, b⟩)
        · exact Or.inr ⟨by linarith, by linarith⟩
        · exact Or.inl (by linarith)
        · linarith
      · rintro (a | ⟨a, b⟩)
        · exact Or.inr (Or.inl ⟨by linarith, by linarith⟩)
        · exact Or.inl ⟨by linarith, by linarith⟩
  have e2 : (r ≥ -120 ∧ r ≤ -60) ↔ |r - -90| ≤ 30 := by
    rw [abs_le]; constructor <;> rintro ⟨a, b⟩ <;> constructor <;> linarith
  have e3 : (r ≥ 60 ∧ r ≤ 120) ↔ |r - 90| ≤ 30 := by
    rw [abs_le]; constructor <;> rintro ⟨a, b⟩ <;> constructor <;> linarith
  have d12 : ¬ ((|r| ≤ 30 ∨ (150 ≤ |r| ∧ |r| ≤ 180)) ∧ |r - -90| ≤ 30) := by
    rw [← e1, ← e2]
    rintro ⟨⟨a, b⟩ | ⟨a, b⟩ | ⟨a, b⟩, c, d⟩ <;> linarith
  have d13 : ¬ ((|r| ≤ 30 ∨ (150 ≤ |r| ∧ |r| ≤ 180)) ∧ |r - 90| ≤ 30) := by
    rw [← e1, ← e3]
    rintro ⟨⟨a, b⟩ | ⟨a, b⟩ | ⟨a, b⟩, c, d⟩ <;> linarith
  have d23 : ¬ (|r - -90| ≤ 30 ∧ |r - 90| ≤ 30) := by
    rw [← e2, ← e3]
    rintro ⟨⟨a, b⟩, c, d⟩; linarith
  have hm : rakeToMech (some r) = if |r - 90| ≤ 30 then .RS else if |r - -90| ≤ 30 then .NM else
      if (|r| ≤ 30 ∨ (150 ≤ |r| ∧ |r| ≤ 180)) then .SS else .ALL := by
    unfold rakeToMech
    simp only [e1, e2, e3]
  rw [hm]
  exact three_way d12 d13 d23

/-! ### C97: frame of a quadrilateral -/

theorem norm_spec {a : V3} (h : a ≠ zeroVec) :
    0 < a.mag ∧ a.mag ^ 2 = sumProd a a ∧ sumProd a.norm a.norm = 1 ∧
    (∀ b, sumProd a.norm b = sumProd a b / a.mag) := by
  have hpos := sq_pos_of_ne h
  have hm : a.mag ^ 2 = sumProd a a := by
    unfold V3.mag; rw [Real.sq_sqrt hpos.le]; simp only [sumProd]; ring
  have hmp : 0 < a.mag := Real.sqrt_pos.2 hpos
  have hb : ∀ b, sumProd a.norm b = sumProd a b / a.mag := by
    intro b; simp only [sumProd, V3.norm, V3.mag]; ring
  refine ⟨hmp, hm, ?_, hb⟩
  have : sumProd a.norm a.norm = sumProd a a / a.mag / a.mag := by
    rw [hb]
    have : sumProd a a.norm = sumProd a.norm a := by simp only [sumProd]; ring
    rw [this, hb]
  rw [this, ← hm]
  field_simp

theorem ne_zero_of_pos {a : V3} (h : 0 < sumProd a a) : a ≠ zeroVec := by
  rintro rfl
  simp [sumProd, zeroVec] at h

/-- **C97.** For a quadrilateral whose corners `p0`, `p1`, `p3` are not on a line, the strike vector, the
normal and the down-dip vector are unit vectors at right angles to each other; the strike vector points
from `p0` to `p1`, the normal is at right angles to both edges, and the down-dip vector points to the side
of `p3`. -/
theorem C97_frame {q : Quad V3} (h : NonCollinear q.p0 q.p1 q.p3) :
    (quadStrikeVector q).mag = 1 ∧ (quadNormal q).mag = 1 ∧ (quadDownDipVector q).mag = 1 ∧
    (quadStrikeVector q).dot (quadNormal q) = 0 ∧ (quadStrikeVector q).dot (quadDownDipVector q) = 0 ∧
    (quadNormal q).dot (quadDownDipVector q) = 0 ∧
    (∃ k : ℝ, 0 < k ∧ q.p1.sub q.p0 = (quadStrikeVector q).mul k) ∧
    (quadNormal q).dot (q.p1.sub q.p0) = 0 ∧ (quadNormal q).dot (q.p3.sub q.p0) = 0 ∧
    0 < (quadDownDipVector q).dot (q.p3.sub q.p0) := by
  have hpos := normal_pos h
  set u := q.p1.sub q.p0 with hu
  set v := q.p3.sub q.p0 with hv
  have hvu : 0 < sumProd (v.cross u) (v.cross u) := by
    have : sumProd (v.cross u) (v.cross u) = sumProd (u.cross v) (u.cross v) := by
      simp only [sumProd, V3.cross]; ring
    rw [this]; exact hpos
  have hune : u ≠ zeroVec := by
    intro h0
    rw [h0] at hpos
    simp [sumProd, V3.cross, zeroVec] at hpos
  obtain ⟨a1, a2, a3, a4⟩ := norm_spec hune
  obtain ⟨b1, b2, b3, b4⟩ := norm_spec (ne_zero_of_pos hvu)
  set n := (v.cross u).norm with hn
  have hun : sumProd u n = 0 := by
    have : sumProd u n = sumProd n u := by simp only [sumProd]; ring
    rw [this, b4]
    have : sumProd (v.cross u) u = 0 := by simp only [sumProd, V3.cross]; ring
    rw [this]; simp
  have hvn : sumProd n v = 0 := by
    rw [b4]
    have : sumProd (v.cross u) v = 0 := by simp only [sumProd, V3.cross]; ring
    rw [this]; simp
  have hcr : sumProd (u.cross n) (u.cross n) = sumProd u u := by
    have : sumProd (u.cross n) (u.cross n) = sumProd u u * sumProd n n - sumProd u n ^ 2 := by
      simp only [sumProd, V3.cross]; ring
    rw [this, hun, b3]; ring
  have hupos : 0 < sumProd u u := by rw [← a2]; positivity
  obtain ⟨c1, c2, c3, c4⟩ := norm_spec (ne_zero_of_pos (hcr ▸ hupos))
  have hmag1 : ∀ w : V3, sumProd w w = 1 → w.mag = 1 := by
    intro w hw
    unfold V3.mag
    have : w.x ^ 2 + w.y ^ 2 + w.z ^ 2 = 1 := by simp only [sumProd] at hw; linarith
    rw [this, Real.sqrt_one]
  have hdot : ∀ a b : V3, a.dot b = sumProd a b := fun a b => rfl
  have comm : ∀ a b : V3, sumProd a b = sumProd b a := by intro a b; simp only [sumProd]; ring
  have e1 : quadStrikeVector q = u.norm := rfl
  have e2 : quadNormal q = n := rfl
  have e3 : quadDownDipVector q = (u.cross n).norm := rfl
  rw [e1, e2, e3]
  refine ⟨hmag1 _ a3, hmag1 _ b3, hmag1 _ c3, ?_, ?_, ?_, ?_, ?_, ?_, ?_⟩
  · rw [hdot, a4, hun]; simp
  · rw [hdot, a4, comm, c4]
    have : sumProd (u.cross n) u = 0 := by simp only [sumProd, V3.cross]; ring
    rw [this]; simp
  · rw [hdot, comm, c4]
    have : sumProd (u.cross n) n = 0 := by simp only [sumProd, V3.cross]; ring
    rw [this]; simp
  · refine ⟨u.mag, a1, ?_⟩
    exact ((C58_vector_algebra u u u 0 0).2.2.2.2.2.2.2.2.2.2.2.2.2.2.2.2.2.2.2.2.2.2.2 hune).2.symm
  · rw [hdot, comm]; exact hun
  · rw [hdot]; exact hvn
  · rw [hdot, c4]
    apply div_pos _ c1
    have : sumProd (u.cross n) v = sumProd n (v.cross u) := by simp only [sumProd, V3.cross]; ring
    rw [this, b4, ← b2]
    positivity

/-- A rectangle below its top edge. -/
example : NonCollinear ⟨0, 0, 0⟩ ⟨2, 0, 0⟩ ⟨0, 0, -1⟩ := by
  intro s t h
  have h1 := congrArg V3.x h
  have h3 := congrArg V3.z h
  simp only [combine] at h1 h3
  constructor <;> linarith

/-! ### C98: width, vertical and dip -/

/-- **C98.** The width is the distance in km of the corner `p3` from the line through the top edge; the
vertical vector is the unit vector along the direction of the first corner; the dip is the angle between
the normal and the vertical, from 0 to 180 degrees. -/
theorem C98_width_dip (q : Quad Point) (h : NonCollinear q.ecef.p0 q.ecef.p1 q.ecef.p3) :
    0 < quadWidth q.ecef ∧
    IsMinDistSq (Spec.line q.ecef.p0 q.ecef.p1) q.ecef.p3 ((1000 * quadWidth q.ecef) ^ 2) ∧
    verticalVector q = ⟨cos (q.p0.lat * degToRad) * cos (q.p0.lon * degToRad),
      cos (q.p0.lat * degToRad) * sin (q.p0.lon * degToRad), sin (q.p0.lat * degToRad)⟩ ∧
    0 ≤ quadDip q ∧ quadDip q ≤ 180 ∧
    cos (radians (quadDip q)) = (quadNormal q.ecef).dot (verticalVector q) := by
  have hvert : verticalVector q = ⟨cos (q.p0.lat * degToRad) * cos (q.p0.lon * degToRad),
      cos (q.p0.lat * degToRad) * sin (q.p0.lon * degToRad), sin (q.p0.lat * degToRad)⟩ := by
    set c := cos (q.p0.lat * degToRad) with hc
    set s := sin (q.p0.lat * degToRad) with hs
    set cl := cos (q.p0.lon * degToRad) with hcl
    set sl := sin (q.p0.lon * degToRad) with hsl
    have h1 : s ^ 2 + c ^ 2 = 1 := Real.sin_sq_add_cos_sq _
    have h2 : sl ^ 2 + cl ^ 2 = 1 := Real.sin_sq_add_cos_sq _
    have hd : (fromPoint ⟨q.p0.lon, q.p0.lat, q.p0.depth - 1⟩).sub (fromPoint q.p0) =
        ⟨1000 * (c * cl), 1000 * (c * sl), 1000 * s⟩ := by
      ext <;> simp only [fromPoint, latlon2ecef, V3.sub, ← hc, ← hs, ← hcl, ← hsl] <;> ring
    unfold verticalVector
    rw [hd]
    have hr : √((1000 * (c * cl)) ^ 2 + (1000 * (c * sl)) ^ 2 + (1000 * s) ^ 2) = 1000 := by
      rw [show (1000 * (c * cl)) ^ 2 + (1000 * (c * sl)) ^ 2 + (1000 * s) ^ 2 = 1000 ^ 2 by
        linear_combination 1000 ^ 2 * c ^ 2 * h2 + 1000 ^ 2 * h1]
      exact Real.sqrt_sq (by norm_num)
    unfold V3.norm
    simp only [hr]
    ext <;> simp only <;> ring
  have hframe := C97_frame h
  have hpos := normal_pos h
  -- the vertical is a unit vector, so the cosine of the angle is between -1 and 1
  have hv1 : sumProd (verticalVector q) (verticalVector q) = 1 := by
    rw [hvert]
    simp only [sumProd]
    linear_combination cos (q.p0.lat * degToRad) ^ 2 * Real.sin_sq_add_cos_sq (q.p0.lon * degToRad) +
      Real.sin_sq_add_cos_sq (q.p0.lat * degToRad)
  have hn1 : sumProd (quadNormal q.ecef) (quadNormal q.ecef) = 1 := by
    have := hframe.2.1
    unfold V3.mag at this
    rw [Real.sqrt_eq_one] at this
    simp only [sumProd]; linarith
  have hcs : (quadNormal q.ecef).dot (verticalVector q) ^ 2 ≤ 1 := by
    set a := quadNormal q.ecef
    set b := verticalVector q
    have e : 1 - a.dot b ^ 2 = sumProd (a.cross b) (a.cross b) := by
      have : sumProd (a.cross b) (a.cross b) = sumProd a a * sumProd b b - a.dot b ^ 2 := by
        simp only [sumProd, V3.cross, V3.dot]; ring
      rw [this, hn1, hv1]; ring
    have : 0 ≤ sumProd (a.cross b) (a.cross b) := by
      simp only [sumProd]; nlinarith [sq_nonneg (a.cross b).x, sq_nonneg (a.cross b).y, sq_nonneg (a.cross b).z]
    linarith
  have hle : (quadNormal q.ecef).dot (verticalVector q) ≤ 1 := by nlinarith
  have hge : -1 ≤ (quadNormal q.ecef).dot (verticalVector q) := by nlinarith
  have hdip1 : 0 ≤ quadDip q := by
    unfold quadDip
    exact mul_nonneg (Real.arccos_nonneg _) (by positivity)
  have hdip2 : quadDip q ≤ 180 := by
    unfold quadDip
    have := Real.arccos_le_pi ((quadNormal q.ecef).dot (verticalVector q))
    have hpi := Real.pi_pos
    rw [mul_div_assoc', div_le_iff₀ hpi]
    nlinarith
  have hdip3 : cos (radians (quadDip q)) = (quadNormal q.ecef).dot (verticalVector q) := by
    unfold quadDip radians
    have hpi := Real.pi_ne_zero
    rw [show arccos ((quadNormal q.ecef).dot (verticalVector q)) * (180 / π) * (π / 180) =
      arccos ((quadNormal q.ecef).dot (verticalVector q)) by field_simp]
    exact Real.cos_arccos hge hle
  refine ⟨?_, ?_, hvert, hdip1, hdip2, hdip3⟩
  all_goals
    clear hdip1 hdip2 hdip3 hcs hle hge hv1 hn1 hvert hframe
    generalize q.ecef = e at h hpos ⊢
    set u := e.p1.sub e.p0 with hu
    set v := e.p3.sub e.p0 with hv
    have hune : u ≠ zeroVec := by
      intro h0
      rw [h0] at hpos
      simp [sumProd, V3.cross, zeroVec] at hpos
    have hupos : 0 < sumProd u u := by
      obtain ⟨a1, a2, -⟩ := norm_spec hune
      rw [← a2]; positivity
    have hw : 1000 * quadWidth e = sumProd (u.cross v) (u.cross v) /
        √(sumProd u u * sumProd (u.cross v) (u.cross v)) := by
      have e1 : e.p0.sub e.p1 = u.mul (-1) := by
        ext <;> simp only [hu, V3.sub, V3.mul] <;> ring
      have e2 : e.p0.sub e.p3 = v.mul (-1) := by
        ext <;> simp only [hv, V3.sub, V3.mul] <;> ring
      unfold quadWidth
      simp only [e1, e2]
      unfold V3.norm V3.dot
      set w := ((u.mul (-1)).cross (v.mul (-1))).cross (u.mul (-1)) with hwdef
      have hw2 : w.x ^ 2 + w.y ^ 2 + w.z ^ 2 = sumProd u u * sumProd (u.cross v) (u.cross v) := by
        simp only [hwdef, sumProd, V3.cross, V3.mul]; ring
      have hwv : w.x * (v.mul (-1)).x + w.y * (v.mul (-1)).y + w.z * (v.mul (-1)).z =
          sumProd (u.cross v) (u.cross v) := by
        simp only [hwdef, sumProd, V3.cross, V3.mul]; ring
      simp only [hw2]
      rw [← hwv]
      ring
    have hprod : 0 < sumProd u u * sumProd (u.cross v) (u.cross v) := mul_pos hupos hpos
  · have : 0 < 1000 * quadWidth e := by
      rw [hw]
      exact div_pos hpos (Real.sqrt_pos.2 hprod)
    linarith
  · have hsq : (1000 * quadWidth e) ^ 2 = sumProd (u.cross v) (u.cross v) / sumProd u u := by
      rw [hw, div_pow, Real.sq_sqrt hprod.le]
      field_simp
    rw [hsq]
    have hlag : sumProd (u.cross v) (u.cross v) = sumProd u u * sumProd v v - sumProd u v ^ 2 := by
      simp only [sumProd, V3.cross]; ring
    have hpoly : ∀ s : ℝ, distSq e.p3 (combine e.p0 e.p1 e.p0 s 0) =
        sumProd v v - 2 * s * sumProd u v + s ^ 2 * sumProd u u := by
      intro s
      simp only [distSq, combine, sumProd, hu, hv, V3.sub]; ring
    constructor
    · refine ⟨_, ⟨sumProd u v / sumProd u u, rfl⟩, ?_⟩
      rw [hpoly, hlag]
      field_simp
      ring
    · rintro y ⟨s, rfl⟩
      rw [hpoly, div_le_iff₀ hupos, hlag]
      nlinarith [sq_nonneg (s * sumProd u u - sumProd u v)]

/-! ### C99: mesh -/

/-- **C99.** A mesh has at least two points along each edge, its outer nodes are the corners of the
quadrilateral, its first and last rows and columns are on the edges and every node is a weighted mean of
the corners; the centre of a cell is the mean of its corners, and neighbouring cells share two corners. -/
theorem C99_mesh (q : Quad V3) (nx ny : ℕ) (hx : 2 ≤ nx) (hy : 2 ≤ ny) :
    (∀ length dx, 2 ≤ meshCount length dx) ∧
    meshNode q nx ny 0 0 = q.p0 ∧ meshNode q nx ny 0 (nx - 1) = q.p1 ∧
    meshNode q nx ny (ny - 1) (nx - 1) = q.p2 ∧ meshNode q nx ny (ny - 1) 0 = q.p3 ∧
    (∀ j i, j < ny → i < nx → meshNode q nx ny j i ∈ surfaceOf q.p0 q.p1 q.p2 q.p3) ∧
    (∀ i, i < nx → meshNode q nx ny 0 i ∈ Spec.segment q.p0 q.p1 ∧
      meshNode q nx ny (ny - 1) i ∈ Spec.segment q.p3 q.p2) ∧
    (∀ j, j < ny → meshNode q nx ny j 0 ∈ Spec.segment q.p0 q.p3 ∧
      meshNode q nx ny j (nx - 1) ∈ Spec.segment q.p1 q.p2) ∧
    (∀ c : Quad V3, cellCentre c = mean4 c.p0 c.p1 c.p2 c.p3 (1 / 4) (1 / 4) (1 / 4) (1 / 4)) ∧
    (∀ i j, (meshCell q nx ny i j).p1 = (meshCell q nx ny i (j + 1)).p0 ∧
      (meshCell q nx ny i j).p2 = (meshCell q nx ny i (j + 1)).p3 ∧
      (meshCell q nx ny i j).p3 = (meshCell q nx ny (i + 1) j).p0 ∧
      (meshCell q nx ny i j).p2 = (meshCell q nx ny (i + 1) j).p1) := by
  have h0 : ∀ n, linspace01 n 0 = 0 := by intro n; simp [linspace01]
  have h1 : ∀ n, 2 ≤ n → linspace01 n (n - 1) = 1 := by
    intro n hn
    unfold linspace01
    rw [Nat.cast_sub (by omega)]
    have : (n : ℝ) - 1 ≠ 0 := by
      have : (2 : ℝ) ≤ n := by exact_mod_cast hn
      intro h; linarith
    simpa using div_self this
  have hr : ∀ n i, 2 ≤ n → i < n → 0 ≤ linspace01 n i ∧ linspace01 n i ≤ 1 := by
    intro n i hn hi
    have h2 : (2 : ℝ) ≤ n := by exact_mod_cast hn
    have hi' : (i : ℝ) + 1 ≤ n := by exact_mod_cast hi
    unfold linspace01
    constructor
    · apply div_nonneg (by positivity); linarith
    · rw [div_le_one (by linarith)]; linarith
  have hform : ∀ j i, meshNode q nx ny j i = mean4 q.p0 q.p1 q.p2 q.p3
      ((1 - linspace01 ny j) * (1 - linspace01 nx i)) ((1 - linspace01 ny j) * linspace01 nx i)
      (linspace01 ny j * linspace01 nx i) (linspace01 ny j * (1 - linspace01 nx i)) := by
    intro j i
    ext <;> simp only [meshNode, topPoint, bottomPoint, mean4, V3.add, V3.sub, V3.mul] <;> ring
  refine ⟨?_, ?_, ?_, ?_, ?_, ?_, ?_, ?_, ?_, ?_⟩
  · intro length dx
    unfold meshCount
    have : (2 : ℤ) ≤ max (roundHalfEven (length / dx) + 1) 2 := le_max_right _ _
    omega
  · rw [hform, h0, h0]; ext <;> simp [mean4]
  · rw [hform, h0, h1 nx hx]; ext <;> simp [mean4]
  · rw [hform, h1 ny hy, h1 nx hx]; ext <;> simp [mean4]
  · rw [hform, h0, h1 ny hy]; ext <;> simp [mean4]
  · intro j i hj hi
    obtain ⟨a1, a2⟩ := hr ny j hy hj
    obtain ⟨b1, b2⟩ := hr nx i hx hi
    refine ⟨_, _, _, _, ?_, ?_, ?_, ?_, ?_, hform j i⟩
    · exact mul_nonneg (by linarith) (by linarith)
    · exact mul_nonneg (by linarith) (by linarith)
    · exact mul_nonneg (by linarith) (by linarith)
    · exact mul_nonneg (by linarith) (by linarith)
    · ring
  · intro i hi
    obtain ⟨b1, b2⟩ := hr nx i hx hi
    constructor
    · refine ⟨linspace01 nx i, b1, b2, ?_⟩
      rw [hform, h0]; ext <;> simp only [mean4, combine] <;> ring
    · refine ⟨linspace01 nx i, b1, b2, ?_⟩
      rw [hform, h1 ny hy]; ext <;> simp only [mean4, combine] <;> ring
  · intro j hj
    obtain ⟨b1, b2⟩ := hr ny j hy hj
    constructor
    · refine ⟨linspace01 ny j, b1, b2, ?_⟩
      rw [hform, h0]; ext <;> simp only [mean4, combine] <;> ring
    · refine ⟨linspace01 ny j, b1, b2, ?_⟩
      rw [hform, h1 nx hx]; ext <;> simp only [mean4, combine] <;> ring
  · intro c
    ext <;> simp only [cellCentre, mean4, V3.add, V3.sub, V3.mul] <;> ring
  · intro i j
    exact ⟨rfl, rfl, rfl, rfl⟩

end Verif.Props
