import Verif.Model.Text
import Verif.Spec.Rounding
import Verif.Lemmas.Rounding

/-!
# C04, C05, C81: rounding to a step
-/

namespace Verif.Props
open Verif Verif.Text

theorem nearest_of_round (value step : ℚ) (hs : 0 < step) :
    Spec.NearestMultiple value step (Py.round (value / step) * step) := by
  have key : ∀ j : ℤ, |value - j * step| = |value / step - j| * step := by
    intro j
    rw [← abs_of_pos hs, ← abs_mul, abs_of_pos hs, sub_mul, div_mul_cancel₀ _ hs.ne']
  refine ⟨Py.round (value / step), rfl, fun j => ?_, fun j hj h => ?_⟩
  · rw [key, key]
    exact mul_le_mul_of_nonneg_right (Py.round_nearest _ j) hs.le
  · rw [key, key] at h
    exact Py.round_tie _ j hj (mul_right_cancel₀ hs.ne' h)

theorem floor_of_floor (value step : ℚ) (hs : 0 < step) :
    Spec.FloorMultiple value step ((⌊value / step⌋ : ℤ) * step) := by
  refine ⟨⟨_, rfl⟩, ?_, fun j hj => ?_⟩
  · have := Int.floor_le (value / step)
    rwa [le_div_iff₀ hs] at this
  · have : j ≤ ⌊value / step⌋ := Int.le_floor.2 ((le_div_iff₀ hs).2 hj)
    exact mul_le_mul_of_nonneg_right (by exact_mod_cast this) hs.le

theorem ceil_of_ceil (value step : ℚ) (hs : 0 < step) :
    Spec.CeilMultiple value step ((⌈value / step⌉ : ℤ) * step) := by
  refine ⟨⟨_, rfl⟩, ?_, fun j hj => ?_⟩
  · have := Int.le_ceil (value / step)
    rwa [div_le_iff₀ hs] at this
  · have : ⌈value / step⌉ ≤ j := Int.ceil_le.2 ((div_le_iff₀ hs).2 hj)
    exact mul_le_mul_of_nonneg_right (by exact_mod_cast this) hs.le

/-- C04: for an integral step of at least one, `round_to_nearest` returns the nearest multiple of
the step, ties going to the even multiple (`ds`, the text of the step, is irrelevant here). -/
theorem C04_round_to_nearest (value : ℚ) (step : ℤ) (hs : 1 ≤ step) (ds : List Char) :
    Spec.NearestMultiple value step (roundToNearest value step ds) := by
  have h1 : ¬ ((step : ℚ) < 1) := by
    rw [not_lt]; exact_mod_cast hs
  have h0 : (0 : ℚ) < step := by exact_mod_cast hs
  unfold roundToNearest roundToNearestGe1
  rw [if_neg h1, ← Int.cast_mul, Py.trunc_intCast, Int.cast_mul]
  exact nearest_of_round value step h0

/-- The nearest multiple (ties to even) is unique, so C04 determines the result. -/
theorem C04_unique (value step r r' : ℚ) (h : Spec.NearestMultiple value step r)
    (h' : Spec.NearestMultiple value step r') : r = r' := by
  obtain ⟨k, rfl, hk, ht⟩ := h
  obtain ⟨k', rfl, hk', ht'⟩ := h'
  by_contra hne
  have hkk : k ≠ k' := fun e => hne (by rw [e])
  have heq : |value - k * step| = |value - k' * step| := le_antisymm (hk k') (hk' k)
  have e1 := ht k' hkk.symm heq.symm
  have e2 := ht' k hkk heq
  -- both even and different, so an odd multiple strictly between is closer
  rcases abs_eq_abs.1 heq with h | h
  · apply hne; linarith
  · have hmid : value = (k + k') * step / 2 := by linarith
    have hpar : ∃ m : ℤ, k + k' = 2 * m := ⟨(k + k') / 2, by omega⟩
    obtain ⟨m, hm⟩ := hpar
    have hmq : (k : ℚ) + k' = 2 * m := by exact_mod_cast hm
    have hv : value - m * step = 0 := by rw [hmid, hmq]; ring
    have := hk m
    rw [hv, abs_zero] at this
    have h0 : value - k * step = 0 := abs_eq_zero.1 (le_antisymm this (abs_nonneg _))
    have h00 : value - k' * step = 0 := abs_eq_zero.1 (by rw [← heq, h0, abs_zero])
    apply hne; linarith

/-- Ties: 2500 goes down, 3500 goes up. -/
example : roundToNearest 2500 1000 [] = 2000 ∧ roundToNearest 3500 1000 [] = 4000 := by
  decide +kernel

/-- Outside C04: with a step above one that is not an integer the result need not be a multiple of
the step (`int` truncates it). -/
theorem C04_nonintegral_step_violated :
    ∃ value step : ℚ, 1 ≤ step ∧ ∀ ds, ¬ ∃ k : ℤ, roundToNearest value step ds = k * step := by
  refine ⟨5 / 2, 5 / 2, by norm_num, fun ds => ?_⟩
  have : roundToNearest (5 / 2) (5 / 2) ds = 2 := by
    unfold roundToNearest
    rw [if_neg (by norm_num)]
    decide +kernel
  rw [this]
  rintro ⟨k, hk⟩
  have h2 : (k : ℚ) * 5 = 4 := by linarith
  have h3 : k * 5 = 4 := by exact_mod_cast h2
  omega

/-- C05: greatest multiple below. -/
theorem C05_floor (value : ℚ) (step : ℤ) (hs : 1 ≤ step) (ds : List Char) :
    Spec.FloorMultiple value step (floorToNearest value step ds) := by
  have h1 : ¬ ((step : ℚ) < 1) := by
    rw [not_lt]; exact_mod_cast hs
  have h0 : (0 : ℚ) < step := by exact_mod_cast hs
  unfold floorToNearest floorToNearestGe1
  rw [if_neg h1, ← Int.cast_mul, Py.trunc_intCast, Int.cast_mul]
  exact floor_of_floor value step h0

/-- C05: least multiple above. -/
theorem C05_ceil (value : ℚ) (step : ℤ) (hs : 1 ≤ step) (ds : List Char) :
    Spec.CeilMultiple value step (ceilToNearest value step ds) := by
  have h1 : ¬ ((step : ℚ) < 1) := by
    rw [not_lt]; exact_mod_cast hs
  have h0 : (0 : ℚ) < step := by exact_mod_cast hs
  unfold ceilToNearest ceilToNearestGe1
  rw [if_neg h1, ← Int.cast_mul, Py.trunc_intCast, Int.cast_mul]
  exact ceil_of_ceil value step h0

/-- C05: rounding lies between floor and ceiling. -/
theorem C05_between (value : ℚ) (step : ℤ) (hs : 1 ≤ step) (ds : List Char) :
    floorToNearest value step ds ≤ roundToNearest value step ds ∧
      roundToNearest value step ds ≤ ceilToNearest value step ds := by
  have h1 : ¬ ((step : ℚ) < 1) := by
    rw [not_lt]; exact_mod_cast hs
  have h0 : (0 : ℤ) ≤ step := by omega
  unfold floorToNearest ceilToNearest roundToNearest floorToNearestGe1 ceilToNearestGe1
    roundToNearestGe1
  rw [if_neg h1, if_neg h1, if_neg h1, ← Int.cast_mul, ← Int.cast_mul, ← Int.cast_mul,
    Py.trunc_intCast, Py.trunc_intCast, Py.trunc_intCast]
  exact ⟨by exact_mod_cast mul_le_mul_of_nonneg_right (Py.floor_le_round _) h0,
    by exact_mod_cast mul_le_mul_of_nonneg_right (Py.round_le_ceil _) h0⟩

/-- C05: multiples of the step are fixed by all three functions. -/
theorem C05_fixed (k step : ℤ) (hs : 1 ≤ step) (ds : List Char) :
    floorToNearest (k * step : ℚ) step ds = k * step ∧
      roundToNearest (k * step : ℚ) step ds = k * step ∧
      ceilToNearest (k * step : ℚ) step ds = k * step := by
  have hb := C05_between (k * step : ℚ) step hs ds
  have hf : floorToNearest (k * step : ℚ) step ds = k * step :=
    le_antisymm (C05_floor _ step hs ds).2.1 ((C05_floor _ step hs ds).2.2 k le_rfl)
  have hc : ceilToNearest (k * step : ℚ) step ds = k * step :=
    le_antisymm ((C05_ceil _ step hs ds).2.2 k le_rfl) (C05_ceil _ step hs ds).2.1
  exact ⟨hf, le_antisymm (hb.2.trans hc.le) (hf.ge.trans hb.1), hc⟩

example : floorToNearest (-12345 / 10) 1000 [] = -2000 ∧
    ceilToNearest (-12345 / 10) 1000 [] = -1000 := by decide +kernel

/-- A step below one written in fixed-point notation: `intpart . frac`, with the value those digits
denote. -/
def FixedPointText (step : ℚ) (ds : List Char) (nd : ℕ) : Prop :=
  (∃ a b : List Char, ds = a ++ '.' :: b ∧ '.' ∉ a ∧ b.length = nd) ∧
    ∃ m : ℤ, step * 10 ^ nd = m

theorem numDecimals_fixed (step : ℚ) (ds : List Char) (nd : ℕ) (h : FixedPointText step ds nd) :
    numDecimals ds = nd := by
  obtain ⟨⟨a, b, rfl, ha, rfl⟩, _⟩ := h
  have hf : findPoint (a ++ '.' :: b) = a.length := by
    unfold findPoint
    have : (a ++ '.' :: b).findIdx? (· == '.') = some a.length := by
      rw [List.findIdx?_append]
      have : a.findIdx? (· == '.') = none := by
        rw [List.findIdx?_eq_none_iff]
        intro x hx
        simp only [beq_eq_false_iff_ne]
        rintro rfl
        exact ha hx
      rw [this]
      simp [List.findIdx?_cons]
    rw [this]
  unfold numDecimals
  rw [hf]
  simp

/-- C81 (part that holds): for a positive step below one whose `str` is fixed-point, the three
functions return the nearest, greatest-below and least-above multiples of the step. -/
theorem C81_small_step_partial (value step : ℚ) (ds : List Char) (nd : ℕ) (h0 : 0 < step)
    (h1 : step < 1) (h : FixedPointText step ds nd) :
    Spec.NearestMultiple value step (roundToNearest value step ds) ∧
      Spec.FloorMultiple value step (floorToNearest value step ds) ∧
      Spec.CeilMultiple value step (ceilToNearest value step ds) := by
  have hnd := numDecimals_fixed step ds nd h
  obtain ⟨m, hm⟩ := h.2
  have hp : (0 : ℚ) < 10 ^ nd := by positivity
  have hdiv : value * 10 ^ nd / (step * 10 ^ nd) = value / step := by
    rw [mul_div_mul_right _ _ hp.ne']
  have fin : ∀ z : ℤ, ((Py.trunc ((z : ℚ) * (step * 10 ^ nd)) : ℤ) : ℚ) / 10 ^ nd = z * step := by
    intro z
    rw [hm, ← Int.cast_mul, Py.trunc_intCast, Int.cast_mul, ← hm]
    field_simp
  unfold roundToNearest floorToNearest ceilToNearest
  rw [if_pos h1, if_pos h1, if_pos h1]
  simp only [hnd, zpow_natCast, hdiv, fin]
  exact ⟨nearest_of_round value step h0, floor_of_floor value step h0, ceil_of_ceil value step h0⟩

/-- Non-vacuity: step 0.25 with text "0.25". -/
example : FixedPointText (1 / 4) ['0', '.', '2', '5'] 2 :=
  ⟨⟨['0'], ['2', '5'], rfl, by decide, rfl⟩, 25, by norm_num⟩

/-- C81 is violated for steps printed in exponent notation: `str(1e-06)` is `'1e-06'`, five
characters without a point, so the code works with five decimals and `round_to_nearest(3e-6, 1e-6)`
is `0` although `3e-6` is itself a multiple of the step. -/
theorem C81_exponent_step_violated :
    ¬ Spec.NearestMultiple (3 / 1000000) (1 / 1000000)
        (roundToNearest (3 / 1000000) (1 / 1000000) ['1', 'e', '-', '0', '6']) := by
  have h : roundToNearest (3 / 1000000) (1 / 1000000) ['1', 'e', '-', '0', '6'] = 0 := by
    decide +kernel
  rw [h]
  rintro ⟨k, hk, hn, _⟩
  have h2 := hn 3
  rw [← hk] at h2
  norm_num at h2

end Verif.Props
