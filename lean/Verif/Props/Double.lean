import Verif.Lemmas.Double
import Verif.Props.Rounding
import Verif.Props.Amounts
import Verif.Model.Comcat
import Mathlib.Tactic.IntervalCases

/-!
# C176: rounding in binary arithmetic

C04, C05, C06 and C08 are about exact numbers. Here every float operation is rounded to a double.
-/

namespace Verif.Props
open Verif Verif.Dbl Verif.Spec

/-- The arithmetic of this section is that of doubles: every result is the nearest double, and exact results that are doubles are kept. -/
theorem C176_arithmetic (q : ℚ) : NearestDouble q (rnd q) ∧ (IsDouble q → rnd q = q) :=
  ⟨rnd_nearest q, rnd_double⟩

private theorem normal {v : ℚ} {s : ℤ} (h1 : 1 ≤ s) (h2 : s ≤ 2 ^ 53) (hv : 2 ^ (-969 : ℤ) ≤ |v|) : 2 ^ (-1022 : ℤ) ≤ |v / s| := by
  have hs : (0 : ℚ) < s := by exact_mod_cast h1
  have hs2 : (s : ℚ) ≤ 2 ^ 53 := by exact_mod_cast h2
  rw [abs_div, abs_of_pos hs, le_div_iff₀ hs]
  have e : (2 : ℚ) ^ (-969 : ℤ) = 2 ^ (-1022 : ℤ) * 2 ^ 53 := by
    rw [← zpow_natCast, ← zpow_add₀ (by norm_num)]
    norm_num
  rw [e] at hv
  exact (mul_le_mul_of_nonneg_left hs2 (two_zpow_pos _).le).trans hv

private theorem floor_bound {v : ℚ} {s : ℤ} (h1 : 1 ≤ s) (hb : |v| < 2 ^ 53) {k : ℤ} (hk : v / s = k) : |k| ≤ 2 ^ 53 := by
  have hs : (1 : ℚ) ≤ s := by exact_mod_cast h1
  have h : |(k : ℚ)| ≤ 2 ^ 53 := by
    rw [← hk, abs_div, abs_of_pos (a := (s : ℚ)) (by linarith)]
    exact (div_le_self (abs_nonneg _) hs).trans hb.le
  exact_mod_cast h

private theorem expo53 {v : ℚ} (hb : |v| < 2 ^ 53) : expo v - 52 ≤ 0 := by
  have := expo_le (v := v) (n := 52) (by norm_num) (by norm_num) (by norm_num; norm_num at hb; exact hb)
  omega

/-- A quotient that is not a whole number stays on its side of every whole number. -/
private theorem int_side {v : ℚ} {s : ℤ} (hd : IsDouble v) (hb : |v| < 2 ^ 53) (h1 : 1 ≤ s) (h2 : s ≤ 2 ^ 53)
    (hv : 2 ^ (-969 : ℤ) ≤ |v|) (k : ℤ) (hne : v / s ≠ k) :
    (v / s < k → rnd (v / s) < k) ∧ (k < v / s → k < rnd (v / s)) := by
  have hs : (0 : ℚ) < s := by exact_mod_cast h1
  have h := quotient_side (t := ((k * s : ℤ) : ℚ)) (n := k * s) hd hs (normal h1 h2 hv) (expo53 hb) (by simp)
    (by intro e; apply hne; rw [div_eq_iff hs.ne', e]; push_cast; ring)
  have e : (((k * s : ℤ) : ℚ)) / s = k := by push_cast; field_simp
  rw [e] at h
  exact side h

theorem dbl_floor_eq {v : ℚ} {s : ℤ} (hd : IsDouble v) (hb : |v| < 2 ^ 53) (h1 : 1 ≤ s) (h2 : s ≤ 2 ^ 53)
    (hv : v = 0 ∨ 2 ^ (-969 : ℤ) ≤ |v|) : ⌊rnd (v / s)⌋ = ⌊v / s⌋ ∧ ⌈rnd (v / s)⌉ = ⌈v / s⌉ := by
  by_cases hk : ∃ k : ℤ, v / s = k
  · obtain ⟨k, hk⟩ := hk
    rw [hk, rnd_double (int_double (floor_bound h1 hb hk))]
    exact ⟨rfl, rfl⟩
  · push Not at hk
    rcases hv with rfl | hv
    · exact absurd (by simp) (hk 0)
    have hside := fun k => int_side hd hb h1 h2 hv k (hk k)
    generalize v / s = x at *
    constructor
    · rw [Int.floor_eq_iff]
      have a := Int.floor_le x
      have b := Int.lt_floor_add_one x
      refine ⟨((hside ⌊x⌋).2 (lt_of_le_of_ne a (hk _).symm)).le, ?_⟩
      have := (hside (⌊x⌋ + 1)).1 (by push_cast; exact b)
      push_cast at this
      exact this
    · rw [Int.ceil_eq_iff]
      have a := Int.le_ceil x
      have b := Int.ceil_lt_add_one x
      refine ⟨?_, ((hside ⌈x⌉).1 (lt_of_le_of_ne a (hk _))).le⟩
      have := (hside (⌈x⌉ - 1)).2 (by push_cast; linarith)
      push_cast at this
      exact this

private theorem step_double {s : ℤ} (h1 : 1 ≤ s) (h2 : s ≤ 2 ^ 53) : rnd s = s :=
  rnd_double (int_double (by rw [abs_of_pos (by omega)]; exact h2))

/-- C176: `floor_to_nearest` returns the greatest multiple of the step at or below the value, also in binary arithmetic, if the value is below
`2 ** 53` in size and not tiny. -/
theorem C176_floor_partial (v : ℚ) (s : ℤ) (hd : IsDouble v) (hb : |v| < 2 ^ 53) (h1 : 1 ≤ s) (h2 : s ≤ 2 ^ 53)
    (hv : v = 0 ∨ 2 ^ (-969 : ℤ) ≤ |v|) : FloorMultiple v s (floorToNearest v s) := by
  unfold floorToNearest
  rw [rnd_double hd, step_double h1 h2, (dbl_floor_eq hd hb h1 h2 hv).1, ← Int.cast_mul, Py.trunc_intCast, Int.cast_mul]
  exact floor_of_floor v s (by exact_mod_cast h1)

/-- C176: `ceil_to_nearest` returns the least multiple of the step at or above the value. -/
theorem C176_ceil_partial (v : ℚ) (s : ℤ) (hd : IsDouble v) (hb : |v| < 2 ^ 53) (h1 : 1 ≤ s) (h2 : s ≤ 2 ^ 53)
    (hv : v = 0 ∨ 2 ^ (-969 : ℤ) ≤ |v|) : CeilMultiple v s (ceilToNearest v s) := by
  unfold ceilToNearest
  rw [rnd_double hd, step_double h1 h2, (dbl_floor_eq hd hb h1 h2 hv).2, ← Int.cast_mul, Py.trunc_intCast, Int.cast_mul]
  exact ceil_of_ceil v s (by exact_mod_cast h1)

theorem dbl_round_of_lt {y : ℚ} {r : ℤ} (h : |y - r| < 1 / 2) : Py.round y = r := by
  have h1 := Py.round_abs_sub_le y
  by_contra hne
  have h2 : (1 : ℚ) ≤ |(Py.round y : ℚ) - r| := by exact_mod_cast Int.one_le_abs (sub_ne_zero.2 hne)
  rw [abs_lt] at h
  rw [abs_le] at h1
  rcases abs_choice ((Py.round y : ℚ) - r) with e | e <;> rw [e] at h2 <;> linarith

private theorem half_side {v : ℚ} {s : ℤ} (hd : IsDouble v) (hb : |v| < 2 ^ 52) (h1 : 1 ≤ s) (c : ℤ) (hc : c % 2 = 1)
    (hne : v / s ≠ c / 2) : (v / s < c / 2 → rnd (v / s) < c / 2) ∧ ((c : ℚ) / 2 < v / s → (c : ℚ) / 2 < rnd (v / s)) := by
  have hs : (0 : ℚ) < s := by exact_mod_cast h1
  by_cases hx : 2 ^ (-1022 : ℤ) ≤ |v / s|
  · have hexp : expo v - 52 ≤ -1 := by
      have := expo_le (v := v) (n := 51) (by norm_num) (by norm_num) (by norm_num; norm_num at hb; exact hb)
      omega
    have h := quotient_side (t := ((c * s : ℤ) : ℚ) * 2 ^ (-1 : ℤ)) (n := c * s) hd hs hx hexp rfl
      (by
        intro e
        apply hne
        rw [div_eq_iff hs.ne', e, zpow_neg_one]
        push_cast
        ring)
    have e : ((c * s : ℤ) : ℚ) * 2 ^ (-1 : ℤ) / s = c / 2 := by
      rw [zpow_neg_one]
      push_cast
      field_simp
    rw [e] at h
    exact side h
  · push Not at hx
    have hsmall : |v / s| < 1 / 8 := hx.trans_le (by
      have : (2 : ℚ) ^ (-1022 : ℤ) ≤ 2 ^ (-3 : ℤ) := zpow_le_zpow_right₀ (by norm_num) (by norm_num)
      norm_num at this ⊢
      linarith)
    have herr := rnd_error (v / s)
    have hu : ulp (v / s) ≤ 1 / 4 := by
      have h0 : expo (v / s) ≤ 0 := expo_le (by norm_num) le_rfl (by norm_num; linarith)
      have : (2 : ℚ) ^ (expo (v / s) - 52) ≤ 2 ^ (-2 : ℤ) := zpow_le_zpow_right₀ (by norm_num) (by omega)
      unfold ulp
      norm_num at this ⊢
      linarith
    have hc1 : (1 : ℚ) ≤ |(c : ℚ)| := by exact_mod_cast Int.one_le_abs (by omega)
    apply side
    generalize v / s = x at *
    have h5 := abs_sub_abs_le_abs_sub ((c : ℚ) / 2) x
    rw [abs_sub_comm ((c : ℚ) / 2) x, abs_div, abs_of_pos (a := (2 : ℚ)) (by norm_num)] at h5
    linarith

theorem dbl_round_eq {v : ℚ} {s : ℤ} (hd : IsDouble v) (hb : |v| < 2 ^ 52) (h1 : 1 ≤ s) : Py.round (rnd (v / s)) = Py.round (v / s) := by
  have hs : (1 : ℚ) ≤ s := by exact_mod_cast h1
  have hx : |v / s| < 2 ^ 52 := by
    rw [abs_div, abs_of_pos (a := (s : ℚ)) (by linarith)]
    exact (div_le_self (abs_nonneg _) hs).trans_lt hb
  have hside := fun c hc hne => half_side hd hb h1 c hc hne
  generalize v / s = x at *
  have hr := Py.round_abs_sub_le x
  generalize hR : Py.round x = r at *
  by_cases hhalf : ∃ c : ℤ, c % 2 = 1 ∧ x = c / 2
  · obtain ⟨c, hc, hxc⟩ := hhalf
    have : IsDouble x := by
      rw [hxc]
      refine half_double ?_
      rw [hxc, abs_div, abs_of_pos (a := (2 : ℚ)) (by norm_num), div_lt_iff₀ (by norm_num)] at hx
      have : |(c : ℚ)| < 2 ^ 53 := hx.trans_le (by norm_num)
      exact_mod_cast this
    rw [rnd_double this, hR]
  · push Not at hhalf
    apply dbl_round_of_lt
    have hA := hhalf (2 * r - 1) (by omega)
    have hB := hhalf (2 * r + 1) (by omega)
    have sA := (hside (2 * r - 1) (by omega) hA).2
    have sB := (hside (2 * r + 1) (by omega) hB).1
    push_cast at hA hB sA sB
    rw [abs_le] at hr
    have a : (2 * (r : ℚ) - 1) / 2 < x := lt_of_le_of_ne (by linarith) (Ne.symm hA)
    have b : x < (2 * (r : ℚ) + 1) / 2 := lt_of_le_of_ne (by linarith) hB
    have := sA a
    have := sB b
    rw [abs_lt]
    constructor <;> linarith

/-- C176: `round_to_nearest` returns the nearest multiple of the step, ties going to the even one, for every double below `2 ** 52` in size. -/
theorem C176_round_partial (v : ℚ) (s : ℤ) (hd : IsDouble v) (hb : |v| < 2 ^ 52) (h1 : 1 ≤ s) (h2 : s ≤ 2 ^ 53) :
    NearestMultiple v s (roundToNearest v s) := by
  unfold roundToNearest
  rw [rnd_double hd, step_double h1 h2, dbl_round_eq hd hb h1, ← Int.cast_mul, Py.trunc_intCast, Int.cast_mul]
  exact nearest_of_round v s (by exact_mod_cast h1)

private theorem round_exact {v : ℤ} (hb : |v| < 2 ^ 52) : roundToNearest v 1000 = Text.roundToNearestGe1 v 1000 := by
  have hd : IsDouble (v : ℚ) := int_double (by omega)
  have hb' : |(v : ℚ)| < 2 ^ 52 := by exact_mod_cast hb
  unfold roundToNearest Text.roundToNearestGe1
  rw [rnd_double hd, step_double (by norm_num) (by norm_num), dbl_round_eq hd hb' (by norm_num)]
  norm_num

/-- C176: the texts of populations are the same as with exact numbers, so C06 holds in binary arithmetic for whole numbers below `2 ** 52`. -/
theorem C176_population_partial (v : ℤ) (hb : |v| < 2 ^ 52) :
    Dbl.popRound v = Text.popRound v ∧ ∀ um, Dbl.popRoundShort v um = Text.popRoundShort v um := by
  constructor
  · unfold Dbl.popRound Text.popRound
    rw [round_exact hb]
  · intro um
    have e1 : ((v : ℚ) < 1000) ↔ v < 1000 := by exact_mod_cast Iff.rfl
    have e2 : ((1000000 : ℚ) ≤ v) ↔ 1000000 ≤ v := by exact_mod_cast Iff.rfl
    unfold Dbl.popRoundShort Text.popRoundShort
    simp only [round_exact hb, e1, e2, Py.trunc_intCast]

/-- C176: the time of an event loses nothing but its milliseconds, for times below `2 ** 53` milliseconds. -/
theorem C176_time (t : ℤ) (hb : |t| < 2 ^ 53) : Dbl.seconds t = Comcat.eventSeconds t := by
  have hd : IsDouble (t : ℚ) := int_double hb.le
  have hb' : |(t : ℚ)| < 2 ^ 53 := by exact_mod_cast hb
  have hv : (t : ℚ) = 0 ∨ 2 ^ (-969 : ℤ) ≤ |(t : ℚ)| := by
    by_cases h0 : t = 0
    · exact .inl (by exact_mod_cast h0)
    · right
      have : (1 : ℚ) ≤ |(t : ℚ)| := by exact_mod_cast Int.one_le_abs h0
      refine le_trans ?_ this
      exact zpow_le_one_of_nonpos₀ (by norm_num) (by norm_num)
  have h := dbl_floor_eq (s := 1000) hd hb' (by norm_num) (by norm_num) hv
  have h0 : (0 ≤ rnd ((t : ℚ) / 1000)) ↔ (0 ≤ (t : ℚ) / 1000) := by
    have hc := h.2
    have hf := h.1
    push_cast at hc hf
    constructor
    · intro h0
      by_contra hn
      push Not at hn
      have : ⌊(t : ℚ) / 1000⌋ < 0 := Int.floor_lt.mpr (by exact_mod_cast hn)
      rw [← hf] at this
      have := Int.floor_lt.mp this
      push_cast at this
      linarith
    · intro h0
      have : 0 ≤ ⌊(t : ℚ) / 1000⌋ := Int.floor_nonneg.mpr h0
      rw [← hf] at this
      exact Int.floor_nonneg.mp this
  have hc := h.2
  have hf := h.1
  push_cast at hc hf
  unfold Dbl.seconds Comcat.eventSeconds Py.trunc
  simp only [h0, hc, hf]

private theorem power_double {nd : ℕ} (h : nd ≤ 10) : rnd (10 ^ nd) = 10 ^ nd := by
  have hb : (10 : ℤ) ^ nd ≤ 2 ^ 53 := (pow_le_pow_right₀ (by norm_num) (h.trans (by norm_num : 10 ≤ 15))).trans (by norm_num)
  have := rnd_double (int_double (n := 10 ^ nd) (by rw [abs_of_pos (by positivity)]; exact hb))
  push_cast at this
  exact this

private theorem unit_step {nd : ℕ} (h : nd ≤ 10) : rnd (rnd (1 / 10 ^ nd) * rnd (10 ^ nd)) = 1 := by
  interval_cases nd <;> decide +kernel

private theorem decimal_value {v : ℚ} {nd : ℕ} (h : nd ≤ 10) {k : ℤ} (hk : Py.round (rnd (v * 10 ^ nd)) = k) (hb : |k| ≤ 2 ^ 53)  :
    smallStep Py.round v (rnd (1 / 10 ^ nd)) nd = rnd (k / 10 ^ nd) := by
  have hkd : rnd (k : ℚ) = k := rnd_double (int_double hb)
  unfold smallStep
  simp only [unit_step h]
  rw [power_double h, div_one, rnd_double (rnd_isDouble (v * 10 ^ nd)), hk, mul_one, hkd, hkd, Py.trunc_intCast, hkd]

/-- C176: with a step of 1, 0.1, 0.01 and so on up to ten decimals (Python's text of such a step has at most four), a number that is written with so many decimals is kept by `round_to_nearest`. -/
theorem C176_decimal_fixed (n : ℤ) (nd : ℕ) (h : nd ≤ 10) (hb : |n| < 2 ^ 50) :
    smallStep Py.round (rnd (n / 10 ^ nd)) (rnd (1 / 10 ^ nd)) nd = rnd (n / 10 ^ nd) := by
  refine decimal_value h ?_ (by omega)
  by_cases h0 : n = 0
  · subst h0
    have : rnd 0 = 0 := by decide +kernel
    simp only [Int.cast_zero, zero_div, this, zero_mul]
    exact Py.round_intCast 0
  have hP : (1 : ℚ) ≤ 10 ^ nd := one_le_pow₀ (by norm_num)
  have hP2 : (10 : ℚ) ^ nd ≤ 10 ^ 15 := pow_le_pow_right₀ (by norm_num) (h.trans (by norm_num))
  have hn1 : (1 : ℚ) ≤ |(n : ℚ)| := by exact_mod_cast Int.one_le_abs h0
  have hn2 : |(n : ℚ)| < 2 ^ 50 := by exact_mod_cast hb
  generalize hPe : (10 : ℚ) ^ nd = P at *
  have tiny : (2 : ℚ) ^ (-1022 : ℤ) ≤ 1 / 10 ^ 16 := by
    have : (2 : ℚ) ^ (-1022 : ℤ) ≤ 2 ^ (-60 : ℤ) := zpow_le_zpow_right₀ (by norm_num) (by norm_num)
    refine this.trans ?_
    norm_num
  have hP0 : 0 < P := by linarith
  have ha : |(n : ℚ) / P| = |(n : ℚ)| / P := by rw [abs_div, abs_of_pos hP0]
  have hx : 1 / 10 ^ 15 ≤ |(n : ℚ) / P| := by
    rw [ha, le_div_iff₀ hP0]
    refine le_trans ?_ hn1
    rw [div_mul_eq_mul_div, div_le_one (by norm_num)]
    linarith
  have e1 := rnd_rel (q := (n : ℚ) / P) (tiny.trans (le_trans (by norm_num) hx))
  generalize hv : rnd ((n : ℚ) / P) = v at *
  have e2 : |v * P - n| ≤ |(n : ℚ)| / 2 ^ 53 := by
    have : v * P - n = (v - n / P) * P := by field_simp
    rw [this, abs_mul, abs_of_pos hP0]
    rw [ha] at e1
    calc |v - n / P| * P ≤ |(n : ℚ)| / P / 2 ^ 53 * P := mul_le_mul_of_nonneg_right e1 hP0.le
      _ = |(n : ℚ)| / 2 ^ 53 := by field_simp
  have e3 : |(n : ℚ)| - |(n : ℚ)| / 2 ^ 53 ≤ |v * P| ∧ |v * P| ≤ |(n : ℚ)| + |(n : ℚ)| / 2 ^ 53 := by
    have a := abs_sub_abs_le_abs_sub (n : ℚ) (v * P)
    have b := abs_sub_abs_le_abs_sub (v * P) (n : ℚ)
    rw [abs_sub_comm] at a
    constructor <;> linarith
  have e4 := rnd_rel (q := v * P) (tiny.trans (le_trans (by norm_num at e3 ⊢; linarith) e3.1))
  refine dbl_round_of_lt ?_
  have e5 := abs_sub_le (rnd (v * P)) (v * P) n
  norm_num at *
  linarith

/-- C176: in general the result is the double for a number `k` of such decimals that is at most half a step away, up to the rounding of the product. -/
theorem C176_decimal_round_partial (v : ℚ) (nd : ℕ) (h : nd ≤ 10) (hb : |v| * 10 ^ nd < 2 ^ 52) :
    ∃ k : ℤ, smallStep Py.round v (rnd (1 / 10 ^ nd)) nd = rnd (k / 10 ^ nd) ∧ |v * 10 ^ nd - k| ≤ 1 / 2 + |v| * 10 ^ nd / 2 ^ 53 + 1 / 2 ^ 1000 := by
  have hP : (0 : ℚ) < 10 ^ nd := by positivity
  have ha : |v * 10 ^ nd| = |v| * 10 ^ nd := by rw [abs_mul, abs_of_pos hP]
  refine ⟨Py.round (rnd (v * 10 ^ nd)), decimal_value h rfl ?_, ?_⟩
  · rw [← ha] at hb
    generalize v * 10 ^ nd = x at *
    have he := rnd_error x
    have hu : ulp x ≤ 1 := by
      have := expo_le (v := x) (n := 52) (by norm_num) (by norm_num) (by norm_num; norm_num at hb; linarith)
      unfold ulp
      exact zpow_le_one_of_nonpos₀ (by norm_num) (by omega)
    refine round_abs_le ?_
    have := abs_sub_abs_le_abs_sub (rnd x) x
    norm_num at *
    linarith
  · rw [← ha] at hb ⊢
    generalize v * 10 ^ nd = x at *
    have hr := Py.round_abs_sub_le (rnd x)
    have e5 := abs_sub_le x (rnd x) (Py.round (rnd x))
    rw [abs_sub_comm x (rnd x)] at e5
    have h0 : (0 : ℚ) ≤ 1 / 2 ^ 1000 := by positivity
    have h1 : (0 : ℚ) ≤ |x| / 2 ^ 53 := by positivity
    have key : |rnd x - x| ≤ |x| / 2 ^ 53 + 1 / 2 ^ 1000 := by
      by_cases hx : 2 ^ (-1022 : ℤ) ≤ |x|
      · have := rnd_rel hx
        linarith
      · push Not at hx
        by_cases hz : x = 0
        · subst hz
          have : rnd 0 = 0 := by decide +kernel
          rw [this]
          simp
        have he := rnd_error x
        have hu : ulp x ≤ 2 ^ (-1000 : ℤ) := by
          unfold ulp
          refine zpow_le_zpow_right₀ (by norm_num) ?_
          have hlog := (Int.lt_zpow_iff_log_lt (b := 2) (by norm_num) (abs_pos.mpr hz)).mp (by exact_mod_cast hx)
          unfold expo
          omega
        have e : (2 : ℚ) ^ (-1000 : ℤ) = 1 / 2 ^ 1000 := by
          rw [zpow_neg, one_div]
          norm_cast
        rw [e] at hu
        linarith
    linarith

/-- C176: whole numbers below `10 ** 15` are rounded to digits as with exact numbers, so C08 holds for them. -/
theorem C176_precision_partial (n precision : ℤ) (h : 1 ≤ precision) (hb : |n| < 10 ^ 15) :
    Dbl.setNumPrecisionInt n precision = Text.setNumPrecisionInt n precision := by
  have hnd : rnd (n : ℚ) = n := rnd_double (int_double (by norm_num at hb ⊢; omega))
  obtain ⟨r, h1, h2⟩ := C08_int_mode n precision h
  unfold Dbl.setNumPrecisionInt Dbl.setNumPrecisionFloat Text.setNumPrecisionInt
  rw [hnd, h2]
  simp only [Except.map]
  have hr : |r| ≤ 2 ^ 53 := by
    by_cases h0 : n = 0
    · have : r = 0 := by
        unfold Text.setNumPrecisionFloat Text.sciRound at h2
        rw [if_neg (by omega)] at h2
        simp only [h0, Int.cast_zero, if_true] at h2
        exact_mod_cast (Except.ok.inj h2).symm
      rw [this]
      norm_num
    have hn0 : (n : ℚ) ≠ 0 := by exact_mod_cast h0
    have e : Text.sciRound n precision.toNat = r := by
      unfold Text.setNumPrecisionFloat at h2
      rw [if_neg (by omega)] at h2
      exact Except.ok.inj h2
    have hp : 1 ≤ precision.toNat := by omega
    have he := C08_error_bound n hn0 precision.toNat hp
    rw [e] at he
    have hu : lastUnit n precision.toNat ≤ |(n : ℚ)| := by
      refine le_trans ?_ (log_bounds n hn0).1
      unfold lastUnit
      exact zpow_le_zpow_right₀ (by norm_num) (by omega)
    have h5 := abs_sub_abs_le_abs_sub (r : ℚ) n
    have h6 : |(n : ℚ)| < 10 ^ 15 := by exact_mod_cast hb
    have h7 : |(r : ℚ)| ≤ 2 ^ 53 := by
      norm_num at *
      linarith
    exact_mod_cast h7
  rw [rnd_double (int_double hr)]

/-- C176, violated for large values: the least multiple of one above `2 ** 53 + 1` is returned as `2 ** 53`, which is below it; and with a step of 3 the
multiple returned for a number near `2 ** 53` is not the nearest. -/
theorem C176_large_violated :
    ceilToNearest (2 ^ 53 + 1) 1 = 2 ^ 53 ∧
    ∃ v : ℤ, |v| < 2 ^ 53 ∧ ¬ NearestMultiple v 3 (roundToNearest v 3) := by
  refine ⟨by decide +kernel, 3 * (2 ^ 51 + 1) + 1, by norm_num, ?_⟩
  have e : roundToNearest ((3 * (2 ^ 51 + 1) + 1 : ℤ) : ℚ) 3 = 3 * (2 ^ 51 + 2) := by decide +kernel
  rw [e]
  rintro ⟨k, hk, hn, -⟩
  have hk' : (3 * (2 ^ 51 + 2) : ℤ) = k * 3 := by exact_mod_cast hk
  have hk2 : k = 2 ^ 51 + 2 := by omega
  have := hn (2 ^ 51 + 1)
  rw [hk2] at this
  norm_num at this

/-- C176, violated for tiny values: the least multiple of ten above the smallest positive double is returned as 0. -/
theorem C176_tiny_violated : IsDouble (2 ^ (-1074 : ℤ)) ∧ ceilToNearest (2 ^ (-1074 : ℤ)) 10 = 0 :=
  ⟨⟨1, -1074, by norm_num, by norm_num, by norm_num⟩, by decide +kernel⟩

/-- C176, violated for steps below one: `floor_to_nearest(0.29, 0.01)` is 0.28, `ceil_to_nearest(0.07, 0.01)` is 0.08, and
`round_to_nearest(0.58, 0.29)` is 0.57. -/
theorem C176_decimals_violated :
    smallStep (⌊·⌋) (rnd 0.29) (rnd 0.01) 2 = rnd 0.28 ∧
    smallStep (⌈·⌉) (rnd 0.07) (rnd 0.01) 2 = rnd 0.08 ∧
    smallStep Py.round (rnd 0.58) (rnd 0.29) 2 = rnd 0.57 := by
  refine ⟨by decide +kernel, by decide +kernel, by decide +kernel⟩

/-- C176, violated for many digits: `set_num_precision(10**23, 1)` is 99999999999999991611392. -/
theorem C176_precision_violated : (Dbl.setNumPrecisionInt (10 ^ 23) 1).toOption = some 99999999999999991611392 := by decide +kernel

/-- The hypotheses are met: 2.7 in binary, step 2; 1234567. -/
example : IsDouble (rnd 2.7) ∧ roundToNearest (rnd 2.7) 2 = 2 ∧ floorToNearest (rnd 2.7) 2 = 2 ∧ ceilToNearest (rnd 2.7) 2 = 4 ∧
    Dbl.popRoundShort 1234567 true = ['1', 'm'] ∧ Dbl.seconds 1234567 = 1234 :=
  ⟨rnd_isDouble _, by decide +kernel⟩

end Verif.Props
