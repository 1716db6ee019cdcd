import Verif.Model.Double
import Verif.Spec.Double
import Verif.Lemmas.Rounding
import Mathlib.Tactic.Linarith
import Mathlib.Tactic.Positivity
import Mathlib.Tactic.FieldSimp
import Mathlib.Tactic.Ring

/-!
# Rounding to doubles
-/

namespace Verif.Dbl
open Verif.Spec

theorem two_zpow_pos (e : ℤ) : (0 : ℚ) < 2 ^ e := zpow_pos (by norm_num) e

theorem ulp_pos (q : ℚ) : 0 < ulp q := two_zpow_pos _

theorem rnd_error (q : ℚ) : |rnd q - q| ≤ ulp q / 2 := by
  have h := Py.round_abs_sub_le (q / ulp q)
  have hu := ulp_pos q
  have e : rnd q - q = -((q / ulp q - Py.round (q / ulp q)) * ulp q) := by
    unfold rnd
    field_simp
    ring
  rw [e, abs_neg, abs_mul, abs_of_pos hu]
  nlinarith

theorem pow_expo_le {q : ℚ} (h : 2 ^ (-1022 : ℤ) ≤ |q|) : (2 : ℚ) ^ expo q ≤ |q| := by
  have h0 : 0 < |q| := lt_of_lt_of_le (two_zpow_pos _) h
  unfold expo
  rcases max_choice (Int.log 2 |q|) (-1022) with e | e <;> rw [e]
  · exact_mod_cast Int.zpow_log_le_self (b := 2) (by norm_num) h0
  · exact h

theorem lt_pow_expo (q : ℚ) : |q| < 2 ^ (expo q + 1) := by
  have h1 : |q| < (2 : ℚ) ^ (Int.log 2 |q| + 1) := by exact_mod_cast Int.lt_zpow_succ_log_self (b := 2) (by norm_num) |q|
  refine h1.trans_le (zpow_le_zpow_right₀ (by norm_num) ?_)
  unfold expo
  have := le_max_left (Int.log 2 |q|) (-1022)
  omega

/-- The error of a normal number is at most `2 ^ -53` of it. -/
theorem rnd_rel {q : ℚ} (h : 2 ^ (-1022 : ℤ) ≤ |q|) : |rnd q - q| ≤ |q| / 2 ^ 53 := by
  have h1 := rnd_error q
  have h2 := pow_expo_le h
  have e : ulp q / 2 = 2 ^ expo q / 2 ^ 53 := by
    unfold ulp
    rw [zpow_sub₀ (by norm_num)]
    norm_num
    ring
  rw [e] at h1
  exact h1.trans (div_le_div_of_nonneg_right h2 (by positivity))

/-- A double is a multiple of the distance of its neighbours, and of smaller powers of two. -/
theorem double_multiple {q : ℚ} (h : IsDouble q) : ∃ n : ℤ, q = n * ulp q := by
  obtain ⟨m, e, hm, he, rfl⟩ := h
  by_cases h0 : m = 0
  · exact ⟨0, by simp [h0]⟩
  have hlt : |(m : ℚ) * 2 ^ e| < 2 ^ (e + 53) := by
    rw [abs_mul, abs_of_pos (two_zpow_pos e), zpow_add₀ (by norm_num), mul_comm]
    refine mul_lt_mul_of_pos_left ?_ (two_zpow_pos e)
    exact_mod_cast hm
  have hlog : Int.log 2 |(m : ℚ) * 2 ^ e| < e + 53 := by
    have h0' : (0 : ℚ) < |(m : ℚ) * 2 ^ e| := by
      rw [abs_pos]
      exact mul_ne_zero (by exact_mod_cast h0) (two_zpow_pos e).ne'
    have := (Int.lt_zpow_iff_log_lt (b := 2) (by norm_num) h0').mp (by exact_mod_cast hlt)
    exact this
  have hk : expo ((m : ℚ) * 2 ^ e) - 52 ≤ e := by
    unfold expo
    omega
  obtain ⟨k, hk'⟩ := Int.eq_ofNat_of_zero_le (sub_nonneg.mpr hk)
  refine ⟨m * 2 ^ k, ?_⟩
  unfold ulp
  have : e = (k : ℤ) + (expo ((m : ℚ) * 2 ^ e) - 52) := by omega
  generalize expo ((m : ℚ) * 2 ^ e) - 52 = u at *
  rw [this, zpow_add₀ (by norm_num)]
  push_cast
  rw [zpow_natCast]
  ring

/-- Doubles are not changed. -/
theorem rnd_double {q : ℚ} (h : IsDouble q) : rnd q = q := by
  obtain ⟨n, hn⟩ := double_multiple h
  have hu := ulp_pos q
  have : q / ulp q = n := by rw [div_eq_iff hu.ne']; exact hn
  unfold rnd
  rw [this, Py.round_intCast]
  exact hn.symm

theorem int_double' {n : ℤ} (h : |n| ≤ 2 ^ 53) :
    ∃ m e : ℤ, |m| < 2 ^ 53 ∧ 0 ≤ e ∧ (n : ℚ) = m * 2 ^ e := by
  rcases h.lt_or_eq with h | h
  · exact ⟨n, 0, h, by norm_num, by simp⟩
  · rcases abs_choice n with e | e
    · exact ⟨2 ^ 52, 1, by norm_num, by norm_num, by
        have : n = 2 ^ 53 := by omega
        rw [this]; norm_num⟩
    · exact ⟨-2 ^ 52, 1, by norm_num, by norm_num, by
        have : n = -2 ^ 53 := by omega
        rw [this]; norm_num⟩

/-- Integers up to `2 ^ 53` are doubles. -/
theorem int_double {n : ℤ} (h : |n| ≤ 2 ^ 53) : IsDouble n := by
  obtain ⟨m, e, hm, he, hq⟩ := int_double' h
  exact ⟨m, e, hm, by omega, hq⟩

theorem half_double {n : ℤ} (h : |n| < 2 ^ 53) : IsDouble (n / 2) :=
  ⟨n, -1, h, by norm_num, by rw [zpow_neg_one]; ring⟩

theorem round_abs_le' {x : ℚ} {N : ℤ} (h : |x| ≤ N) : |Py.round x| ≤ N := by
  rw [abs_le] at h ⊢
  have h1 : (((-N : ℤ)) : ℚ) ≤ x := by push_cast; exact h.1
  have h2 := Py.round_mono h1
  have h3 := Py.round_mono h.2
  rw [Py.round_intCast] at h2 h3
  exact ⟨h2, h3⟩

theorem round_abs_le {x : ℚ} (h : |x| ≤ 2 ^ 53) : |Py.round x| ≤ 2 ^ 53 :=
  round_abs_le' (by push_cast; exact h)

/-- The result of rounding is a double. -/
theorem rnd_isDouble (q : ℚ) : IsDouble (rnd q) := by
  have hu := ulp_pos q
  have hlt := lt_pow_expo q
  have hb : |q / ulp q| < 2 ^ 53 := by
    rw [abs_div, abs_of_pos hu, div_lt_iff₀ hu]
    unfold ulp
    rw [← zpow_natCast, ← zpow_add₀ (by norm_num)]
    refine hlt.trans_le (le_of_eq ?_)
    congr 1
    push_cast
    ring
  have hr : |Py.round (q / ulp q)| ≤ 2 ^ 53 := round_abs_le hb.le
  obtain ⟨m, e, hm, he, hq⟩ := int_double' hr
  refine ⟨m, e + (expo q - 52), hm, ?_, ?_⟩
  · have := le_max_right (Int.log 2 |q|) (-1022)
    unfold expo
    omega
  · unfold rnd
    rw [hq, zpow_add₀ (by norm_num)]
    unfold ulp
    ring

theorem rnd_grid (q : ℚ) (j : ℤ) : |rnd q - q| ≤ |j * ulp q - q| := by
  have hu := ulp_pos q
  have key : ∀ j : ℤ, |j * ulp q - q| = |q / ulp q - j| * ulp q := by
    intro j
    rw [← abs_of_pos hu, ← abs_mul, abs_of_pos hu, sub_mul, div_mul_cancel₀ _ hu.ne']
    exact abs_sub_comm _ _
  unfold rnd
  rw [key, key]
  exact mul_le_mul_of_nonneg_right (Py.round_nearest _ j) hu.le

/-- No double is nearer. -/
theorem rnd_nearest (q : ℚ) : NearestDouble q (rnd q) := by
  refine ⟨rnd_isDouble q, fun d hd => ?_⟩
  by_cases hq : q = 0
  · have : rnd 0 = 0 := rnd_double ⟨0, 0, by norm_num, by norm_num, by norm_num⟩
    rw [hq, this]
    simp
  obtain ⟨n, hn⟩ := double_multiple hd
  by_cases hle : expo q ≤ expo d
  · -- d is on the grid of q
    obtain ⟨k, hk⟩ := Int.eq_ofNat_of_zero_le (sub_nonneg.mpr hle)
    have hg : d = ((n * 2 ^ k : ℤ) : ℚ) * ulp q := by
      have e : expo d - 52 = (k : ℤ) + (expo q - 52) := by omega
      refine hn.trans ?_
      unfold ulp
      rw [e, zpow_add₀ (by norm_num), zpow_natCast]
      push_cast
      ring
    rw [hg]
    exact rnd_grid q _
  · -- d is smaller: the power of two at or below q, on the grid, lies between
    have hlt : expo d + 1 ≤ expo q := by omega
    have hd1 : |d| < 2 ^ expo q := (lt_pow_expo d).trans_le (zpow_le_zpow_right₀ (by norm_num) hlt)
    have hnorm : expo q = Int.log 2 |q| := by
      have := le_max_right (Int.log 2 |d|) (-1022)
      unfold expo at hlt ⊢
      omega
    have hp : (2 : ℚ) ^ expo q ≤ |q| := by
      rw [hnorm]
      exact_mod_cast Int.zpow_log_le_self (b := 2) (by norm_num) (abs_pos.mpr hq)
    have hP : (2 : ℚ) ^ expo q = 4503599627370496 * ulp q := by
      unfold ulp
      have e : (4503599627370496 : ℚ) = 2 ^ 52 := by norm_num
      rw [e]
      rw [← zpow_natCast, ← zpow_add₀ (by norm_num)]
      congr 1
      push_cast
      ring
    have h3 := abs_sub_abs_le_abs_sub q d
    rw [abs_sub_comm q d] at h3
    rcases le_total 0 q with h | h
    · have h4 := rnd_grid q (2 ^ 52)
      push_cast at h4
      rw [← hP, abs_sub_comm (2 ^ expo q), abs_of_nonneg (a := q - 2 ^ expo q) (by rw [abs_of_nonneg h] at hp; linarith)] at h4
      rw [abs_of_nonneg h] at h3
      linarith
    · have h4 := rnd_grid q (-2 ^ 52)
      push_cast at h4
      rw [neg_mul, ← hP, abs_of_nonneg (a := -2 ^ expo q - q) (by rw [abs_of_nonpos h] at hp; linarith)] at h4
      rw [abs_of_nonpos h] at h3
      linarith

theorem expo_le {v : ℚ} {n : ℤ} (hn : -1022 ≤ n) (h0 : 0 ≤ n) (h : |v| < 2 ^ (n + 1)) : expo v ≤ n := by
  unfold expo
  refine max_le ?_ hn
  by_cases hv : v = 0
  · simpa [hv] using h0
  · have := (Int.lt_zpow_iff_log_lt (b := 2) (by norm_num) (abs_pos.mpr hv)).mp (by exact_mod_cast h)
    omega

/-- Two numbers that are multiples of `2 ^ a` are equal or at least that far apart. -/
theorem apart {x y u : ℚ} (hu : 0 < u) (hx : ∃ n : ℤ, x = n * u) (hy : ∃ n : ℤ, y = n * u) (hne : x ≠ y) : u ≤ |x - y| := by
  obtain ⟨n, rfl⟩ := hx
  obtain ⟨m, rfl⟩ := hy
  have : n ≠ m := fun e => hne (by rw [e])
  have h1 : (1 : ℚ) ≤ |(n : ℚ) - m| := by exact_mod_cast Int.one_le_abs (sub_ne_zero.2 this)
  rw [← sub_mul, abs_mul, abs_of_pos hu]
  nlinarith

theorem multiple_of_le {u : ℤ} {e : ℤ} (h : u ≤ e) (n : ℤ) : ∃ m : ℤ, (n : ℚ) * 2 ^ e = m * 2 ^ u := by
  obtain ⟨k, hk⟩ := Int.eq_ofNat_of_zero_le (sub_nonneg.mpr h)
  refine ⟨n * 2 ^ k, ?_⟩
  have : e = (k : ℤ) + u := by omega
  rw [this, zpow_add₀ (by norm_num), zpow_natCast]
  push_cast
  ring

/-- The quotient of a double and a positive number is rounded by less than the least distance of the double from a multiple of `2 ^ e`. -/
theorem quotient_side {v s t : ℚ} (hv : IsDouble v) (hs : 0 < s) (hx : 2 ^ (-1022 : ℤ) ≤ |v / s|) {e n : ℤ} (he : expo v - 52 ≤ e)
    (ht : t = n * 2 ^ e) (hne : v ≠ t) : |rnd (v / s) - v / s| < |v / s - t / s| := by
  have hu := ulp_pos v
  have h1 : ulp v ≤ |v - t| := apart hu (double_multiple hv) (by rw [ht]; exact multiple_of_le he n) hne
  have h2 := rnd_rel hx
  have e1 : |v / s - t / s| = |v - t| / s := by rw [← sub_div, abs_div, abs_of_pos hs]
  rw [e1]
  refine h2.trans_lt ?_
  rw [abs_div, abs_of_pos hs, div_div, mul_comm, ← div_div]
  refine div_lt_div_of_pos_right (lt_of_lt_of_le ?_ h1) hs
  rw [div_lt_iff₀ (by norm_num)]
  refine (lt_pow_expo v).trans_le (le_of_eq ?_)
  unfold ulp
  rw [← zpow_natCast, ← zpow_add₀ (by norm_num)]
  congr 1
  push_cast
  ring

theorem side {x y t : ℚ} (h : |y - x| < |x - t|) : (x < t → y < t) ∧ (t < x → t < y) := by
  rw [abs_lt] at h
  refine ⟨fun h1 => ?_, fun h1 => ?_⟩
  · rw [abs_of_neg (by linarith)] at h
    linarith
  · rw [abs_of_pos (by linarith)] at h
    linarith

end Verif.Dbl
