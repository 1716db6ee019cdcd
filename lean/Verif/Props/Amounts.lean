import Verif.Lemmas.Text
import Verif.Spec.Rounding
import Verif.Lemmas.Rounding
import Mathlib.Tactic.Positivity

/-!
# C06, C07, C08: population and dollar texts, significant digits
-/

namespace Verif.Props
open Verif Verif.Text

/-! ## C08 -/

/-- Decimal exponent bounds of a non-zero number. -/
theorem log_bounds (x : ℚ) (hx : x ≠ 0) :
    (10 : ℚ) ^ Int.log 10 |x| ≤ |x| ∧ |x| < (10 : ℚ) ^ (Int.log 10 |x| + 1) := by
  constructor
  · exact_mod_cast Int.zpow_log_le_self (b := 10) (by norm_num) (abs_pos.2 hx)
  · exact_mod_cast Int.lt_zpow_succ_log_self (b := 10) (by norm_num) |x|

/-- The decimal exponent is determined by its bounds. -/
theorem log_unique (x : ℚ) (e : ℤ) (h1 : (10 : ℚ) ^ e ≤ x) (h2 : x < (10 : ℚ) ^ (e + 1)) :
    Int.log 10 x = e := by
  have hx : 0 < x := lt_of_lt_of_le (zpow_pos (by norm_num) e) h1
  apply le_antisymm
  · have : Int.log 10 x < e + 1 := by
      rw [← Int.lt_zpow_iff_log_lt (by norm_num) hx]; exact_mod_cast h2
    omega
  · rw [← Int.zpow_le_iff_le_log (by norm_num) hx]; exact_mod_cast h1

/-- The unit of the last kept digit when `x` is written with `p` significant digits. -/
def lastUnit (x : ℚ) (p : ℕ) : ℚ := (10 : ℚ) ^ (Int.log 10 |x| - (p - 1 : ℤ))

theorem mantissa_bounds (x : ℚ) (hx : x ≠ 0) (p : ℕ) (hp : 1 ≤ p) :
    (10 : ℤ) ^ (p - 1) ≤ Py.round (|x| / lastUnit x p) ∧
      Py.round (|x| / lastUnit x p) ≤ 10 ^ p := by
  obtain ⟨h1, h2⟩ := log_bounds x hx
  have hu : 0 < lastUnit x p := zpow_pos (by norm_num) _
  have e1 : ((10 : ℤ) ^ (p - 1) : ℤ) * lastUnit x p = (10 : ℚ) ^ Int.log 10 |x| := by
    unfold lastUnit
    push_cast
    rw [← zpow_natCast, ← zpow_add₀ (by norm_num)]
    congr 1
    omega
  have e2 : ((10 : ℤ) ^ p : ℤ) * lastUnit x p = (10 : ℚ) ^ (Int.log 10 |x| + 1) := by
    unfold lastUnit
    push_cast
    rw [← zpow_natCast, ← zpow_add₀ (by norm_num)]
    congr 1
    ring
  constructor
  · have := Py.round_mono (a := (((10 : ℤ) ^ (p - 1) : ℤ) : ℚ)) (b := |x| / lastUnit x p)
      (by rw [le_div_iff₀ hu, e1]; exact h1)
    rwa [Py.round_intCast] at this
  · have := Py.round_mono (b := (((10 : ℤ) ^ p : ℤ) : ℚ)) (a := |x| / lastUnit x p)
      (by rw [div_le_iff₀ hu, e2]; exact h2.le)
    rwa [Py.round_intCast] at this

/-- The magnitude of the result, sign aside. -/
theorem sciRound_eq (x : ℚ) (hx : x ≠ 0) (p : ℕ) :
    sciRound x p = (if x < 0 then -1 else 1) * (Py.round (|x| / lastUnit x p) * lastUnit x p) := by
  unfold sciRound lastUnit
  rw [if_neg hx]

theorem sign_mul_abs (x : ℚ) : (if x < 0 then (-1 : ℚ) else 1) * |x| = x := by
  split
  · rw [abs_of_neg ‹_›]; ring
  · rw [abs_of_nonneg (not_lt.1 ‹_›)]; ring

/-- C08: the result is within half a unit of the last kept digit. -/
theorem C08_error_bound (x : ℚ) (hx : x ≠ 0) (p : ℕ) (_hp : 1 ≤ p) :
    |sciRound x p - x| ≤ lastUnit x p / 2 := by
  have hu : 0 < lastUnit x p := zpow_pos (by norm_num) _
  have hd : sciRound x p - x = (if x < 0 then -1 else 1) *
      (Py.round (|x| / lastUnit x p) * lastUnit x p - |x|) := by
    rw [sciRound_eq x hx, mul_sub, sign_mul_abs]
  rw [hd, abs_mul]
  have hs : |(if x < 0 then (-1 : ℚ) else 1)| = 1 := by split <;> simp
  rw [hs, one_mul]
  have h := Py.round_abs_sub_le (|x| / lastUnit x p)
  have e : Py.round (|x| / lastUnit x p) * lastUnit x p - |x| =
      -((|x| / lastUnit x p - Py.round (|x| / lastUnit x p)) * lastUnit x p) := by
    field_simp
    ring
  rw [e, abs_neg, abs_mul, abs_of_pos hu]
  nlinarith

/-- C08: the result has at most `p` significant digits. -/
theorem C08_digits (x : ℚ) (p : ℕ) (hp : 1 ≤ p) : Spec.HasDigits p (sciRound x p) := by
  by_cases hx : x = 0
  · exact ⟨0, 0, by simp, by simp [sciRound, hx]⟩
  obtain ⟨h1, h2⟩ := mantissa_bounds x hx p hp
  have h0 : (0 : ℤ) < 10 ^ (p - 1) := by positivity
  have hpow : (10 : ℤ) ^ p = 10 ^ (p - 1) * 10 := by rw [← pow_succ]; congr 1; omega
  rw [sciRound_eq x hx]
  have habs : ∀ m : ℤ, 0 ≤ m → |(if x < 0 then (-1 : ℤ) else 1) * m| = m := by
    intro m hm
    rw [abs_mul, abs_of_nonneg hm]; split <;> simp
  by_cases hlt : Py.round (|x| / lastUnit x p) < 10 ^ p
  · refine ⟨(if x < 0 then -1 else 1) * Py.round (|x| / lastUnit x p),
      Int.log 10 |x| - (p - 1 : ℤ), ?_, ?_⟩
    · rw [habs _ (by omega)]; exact hlt
    · unfold lastUnit; push_cast; split <;> simp
  · have heq : Py.round (|x| / lastUnit x p) = 10 ^ p := by omega
    refine ⟨(if x < 0 then -1 else 1) * 10 ^ (p - 1), Int.log 10 |x| - (p - 1 : ℤ) + 1, ?_, ?_⟩
    · rw [habs _ h0.le]; omega
    · rw [heq, hpow]; unfold lastUnit
      rw [zpow_add_one₀ (by norm_num)]
      push_cast
      split <;> ring

/-- C08: idempotence. -/
theorem C08_idempotent (x : ℚ) (p : ℕ) (hp : 1 ≤ p) :
    sciRound (sciRound x p) p = sciRound x p := by
  by_cases hx : x = 0
  · simp [sciRound, hx]
  obtain ⟨h1, h2⟩ := mantissa_bounds x hx p hp
  have h0 : (0 : ℤ) < 10 ^ (p - 1) := by positivity
  have hpow : (10 : ℤ) ^ p = 10 ^ (p - 1) * 10 := by rw [← pow_succ]; congr 1; omega
  have hu : 0 < lastUnit x p := zpow_pos (by norm_num) _
  set m := Py.round (|x| / lastUnit x p) with hm
  have hmpos : (0 : ℚ) < m := by exact_mod_cast lt_of_lt_of_le h0 h1
  have hval : sciRound x p = (if x < 0 then -1 else 1) * (m * lastUnit x p) := sciRound_eq x hx p
  have hyabs : |sciRound x p| = m * lastUnit x p := by
    rw [hval, abs_mul, abs_of_pos (mul_pos hmpos hu)]
    split <;> simp
  have hyne : sciRound x p ≠ 0 := by
    rw [← abs_pos, hyabs]; exact mul_pos hmpos hu
  have hysign : (if sciRound x p < 0 then (-1 : ℚ) else 1) = if x < 0 then -1 else 1 := by
    have hpos := mul_pos hmpos hu
    by_cases hn : x < 0
    · rw [if_pos hn] at hval ⊢; rw [if_pos]; linarith
    · rw [if_neg hn] at hval ⊢; rw [if_neg]; linarith
  rw [sciRound_eq _ hyne, hysign, hyabs]
  by_cases hlt : m < 10 ^ p
  · have hlog : Int.log 10 |sciRound x p| = Int.log 10 |x| := by
      apply log_unique
      · rw [hyabs]
        have : (10 : ℚ) ^ Int.log 10 |x| = ((10 ^ (p - 1) : ℤ) : ℚ) * lastUnit x p := by
          unfold lastUnit
          push_cast
          rw [← zpow_natCast, ← zpow_add₀ (by norm_num)]
          congr 1
          omega
        rw [this]
        exact mul_le_mul_of_nonneg_right (by exact_mod_cast h1) hu.le
      · rw [hyabs]
        have : (10 : ℚ) ^ (Int.log 10 |x| + 1) = ((10 ^ p : ℤ) : ℚ) * lastUnit x p := by
          unfold lastUnit
          push_cast
          rw [← zpow_natCast, ← zpow_add₀ (by norm_num)]
          congr 1
          ring
        rw [this]
        exact mul_lt_mul_of_pos_right (by exact_mod_cast hlt) hu
    have hlu : lastUnit (sciRound x p) p = lastUnit x p := by unfold lastUnit; rw [hlog]
    rw [hlu, mul_div_cancel_right₀ _ hu.ne', Py.round_intCast, hval]
  · have heq : m = 10 ^ p := by omega
    have hlog : Int.log 10 |sciRound x p| = Int.log 10 |x| + 1 := by
      have e : |sciRound x p| = (10 : ℚ) ^ (Int.log 10 |x| + 1) := by
        rw [hyabs, heq]
        unfold lastUnit
        push_cast
        rw [← zpow_natCast, ← zpow_add₀ (by norm_num)]
        congr 1
        ring
      apply log_unique
      · rw [e]
      · rw [e]; exact zpow_lt_zpow_right₀ (by norm_num) (by omega)
    have hlu : lastUnit (sciRound x p) p = lastUnit x p * 10 := by
      unfold lastUnit; rw [hlog, ← zpow_add_one₀ (by norm_num)]; congr 1; ring
    have hq : (m : ℚ) * lastUnit x p / (lastUnit x p * 10) = ((10 ^ (p - 1) : ℤ) : ℚ) := by
      rw [heq, hpow]; push_cast; field_simp
    rw [hlu, hq, Py.round_intCast, hval, heq, hpow]
    push_cast
    ring

/-- C08: `set_num_precision` in float mode succeeds exactly for a precision of at least one, and then
has the three properties above. -/
theorem C08_set_num_precision (x : ℚ) (precision : ℤ) :
    (precision < 1 → setNumPrecisionFloat x precision = .error .valueError) ∧
    (1 ≤ precision → ∃ r, setNumPrecisionFloat x precision = .ok r ∧
      Spec.HasDigits precision.toNat r ∧
      (x ≠ 0 → ∃ e : ℤ, (10 : ℚ) ^ e ≤ |x| ∧ |x| < (10 : ℚ) ^ (e + 1) ∧
        |r - x| ≤ (10 : ℚ) ^ (e - (precision - 1)) / 2) ∧
      (x = 0 → r = 0) ∧
      setNumPrecisionFloat r precision = .ok r) := by
  refine ⟨fun h => by simp [setNumPrecisionFloat, h], fun h => ?_⟩
  have hp : 1 ≤ precision.toNat := by omega
  have hpc : ((precision.toNat : ℕ) : ℤ) = precision := by omega
  refine ⟨sciRound x precision.toNat, ?_, C08_digits x _ hp, fun hx => ?_, fun hx => ?_, ?_⟩
  · simp [setNumPrecisionFloat, not_lt.2 h]
  · refine ⟨Int.log 10 |x|, (log_bounds x hx).1, (log_bounds x hx).2, ?_⟩
    have := C08_error_bound x hx precision.toNat hp
    unfold lastUnit at this
    rwa [hpc] at this
  · simp [sciRound, hx]
  · rw [setNumPrecisionFloat, if_neg (not_lt.2 h), C08_idempotent x _ hp]

/-- Carry: 999.5 with three digits is 1000. -/
example : (10 : ℚ) ^ (2 : ℤ) ≤ |(9995 / 10 : ℚ)| ∧ |(9995 / 10 : ℚ)| < (10 : ℚ) ^ ((2 : ℤ) + 1) := by
  norm_num [abs_of_pos]

/-- C08: in int mode an integer input is rounded exactly (the truncation loses nothing). -/
theorem C08_int_mode (n : ℤ) (precision : ℤ) (h : 1 ≤ precision) :
    ∃ r : ℤ, setNumPrecisionInt n precision = .ok r ∧ setNumPrecisionFloat n precision = .ok (r : ℚ) := by
  have hp : 1 ≤ precision.toNat := by omega
  have hpc : ((precision.toNat : ℕ) : ℤ) = precision := by omega
  have key : ∃ r : ℤ, sciRound (n : ℚ) precision.toNat = r := by
    by_cases hn : (n : ℚ) = 0
    · exact ⟨0, by simp [sciRound, hn]⟩
    · rw [sciRound_eq _ hn]
      unfold lastUnit
      by_cases hk : 0 ≤ Int.log 10 |(n : ℚ)| - (precision.toNat - 1 : ℤ)
      · obtain ⟨k, hk⟩ := Int.eq_ofNat_of_zero_le hk
        rw [hk]
        refine ⟨(if (n : ℚ) < 0 then -1 else 1) *
          (Py.round (|(n : ℚ)| / (10 : ℚ) ^ ((k : ℕ) : ℤ)) * 10 ^ k), ?_⟩
        push_cast
        split <;> simp
      · obtain ⟨k, hk'⟩ := Int.eq_ofNat_of_zero_le (a := -(Int.log 10 |(n : ℚ)| - (precision.toNat - 1 : ℤ))) (by omega)
        have hk2 : Int.log 10 |(n : ℚ)| - (precision.toNat - 1 : ℤ) = -((k : ℕ) : ℤ) := by omega
        rw [hk2, zpow_neg, zpow_natCast]
        have e : |(n : ℚ)| / (10 ^ k : ℚ)⁻¹ = ((|n| * 10 ^ k : ℤ) : ℚ) := by
          push_cast; field_simp
        rw [e, Py.round_intCast]
        refine ⟨n, ?_⟩
        push_cast
        rw [mul_assoc, mul_inv_cancel₀ (by positivity), mul_one, sign_mul_abs]
  obtain ⟨r, hr⟩ := key
  refine ⟨r, ?_, ?_⟩
  · simp [setNumPrecisionInt, setNumPrecisionFloat, not_lt.2 h, hr, Py.trunc_intCast, Except.map]
  · simp [setNumPrecisionFloat, not_lt.2 h, hr]

/-! ## C06 -/

/-- `round_to_nearest` with the default step, on integers: a multiple of 1000 within 500. -/
theorem roundThousand (value : ℤ) : ∃ k : ℤ, roundToNearestGe1 (value : ℚ) 1000 = k * 1000 ∧
    |value - k * 1000| ≤ 500 := by
  refine ⟨Py.round ((value : ℚ) / 1000), ?_, ?_⟩
  · unfold roundToNearestGe1
    rw [show ((1000 : ℚ)) = ((1000 : ℤ) : ℚ) by norm_num, ← Int.cast_mul, Py.trunc_intCast]
  · have h := Py.round_abs_sub_le ((value : ℚ) / 1000)
    rw [abs_le] at h ⊢
    have h1 : -(500 : ℚ) ≤ value - Py.round ((value : ℚ) / 1000) * 1000 := by linarith [h.1]
    have h2 : (value : ℚ) - Py.round ((value : ℚ) / 1000) * 1000 ≤ 500 := by linarith [h.2]
    exact ⟨by exact_mod_cast h1, by exact_mod_cast h2⟩

/-- C06: below 1000 the value is printed in full. -/
theorem C06_small (value : ℤ) (um : Bool) (h : value < 1000) :
    ∃ s, popRoundShort value um = s ∧ Spec.IsIntText value s := by
  refine ⟨_, rfl, ?_⟩
  unfold popRoundShort
  rw [if_pos (by exact_mod_cast h), Py.trunc_intCast]
  exact intStr_isIntText value

/-- C06: from 1000 up a positive count grouped with commas and one suffix letter is printed; the suffix
is `m` exactly when asked for and the value is at least a million; count times unit is within
500 of the value for `k`, and for `m` the count is the number of whole millions in a value within
500 of the given one. -/
theorem C06_large (value : ℤ) (um : Bool) (h : 1000 ≤ value) :
    ∃ (count : ℤ) (digits g : List Char) (suffix : Char), 
      popRoundShort value um = g ++ [suffix] ∧
      0 ≤ count ∧ Spec.IsDecimalText count.toNat digits ∧ Spec.Grouped [','] digits g ∧
      (suffix = 'm' ∨ suffix = 'k') ∧ (suffix = 'm' ↔ um = true ∧ 1000000 ≤ value) ∧
      (suffix = 'k' → 1 ≤ count ∧ |value - count * 1000| ≤ 500) ∧
      (suffix = 'm' → ∃ r : ℤ, |value - r| ≤ 500 ∧ 1000 ∣ r ∧
        count * 1000000 ≤ r ∧ r < (count + 1) * 1000000) := by
  obtain ⟨k, hk, hb⟩ := roundThousand value
  rw [abs_le] at hb
  have hv : ¬ ((value : ℚ) < 1000) := by
    rw [not_lt]; exact_mod_cast h
  have hcond : decide ((1000000 : ℚ) ≤ (value : ℚ)) = decide (1000000 ≤ value) := by
    apply decide_eq_decide.2
    exact_mod_cast Iff.rfl
  unfold popRoundShort
  rw [if_neg hv]
  simp only [hk, hcond]
  by_cases hm : (decide (1000000 ≤ value) && um) = true
  · have hm2 : 1000000 ≤ value ∧ um = true := by simpa using hm
    simp only [hm, if_true]
    have hne : ¬ (k * 1000 / 1000000 = 0) := by omega
    rw [if_neg hne]
    obtain ⟨g, hg, hc⟩ := commifyInt_spec (k * 1000 / 1000000)
    refine ⟨k * 1000 / 1000000, Py.natStr (k * 1000 / 1000000).natAbs, g, 'm', ?_, by omega, ?_, hg,
      Or.inl rfl, ?_, ?_, ?_⟩
    · rw [hc, if_neg (by omega)]; rfl
    · rw [show (k * 1000 / 1000000).toNat = (k * 1000 / 1000000).natAbs by omega]
      exact natStr_isDecimalText _
    · simp [hm2]
    · intro h; exact absurd h (by decide)
    · intro _
      exact ⟨k * 1000, abs_le.2 ⟨by omega, by omega⟩, ⟨k, by ring⟩, by omega, by omega⟩
  · have hm2 : ¬ (um = true ∧ 1000000 ≤ value) := by
      intro ⟨a, b⟩; apply hm; simp [a, b]
    simp only [Bool.not_eq_true] at hm
    rw [hm]
    simp only [Bool.false_eq_true, if_false]
    have he : k * 1000 / 1000 = k := by omega
    rw [he, if_neg (by omega)]
    obtain ⟨g, hg, hc⟩ := commifyInt_spec k
    refine ⟨k, Py.natStr k.natAbs, g, 'k', ?_, by omega, ?_, hg, Or.inr rfl, ?_, ?_, ?_⟩
    · rw [hc, if_neg (by omega)]; rfl
    · rw [show k.toNat = k.natAbs by omega]
      exact natStr_isDecimalText _
    · constructor
      · intro h; exact absurd h (by decide)
      · intro h; exact absurd h hm2
    · intro _; exact ⟨by omega, abs_le.2 hb⟩
    · intro h; exact absurd h (by decide)

example : popRoundShort 1024125 false = "1,024k".toList := by decide +kernel
example : popRoundShort 99999999 true = "100m".toList := by decide +kernel

/-- C06: `pop_round` prints the nearest multiple of 1000 with thousands separators. -/
theorem C06_pop_round (value : ℤ) : ∃ (k : ℤ) (sign digits g : List Char),
    |value - k * 1000| ≤ 500 ∧ popRound value = sign ++ g ∧
    sign = (if k * 1000 < 0 then ['-'] else []) ∧
    Spec.IsDecimalText (k * 1000).natAbs digits ∧ Spec.Grouped [','] digits g := by
  obtain ⟨k, hk, hb⟩ := roundThousand value
  obtain ⟨g, hg, hc⟩ := commifyInt_spec (k * 1000)
  exact ⟨k, _, _, g, hb, by unfold popRound; rw [hk, hc], rfl, natStr_isDecimalText _, hg⟩

/-! ## C07 -/

/-- The unit words for a magnitude, and the size of the unit. -/
def SpecUnit (short : Bool) (v : ℚ) (unit : String) (size : ℚ) : Prop :=
  (1000 ≤ v ∧ v < 1000000 ∧ unit = (if short then "K" else " thousand") ∧ size = 1000) ∨
  (1000000 ≤ v ∧ v < 1000000000 ∧ unit = (if short then "M" else " million") ∧ size = 1000000) ∨
  (1000000000 ≤ v ∧ unit = (if short then "B" else " billion") ∧ size = 1000000000)

/-- C07 (what holds): in short mode always, and in long mode except at exactly one million, the unit
is the one for the magnitude and the amount is the value in that unit with the requested
number of significant digits. -/
theorem C07_unit_partial (v : ℚ) (digits : ℤ) (short : Bool) (hd : 1 ≤ digits) (hv : 1000 ≤ v)
    (hex : short = true ∨ v ≠ 1000000) :
    ∃ unit size, SpecUnit short v unit size ∧
      dollarRound v digits short = .ok (.scaled (sciRound (v / size) digits.toNat) unit) := by
  have hset : ∀ y, setNumPrecisionFloat y digits = .ok (sciRound y digits.toNat) := by
    intro y; simp [setNumPrecisionFloat, not_lt.2 hd]
  unfold dollarRound
  rw [if_neg (not_lt.2 hv)]
  simp only [hset]
  by_cases h1 : v < 1000000
  · refine ⟨if short then "K" else " thousand", 1000, Or.inl ⟨hv, h1, rfl, rfl⟩, ?_⟩
    cases short <;> simp [hv, h1, bind, Except.bind, pure, Except.pure]
  · have h1' := not_lt.1 h1
    by_cases h2 : v < 1000000000
    · refine ⟨if short then "M" else " million", 1000000, Or.inr (Or.inl ⟨h1', h2, rfl, rfl⟩), ?_⟩
      cases short
      · have hne : v ≠ 1000000 := by rcases hex with h | h; cases h; exact h
        have hgt : 1000000 < v := lt_of_le_of_ne h1' (Ne.symm hne)
        simp [h1, h2, hgt, bind, Except.bind, pure, Except.pure]
      · simp [h1, h1', h2, bind, Except.bind, pure, Except.pure]
    · refine ⟨if short then "B" else " billion", 1000000000,
        Or.inr (Or.inr ⟨not_lt.1 h2, rfl, rfl⟩), ?_⟩
      cases short <;> simp [h1, h2, bind, Except.bind, pure, Except.pure]

/-- C07: below 1000 the rounded value itself is printed (integer inputs: no truncation error). -/
theorem C07_small (n : ℤ) (digits : ℤ) (short : Bool) (hd : 1 ≤ digits) (hn : n < 1000) :
    ∃ r : ℤ, sciRound n digits.toNat = r ∧
      dollarRound n digits short = .ok (.plain (commifyInt r)) := by
  obtain ⟨r, h1, h2⟩ := C08_int_mode n digits hd
  refine ⟨r, ?_, ?_⟩
  · simpa [setNumPrecisionFloat, not_lt.2 hd] using h2
  · unfold dollarRound
    rw [if_pos (by exact_mod_cast hn), h1]
    rfl

/-- C07 is violated in long mode at exactly one million: the text says "billion". -/
theorem C07_long_million_violated :
    ∃ amount, dollarRound 1000000 2 false = .ok (.scaled amount " billion") ∧
      ¬ ∃ size, SpecUnit false 1000000 " billion" size := by
  refine ⟨sciRound (1000000 / 1000000000) 2, ?_, ?_⟩
  · unfold dollarRound
    rw [if_neg (by norm_num)]
    simp [setNumPrecisionFloat, bind, Except.bind, pure, Except.pure]
  · rintro ⟨size, h | h | h⟩
    · exact absurd h.2.1 (by norm_num)
    · exact absurd h.2.2.1 (by decide)
    · exact absurd h.1 (by norm_num)

example : SpecUnit false 2500000 " million" 1000000 :=
  Or.inr (Or.inl ⟨by norm_num, by norm_num, rfl, rfl⟩)

end Verif.Props
