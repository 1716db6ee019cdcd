import Verif.Model.DoubleMoney
import Verif.Spec.Numeral
import Verif.Props.Double
import Verif.Props.ScpPut

/-!
# C190: amounts of money are shown right in binary arithmetic
-/

namespace Verif.Props
open Verif.Dbl Verif.Spec
open Verif.Text (sciRound)

/-! ### Decimals of at most fifteen digits -/

theorem ten_pos (e : ℤ) : (0 : ℚ) < 10 ^ e := zpow_pos (by norm_num) e

theorem rnd_at_least {q t : ℚ} (ht : IsDouble t) (h : t ≤ q) : t ≤ rnd q := by
  have h1 := (rnd_nearest q).2 t ht
  rw [abs_of_nonpos (by linarith : t - q ≤ 0)] at h1
  have := neg_abs_le (rnd q - q)
  linarith

/-- A number near a decimal of `p` digits, with the same exponent, is rounded to it. -/
theorem sci_of_near {d y : ℚ} {n e : ℤ} {p : ℕ} (hd : d = n * 10 ^ (e - (p - 1 : ℤ))) (h1 : (10 : ℚ) ^ e ≤ y) (h2 : y < 10 ^ (e + 1))
    (hn : |y - d| < 10 ^ (e - (p - 1 : ℤ)) / 2) : sciRound y p = d := by
  have hy : 0 < y := lt_of_lt_of_le (ten_pos e) h1
  have hl : Int.log 10 |y| = e := by rw [abs_of_pos hy]; exact log_unique y e h1 h2
  rw [sciRound_eq y hy.ne', if_neg (not_lt.mpr hy.le), lastUnit, hl, abs_of_pos hy, one_mul]
  have hU := ten_pos (e - (p - 1 : ℤ))
  generalize (10 : ℚ) ^ (e - (p - 1 : ℤ)) = U at *
  have : Py.round (y / U) = n := by
    refine dbl_round_of_lt ?_
    have e1 : y / U - n = (y - d) / U := by rw [hd]; field_simp
    rw [e1, abs_div, abs_of_pos hU, div_lt_iff₀ hU]
    linarith
  rw [this, hd]

/-- The exponent and the mantissa of a decimal of at most `p` digits. -/
theorem digits_normal {d : ℚ} {p : ℕ} (h : HasDigits p d) (h0 : 0 < d) :
    ∃ (n e : ℤ), d = n * 10 ^ (e - (p - 1 : ℤ)) ∧ (10 : ℚ) ^ e ≤ d ∧ d < 10 ^ (e + 1) := by
  obtain ⟨m, k, hm, rfl⟩ := h
  have hb := log_bounds _ h0.ne'
  rw [abs_of_pos h0] at hb
  set e := Int.log 10 ((m : ℚ) * 10 ^ k) with he
  have hlt : (m : ℚ) * 10 ^ k < 10 ^ ((p : ℤ) + k) := by
    rw [zpow_add₀ (by norm_num), zpow_natCast]
    refine mul_lt_mul_of_pos_right ?_ (ten_pos k)
    exact_mod_cast lt_of_le_of_lt (le_abs_self m) hm
  have hek : e < p + k := by
    have := hb.1.trans_lt hlt
    exact (zpow_lt_zpow_iff_right₀ (by norm_num : (1 : ℚ) < 10)).mp this
  obtain ⟨j, hj⟩ := Int.eq_ofNat_of_zero_le (show 0 ≤ k - (e - (p - 1 : ℤ)) by omega)
  refine ⟨m * 10 ^ j, e, ?_, hb.1, hb.2⟩
  push_cast
  rw [mul_assoc, ← zpow_natCast, ← zpow_add₀ (by norm_num)]
  congr 2
  omega

theorem log_range {d : ℚ} {e : ℤ} (h1 : 1 ≤ d) (h2 : d < 10 ^ 16) (he1 : (10 : ℚ) ^ e ≤ d) (he2 : d < 10 ^ (e + 1)) : 0 ≤ e ∧ e ≤ 15 := by
  constructor
  · have h : (10 : ℚ) ^ (0 : ℤ) < 10 ^ (e + 1) := by rw [zpow_zero]; linarith
    have := (zpow_lt_zpow_iff_right₀ (by norm_num : (1 : ℚ) < 10)).mp h
    omega
  · have h : (10 : ℚ) ^ e < 10 ^ (16 : ℤ) := lt_of_le_of_lt he1 (by exact_mod_cast h2)
    have := (zpow_lt_zpow_iff_right₀ (by norm_num : (1 : ℚ) < 10)).mp h
    omega

theorem ten_double {e : ℤ} (h0 : 0 ≤ e) (h1 : e ≤ 15) : IsDouble ((10 : ℚ) ^ e) := by
  obtain ⟨j, rfl⟩ := Int.eq_ofNat_of_zero_le h0
  have hj : j ≤ 15 := by exact_mod_cast h1
  have h2 : (10 : ℤ) ^ j ≤ 2 ^ 53 := (pow_le_pow_right₀ (by norm_num) hj).trans (by norm_num)
  have h3 := int_double (n := 10 ^ j) (by rw [abs_of_nonneg (by positivity)]; exact h2)
  rw [zpow_natCast]
  exact_mod_cast h3

/-- A decimal of at most fifteen digits is the one nearest to its double. -/
theorem sci_rnd {d : ℚ} {p : ℕ} (hp : p ≤ 15) (h : HasDigits p d) (h1 : 1 ≤ d) (h2 : d < 10 ^ 16) : sciRound (rnd d) p = d := by
  have h0 : 0 < d := by linarith
  obtain ⟨n, e, hd, he1, he2⟩ := digits_normal h h0
  obtain ⟨r1, r2⟩ := log_range h1 h2 he1 he2
  have hU := ten_pos (e - (p - 1 : ℤ))
  have hrel := rnd_rel (q := d) (by
    rw [abs_of_pos h0]
    refine le_trans ?_ h1
    exact zpow_le_one_of_nonpos₀ (by norm_num) (by norm_num))
  rw [abs_of_pos h0] at hrel
  have e10 : (10 : ℚ) ^ (e + 1) = 10 ^ p * 10 ^ (e - (p - 1 : ℤ)) := by
    rw [← zpow_natCast, ← zpow_add₀ (by norm_num)]; congr 1; ring
  have hpp : (10 : ℚ) ^ p ≤ 10 ^ 15 := pow_le_pow_right₀ (by norm_num) hp
  have hnear : |rnd d - d| < 10 ^ (e - (p - 1 : ℤ)) / 2 := by
    refine hrel.trans_lt ?_
    rw [e10] at he2
    rw [div_lt_iff₀ (by positivity)]
    generalize (10 : ℚ) ^ (e - (p - 1 : ℤ)) = U at *
    have : (10 : ℚ) ^ p * U ≤ 10 ^ 15 * U := mul_le_mul_of_nonneg_right hpp hU.le
    norm_num at this ⊢
    linarith
  refine sci_of_near hd (rnd_at_least (ten_double r1 r2) he1) ?_ hnear
  have hn : n + 1 ≤ (10 : ℤ) ^ p := by
    have : (n : ℚ) < 10 ^ p := by
      rw [e10, hd] at he2
      exact lt_of_mul_lt_mul_right he2 hU.le
    exact_mod_cast this
  have hn' : (n : ℚ) + 1 ≤ 10 ^ p := by exact_mod_cast hn
  have := (abs_lt.mp hnear).2
  rw [e10]
  generalize (10 : ℚ) ^ (e - (p - 1 : ℤ)) = U at *
  have h5 : ((n : ℚ) + 1) * U ≤ 10 ^ p * U := mul_le_mul_of_nonneg_right hn' hU.le
  linarith

theorem hasDigits_mono {p q : ℕ} (h : p ≤ q) {d : ℚ} (hd : HasDigits p d) : HasDigits q d := by
  obtain ⟨m, k, hm, e⟩ := hd
  exact ⟨m, k, hm.trans_le (pow_le_pow_right₀ (by norm_num) h), e⟩

theorem rnd_at_most {q t : ℚ} (ht : IsDouble t) (h : q ≤ t) : rnd q ≤ t := by
  have h1 := (rnd_nearest q).2 t ht
  rw [abs_of_nonneg (by linarith : 0 ≤ t - q)] at h1
  have := le_abs_self (rnd q - q)
  linarith

theorem sci_ge_one {x : ℚ} (h : 1 ≤ x) {p : ℕ} (hp : 1 ≤ p) : 1 ≤ sciRound x p := by
  have hx : 0 < x := by linarith
  obtain ⟨h1, -⟩ := mantissa_bounds x hx.ne' p hp
  have hb := log_bounds x hx.ne'
  have hU : 0 < lastUnit x p := ten_pos _
  rw [sciRound_eq x hx.ne', if_neg (not_lt.mpr hx.le), one_mul]
  have e : ((10 : ℤ) ^ (p - 1) : ℤ) * lastUnit x p = (10 : ℚ) ^ Int.log 10 |x| := by
    unfold lastUnit
    push_cast
    rw [← zpow_natCast, ← zpow_add₀ (by norm_num)]
    congr 1
    omega
  have h3 : (((10 : ℤ) ^ (p - 1) : ℤ) : ℚ) * lastUnit x p ≤ Py.round (|x| / lastUnit x p) * lastUnit x p :=
    mul_le_mul_of_nonneg_right (by exact_mod_cast h1) hU.le
  rw [e] at h3
  refine le_trans ?_ h3
  rw [abs_of_pos hx] at hb ⊢
  have h0 : (10 : ℚ) ^ (0 : ℤ) < 10 ^ (Int.log 10 x + 1) := by rw [zpow_zero]; linarith [hb.2]
  have := (zpow_lt_zpow_iff_right₀ (by norm_num : (1 : ℚ) < 10)).mp h0
  exact one_le_zpow₀ (by norm_num) (by omega)

theorem one_double : IsDouble 1 := ⟨1, 0, by norm_num, by norm_num, by norm_num⟩

/-- The shortest decimal that reads back as the double of a decimal of at most fifteen digits is this decimal. -/
theorem shortest_rnd {d : ℚ} (h : HasDigits 15 d) (h1 : 1 ≤ d) (h2 : d < 10 ^ 15) :
    1 ≤ shortest (rnd d) ∧ shortest (rnd d) ≤ 15 ∧ sciRound (rnd d) (shortest (rnd d)) = d := by
  have hx1 : 1 ≤ rnd d := rnd_at_least one_double h1
  have hx2 : rnd d ≤ 10 ^ 15 := rnd_at_most (by exact_mod_cast ten_double (e := 15) (by norm_num) (by norm_num)) h2.le
  have h15 := sci_rnd (p := 15) le_rfl h h1 (h2.trans (by norm_num))
  set x := rnd d with hx
  have hex : ∃ p, ((List.range 17).map (· + 1)).find? (fun p => decide (rnd (sciRound x p) = x)) = some p := by
    rw [← Option.isSome_iff_exists, List.find?_isSome]
    exact ⟨15, by simp, by simp [h15, ← hx]⟩
  obtain ⟨p, hp⟩ := hex
  have hs : shortest x = p := by unfold shortest; rw [hp]; rfl
  obtain ⟨hq, i, hi, hip, hmin⟩ := List.find?_eq_some_iff_getElem.mp hp
  simp only [decide_eq_true_eq] at hq
  simp only [List.getElem_map, List.getElem_range] at hip hmin
  have hi15 : i ≤ 14 := by
    by_contra hc
    have := hmin 14 (by omega)
    simp [h15, ← hx] at this
  rw [hs]
  have hp1 : 1 ≤ p := by omega
  have hp15 : p ≤ 15 := by omega
  refine ⟨hp1, hp15, ?_⟩
  have hb1 := sci_ge_one hx1 hp1
  have hbd : HasDigits 15 (sciRound x p) := hasDigits_mono hp15 (C08_digits x p hp1)
  have hb2 : sciRound x p < 10 ^ 16 := by
    by_contra hc
    have ht : IsDouble ((10 : ℚ) ^ 16) := ⟨5 ^ 16, 16, by norm_num, by norm_num, by norm_num⟩
    have := rnd_at_least ht (not_lt.mp hc)
    rw [hq] at this
    have : (10 : ℚ) ^ 16 ≤ 10 ^ 15 := this.trans hx2
    norm_num at this
  have := sci_rnd (p := 15) le_rfl hbd hb1 hb2
  rw [hq, h15] at this
  exact this.symm

/-! ### Numerals -/

theorem decimalValue_append (s t : List Char) : decimalValue (s ++ t) = decimalValue s * 10 ^ t.length + decimalValue t := by
  induction t using List.reverseRecOn with
  | nil => simp [decimalValue]
  | append_singleton t c ih =>
    rw [← List.append_assoc]
    have e : ∀ u : List Char, decimalValue (u ++ [c]) = 10 * decimalValue u + (c.toNat - 48) := fun u => by simp [decimalValue]
    rw [e, e, ih, List.length_append, List.length_singleton, pow_succ]
    ring

theorem decimalValue_zeros (n : ℕ) : decimalValue (List.replicate n '0') = 0 := by
  induction n with
  | zero => rfl
  | succ n ih => rw [List.replicate_succ', decimalValue_append, ih]; simp [decimalValue]

theorem decimalValue_toDigits (n : ℕ) : decimalValue (Nat.toDigits 10 n) = n := valueOf_toDigits n

theorem isDigit_toDigits (n : ℕ) : (Nat.toDigits 10 n).all Char.isDigit = true :=
  List.all_eq_true.mpr fun _ hc => Nat.isDigit_of_mem_toDigits (by norm_num) (by norm_num) hc

theorem padded_value (n m : ℕ) : decimalValue (padded n m) = m := by
  rw [padded, decimalValue_append, decimalValue_zeros, decimalValue_toDigits]; simp

theorem padded_digits (n m : ℕ) : (padded n m).all Char.isDigit = true := by
  rw [padded, List.all_append, isDigit_toDigits, Bool.and_true, List.all_replicate]
  simp

theorem padded_length {n m : ℕ} (hn : 1 ≤ n) (h : m < 10 ^ n) : (padded n m).length = n := by
  have : (Nat.toDigits 10 m).length ≤ n := (Nat.length_toDigits_le_iff (by norm_num) (by omega)).mpr h
  simp [padded]
  omega

theorem numeral_parts {i f : List Char} (hi : i ≠ []) (hf : f ≠ []) (hi' : i.all Char.isDigit = true) (hf' : f.all Char.isDigit = true) :
    numeralValue (i ++ '.' :: f) = some ((decimalValue (i ++ f) : ℚ) / 10 ^ f.length) := by
  have hs : (i ++ '.' :: f).span (· ≠ '.') = (i, '.' :: f) := by
    rw [List.span_eq_takeWhile_dropWhile]
    have : ∀ c ∈ i, (decide (c ≠ '.')) = true := by
      intro c hc
      have := List.all_eq_true.mp hi' c hc
      simp only [decide_eq_true_eq]
      rintro rfl
      exact absurd this (by decide)
    rw [List.takeWhile_append_of_pos this, List.dropWhile_append_of_pos this]
    simp
  unfold numeralValue
  rw [hs]
  simp only
  rw [if_pos ⟨hi, hf, hi', hf'⟩]

theorem numeral_value (m : ℕ) (k e : ℤ) (he : -4 ≤ e ∧ e < 16) : numeralValue (numeral m k e) = some ((m : ℚ) * 10 ^ k) := by
  unfold numeral
  rw [if_pos he]
  by_cases hk : 0 ≤ k
  · rw [if_pos hk, show (['.', '0'] : List Char) = '.' :: ['0'] from rfl,
      numeral_parts Nat.toDigits_ne_nil (by simp) (isDigit_toDigits _) (by decide), decimalValue_append, decimalValue_toDigits]
    obtain ⟨j, rfl⟩ := Int.eq_ofNat_of_zero_le hk
    simp [decimalValue]
  · rw [if_neg hk]
    obtain ⟨n, hn⟩ := Int.eq_ofNat_of_zero_le (show 0 ≤ -k by omega)
    have hk' : k = -(n : ℤ) := by omega
    have hn1 : 1 ≤ n := by omega
    subst hk'
    have hlen := padded_length hn1 (Nat.mod_lt m (by positivity : 0 < 10 ^ n))
    simp only [neg_neg, Int.toNat_natCast]
    rw [numeral_parts Nat.toDigits_ne_nil (by intro h; rw [h] at hlen; simp at hlen; omega) (isDigit_toDigits _) (padded_digits _ _),
      decimalValue_append, decimalValue_toDigits, padded_value, hlen, Nat.div_add_mod', zpow_neg, zpow_natCast]
    rfl

/-- **C190**: the text of a float made from a decimal of at most fifteen digits stands for this decimal. -/
theorem C190_repr {d : ℚ} (h : HasDigits 15 d) (h1 : 1 ≤ d) (h2 : d < 10 ^ 15) : numeralValue (reprFloat (rnd d)) = some d := by
  have hx1 : 1 ≤ rnd d := rnd_at_least one_double h1
  have hx0 : 0 < rnd d := by linarith
  obtain ⟨s1, s2, s3⟩ := shortest_rnd h h1 h2
  unfold reprFloat
  rw [if_neg hx0.ne', if_neg (not_lt.mpr hx0.le), List.nil_append, abs_of_pos hx0, s3]
  set p := shortest (rnd d)
  have hd : HasDigits p d := s3 ▸ C08_digits (rnd d) p s1
  obtain ⟨n, e, hn, he1, he2⟩ := digits_normal hd (by linarith)
  obtain ⟨r1, r2⟩ := log_range h1 (h2.trans (by norm_num)) he1 he2
  rw [log_unique d e he1 he2, numeral_value _ _ _ (by omega)]
  have hU := ten_pos (e - (p - 1 : ℤ))
  generalize (10 : ℚ) ^ (e - (p - 1 : ℤ)) = U at *
  have hdU : d / U = n := by rw [hn]; field_simp
  have hn0 : 0 ≤ n := by
    have : (0 : ℚ) ≤ n := by rw [← hdU]; exact div_nonneg (by linarith) hU.le
    exact_mod_cast this
  rw [hdU, Rat.floor_intCast]
  have : ((n.toNat : ℕ) : ℚ) = n := by exact_mod_cast Int.toNat_of_nonneg hn0
  rw [this, hn]

/-! ### Amounts -/

/-- The double of a quotient by a power of ten is rounded to a decimal nearest to the quotient itself. -/
theorem sci_quotient {v : ℤ} {w p : ℕ} (hv : v < 10 ^ 15) (h1 : (1 : ℚ) ≤ v / 10 ^ w) (hp1 : 1 ≤ p) (hp : p ≤ 15) :
    ∃ e : ℤ, (10 : ℚ) ^ e ≤ v / 10 ^ w ∧ (v : ℚ) / 10 ^ w < 10 ^ (e + 1) ∧
      |sciRound (rnd (v / 10 ^ w)) p - v / 10 ^ w| ≤ 10 ^ (e - (p - 1 : ℤ)) / 2 := by
  have hW : (0 : ℚ) < 10 ^ w := by positivity
  set q : ℚ := v / 10 ^ w with hq
  have hq0 : 0 < q := by linarith
  have hvq : (v : ℚ) = q * 10 ^ w := by rw [hq]; field_simp
  have hv' : (v : ℚ) + 1 ≤ 10 ^ 15 := by exact_mod_cast hv
  have hW1 : (1 : ℚ) ≤ 10 ^ w := one_le_pow₀ (by norm_num)
  have hq15 : q < 10 ^ 15 := by
    have : q * 1 ≤ q * 10 ^ w := mul_le_mul_of_nonneg_left hW1 hq0.le
    linarith
  have hb := log_bounds q hq0.ne'
  rw [abs_of_pos hq0] at hb
  set e := Int.log 10 q
  obtain ⟨r1, r2⟩ := log_range h1 (hq15.trans (by norm_num)) hb.1 hb.2
  have hrel := rnd_rel (q := q) (by
    rw [abs_of_pos hq0]
    exact le_trans (zpow_le_one_of_nonpos₀ (by norm_num) (by norm_num)) h1)
  rw [abs_of_pos hq0] at hrel
  -- the error is less than a quarter of the unit of the quotient
  have herr : |rnd q - q| < 1 / (4 * 10 ^ w) := by
    refine hrel.trans_lt ?_
    rw [div_lt_div_iff₀ (by positivity) (by positivity)]
    have : (10 : ℚ) ^ 15 * 4 < 2 ^ 53 := by norm_num
    nlinarith
  have hlow : (10 : ℚ) ^ e ≤ rnd q := rnd_at_least (ten_double r1 r2) hb.1
  have hup : rnd q < 10 ^ (e + 1) := by
    obtain ⟨j, hj⟩ := Int.eq_ofNat_of_zero_le r1
    have hz : (10 : ℚ) ^ (e + 1) = 10 ^ (j + 1) := by rw [hj]; exact_mod_cast rfl
    rw [hz] at hb ⊢
    have h3 : v + 1 ≤ 10 ^ (j + 1) * 10 ^ w := by
      have : (v : ℚ) < 10 ^ (j + 1) * 10 ^ w := by rw [hvq]; exact mul_lt_mul_of_pos_right hb.2 hW
      exact_mod_cast this
    have h4 : (v : ℚ) + 1 ≤ 10 ^ (j + 1) * 10 ^ w := by exact_mod_cast h3
    have h5 : q + 1 / 10 ^ w ≤ 10 ^ (j + 1) := by
      have : (q + 1 / 10 ^ w) * 10 ^ w ≤ 10 ^ (j + 1) * 10 ^ w := by
        rw [add_mul, one_div, inv_mul_cancel₀ hW.ne', ← hvq]; exact h4
      exact le_of_mul_le_mul_right this hW
    have h6 : (1 : ℚ) / (4 * 10 ^ w) ≤ 1 / 10 ^ w := one_div_le_one_div_of_le hW (by linarith)
    have := (abs_lt.mp herr).2
    linarith
  refine ⟨e, hb.1, hb.2, ?_⟩
  have hU := ten_pos (e - (p - 1 : ℤ))
  have hx0 : 0 < rnd q := lt_of_lt_of_le (ten_pos e) hlow
  by_cases hk : -(w : ℤ) ≤ e - (p - 1 : ℤ)
  · -- the last digit is at least one unit of the quotient
    have hb2 := C08_error_bound (rnd q) hx0.ne' p hp1
    rw [sciRound_eq _ hx0.ne', if_neg (not_lt.mpr hx0.le), one_mul, lastUnit, abs_of_pos hx0, log_unique _ e hlow hup] at hb2 ⊢
    obtain ⟨i, hi⟩ := Int.eq_ofNat_of_zero_le (show 0 ≤ e - (p - 1 : ℤ) + w by omega)
    have hUi : (10 : ℚ) ^ (e - (p - 1 : ℤ)) = 10 ^ i / 10 ^ w := by
      have : e - (p - 1 : ℤ) = (i : ℤ) - (w : ℤ) := by omega
      rw [this, zpow_sub₀ (by norm_num), zpow_natCast, zpow_natCast]
    generalize Py.round (rnd q / 10 ^ (e - (p - 1 : ℤ))) = m at hb2 ⊢
    rw [hUi] at hb2 ⊢
    have hs : (2 * (m * 10 ^ i - v) : ℤ) ≤ 10 ^ i ∧ -(10 ^ i : ℤ) ≤ 2 * (m * 10 ^ i - v) := by
      have h3 := abs_le.mp hb2
      have h4 := abs_lt.mp herr
      have e1 : (m : ℚ) * (10 ^ i / 10 ^ w) = m * 10 ^ i / 10 ^ w := by ring
      have e2 : (1 : ℚ) / (4 * 10 ^ w) = 1 / 4 / 10 ^ w := by field_simp
      have e3 : (10 : ℚ) ^ i / 10 ^ w / 2 = 10 ^ i / 2 / 10 ^ w := by ring
      rw [e1, e3] at h3
      rw [e2] at h4
      have a1 : (m * 10 ^ i : ℚ) / 10 ^ w - v / 10 ^ w < (10 ^ i / 2 + 1 / 4) / 10 ^ w := by
        rw [add_div, ← hq]; linarith [h3.2, h4.2]
      have a2 : -((10 ^ i / 2 + 1 / 4 : ℚ) / 10 ^ w) < (m * 10 ^ i : ℚ) / 10 ^ w - v / 10 ^ w := by
        rw [add_div, ← hq]; linarith [h3.1, h4.1]
      rw [← sub_div, div_lt_div_iff_of_pos_right hW] at a1
      rw [← sub_div, ← neg_div, div_lt_div_iff_of_pos_right hW] at a2
      constructor
      · have : ((2 * (m * 10 ^ i - v) : ℤ) : ℚ) < ((10 ^ i + 1 : ℤ) : ℚ) := by push_cast; linarith
        have := Int.cast_lt.mp this
        omega
      · have : ((-(10 ^ i) - 1 : ℤ) : ℚ) < ((2 * (m * 10 ^ i - v) : ℤ) : ℚ) := by push_cast; linarith
        have := Int.cast_lt.mp this
        omega
    have b1 : (2 * (m * 10 ^ i - v) : ℚ) ≤ 10 ^ i := by exact_mod_cast hs.1
    have b2 : -(10 ^ i : ℚ) ≤ 2 * (m * 10 ^ i - v) := by exact_mod_cast hs.2
    have e4 : (m : ℚ) * (10 ^ i / 10 ^ w) - q = (m * 10 ^ i - v) / 10 ^ w := by rw [hq]; ring
    have e5 : (10 : ℚ) ^ i / 10 ^ w / 2 = 10 ^ i / 2 / 10 ^ w := by ring
    rw [e4, e5, abs_div, abs_of_pos hW, div_le_div_iff_of_pos_right hW, abs_le]
    constructor <;> linarith
  · -- the quotient has at most that many digits
    have hqd : ∃ n : ℤ, q = n * 10 ^ (e - (p - 1 : ℤ)) := by
      obtain ⟨i, hi⟩ := Int.eq_ofNat_of_zero_le (show 0 ≤ -(w : ℤ) - (e - (p - 1 : ℤ)) by omega)
      refine ⟨v * 10 ^ i, ?_⟩
      push_cast
      rw [mul_assoc, ← zpow_natCast, ← zpow_add₀ (by norm_num), show (i : ℤ) + (e - (p - 1 : ℤ)) = -(w : ℤ) by omega, zpow_neg, zpow_natCast, hq]
      rfl
    obtain ⟨n, hn⟩ := hqd
    have e10 : (10 : ℚ) ^ (e + 1) = 10 ^ p * 10 ^ (e - (p - 1 : ℤ)) := by
      rw [← zpow_natCast, ← zpow_add₀ (by norm_num)]; congr 1; ring
    have hpp : (10 : ℚ) ^ p ≤ 10 ^ 15 := pow_le_pow_right₀ (by norm_num) hp
    have hnear : |rnd q - q| < 10 ^ (e - (p - 1 : ℤ)) / 2 := by
      refine hrel.trans_lt ?_
      have h3 := hb.2
      rw [e10] at h3
      rw [div_lt_iff₀ (by positivity)]
      generalize (10 : ℚ) ^ (e - (p - 1 : ℤ)) = U at *
      have : (10 : ℚ) ^ p * U ≤ 10 ^ 15 * U := mul_le_mul_of_nonneg_right hpp hU.le
      norm_num at this ⊢
      linarith
    rw [sci_of_near hn hlow hup hnear, sub_self, abs_zero]
    linarith

theorem scaled_text {v : ℤ} {w : ℕ} {digits : ℤ} (hw : 3 ≤ w) (hv : v < 10 ^ 15) (h1 : (1 : ℚ) ≤ v / 10 ^ w) (hp1 : 1 ≤ digits)
    (hp : digits ≤ 15) (unit : String) :
    ∃ t a, scaledText v (10 ^ w) digits unit = .ok ('$' :: t ++ unit.toList) ∧ numeralValue t = some a ∧ HasDigits digits.toNat a ∧
      ∃ e : ℤ, (10 : ℚ) ^ e ≤ v / 10 ^ w ∧ (v : ℚ) / 10 ^ w < 10 ^ (e + 1) ∧ |a - v / 10 ^ w| ≤ 10 ^ (e - (digits - 1)) / 2 := by
  have hW : (0 : ℚ) < 10 ^ w := by positivity
  have hW3 : (10 : ℚ) ^ 3 ≤ 10 ^ w := pow_le_pow_right₀ (by norm_num) hw
  have hv0 : (10 : ℚ) ^ w ≤ v := (one_le_div hW).mp h1
  have hv1 : (0 : ℤ) < v := by exact_mod_cast lt_of_lt_of_le hW hv0
  have hrv : rnd (v : ℚ) = v := rnd_double (int_double (by rw [abs_of_pos hv1]; norm_num at hv ⊢; omega))
  obtain ⟨e, he1, he2, he3⟩ := sci_quotient (p := digits.toNat) hv h1 (by omega) (by omega)
  have hq1 : 1 ≤ rnd ((v : ℚ) / 10 ^ w) := rnd_at_least one_double h1
  have ha1 := sci_ge_one hq1 (p := digits.toNat) (by omega)
  have had := C08_digits (rnd ((v : ℚ) / 10 ^ w)) digits.toNat (by omega)
  have hpc : ((digits.toNat : ℕ) : ℤ) = digits := by omega
  rw [hpc] at he3
  have ha2 : sciRound (rnd ((v : ℚ) / 10 ^ w)) digits.toNat < 10 ^ 15 := by
    have h3 : (10 : ℚ) ^ (e - (digits - 1)) ≤ 10 ^ e := zpow_le_zpow_right₀ (by norm_num) (by omega)
    have h4 : (v : ℚ) / 10 ^ w < 10 ^ 12 := by
      rw [div_lt_iff₀ hW]
      have : (v : ℚ) < 10 ^ 15 := by exact_mod_cast hv
      nlinarith
    have := (abs_le.mp he3).2
    norm_num at h4 ⊢
    linarith
  refine ⟨reprFloat (rnd (sciRound (rnd ((v : ℚ) / 10 ^ w)) digits.toNat)), _, ?_,
    C190_repr (hasDigits_mono (by omega) had) ha1 ha2, had, e, he1, he2, he3⟩
  unfold scaledText setNumPrecisionFloat Text.setNumPrecisionFloat
  rw [if_neg (by omega), hrv, rnd_double (rnd_isDouble ((v : ℚ) / 10 ^ w))]
  rfl

/-- **C190**: for whole amounts from a thousand to 10^15 and up to fifteen digits the text is a dollar sign, a decimal numeral and the unit for the size of the
amount, and the number the numeral stands for has at most the wanted digits and is as near to the amount in this unit as such a number can be (half a unit of the
last digit). Not so for one million in long mode (C07). -/
theorem C190_amount_partial (v digits : ℤ) (short : Bool) (hp1 : 1 ≤ digits) (hp : digits ≤ 15) (h1 : 1000 ≤ v) (h2 : v < 10 ^ 15)
    (hex : short = true ∨ v ≠ 1000000) :
    ∃ unit size t a, SpecUnit short v unit size ∧ Dbl.dollarRound v digits short = .ok ('$' :: t ++ unit.toList) ∧ numeralValue t = some a ∧
      HasDigits digits.toNat a ∧
      ∃ e : ℤ, (10 : ℚ) ^ e ≤ v / size ∧ (v : ℚ) / size < 10 ^ (e + 1) ∧ |a - v / size| ≤ 10 ^ (e - (digits - 1)) / 2 := by
  have hq1 : (1000 : ℚ) ≤ v := by exact_mod_cast h1
  unfold Dbl.dollarRound
  rw [if_neg (not_lt.mpr h1)]
  by_cases h3 : v < 1000000
  · have hq3 : (v : ℚ) < 1000000 := by exact_mod_cast h3
    obtain ⟨t, a, ht, hr⟩ := scaled_text (w := 3) le_rfl h2 (by rw [one_le_div (by norm_num)]; norm_num; exact hq1) hp1 hp
      (if short then "K" else " thousand")
    norm_num at ht hr
    refine ⟨_, 1000, t, a, Or.inl ⟨hq1, hq3, rfl, rfl⟩, ?_, hr⟩
    cases short <;> simp only [h1, h3, ge_iff_le, and_self, if_true, Bool.false_eq_true, if_false] <;> simpa using ht
  · have h3' := not_lt.mp h3
    have hq3 : (1000000 : ℚ) ≤ v := by exact_mod_cast h3'
    by_cases h4 : v < 1000000000
    · have hq4 : (v : ℚ) < 1000000000 := by exact_mod_cast h4
      obtain ⟨t, a, ht, hr⟩ := scaled_text (w := 6) (by norm_num) h2 (by rw [one_le_div (by norm_num)]; norm_num; exact hq3) hp1 hp
        (if short then "M" else " million")
      norm_num at ht hr
      refine ⟨_, 1000000, t, a, Or.inr (Or.inl ⟨hq3, hq4, rfl, rfl⟩), ?_, hr⟩
      cases short
      · have hne : 1000000 < v := lt_of_le_of_ne h3' (fun h => by rcases hex with h' | h'; exacts [absurd h' (by simp), h' h.symm])
        simp only [h3, hne, h4, and_self, and_false, if_true, Bool.false_eq_true, if_false]; simpa using ht
      · simp only [h3, h3', h4, ge_iff_le, and_self, and_false, if_true, if_false]; simpa using ht
    · have h4' := not_lt.mp h4
      have hq4 : (1000000000 : ℚ) ≤ v := by exact_mod_cast h4'
      obtain ⟨t, a, ht, hr⟩ := scaled_text (w := 9) (by norm_num) h2 (by rw [one_le_div (by norm_num)]; norm_num; exact hq4) hp1 hp
        (if short then "B" else " billion")
      norm_num at ht hr
      refine ⟨_, 1000000000, t, a, Or.inr (Or.inr ⟨hq4, rfl, rfl⟩), ?_, hr⟩
      cases short <;> simp only [h3, h4, and_false, if_true, Bool.false_eq_true, if_false] <;> simpa using ht

/-- **C190**: whole amounts below a thousand, and below zero, are shown in full, rounded to the wanted digits. -/
theorem C190_small (v digits : ℤ) (short : Bool) (hp1 : 1 ≤ digits) (h1 : v < 1000) (h2 : -10 ^ 15 < v) :
    ∃ r : ℤ, sciRound v digits.toNat = r ∧ Dbl.dollarRound v digits short = .ok ('$' :: Text.commifyInt r) := by
  obtain ⟨r, h3, h4⟩ := C08_int_mode v digits hp1
  refine ⟨r, by simpa [Text.setNumPrecisionFloat, not_lt.2 hp1] using h4, ?_⟩
  unfold Dbl.dollarRound
  rw [if_pos h1, C176_precision_partial v digits hp1 (by rw [abs_lt]; constructor <;> omega), h3]
  rfl

/-- **C190, violated** for amounts half way: 1150 is shown as 1.1 and 1350 as 1.4 thousand, neither to the even digit nor always up or always down. -/
theorem C190_half_violated :
    (Dbl.dollarRound 1150 2 true).toOption = some "$1.1K".toList ∧ (Dbl.dollarRound 1350 2 true).toOption = some "$1.4K".toList ∧
    sciRound (1150 / 1000) 2 = 1.2 := by
  refine ⟨by decide +kernel, by decide +kernel, by decide +kernel⟩

/-- **C190, violated** for amounts that are rounded up to the next unit: a thousand thousands, and "0.001 billion" for a million (C07). -/
theorem C190_carry_violated :
    (∀ v : ℤ, 995001 ≤ v → v < 1000000 → ∀ short, ∃ t, Dbl.dollarRound v 2 short = .ok ('$' :: t ++ (if short then "K" else " thousand").toList) ∧
      numeralValue t = some 1000) ∧
    (Dbl.dollarRound 999999 2 true).toOption = some "$1000.0K".toList ∧
    (Dbl.dollarRound 1000000 2 false).toOption = some "$0.001 billion".toList := by
  refine ⟨fun v h1 h2 short => ?_, by decide +kernel, by decide +kernel⟩
  have hq1 : (995001 : ℚ) ≤ v := by exact_mod_cast h1
  have hq2 : (v : ℚ) < 1000000 := by exact_mod_cast h2
  obtain ⟨unit, size, t, a, hu, ht, ha, hd, e, he1, he2, he3⟩ := C190_amount_partial v 2 short (by norm_num) (by norm_num) (by omega)
    (by omega) (Or.inr (by omega))
  rcases hu with ⟨-, -, rfl, rfl⟩ | ⟨h, -⟩ | ⟨h, -⟩
  · refine ⟨t, ht, ?_⟩
    rw [ha]
    have hl : e = 2 := by
      rw [← log_unique _ e he1 he2]
      exact log_unique _ 2 (by rw [le_div_iff₀ (by norm_num)]; norm_num; linarith) (by rw [div_lt_iff₀ (by norm_num)]; norm_num; linarith)
    subst hl
    have h3 := abs_le.mp he3
    norm_num at h3
    have hv1 : (995.001 : ℚ) ≤ v / 1000 := by rw [le_div_iff₀ (by norm_num)]; norm_num; linarith
    have hv2 : (v : ℚ) / 1000 < 1000 := by rw [div_lt_iff₀ (by norm_num)]; norm_num; linarith
    obtain ⟨n, e', hn, b1, b2⟩ := digits_normal hd (by linarith)
    by_cases hlt : a < 1000
    · have he' : e' = 2 := by
        rw [← log_unique _ e' b1 b2]
        exact log_unique _ 2 (by norm_num; linarith) (by norm_num; linarith)
      subst he'
      norm_num at hn
      have c1 : (990 : ℚ) < n * 10 := by rw [← hn]; linarith
      have c2 : (n : ℚ) * 10 < 1000 := by rw [← hn]; exact hlt
      have d1 : 990 < n * 10 := by exact_mod_cast c1
      have d2 : n * 10 < 1000 := by exact_mod_cast c2
      omega
    · have he' : e' = 3 := by
        rw [← log_unique _ e' b1 b2]
        exact log_unique _ 3 (by norm_num; linarith) (by norm_num; linarith)
      subst he'
      norm_num at hn
      have c1 : (1000 : ℚ) ≤ n * 100 := by rw [← hn]; linarith
      have c2 : (n : ℚ) * 100 ≤ 1005 := by rw [← hn]; linarith
      have d1 : 1000 ≤ n * 100 := by exact_mod_cast c1
      have d2 : n * 100 ≤ 1005 := by exact_mod_cast c2
      have : n = 10 := by omega
      rw [hn, this]
      norm_num
  · linarith
  · linarith

/-- The hypotheses are met, and the texts of some amounts. -/
example : (Dbl.dollarRound 123456789 5 false).toOption = some "$123.46 million".toList ∧
    (Dbl.dollarRound 1234567890123 2 true).toOption = some "$1200.0B".toList ∧
    (Dbl.dollarRound (-5432) 2 true).toOption = some "$-5,400".toList ∧
    numeralValue "123.46".toList = some 123.46 ∧ HasDigits 5 123.46 :=
  ⟨by decide +kernel, by decide +kernel, by decide +kernel, by decide +kernel, 12346, -2, by norm_num, by norm_num⟩

end Verif.Props
