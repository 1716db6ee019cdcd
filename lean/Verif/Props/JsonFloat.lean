import Verif.Model.JsonFloat
import Verif.Spec.JsonFloat
import Verif.Props.Json
import Verif.Props.DoubleMoney

/-!
# C180: floating point numbers come back
-/

namespace Verif.Props
open Verif.Json Verif.Spec Verif.Dbl
open Verif.Text (sciRound)

/-! ### Neighbouring doubles -/

theorem same_grid {x y : ℚ} (hx : IsDouble x) (hy : IsDouble y) (h : expo x ≤ expo y) (hne : x ≠ y) : ulp x ≤ |x - y| := by
  refine apart (ulp_pos x) (double_multiple hx) ?_ hne
  obtain ⟨n, hn⟩ := double_multiple hy
  obtain ⟨m, hm⟩ := multiple_of_le (u := expo x - 52) (e := expo y - 52) (by omega) n
  exact ⟨m, hn.trans hm⟩

theorem ulp_gt (x : ℚ) : |x| * 2 ^ (-53 : ℤ) < ulp x := by
  have h := lt_pow_expo x
  unfold ulp
  calc |x| * 2 ^ (-53 : ℤ) < 2 ^ (expo x + 1) * 2 ^ (-53 : ℤ) := mul_lt_mul_of_pos_right h (two_zpow_pos _)
    _ = 2 ^ (expo x - 52) := by rw [← zpow_add₀ (by norm_num)]; congr 1; omega

/-- Two different doubles differ by at least the 2^53-th part of either. -/
theorem doubles_apart {x y : ℚ} (hx : IsDouble x) (hy : IsDouble y) (h0 : 0 < x) (hne : x ≠ y) : x * 2 ^ (-53 : ℤ) ≤ |x - y| := by
  have hu := ulp_gt x
  rw [abs_of_pos h0] at hu
  by_cases he : expo x ≤ expo y
  · exact hu.le.trans (same_grid hx hy he hne)
  · have he := not_le.1 he
    have hE : -1022 < expo x := lt_of_le_of_lt (le_max_right _ _) he
    have hylt : |y| < 2 ^ (expo y + 1) := lt_pow_expo y
    have hyE : |y| < 2 ^ expo x := hylt.trans_le (zpow_le_zpow_right₀ (by norm_num) (by omega))
    have hxE : (2 : ℚ) ^ expo x ≤ x := by
      have hl : expo x = Int.log 2 |x| := by
        unfold expo at hE ⊢
        omega
      rw [hl, abs_of_pos h0]
      exact_mod_cast Int.zpow_log_le_self (b := 2) (by norm_num) h0
    have hy' := (abs_lt.1 hyE).2
    have hy'' := (abs_lt.1 hyE).1
    rw [abs_of_pos (by linarith : 0 < x - y)]
    have hpd : IsDouble ((2 : ℚ) ^ expo x) := ⟨1, expo x, by norm_num, by omega, by norm_num⟩
    rcases lt_or_eq_of_le hxE with hlt | heq
    · have hpe : expo ((2 : ℚ) ^ expo x) = expo x := by
        have : Int.log 2 |(2 : ℚ) ^ expo x| = expo x := by
          rw [abs_of_pos (two_zpow_pos _)]
          exact_mod_cast Int.log_zpow (R := ℚ) (b := 2) (by norm_num) (expo x)
        rw [expo, this]
        omega
      have := same_grid hx hpd hpe.ge hlt.ne'
      rw [abs_of_pos (by linarith : 0 < x - 2 ^ expo x)] at this
      linarith
    · have hxp : x * 2 ^ (-53 : ℤ) = 2 ^ (expo x - 53) := by
        conv_lhs => rw [← heq]
        rw [← zpow_add₀ (by norm_num)]
        congr 1
      by_cases he1 : expo y = expo x - 1
      · obtain ⟨n, hn⟩ := double_multiple hy
        have h1 : ∃ n : ℤ, x = n * 2 ^ (expo x - 53) := by
          obtain ⟨m, hm⟩ := multiple_of_le (u := expo x - 53) (e := expo x) (by omega) 1
          exact ⟨m, by rw [← hm, Int.cast_one, one_mul]; exact heq.symm⟩
        have h2 : ∃ n : ℤ, y = n * 2 ^ (expo x - 53) := ⟨n, by
          have e : ulp y = 2 ^ (expo x - 53) := by unfold ulp; rw [he1]; congr 1; omega
          rw [← e]; exact hn⟩
        have := apart (two_zpow_pos _) h1 h2 hne
        rw [abs_of_pos (by linarith : 0 < x - y)] at this
        rwa [hxp]
      · have h3 : |y| < 2 ^ (expo x - 1) := hylt.trans_le (zpow_le_zpow_right₀ (by norm_num) (by omega))
        have h4 := (abs_lt.1 h3).2
        have h5 : (2 : ℚ) ^ (expo x - 1) = x / 2 := by
          rw [zpow_sub₀ (by norm_num)]
          simp [heq]
        have h6 : x * 2 ^ (-53 : ℤ) ≤ x / 2 := by
          rw [div_eq_mul_inv]
          exact mul_le_mul_of_nonneg_left (by norm_num) h0.le
        rw [h5] at h4
        exact h6.trans (by linarith)

/-- Seventeen digits are enough. -/
theorem seventeen {x : ℚ} (hx : IsDouble x) (h0 : 0 < x) : rnd (sciRound x 17) = x := by
  by_contra hne
  have h1 := doubles_apart hx (rnd_isDouble (sciRound x 17)) h0 (Ne.symm hne)
  have h2 := (rnd_nearest (sciRound x 17)).2 x hx
  have h3 := C08_error_bound x h0.ne' 17 (by norm_num)
  have h4 : lastUnit x 17 ≤ x / 10 ^ 16 := by
    have := (log_bounds x h0.ne').1
    rw [abs_of_pos h0] at this
    unfold lastUnit
    rw [abs_of_pos h0, zpow_sub₀ (by norm_num)]
    norm_num
    linarith
  have h5 : |x - rnd (sciRound x 17)| ≤ |x - sciRound x 17| + |rnd (sciRound x 17) - sciRound x 17| := by
    rw [abs_sub_comm (rnd _)]
    exact abs_sub_le _ _ _
  rw [abs_sub_comm] at h3
  have h6 : x / 10 ^ 16 < x * 2 ^ (-53 : ℤ) := by
    rw [div_eq_mul_inv]
    exact mul_lt_mul_of_pos_left (by norm_num) h0
  generalize x * 2 ^ (-53 : ℤ) = A at *
  generalize x / 10 ^ 16 = B at *
  linarith

/-- The decimal of the text of a double reads as the double. -/
theorem shortest_back {x : ℚ} (hx : IsDouble x) (h0 : 0 < x) : 1 ≤ shortest x ∧ rnd (sciRound x (shortest x)) = x := by
  unfold shortest
  rcases h : ((List.range 17).map (· + 1)).find? (fun p => decide (rnd (sciRound x p) = x)) with _ | p
  · exact ⟨by simp, seventeen hx h0⟩
  · have h1 := List.find?_some h
    have h2 := List.mem_of_find?_eq_some h
    rw [List.mem_map] at h2
    obtain ⟨k, -, rfl⟩ := h2
    exact ⟨by simp, by simpa using h1⟩

/-! ### Texts -/

theorem digitsValue_eq (s : Json.Text) : digitsValue s = decimalValue s := rfl

theorem digits_toDigits (m : ℕ) : Digits (Nat.toDigits 10 m) ∧ (Nat.toDigits 10 m = ['0'] ∨ (Nat.toDigits 10 m).head? ≠ some '0') := by
  refine ⟨⟨Nat.toDigits_ne_nil, fun c hc => Nat.isDigit_of_mem_toDigits (by norm_num) (by norm_num) hc⟩, ?_⟩
  by_cases h : m = 0
  · subst h; exact .inl rfl
  · exact .inr (toDigits_head h)

theorem padded_ok {n m : ℕ} : Digits (padded n m) := by
  refine ⟨?_, List.all_eq_true.1 (padded_digits n m)⟩
  unfold padded
  intro h
  exact Nat.toDigits_ne_nil (List.append_eq_nil_iff.1 h).2

/-- The text of a positive float is the text of its decimal. -/
theorem numeral_text {m p : ℕ} {k e : ℤ} (hm : (Nat.toDigits 10 m).length = p) (hk : k = e - (p - 1 : ℤ)) (h0 : m ≠ 0) :
    DecimalText (numeral m k e) (m * 10 ^ k) := by
  unfold numeral
  split
  · by_cases hk0 : 0 ≤ k
    · rw [if_pos hk0]
      obtain ⟨j, hj⟩ := Int.eq_ofNat_of_zero_le hk0
      refine ⟨Nat.toDigits 10 (m * 10 ^ k.toNat), ['0'], [], 0, by simp, (digits_toDigits _).1, (digits_toDigits _).2, by decide, .inl ⟨rfl, rfl⟩, .inl (by simp), ?_⟩
      rw [decimalValue_append, decimalValue_toDigits, hj]
      simp [decimalValue]
    · rw [if_neg hk0]
      obtain ⟨n, hn⟩ := Int.eq_ofNat_of_zero_le (show 0 ≤ -k by omega)
      have hk' : k = -(n : ℤ) := by omega
      have hn1 : 1 ≤ n := by omega
      have hlen := padded_length hn1 (Nat.mod_lt m (by positivity : 0 < 10 ^ n))
      simp only [hk', neg_neg, Int.toNat_natCast]
      refine ⟨Nat.toDigits 10 (m / 10 ^ n), padded n (m % 10 ^ n), [], 0, by rw [if_neg padded_ok.1]; simp, (digits_toDigits _).1, (digits_toDigits _).2, padded_ok.2,
        .inl ⟨rfl, rfl⟩, .inl padded_ok.1, ?_⟩
      rw [decimalValue_append, decimalValue_toDigits, padded_value, hlen, Nat.div_add_mod', zero_sub]
  · obtain ⟨⟨d1, d2⟩, d3⟩ := digits_toDigits m
    rcases hds : Nat.toDigits 10 m with _ | ⟨c, ds⟩
    · exact absurd hds d1
    rw [hds] at d2 d3 hm
    have hc : c ≠ '0' := by
      have := toDigits_head h0
      rw [hds] at this
      simpa using this
    simp only [List.take_succ_cons, List.take_zero, List.length_cons, List.drop_succ_cons, List.drop_zero]
    have hval : decimalValue ([c] ++ ds) = m := by
      have := decimalValue_toDigits m
      rw [hds] at this
      exact this
    refine ⟨[c], ds, 'e' :: (if e < 0 then '-' else '+') :: padded 2 e.natAbs, e, ?_, ⟨by simp, fun c' hc' => d2 c' (by simp_all)⟩, .inr (by simpa using hc),
      fun c' hc' => d2 c' (by simp [hc']), .inr ⟨padded 2 e.natAbs, padded_ok, ?_⟩, .inr (by simp), ?_⟩
    · rcases ds with _ | ⟨c', ds⟩ <;> simp
    · rw [padded_value]
      by_cases he : e < 0
      · rw [if_pos he]
        exact .inr (.inr ⟨rfl, by omega⟩)
      · rw [if_neg he]
        exact .inr (.inl ⟨rfl, by omega⟩)
    · rw [hval, hk]
      congr 2
      simp only [List.length_cons] at hm
      omega

/-- The text of a positive double. -/
theorem repr_text {x : ℚ} (hx : IsDouble x) (h0 : 0 < x) : ∃ d, DecimalText (reprFloat x) d ∧ rnd d = x := by
  obtain ⟨hp, hb⟩ := shortest_back hx h0
  refine ⟨sciRound x (shortest x), ?_, hb⟩
  unfold reprFloat
  rw [if_neg h0.ne', if_neg (not_lt.2 h0.le), List.nil_append, abs_of_pos h0]
  set p := shortest x
  set d := sciRound x p with hd
  have hd0 : 0 < d := by
    obtain ⟨h1, -⟩ := mantissa_bounds x h0.ne' p hp
    rw [hd, sciRound_eq x h0.ne', if_neg (not_lt.2 h0.le), one_mul]
    have : (0 : ℤ) < 10 ^ (p - 1) := by positivity
    have h2 : (0 : ℚ) < Py.round (|x| / lastUnit x p) := by exact_mod_cast this.trans_le h1
    exact mul_pos h2 (ten_pos _)
  obtain ⟨n, e, hn, he1, he2⟩ := digits_normal (C08_digits x p hp) hd0
  rw [log_unique d e he1 he2]
  have hU := ten_pos (e - (p - 1 : ℤ))
  have hq : d / 10 ^ (e - (p - 1 : ℤ)) = n := by rw [← hd] at hn; rw [hn]; exact mul_div_cancel_right₀ _ hU.ne'
  rw [hq, Rat.floor_intCast]
  have e10 : (10 : ℚ) ^ e = 10 ^ (p - 1) * 10 ^ (e - (p - 1 : ℤ)) := by
    rw [← zpow_natCast, ← zpow_add₀ (by norm_num)]; congr 1; omega
  have hnd : d = n * 10 ^ (e - (p - 1 : ℤ)) := hn
  have l1 : (10 : ℤ) ^ (p - 1) ≤ n := by
    have : (10 : ℚ) ^ (p - 1) ≤ n := by
      rw [e10, hn] at he1
      exact le_of_mul_le_mul_right he1 hU
    exact_mod_cast this
  have l2 : n < (10 : ℤ) ^ p := by
    have : (n : ℚ) < 10 ^ p := by
      rw [zpow_add₀ (by norm_num), e10, zpow_one, mul_right_comm, ← pow_succ, Nat.sub_add_cancel hp, hn] at he2
      exact lt_of_mul_lt_mul_right he2 hU.le
    exact_mod_cast this
  have hn0 : 0 < n := lt_of_lt_of_le (by positivity) l1
  obtain ⟨m, rfl⟩ := Int.eq_ofNat_of_zero_le hn0.le
  have l1' : 10 ^ (p - 1) ≤ m := by exact_mod_cast l1
  have l2' : m < 10 ^ p := by exact_mod_cast l2
  have hm0 : m ≠ 0 := by rintro rfl; simp at hn0
  rw [Int.toNat_natCast, hnd]
  have hlen : (Nat.toDigits 10 m).length = p := by
    apply le_antisymm
    · exact (Nat.length_toDigits_le_iff (by norm_num) (by omega)).mpr l2'
    · by_contra hc
      by_cases hp1 : p = 1
      · have := List.length_pos_iff.2 (Nat.toDigits_ne_nil (b := 10) (n := m))
        omega
      · have := (Nat.length_toDigits_le_iff (b := 10) (n := m) (k := p - 1) (by norm_num) (by omega)).1 (by omega)
        omega
  exact_mod_cast numeral_text hlen rfl hm0

/-! ### Reading -/

theorem exponentValue_digits {g : Json.Text} (hg : Digits g) : exponentValue ('e' :: g) = decimalValue g := by
  obtain ⟨h1, h2⟩ := hg
  rcases g with _ | ⟨c, g⟩
  · exact absurd rfl h1
  · have hc := h2 c (by simp)
    unfold exponentValue
    split
    · rename_i h; simp only [List.cons.injEq] at h; rw [h.2.1] at hc; exact absurd hc (by decide)
    · rename_i h; simp only [List.cons.injEq] at h; rw [h.2.1] at hc; exact absurd hc (by decide)
    · rename_i h; simp only [List.cons.injEq] at h; rw [← h.2]; rfl
    · rename_i h; exact absurd h (by simp)

theorem decimalOf_text {t : Json.Text} {q : ℚ} (h : DecimalText t q) : decimalOf t = q := by
  obtain ⟨i, d, x, n, rfl, hi, h0, hd, hx, hne, rfl⟩ := h
  have hX : exponent x = (x, []) ∧ exponentValue x = n := by
    rcases hx with ⟨rfl, rfl⟩ | ⟨g, hg, ⟨rfl, rfl⟩ | ⟨rfl, rfl⟩ | ⟨rfl, rfl⟩⟩
    · exact ⟨rfl, rfl⟩
    · refine ⟨?_, exponentValue_digits hg⟩
      simpa using exponent_some (s := []) (rest := []) (.inl rfl) hg (by simp)
    · refine ⟨?_, rfl⟩
      simpa using exponent_some (s := ['+']) (rest := []) (.inr (.inr rfl)) hg (by simp)
    · refine ⟨?_, rfl⟩
      simpa using exponent_some (s := ['-']) (rest := []) (.inr (.inl rfl)) hg (by simp)
  have hXh : ∀ c, x.head? = some c → c = 'e' := by
    intro c hc
    rcases hx with ⟨rfl, rfl⟩ | ⟨g, hg, ⟨rfl, rfl⟩ | ⟨rfl, rfl⟩ | ⟨rfl, rfl⟩⟩
    · exact absurd hc (by simp)
    all_goals exact (Option.some.inj hc).symm
  have hF : fraction ((if d = [] then [] else '.' :: d) ++ x) = ((if d = [] then [] else '.' :: d), x) := by
    by_cases hd0 : d = []
    · rw [if_pos hd0]
      refine fraction_none fun hc => ?_
      exact absurd (hXh _ hc) (by decide)
    · rw [if_neg hd0]
      exact fraction_some ⟨hd0, hd⟩ fun c hc => by rw [hXh c hc]; rfl
  have hT := takeWhile_digits (d := i) (rest := (if d = [] then [] else '.' :: d) ++ x) hi.2 (by
    intro c hc
    by_cases hd0 : d = []
    · rw [if_pos hd0] at hc
      rw [hXh c hc]; rfl
    · rw [if_neg hd0] at hc
      simp only [List.cons_append, List.head?_cons, Option.some.injEq] at hc
      rw [← hc]; rfl)
  unfold decimalOf
  simp only [List.append_assoc, hT.1, hT.2, hF, hX.1, hX.2]
  have ht : (if d = [] then [] else '.' :: d : Json.Text).tail = d := by
    by_cases hd0 : d = []
    · rw [if_pos hd0, hd0]; rfl
    · rw [if_neg hd0]; rfl
  rw [ht]
  rfl

theorem decimal_first {t : Json.Text} {q : ℚ} (h : DecimalText t q) : ∃ c s, t = c :: s ∧ c.isDigit = true := by
  obtain ⟨i, d, x, n, rfl, hi, -⟩ := h
  rcases i with _ | ⟨c, i⟩
  · exact absurd rfl hi.1
  · exact ⟨c, i ++ ((if d = [] then [] else '.' :: d) ++ x), by simp, hi.2 c (by simp)⟩

theorem read_text {t : Json.Text} {q : ℚ} (h : DecimalText t q) :
    readFloat t = nearestFloat false q ∧ readFloat ('-' :: t) = nearestFloat true q := by
  obtain ⟨c, s, rfl, hc⟩ := decimal_first h
  have hd := digit_ne hc
  constructor
  · unfold readFloat
    rw [if_neg (by intro e; exact absurd (List.cons.inj e).1 hd.2.2.2.2.2.2.2.1), if_neg (by intro e; exact absurd (List.cons.inj e).1 hd.2.2.2.2.2.2.2.2.1),
      if_neg (by intro e; exact absurd (List.cons.inj e).1 hd.2.2.2.1)]
    split
    · rename_i e; exact absurd (List.cons.inj e).1 hd.2.2.2.1
    · rw [decimalOf_text h]
  · unfold readFloat
    rw [if_neg (by intro e; exact absurd (List.cons.inj e).1 (by decide)), if_neg (by intro e; exact absurd (List.cons.inj e).1 (by decide)),
      if_neg (by intro e; exact absurd (List.cons.inj (List.cons.inj e).2).1 hd.2.2.2.2.2.2.2.2.1)]
    simp only
    rw [decimalOf_text h]

theorem decimal_float {t : Json.Text} {q : ℚ} (h : DecimalText t q) (neg : Bool) : FloatText ((if neg then ['-'] else []) ++ t) := by
  obtain ⟨i, d, x, n, rfl, hi, h0, hd, hx, hne, -⟩ := h
  refine ⟨if neg then ['-'] else [], i, if d = [] then [] else '.' :: d, x, by simp, by cases neg <;> simp, hi, h0, ?_, ?_, ?_⟩
  · by_cases hd0 : d = []
    · exact .inl (if_pos hd0)
    · exact .inr ⟨d, if_neg hd0, hd0, hd⟩
  · rcases hx with ⟨rfl, rfl⟩ | ⟨g, hg, ⟨rfl, rfl⟩ | ⟨rfl, rfl⟩ | ⟨rfl, rfl⟩⟩
    · exact .inl rfl
    · exact .inr ⟨[], g, rfl, .inl rfl, hg⟩
    · exact .inr ⟨['+'], g, rfl, .inr (.inr rfl), hg⟩
    · exact .inr ⟨['-'], g, rfl, .inr (.inl rfl), hg⟩
  · rcases hne with h | h
    · exact .inl (by rw [if_neg h]; simp)
    · exact .inr h

theorem rnd_idem (q : ℚ) : rnd (rnd q) = rnd q := rnd_double (rnd_isDouble q)

/-- C180: a text of a number is read as the nearest double with its sign, and as infinity only when the nearest double would be 2^1024 or more. -/
theorem C180_read {t : Json.Text} {q : ℚ} (h : DecimalText t q) (neg : Bool) :
    (∃ x ok, pyFloats.read ((if neg then ['-'] else []) ++ t) = .fin neg x ok ∧ NearestDouble q x) ∨
      pyFloats.read ((if neg then ['-'] else []) ++ t) = .inf neg ∧ ∃ x, NearestDouble q x ∧ 2 ^ 1024 ≤ x := by
  have hq : 0 ≤ q := by
    obtain ⟨i, d, x, n, -, -, -, -, -, -, rfl⟩ := h
    exact mul_nonneg (by positivity) (ten_pos _).le
  have hr : pyFloats.read ((if neg then ['-'] else []) ++ t) = nearestFloat neg q := by
    cases neg
    · exact (read_text h).1
    · exact (read_text h).2
  rw [hr]
  have h0 : 0 ≤ rnd q := rnd_at_least ⟨0, 0, by norm_num, by norm_num, by norm_num⟩ hq
  unfold nearestFloat
  by_cases hlt : rnd q < 2 ^ 1024
  · rw [dif_pos ⟨h0, rnd_idem q, hlt⟩]
    exact .inl ⟨_, _, rfl, rnd_nearest q⟩
  · rw [dif_neg fun h => hlt h.2.2]
    exact .inr ⟨rfl, _, rnd_nearest q, not_lt.1 hlt⟩

/-- C180: every float is written so that the same float is read again. -/
theorem C180_floats : FloatsOk pyFloats := by
  intro f
  rcases f with _ | neg | ⟨neg, x, ok⟩
  · exact ⟨by decide +kernel, .inl (by decide +kernel)⟩
  · cases neg
    · exact ⟨by decide +kernel, .inl (by decide +kernel)⟩
    · exact ⟨by decide +kernel, .inl (by decide +kernel)⟩
  · have hx : IsDouble x := ok.2.1 ▸ rnd_isDouble x
    have key : ∃ d, DecimalText (reprFloat x) d ∧ rnd d = x := by
      rcases lt_or_eq_of_le ok.1 with h0 | h0
      · exact repr_text hx h0
      · refine ⟨0, ⟨['0'], ['0'], [], 0, ?_, ⟨by simp, by decide⟩, .inl rfl, by decide, .inl ⟨rfl, rfl⟩, .inl (by simp), by simp [decimalValue]⟩, ?_⟩
        · rw [reprFloat, if_pos h0.symm]; rfl
        · rw [← h0]; exact rnd_double ⟨0, 0, by norm_num, by norm_num, by norm_num⟩
    obtain ⟨d, h1, h2⟩ := key
    refine ⟨?_, .inr (decimal_float h1 neg)⟩
    have hr : pyFloats.read (pyFloats.text (.fin neg x ok)) = nearestFloat neg d := by
      cases neg
      · exact (read_text h1).1
      · exact (read_text h1).2
    rw [hr]
    unfold nearestFloat
    simp only [h2]
    rw [dif_pos ok]

/-- C180: with Python's floats, exactly the plain values come back as they were. -/
theorem C180_python_partial (v : Json.Val PyFloat) : (dumps pyFloats v).bind (loads pyFloats) = some v ↔ PlainVal v := C180_same_partial C180_floats v

/-- A tenth, as a float. -/
def aTenth : PyFloat := .fin false (3602879701896397 / 36028797018963968) (by decide +kernel)

/-- The float for 0.1 is written so and read from a longer text as well; a large number is infinite; and a negative zero keeps its sign. -/
example : floatText aTenth = "0.1".toList ∧ (∃ ok, readFloat "0.1000000000000000055".toList = .fin false (3602879701896397 / 36028797018963968) ok) ∧
    readFloat "-1e400".toList = .inf true ∧ floatText (.fin true 0 (by decide +kernel)) = "-0.0".toList ∧
    floatText (.fin false (2 ^ 100) (by decide +kernel)) = "1.2676506002282294e+30".toList ∧
    floatText (.fin false (1 / 2 ^ 1074) (by decide +kernel)) = "5e-324".toList := by
  exact ⟨by decide +kernel, ⟨by decide +kernel, by decide +kernel⟩, by decide +kernel, by decide +kernel, by decide +kernel, by decide +kernel⟩

end Verif.Props
