import Mathlib.Analysis.SpecialFunctions.Trigonometric.Bounds
import Mathlib.Analysis.Real.Pi.Bounds
import Verif.Model.PointText
import Verif.Spec.PointText
import Verif.Props.PyNumber

/-!
# The texts of a point (C213)
-/

namespace Verif.Props
open Verif.Num Verif.Spec Verif.Dbl Verif.Oq
open Verif.Json (Text PyFloat floatText nearestFloat)

namespace PointText

/-- The characters of numerals. -/
def NumChar (c : Char) : Prop := c.isDigit = true ∨ c ∈ ['.', 'e', 'E', '+', '-']

theorem signed_chars {t u : Text} {neg : Bool} (h : Signed t neg u) (hu : ∀ c ∈ u, NumChar c) : ∀ c ∈ t, NumChar c := by
  rcases h with ⟨rfl, _⟩ | ⟨rfl, _⟩ | ⟨rfl, _⟩
  · exact hu
  · intro c hc
    rcases List.mem_cons.1 hc with rfl | hc
    · exact Or.inr (by simp)
    · exact hu c hc
  · intro c hc
    rcases List.mem_cons.1 hc with rfl | hc
    · exact Or.inr (by simp)
    · exact hu c hc

theorem numeral_chars {u : Text} {q : ℚ} (h : Numeral u q) : ∀ c ∈ u, NumChar c := by
  obtain ⟨i, p, d, x, n, rfl, hd, _, hp, hx, _⟩ := h
  intro c hc
  rcases List.mem_append.1 hc with hc | hc
  · rcases List.mem_append.1 hc with hc | hc
    · exact Or.inl (hd c (List.mem_append_left _ hc))
    · rcases hp with ⟨rfl, _⟩ | rfl
      · simp at hc
      · rcases List.mem_cons.1 hc with rfl | hc
        · exact Or.inr (by simp)
        · exact Or.inl (hd c (List.mem_append_right _ hc))
  · rcases hx with ⟨rfl, _⟩ | ⟨e, g, neg, d', rfl, he, hg, hd', _⟩
    · simp at hc
    · rcases List.mem_cons.1 hc with rfl | hc
      · rcases he with rfl | rfl <;> exact Or.inr (by simp)
      · exact signed_chars hg (fun c hc => Or.inl (hd'.2 c hc)) c hc

theorem float_chars {f : PyFloat} {x : ℚ} (hf : finite f = some x) : ∀ c ∈ floatText f, NumChar c := by
  rcases f with _ | neg | ⟨neg, x, ok⟩
  · simp [finite] at hf
  · simp [finite] at hf
  have hx : IsDouble x := ok.2.1 ▸ rnd_isDouble x
  have key : ∃ d, Numeral (reprFloat x) d := by
    rcases lt_or_eq_of_le ok.1 with h0 | h0
    · obtain ⟨d, h1, _⟩ := repr_text hx h0
      exact ⟨d, decimalText_numeral h1⟩
    · refine ⟨0, ['0'], ['.', '0'], ['0'], [], 0, ?_, by decide, by simp, .inr rfl, .inl ⟨rfl, rfl⟩, by simp [decimalValue]⟩
      rw [reprFloat, if_pos h0.symm]; rfl
  obtain ⟨d, h⟩ := key
  have hs : Signed (floatText (.fin neg x ok)) neg (reprFloat x) := by
    cases neg
    · exact .inl ⟨rfl, rfl⟩
    · exact .inr (.inr ⟨rfl, rfl⟩)
  exact signed_chars hs (numeral_chars h)

theorem fixed_float {k : ℕ} (hk : 1 ≤ k) {f : PyFloat} {x : ℚ} (hf : finite f = some x) (hx : |x| ≤ 2 ^ 200) :
    (∀ c ∈ fixedFloat k f, NumChar c) ∧ ∃ y, number (fixedFloat k f) = some y ∧ |y - x| ≤ 1 / (2 * 10 ^ k) + (|x| + 1) / 2 ^ 53 := by
  rcases f with _ | neg | ⟨neg, a, ok⟩
  · simp [finite] at hf
  · simp [finite] at hf
  have ha : |x| = a := by
    simp only [finite, Option.some.injEq] at hf
    rw [← hf]; cases neg <;> simp [abs_of_nonneg ok.1]
  obtain ⟨u, q, h1, h2, h3⟩ := fixed_numeral k hk a
  have hna : ¬ a < 0 := not_lt.2 ok.1
  have hs : Signed (fixedFloat k (.fin neg a ok)) neg u := by
    have e1 : Time.fixedText k a = u := by
      rcases h1 with ⟨h, _⟩ | ⟨h, _⟩ | ⟨_, h⟩
      · exact h
      · exfalso
        have : (Time.fixedText k a).head? = some '+' := by rw [h]; rfl
        unfold Time.fixedText at this
        rw [if_neg hna] at this
        simp only [List.nil_append] at this
        rw [List.head?_append_of_ne_nil _ Nat.toDigits_ne_nil] at this
        have hd := Nat.isDigit_of_mem_toDigits (b := 10) (by norm_num) (by norm_num) (List.mem_of_head? this)
        exact absurd hd (by decide)
      · simp [hna] at h
    cases neg
    · exact .inl ⟨by simpa [fixedFloat] using e1, rfl⟩
    · exact .inr (.inr ⟨by simp [fixedFloat, e1], rfl⟩)
  refine ⟨signed_chars hs (numeral_chars h2), ?_⟩
  rw [abs_of_nonneg ok.1] at h3
  have hq := numeral_nonneg h2
  have h10 : (1 : ℚ) / (2 * 10 ^ k) ≤ 1 := by
    rw [div_le_one (by positivity)]
    have : (1 : ℚ) ≤ 10 ^ k := one_le_pow₀ (by norm_num)
    linarith
  have hqx : |q| ≤ a + 1 := by
    rw [abs_of_nonneg hq]
    have := le_of_abs_le h3
    linarith
  have hr := rnd_one hqx (by have := ok.1; linarith)
  have h0 : 0 ≤ rnd q := rnd_nonneg hq
  have hlt : rnd q < 2 ^ 1024 := by
    have h4 := le_of_abs_le hr
    have h5 : (a + 1) / 2 ^ 53 ≤ a + 1 := div_le_self (by have := ok.1; linarith) (by norm_num)
    rw [abs_of_nonneg hq] at hqx
    rw [ha] at hx
    have h6 : (2 : ℚ) ^ 200 + 2 ^ 200 + 2 < 2 ^ 203 := by norm_num
    have h7 : (2 : ℚ) ^ 203 ≤ 2 ^ 1024 := pow_le_pow_right₀ (by norm_num) (by norm_num)
    generalize (2 : ℚ) ^ 1024 = B at h7 ⊢
    linarith
  have hfin : number (fixedFloat k (.fin neg a ok)) = some (if neg then -rnd q else rnd q) := by
    unfold number
    rw [read_numeral hs h2]
    unfold nearestFloat
    rw [dif_pos ⟨h0, rnd_idem q, hlt⟩]
    rfl
  refine ⟨_, hfin, ?_⟩
  have hxa : |rnd q - a| ≤ 1 / (2 * 10 ^ k) + (|x| + 1) / 2 ^ 53 := by
    rw [ha]
    calc |rnd q - a| ≤ |rnd q - q| + |q - a| := abs_sub_le _ _ _
      _ ≤ _ := by linarith
  simp only [finite, Option.some.injEq] at hf
  cases neg
  · simp only [Bool.false_eq_true, if_false] at hf ⊢
    rw [← hf] at hxa ⊢; exact hxa
  · simp only [if_true] at hf ⊢
    rw [← hf] at hxa ⊢
    rw [show -rnd q - -a = -(rnd q - a) by ring, abs_neg]; exact hxa

theorem not_char {s : Text} (h : ∀ c ∈ s, NumChar c) {c : Char} (hc : ¬ NumChar c) : c ∉ s := fun k => hc (h c k)

theorem cut {c : Char} : ∀ {x y r s : Text}, c ∉ x → c ∉ y → x ++ c :: r = y ++ c :: s → x = y ∧ r = s
  | [], [], _, _, _, _, h => ⟨rfl, by simpa using h⟩
  | [], _ :: _, _, _, _, hy, h => by simp only [List.nil_append, List.cons_append, List.cons.injEq] at h; exact absurd (by simp [h.1]) hy
  | _ :: _, [], _, _, hx, _, h => by simp only [List.nil_append, List.cons_append, List.cons.injEq] at h; exact absurd (by simp [h.1]) hx
  | a :: x, b :: y, _, _, hx, hy, h => by
    simp only [List.cons_append, List.cons.injEq] at h
    obtain ⟨e1, e2⟩ := cut (fun k => hx (List.mem_cons_of_mem _ k)) (fun k => hy (List.mem_cons_of_mem _ k)) h.2
    exact ⟨by rw [h.1, e1], e2⟩

theorem geodetic_le (a b c d : ℝ) : geodeticDistance a b c d ≤ 6371 * (Real.pi / 2) * (radians |b - d| + radians |a - c|) := by
  unfold geodeticDistance earthRadius
  set u := (radians b - radians d) / 2 with hu
  set v := (radians a - radians c) / 2 with hv
  have hs : √(Real.sin u ^ 2 + Real.cos (radians b) * Real.cos (radians d) * Real.sin v ^ 2) ≤ |u| + |v| := by
    refine Real.sqrt_le_iff.2 ⟨by positivity, ?_⟩
    have h1 : Real.sin u ^ 2 ≤ |u| ^ 2 := by rw [sq_abs]; exact Real.sin_sq_le_sq
    have h2 : Real.sin v ^ 2 ≤ |v| ^ 2 := by rw [sq_abs]; exact Real.sin_sq_le_sq
    have h3 : Real.cos (radians b) * Real.cos (radians d) ≤ 1 := by
      have := abs_mul (Real.cos (radians b)) (Real.cos (radians d))
      have h5 := Real.abs_cos_le_one (radians b)
      have h6 := Real.abs_cos_le_one (radians d)
      calc _ ≤ |Real.cos (radians b) * Real.cos (radians d)| := le_abs_self _
        _ ≤ 1 := by rw [this]; exact mul_le_one₀ h5 (abs_nonneg _) h6
    have h4 : Real.cos (radians b) * Real.cos (radians d) * Real.sin v ^ 2 ≤ Real.sin v ^ 2 := mul_le_of_le_one_left (sq_nonneg _) h3
    nlinarith [abs_nonneg u, abs_nonneg v]
  have harc : ∀ s : ℝ, 0 ≤ s → Real.arcsin s ≤ Real.pi / 2 * s := by
    intro s h0
    rcases le_total s 1 with h1 | h1
    · have h2 := Real.mul_le_sin (Real.arcsin_nonneg.2 h0) (Real.arcsin_le_pi_div_two s)
      rw [Real.sin_arcsin (by linarith) h1] at h2
      have hp := Real.pi_pos
      calc Real.arcsin s = Real.pi / 2 * (2 / Real.pi * Real.arcsin s) := by field_simp
        _ ≤ _ := mul_le_mul_of_nonneg_left h2 (by positivity)
    · calc Real.arcsin s ≤ Real.pi / 2 := Real.arcsin_le_pi_div_two s
        _ ≤ _ := le_mul_of_one_le_right (by positivity) h1
  have habs : ∀ x y : ℝ, |(radians x - radians y) / 2| = radians |x - y| / 2 := by
    intro x y
    unfold radians
    rw [← sub_mul, abs_div, abs_mul, abs_of_pos (show (0 : ℝ) < Real.pi / 180 by positivity), abs_of_pos (show (0 : ℝ) < 2 by norm_num)]
  have h := harc _ (Real.sqrt_nonneg (Real.sin u ^ 2 + Real.cos (radians b) * Real.cos (radians d) * Real.sin v ^ 2))
  have h' := mul_le_mul_of_nonneg_left hs (show 0 ≤ Real.pi / 2 by positivity)
  rw [hu, habs, hv, habs] at h'
  rw [hu, hv] at h
  linarith

/-- The coordinates of a point are the numbers it was made of, and in their ranges. -/
theorem mk_facts {a b c : ℚ} {p : Pt} (h : mkPoint a b c = .ok p) : p = ⟨a, b, c⟩ ∧ |a| ≤ 180 ∧ |b| ≤ 90 ∧ |c| ≤ 6371 := by
  unfold mkPoint earthRadius earthElevation at h
  split_ifs at h with h1 h2 h3 h4
  injection h with h
  refine ⟨h.symm, ?_, ?_, ?_⟩
  · rw [abs_le]; exact ⟨by exact_mod_cast h3.1, by exact_mod_cast h3.2⟩
  · rw [abs_le]; exact ⟨by exact_mod_cast h4.1, by exact_mod_cast h4.2⟩
  · rw [abs_le]
    have k1 : c < 6371 := by exact_mod_cast h1
    have k2 : (-8848 / 1000 : ℚ) < c := by
      have : ((-8848 / 1000 : ℚ) : ℝ) < c := by push_cast; norm_num at h2 ⊢; linarith
      exact_mod_cast this
    constructor <;> linarith

theorem small {x : ℚ} (h : |x| ≤ 6371) : |x| ≤ 2 ^ 200 := h.trans (by norm_num)

end PointText

open PointText

/-! ### C213 -/

/-- **C213**, the text of a point: it is `<Latitude=…, Longitude=…, Depth=…>` with texts from which `float` reads the latitude and
the longitude to half a millionth of a degree and the depth to half a ten-thousandth of a kilometre, up to the rounding of `float`. -/
theorem C213_text {lon lat depth : PyFloat} {p : Pt} (h : FloatPoint lon lat depth p) :
    ∃ (s t u : Text) (x y z : ℚ), pointText lon lat depth = "<Latitude=".toList ++ s ++ ", Longitude=".toList ++ t ++ ", Depth=".toList ++ u ++ ">".toList ∧
      number s = some x ∧ number t = some y ∧ number u = some z ∧
      |(x : ℝ) - p.lat| ≤ 0.00000050001 ∧ |(y : ℝ) - p.lon| ≤ 0.00000050001 ∧ |(z : ℝ) - p.depth| ≤ 0.000050001 := by
  obtain ⟨a, b, c, ha, hb, hc, hp⟩ := h
  obtain ⟨rfl, h1, h2, h3⟩ := mk_facts hp
  obtain ⟨_, y, hy, hy'⟩ := fixed_float (k := 6) (by norm_num) ha (small (h1.trans (by norm_num)))
  obtain ⟨_, x, hx, hx'⟩ := fixed_float (k := 6) (by norm_num) hb (small (h2.trans (by norm_num)))
  obtain ⟨_, z, hz, hz'⟩ := fixed_float (k := 4) (by norm_num) hc (small h3)
  refine ⟨_, _, _, x, y, z, rfl, hx, hy, hz, ?_, ?_, ?_⟩
  · have : |x - b| ≤ 0.00000050001 := hx'.trans (by
      have : (|b| + 1) / 2 ^ 53 ≤ (90 + 1) / 2 ^ 53 := by gcongr
      norm_num at this ⊢; linarith)
    have h' : ((|x - b| : ℚ) : ℝ) ≤ ((0.00000050001 : ℚ) : ℝ) := by exact_mod_cast this
    push_cast at h'; norm_num at h' ⊢; exact h'
  · have : |y - a| ≤ 0.00000050001 := hy'.trans (by
      have : (|a| + 1) / 2 ^ 53 ≤ (180 + 1) / 2 ^ 53 := by gcongr
      norm_num at this ⊢; linarith)
    have h' : ((|y - a| : ℚ) : ℝ) ≤ ((0.00000050001 : ℚ) : ℝ) := by exact_mod_cast this
    push_cast at h'; norm_num at h' ⊢; exact h'
  · have : |z - c| ≤ 0.000050001 := hz'.trans (by
      have : (|c| + 1) / 2 ^ 53 ≤ (6371 + 1) / 2 ^ 53 := by gcongr
      norm_num at this ⊢; linarith)
    have h' : ((|z - c| : ℚ) : ℝ) ≤ ((0.000050001 : ℚ) : ℝ) := by exact_mod_cast this
    push_cast at h'; norm_num at h' ⊢; exact h'

theorem PointText.texts {lon lat depth lon' lat' depth' : PyFloat} {p q : Pt} (h : FloatPoint lon lat depth p) (h' : FloatPoint lon' lat' depth' q)
    (he : pointText lon lat depth = pointText lon' lat' depth') :
    fixedFloat 6 lat = fixedFloat 6 lat' ∧ fixedFloat 6 lon = fixedFloat 6 lon' ∧ fixedFloat 4 depth = fixedFloat 4 depth' := by
  have hh : ∀ {lon lat depth p}, FloatPoint lon lat depth p → ',' ∉ fixedFloat 6 lat ∧ ',' ∉ fixedFloat 6 lon := by
    rintro lon lat depth p ⟨a, b, c, ha, hb, hc, hp⟩
    obtain ⟨rfl, h1, h2, h3⟩ := mk_facts hp
    have n : ¬ NumChar ',' := by unfold NumChar; decide
    exact ⟨not_char (fixed_float (k := 6) (by norm_num) hb (small (h2.trans (by norm_num)))).1 n,
      not_char (fixed_float (k := 6) (by norm_num) ha (small (h1.trans (by norm_num)))).1 n⟩
  unfold pointText at he
  simp only [List.append_assoc, List.append_cancel_left_eq, show ", Longitude=".toList = ',' :: " Longitude=".toList from rfl,
    show ", Depth=".toList = ',' :: " Depth=".toList from rfl, List.cons_append] at he
  obtain ⟨e1, e2⟩ := cut (hh h).1 (hh h').1 he
  rw [List.append_cancel_left_eq] at e2
  obtain ⟨e3, e4⟩ := cut (hh h).2 (hh h').2 e2
  rw [List.append_cancel_left_eq, List.append_cancel_right_eq] at e4
  exact ⟨e1, e3, e4⟩

/-- **C213**: two points with the same text are equal: they are less than a metre apart. -/
theorem C213_same {lon lat depth lon' lat' depth' : PyFloat} {p q : Pt} (h : FloatPoint lon lat depth p) (h' : FloatPoint lon' lat' depth' q)
    (he : pointText lon lat depth = pointText lon' lat' depth') : p.Same q := by
  obtain ⟨e1, e2, e3⟩ := PointText.texts h h' he
  obtain ⟨a, b, c, ha, hb, hc, hp⟩ := h
  obtain ⟨a', b', c', ha', hb', hc', hp'⟩ := h'
  obtain ⟨rfl, h1, h2, h3⟩ := mk_facts hp
  obtain ⟨rfl, h1', h2', h3'⟩ := mk_facts hp'
  have near : ∀ (k : ℕ) (_ : 1 ≤ k) (f f' : PyFloat) (x x' : ℚ), finite f = some x → finite f' = some x' → |x| ≤ 6371 → |x'| ≤ 6371 →
      fixedFloat k f = fixedFloat k f' → |x - x'| ≤ 1 / 10 ^ k + 1 / 10 ^ 9 := by
    intro k hk f f' x x' hf hf' hx hx' heq
    obtain ⟨_, y, hy, hy'⟩ := fixed_float hk hf (small hx)
    obtain ⟨_, z, hz, hz'⟩ := fixed_float hk hf' (small hx')
    rw [heq, hz] at hy
    injection hy with hy
    subst hy
    have k1 : (|x| + 1) / 2 ^ 53 ≤ 1 / (2 * 10 ^ 9) := by
      rw [div_le_div_iff₀ (by norm_num) (by norm_num)]; norm_num; linarith
    have k2 : (|x'| + 1) / 2 ^ 53 ≤ 1 / (2 * 10 ^ 9) := by
      rw [div_le_div_iff₀ (by norm_num) (by norm_num)]; norm_num; linarith
    have e : (1 : ℚ) / 10 ^ k = 1 / (2 * 10 ^ k) + 1 / (2 * 10 ^ k) := by field_simp; norm_num
    rw [e]
    rw [abs_sub_comm] at hy'
    calc |x - x'| ≤ |x - z| + |z - x'| := abs_sub_le _ _ _
      _ ≤ (1 / (2 * 10 ^ k) + 1 / (2 * 10 ^ 9)) + (1 / (2 * 10 ^ k) + 1 / (2 * 10 ^ 9)) := by linarith
      _ = _ := by ring
  have n1 := near 6 (by norm_num) _ _ a a' ha ha' (h1.trans (by norm_num)) (h1'.trans (by norm_num)) e2
  have n2 := near 6 (by norm_num) _ _ b b' hb hb' (h2.trans (by norm_num)) (h2'.trans (by norm_num)) e1
  have n3 := near 4 (by norm_num) _ _ c c' hc hc' h3 h3' e3
  have m1 : |(a : ℝ) - a'| ≤ 0.0000011 := by
    have : ((|a - a'| : ℚ) : ℝ) ≤ ((1 / 10 ^ 6 + 1 / 10 ^ 9 : ℚ) : ℝ) := by exact_mod_cast n1
    push_cast at this; norm_num at this ⊢; linarith
  have m2 : |(b : ℝ) - b'| ≤ 0.0000011 := by
    have : ((|b - b'| : ℚ) : ℝ) ≤ ((1 / 10 ^ 6 + 1 / 10 ^ 9 : ℚ) : ℝ) := by exact_mod_cast n2
    push_cast at this; norm_num at this ⊢; linarith
  have m3 : |(c : ℝ) - c'| ≤ 0.00011 := by
    have : ((|c - c'| : ℚ) : ℝ) ≤ ((1 / 10 ^ 4 + 1 / 10 ^ 9 : ℚ) : ℝ) := by exact_mod_cast n3
    push_cast at this; norm_num at this ⊢; linarith
  have g := geodetic_le a b a' b'
  have g' : geodeticDistance a b a' b' ≤ 0.0005 := by
    refine g.trans ?_
    unfold radians
    have hpi := Real.pi_lt_d4
    have hp0 := Real.pi_pos
    have r1 : |(b : ℝ) - b'| * (Real.pi / 180) + |(a : ℝ) - a'| * (Real.pi / 180) ≤ 0.0000022 * (3.15 / 180) := by
      rw [← add_mul]
      exact mul_le_mul (by linarith) (by linarith) (by positivity) (by norm_num)
    calc 6371 * (Real.pi / 2) * (|(b : ℝ) - b'| * (Real.pi / 180) + |(a : ℝ) - a'| * (Real.pi / 180))
        ≤ 6371 * (3.15 / 2) * (0.0000022 * (3.15 / 180)) := mul_le_mul (by linarith) r1 (by positivity) (by norm_num)
      _ ≤ _ := by norm_num
  have g0 : 0 ≤ geodeticDistance a b a' b' := by
    unfold geodeticDistance earthRadius
    exact mul_nonneg (by norm_num) (Real.arcsin_nonneg.2 (Real.sqrt_nonneg _))
  unfold Pt.Same Pt.dist distance
  rw [abs_of_nonneg (Real.sqrt_nonneg _)]
  refine Real.sqrt_le_iff.2 ⟨by norm_num, ?_⟩
  have s1 : geodeticDistance a b a' b' ^ 2 ≤ 0.0005 ^ 2 := pow_le_pow_left₀ g0 g' 2
  have s2 : ((c : ℝ) - c') ^ 2 ≤ 0.00011 ^ 2 := by rw [← sq_abs]; exact pow_le_pow_left₀ (abs_nonneg _) m3 2
  norm_num at s1 s2 ⊢
  linarith

/-- **C213**, the well-known text: it is `POINT(… …)` with two texts without blanks from which `float` reads exactly the longitude and the
latitude, with the signs of zeros; so two points with the same one have the same longitude and latitude. -/
theorem C213_wkt {lon lat depth lon' lat' depth' : PyFloat} {p q : Pt} (h : FloatPoint lon lat depth p) (h' : FloatPoint lon' lat' depth' q) :
    (∃ s t : Text, wkt2d lon lat = "POINT(".toList ++ s ++ ' ' :: t ++ ")".toList ∧ ' ' ∉ s ∧ ' ' ∉ t ∧ pyFloat s = some lon ∧ pyFloat t = some lat) ∧
    (wkt2d lon lat = wkt2d lon' lat' → lon = lon' ∧ lat = lat') := by
  obtain ⟨a, b, c, ha, hb, hc, hp⟩ := h
  obtain ⟨a', b', c', ha', hb', hc', hp'⟩ := h'
  have n : ¬ NumChar ' ' := by unfold NumChar; decide
  refine ⟨⟨_, _, rfl, not_char (float_chars ha) n, not_char (float_chars hb) n, C198_back.1 _, C198_back.1 _⟩, fun he => ?_⟩
  unfold wkt2d at he
  simp only [List.append_assoc, List.append_cancel_left_eq, List.cons_append] at he
  obtain ⟨e1, e2⟩ := cut (not_char (float_chars ha) n) (not_char (float_chars ha') n) he
  rw [List.append_cancel_right_eq] at e2
  have back := C198_back.1
  refine ⟨?_, ?_⟩
  · have := back lon; rw [e1, back lon'] at this; exact (Option.some.inj this).symm
  · have := back lat; rw [e2, back lat'] at this; exact (Option.some.inj this).symm

/-- The texts of the documentation, and of a negative zero. -/
example : pointText (nearestFloat false 1) (nearestFloat false 2) (nearestFloat false 3) =
      "<Latitude=2.000000, Longitude=1.000000, Depth=3.0000>".toList ∧
    pointText (nearestFloat false (1 / 3)) (nearestFloat true 39.999999999) (nearestFloat false 1.6666666666) =
      "<Latitude=-40.000000, Longitude=0.333333, Depth=1.6667>".toList ∧
    wkt2d (nearestFloat true 0) (nearestFloat false (1 / 10)) = "POINT(-0.0 0.1)".toList := by
  refine ⟨?_, ?_, ?_⟩ <;> decide +kernel

/-- The hypotheses of C213 are met by two different points with one text. -/
example : FloatPoint (nearestFloat false 1) (nearestFloat true 2) (nearestFloat false 3) ⟨1, -2, 3⟩ ∧
    FloatPoint (nearestFloat false 1) (nearestFloat true 2) (nearestFloat false (3 + 1 / 2 ^ 15)) ⟨1, -2, 3 + 1 / 2 ^ 15⟩ ∧
    pointText (nearestFloat false 1) (nearestFloat true 2) (nearestFloat false 3) =
      pointText (nearestFloat false 1) (nearestFloat true 2) (nearestFloat false (3 + 1 / 2 ^ 15)) := by
  refine ⟨⟨1, -2, 3, by decide +kernel, by decide +kernel, by decide +kernel, ?_⟩,
    ⟨1, -2, 3 + 1 / 2 ^ 15, by decide +kernel, by decide +kernel, by decide +kernel, ?_⟩, by decide +kernel⟩ <;>
  · unfold mkPoint earthRadius earthElevation
    push_cast
    norm_num

end Verif.Props
