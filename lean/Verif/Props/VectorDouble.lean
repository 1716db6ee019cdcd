import Verif.Spec.VectorDouble
import Verif.Props.DoubleColors
import Verif.Lemmas.Double
import Mathlib.Tactic.LinearCombination

/-!
# C195: vectors in binary arithmetic
-/

namespace Verif.Props
open Verif.Dbl Verif.Spec

theorem py_round_neg (q : ℚ) : Py.round (-q) = -Py.round q := by
  have h := Py.round_abs_sub_le q
  unfold Py.round
  by_cases hz : q = (⌊q⌋ : ℤ)
  · have h1 : ⌊-q⌋ = -⌊q⌋ := by rw [Int.floor_eq_iff]; push_cast; constructor <;> linarith
    have h2 : q - (⌊q⌋ : ℤ) = 0 := by linarith
    simp only [h1, h2]
    have h3 : -q - ((-⌊q⌋ : ℤ) : ℚ) = 0 := by push_cast; linarith
    rw [h3]; norm_num
  · have hlt : (⌊q⌋ : ℚ) < q := lt_of_le_of_ne (Int.floor_le q) (fun e => hz e.symm)
    have h1 : ⌊-q⌋ = -⌊q⌋ - 1 := by
      rw [Int.floor_eq_iff]
      push_cast
      have := Int.lt_floor_add_one q
      constructor <;> linarith
    simp only [h1]
    push_cast
    set f := ⌊q⌋
    split_ifs <;> first | omega | (exfalso; linarith) | skip

theorem rnd_neg (q : ℚ) : rnd (-q) = -rnd q := by
  have hu : ulp (-q) = ulp q := by unfold ulp expo; rw [abs_neg]
  unfold rnd
  rw [hu, neg_div, py_round_neg]
  push_cast; ring

theorem expo_small {q : ℚ} (h0 : q ≠ 0) (h : |q| < 2 ^ (-1022 : ℤ)) : expo q = -1022 := by
  unfold expo
  apply max_eq_right
  have := (Int.lt_zpow_iff_log_lt (b := 2) (by norm_num) (abs_pos.2 h0)).mp (by exact_mod_cast h)
  omega

theorem rnd_near (q : ℚ) : |rnd q - q| ≤ |q| / 2 ^ 53 + 2 ^ (-1075 : ℤ) := by
  have h2 := two_zpow_pos (-1075)
  by_cases h : 2 ^ (-1022 : ℤ) ≤ |q|
  · have := rnd_rel h
    linarith
  · push Not at h
    by_cases h0 : q = 0
    · rw [h0, rnd_zero]; simpa using h2.le
    · have h1 := rnd_error q
      unfold ulp at h1
      rw [expo_small h0 h] at h1
      have e : (2 : ℚ) ^ ((-1022 : ℤ) - 52) / 2 = 2 ^ (-1075 : ℤ) := by
        rw [div_eq_iff (by norm_num), ← zpow_add_one₀ (by norm_num)]
        norm_num
      rw [e] at h1
      have : 0 ≤ |q| / 2 ^ 53 := by positivity
      linarith

/-- A sum of doubles is rounded well, however small it is. -/
theorem sum_near {a b : ℚ} (ha : IsDouble a) (hb : IsDouble b) : |rnd (a + b) - (a + b)| ≤ |a + b| / 2 ^ 53 := by
  by_cases h : 2 ^ (-1022 : ℤ) ≤ |a + b|
  · exact rnd_rel h
  · push Not at h
    have : IsDouble (a + b) := by
      obtain ⟨m, e, hm, he, rfl⟩ := ha
      obtain ⟨n, f, hn, hf, rfl⟩ := hb
      obtain ⟨m', hm'⟩ := multiple_of_le he m
      obtain ⟨n', hn'⟩ := multiple_of_le hf n
      refine ⟨m' + n', -1074, ?_, le_rfl, by rw [hm', hn']; push_cast; ring⟩
      rw [hm', hn', ← add_mul, abs_mul, abs_of_pos (two_zpow_pos _)] at h
      have h3 : (2 : ℚ) ^ (-1022 : ℤ) = 2 ^ 52 * 2 ^ (-1074 : ℤ) := by
        rw [← zpow_natCast, ← zpow_add₀ (by norm_num)]; norm_num
      rw [h3] at h
      have h4 := lt_of_mul_lt_mul_right h (two_zpow_pos _).le
      have h5 : |m' + n'| < 2 ^ 52 := by exact_mod_cast h4
      exact h5.trans (by norm_num)
    rw [rnd_double this, sub_self, abs_zero]
    positivity

/-- A difference of doubles is zero only if they are equal. -/
theorem difference_zero {a b : ℚ} (ha : IsDouble a) (hb : IsDouble b) : rnd (a - b) = 0 ↔ a = b := by
  constructor
  · intro h
    have := sum_near ha (neg_double hb)
    rw [← sub_eq_add_neg, h, zero_sub, abs_neg] at this
    by_contra hne
    have h0 : 0 < |a - b| := abs_pos.2 (sub_ne_zero.2 hne)
    linarith
  · rintro rfl; rw [sub_self, rnd_zero]

/-! ### Sums, multiples and products -/

/-- **C195**. The components of sums, differences and multiples are the doubles nearest to the exact ones, and those of sums and differences are right to one part in
2^53 however small they are. -/
theorem C195_linear (a b : D3) (k : ℚ) :
    (NearestDouble (a.x + b.x) (a.add b).x ∧ NearestDouble (a.y + b.y) (a.add b).y ∧ NearestDouble (a.z + b.z) (a.add b).z) ∧
    (NearestDouble (a.x - b.x) (a.sub b).x ∧ NearestDouble (a.y - b.y) (a.sub b).y ∧ NearestDouble (a.z - b.z) (a.sub b).z) ∧
    (NearestDouble (a.x * k) (a.mul k).x ∧ NearestDouble (a.y * k) (a.mul k).y ∧ NearestDouble (a.z * k) (a.mul k).z) ∧
    (DoubleVector a → DoubleVector b →
      |(a.add b).x - (a.x + b.x)| ≤ |a.x + b.x| / 2 ^ 53 ∧ |(a.add b).y - (a.y + b.y)| ≤ |a.y + b.y| / 2 ^ 53 ∧ |(a.add b).z - (a.z + b.z)| ≤ |a.z + b.z| / 2 ^ 53 ∧
      |(a.sub b).x - (a.x - b.x)| ≤ |a.x - b.x| / 2 ^ 53 ∧ |(a.sub b).y - (a.y - b.y)| ≤ |a.y - b.y| / 2 ^ 53 ∧ |(a.sub b).z - (a.z - b.z)| ≤ |a.z - b.z| / 2 ^ 53) := by
  refine ⟨⟨rnd_nearest _, rnd_nearest _, rnd_nearest _⟩, ⟨rnd_nearest _, rnd_nearest _, rnd_nearest _⟩, ⟨rnd_nearest _, rnd_nearest _, rnd_nearest _⟩,
    fun ha hb => ?_⟩
  simp only [sub_eq_add_neg a.x, sub_eq_add_neg a.y, sub_eq_add_neg a.z, D3.add, D3.sub]
  exact ⟨sum_near ha.1 hb.1, sum_near ha.2.1 hb.2.1, sum_near ha.2.2 hb.2.2, sum_near ha.1 (neg_double hb.1), sum_near ha.2.1 (neg_double hb.2.1),
    sum_near ha.2.2 (neg_double hb.2.2)⟩

/-- **C195**. The laws of vectors that hold without change: commutativity, anti-commutativity, opposite differences, zero, one, and that a difference is zero only for equal vectors. -/
theorem C195_laws (a b : D3) (ha : DoubleVector a) (hb : DoubleVector b) (k : ℚ) :
    a.add b = b.add a ∧ a.dots b = b.dots a ∧ a.cross b = (b.cross a).mul (-1) ∧ a.sub b = (b.sub a).mul (-1) ∧ a.cross a = ⟨0, 0, 0⟩ ∧
    a.add ⟨0, 0, 0⟩ = a ∧ a.mul 1 = a ∧ a.mul 0 = ⟨0, 0, 0⟩ ∧ a.mul (-k) = (a.mul k).mul (-1) ∧ (a.sub b = ⟨0, 0, 0⟩ ↔ a = b) := by
  obtain ⟨a1, a2, a3⟩ := a
  obtain ⟨b1, b2, b3⟩ := b
  obtain ⟨x1, x2, x3⟩ := ha
  obtain ⟨y1, y2, y3⟩ := hb
  simp only at x1 x2 x3 y1 y2 y3
  have hm : ∀ q, rnd (rnd q * -1) = rnd (-q) := by
    intro q
    rw [mul_neg, mul_one, rnd_neg, rnd_double (rnd_isDouble q), rnd_neg]
  refine ⟨?_, ?_, ?_, ?_, ?_, ?_, ?_, ?_, ?_, ?_⟩
  · simp [D3.add, add_comm]
  · simp only [D3.dots, mul_comm]
  · simp only [D3.cross, D3.mul, hm, neg_sub, mul_comm b1, mul_comm b2, mul_comm b3]
  · simp only [D3.sub, D3.mul, hm, neg_sub]
  · simp [D3.cross, mul_comm, rnd_zero]
  · simp [D3.add, rnd_double x1, rnd_double x2, rnd_double x3]
  · simp [D3.mul, rnd_double x1, rnd_double x2, rnd_double x3]
  · simp [D3.mul, rnd_zero]
  · simp only [D3.mul, hm, mul_neg a1, mul_neg a2, mul_neg a3]
  · simp only [D3.sub, D3.mk.injEq, difference_zero x1 y1, difference_zero x2 y2, difference_zero x3 y3]

theorem terms_near {u p : ℚ} (h : u = p ∨ u = rnd p) : |u - p| ≤ |p| / 2 ^ 53 + 2 ^ (-1075 : ℤ) := by
  rcases h with rfl | rfl
  · rw [sub_self, abs_zero]
    have := two_zpow_pos (-1075)
    positivity
  · exact rnd_near p

theorem dot_near {p q s u v w : ℚ} (hu : u = p ∨ u = rnd p) (hv : v = q ∨ v = rnd q) (hw : w = s ∨ w = rnd s) :
    |rnd (rnd (u + v) + w) - (p + q + s)| ≤ (|p| + |q| + |s|) / 2 ^ 51 + 2 ^ (-1072 : ℤ) := by
  have h1 := terms_near hu
  have h2 := terms_near hv
  have h3 := terms_near hw
  have h4 := rnd_near (u + v)
  have h5 := rnd_near (rnd (u + v) + w)
  have e : (2 : ℚ) ^ (-1072 : ℤ) = 8 * 2 ^ (-1075 : ℤ) := by
    rw [show (8 : ℚ) = 2 ^ (3 : ℤ) by norm_num, ← zpow_add₀ (by norm_num)]; norm_num
  have hη := two_zpow_pos (-1075)
  rw [e]
  generalize (2 : ℚ) ^ (-1075 : ℤ) = η at *
  have t1 : |u + v| ≤ |p| + |q| + |u - p| + |v - q| := by
    have : u + v = p + q + ((u - p) + (v - q)) := by ring
    rw [this]
    have := abs_add_le (p + q) ((u - p) + (v - q))
    have := abs_add_le p q
    have := abs_add_le (u - p) (v - q)
    linarith
  have t2 : |rnd (u + v) + w| ≤ |u + v| + |rnd (u + v) - (u + v)| + |s| + |w - s| := by
    have : rnd (u + v) + w = (u + v) + (rnd (u + v) - (u + v)) + (s + (w - s)) := by ring
    rw [this]
    have := abs_add_le ((u + v) + (rnd (u + v) - (u + v))) (s + (w - s))
    have := abs_add_le (u + v) (rnd (u + v) - (u + v))
    have := abs_add_le s (w - s)
    linarith
  have t3 : |rnd (rnd (u + v) + w) - (p + q + s)| ≤
      |rnd (rnd (u + v) + w) - (rnd (u + v) + w)| + |rnd (u + v) - (u + v)| + |u - p| + |v - q| + |w - s| := by
    have : rnd (rnd (u + v) + w) - (p + q + s) =
        (rnd (rnd (u + v) + w) - (rnd (u + v) + w)) + ((rnd (u + v) - (u + v)) + (((u - p) + (v - q)) + (w - s))) := by ring
    rw [this]
    have := abs_add_le (rnd (rnd (u + v) + w) - (rnd (u + v) + w)) ((rnd (u + v) - (u + v)) + (((u - p) + (v - q)) + (w - s)))
    have := abs_add_le (rnd (u + v) - (u + v)) (((u - p) + (v - q)) + (w - s))
    have := abs_add_le ((u - p) + (v - q)) (w - s)
    have := abs_add_le (u - p) (v - q)
    linarith
  have p1 := abs_nonneg p
  have p2 := abs_nonneg q
  have p3 := abs_nonneg s
  generalize |p| = P at *
  generalize |q| = Q at *
  generalize |s| = S at *
  generalize |u - p| = A at *
  generalize |v - q| = B at *
  generalize |w - s| = C at *
  generalize |rnd (u + v) - (u + v)| = D at *
  generalize |rnd (rnd (u + v) + w) - (rnd (u + v) + w)| = E at *
  generalize |u + v| = F at *
  generalize |rnd (u + v) + w| = G at *
  norm_num at *
  linarith

/-- **C195**. The dot product, in whatever order and with whatever roundings it is added up, is right to one part in 2^51 of the sum of the absolute values of its terms,
and to 2^-1072. -/
theorem C195_dot (a b : D3) : ∀ r ∈ a.dots b,
    |r - (a.x * b.x + a.y * b.y + a.z * b.z)| ≤ (|a.x * b.x| + |a.y * b.y| + |a.z * b.z|) / 2 ^ 51 + 2 ^ (-1072 : ℤ) := by
  intro r hr
  simp only [D3.dots, List.mem_flatMap, List.mem_map, List.mem_cons, List.not_mem_nil, or_false] at hr
  obtain ⟨t, ht, u, hu, v, hv, w, hw, rfl⟩ := hr
  have := dot_near hu hv hw
  rcases ht with rfl | rfl | rfl
  · exact this
  · convert this using 1
    · congr 1; ring
    · ring
  · convert this using 1
    · congr 1; ring
    · ring

theorem cross_near (p q : ℚ) : |rnd (rnd p - rnd q) - (p - q)| ≤ (|p| + |q|) / 2 ^ 51 + 2 ^ (-1072 : ℤ) := by
  have := dot_near (p := p) (q := -q) (s := 0) (u := rnd p) (v := rnd (-q)) (w := 0) (.inr rfl) (.inr rfl) (.inl rfl)
  rw [rnd_neg, ← sub_eq_add_neg, ← sub_eq_add_neg, add_zero, add_zero, rnd_double (rnd_isDouble _), abs_neg, abs_zero, add_zero] at this
  exact this

/-- **C195**. Each component of the cross product is right to one part in 2^51 of the absolute values of its two terms, and to 2^-1072. -/
theorem C195_cross (a b : D3) :
    |(a.cross b).x - (a.y * b.z - a.z * b.y)| ≤ (|a.y * b.z| + |a.z * b.y|) / 2 ^ 51 + 2 ^ (-1072 : ℤ) ∧
    |(a.cross b).y - (a.z * b.x - a.x * b.z)| ≤ (|a.z * b.x| + |a.x * b.z|) / 2 ^ 51 + 2 ^ (-1072 : ℤ) ∧
    |(a.cross b).z - (a.x * b.y - a.y * b.x)| ≤ (|a.x * b.y| + |a.y * b.x|) / 2 ^ 51 + 2 ^ (-1072 : ℤ) :=
  ⟨cross_near _ _, cross_near _ _, cross_near _ _⟩

theorem rnd_whole {q : ℚ} {n : ℤ} (h : q = n) (hn : |n| ≤ 2 ^ 53) : rnd q = n := by
  rw [h]; exact rnd_double (int_double hn)

theorem prod_whole {i j : ℤ} (hi : |i| ≤ 2 ^ 25) (hj : |j| ≤ 2 ^ 25) : |i * j| ≤ 2 ^ 50 := by
  rw [abs_mul]
  calc |i| * |j| ≤ 2 ^ 25 * 2 ^ 25 := mul_le_mul hi hj (abs_nonneg j) (by norm_num)
    _ = 2 ^ 50 := by norm_num

/-- **C195**. For whole numbers up to 2^25, as in pixel or metre coordinates, sums, differences, dot and cross products are exact. -/
theorem C195_whole (a b : D3) (ha : WholeVector (2 ^ 25) a) (hb : WholeVector (2 ^ 25) b) :
    a.add b = ⟨a.x + b.x, a.y + b.y, a.z + b.z⟩ ∧ a.sub b = ⟨a.x - b.x, a.y - b.y, a.z - b.z⟩ ∧
    (∀ r ∈ a.dots b, r = a.x * b.x + a.y * b.y + a.z * b.z) ∧
    a.cross b = ⟨a.y * b.z - a.z * b.y, a.z * b.x - a.x * b.z, a.x * b.y - a.y * b.x⟩ := by
  obtain ⟨i, j, k, rfl, hi, hj, hk⟩ := ha
  obtain ⟨l, m, n, rfl, hl, hm, hn⟩ := hb
  have sum : ∀ p q : ℤ, |p| ≤ 2 ^ 51 → |q| ≤ 2 ^ 51 → rnd ((p : ℚ) + q) = p + q := by
    intro p q hp hq
    rw [rnd_whole (n := p + q) (by push_cast; rfl) ((abs_add_le p q).trans (by linarith))]
    push_cast; rfl
  have diff : ∀ p q : ℤ, |p| ≤ 2 ^ 51 → |q| ≤ 2 ^ 51 → rnd ((p : ℚ) - q) = p - q := by
    intro p q hp hq
    rw [rnd_whole (n := p - q) (by push_cast; rfl) ((abs_sub p q).trans (by linarith))]
    push_cast; rfl
  have prod : ∀ {p q : ℤ}, |p| ≤ 2 ^ 25 → |q| ≤ 2 ^ 25 → rnd ((p : ℚ) * q) = p * q := by
    intro p q hp hq
    rw [rnd_whole (n := p * q) (by push_cast; rfl) ((prod_whole hp hq).trans (by norm_num))]
    push_cast; rfl
  have small : ∀ {p : ℤ}, |p| ≤ 2 ^ 25 → |p| ≤ 2 ^ 51 := fun h => h.trans (by norm_num)
  have small' : ∀ {p q : ℤ}, |p| ≤ 2 ^ 25 → |q| ≤ 2 ^ 25 → |p * q| ≤ 2 ^ 51 := fun h h' => (prod_whole h h').trans (by norm_num)
  have sum3 : ∀ {p q r : ℤ}, |p| ≤ 2 ^ 50 → |q| ≤ 2 ^ 50 → |r| ≤ 2 ^ 50 → rnd (rnd ((p : ℚ) + q) + r) = p + q + r := by
    intro p q r hp hq hr
    rw [sum p q (hp.trans (by norm_num)) (hq.trans (by norm_num))]
    have := sum (p + q) r ((abs_add_le p q).trans (by linarith)) (hr.trans (by norm_num))
    push_cast at this
    exact this
  refine ⟨?_, ?_, ?_, ?_⟩
  · simp only [D3.add, sum _ _ (small hi) (small hl), sum _ _ (small hj) (small hm), sum _ _ (small hk) (small hn)]
  · simp only [D3.sub, diff _ _ (small hi) (small hl), diff _ _ (small hj) (small hm), diff _ _ (small hk) (small hn)]
  · intro r hr
    simp only [D3.dots, List.mem_flatMap, List.mem_map, List.mem_cons, List.not_mem_nil, or_false] at hr
    obtain ⟨t, ht, u, hu, v, hv, w, hw, rfl⟩ := hr
    have h1 := prod_whole hi hl
    have h2 := prod_whole hj hm
    have h3 := prod_whole hk hn
    rcases ht with rfl | rfl | rfl
    · simp only [prod hi hl, prod hj hm, prod hk hn, or_self] at hu hv hw
      subst hu hv hw
      have := sum3 h1 h2 h3
      push_cast at this
      rw [this]
    · simp only [prod hi hl, prod hj hm, prod hk hn, or_self] at hu hv hw
      subst hu hv hw
      have := sum3 h1 h3 h2
      push_cast at this
      rw [this]; ring
    · simp only [prod hi hl, prod hj hm, prod hk hn, or_self] at hu hv hw
      subst hu hv hw
      have := sum3 h2 h3 h1
      push_cast at this
      rw [this]; ring
  · have d : ∀ {p q r s : ℤ}, |p| ≤ 2 ^ 25 → |q| ≤ 2 ^ 25 → |r| ≤ 2 ^ 25 → |s| ≤ 2 ^ 25 → rnd ((p : ℚ) * q - r * s) = p * q - r * s := by
      intro p q r s hp hq hr hs
      have := diff (p * q) (r * s) (small' hp hq) (small' hr hs)
      push_cast at this
      exact this
    simp only [D3.cross, prod hj hn, prod hk hm, prod hk hl, prod hi hn, prod hi hm, prod hj hl, d hj hn hk hm, d hk hl hi hn, d hi hm hj hl]

/-! ### Lengths -/

theorem sqrt_near {q : ℚ} (h : 0 < q) : |((sqrtRnd q : ℚ) : ℝ) - √(q : ℝ)| ≤ √(q : ℝ) / 2 ^ 53 := by
  unfold sqrtRnd
  rw [if_neg (not_le.2 h)]
  have hlow := Int.zpow_log_le_self (b := 2) (by norm_num) h
  generalize Int.log 2 q = L at hlow ⊢
  simp only
  have hu : (0 : ℚ) < 2 ^ (L / 2 - 52) := two_zpow_pos _
  have hbig : ((2 : ℚ) ^ (L / 2 - 52) * 2 ^ 52) ^ 2 ≤ q := by
    have e1 : (2 : ℚ) ^ (L / 2 - 52) * 2 ^ 52 = 2 ^ (L / 2) := by
      rw [← zpow_natCast (2 : ℚ) 52, ← zpow_add₀ (by norm_num)]; norm_num
    rw [e1, ← zpow_natCast, ← zpow_mul]
    refine le_trans (zpow_le_zpow_right₀ (by norm_num) ?_) hlow
    push_cast
    omega
  generalize (2 : ℚ) ^ (L / 2 - 52) = u at hu hbig ⊢
  have hu2 : 0 < u ^ 2 := by positivity
  have hfl : 0 ≤ ⌊q / u ^ 2⌋ := Int.floor_nonneg.2 (by positivity)
  obtain ⟨N, hN⟩ := Int.eq_ofNat_of_zero_le hfl
  rw [hN, Int.toNat_natCast]
  have f1 : (N : ℚ) ≤ q / u ^ 2 := by
    have := Int.floor_le (q / u ^ 2)
    rw [hN] at this; exact_mod_cast this
  have f2 : q / u ^ 2 < N + 1 := by
    have := Int.lt_floor_add_one (q / u ^ 2)
    rw [hN] at this; exact_mod_cast this
  have g1 : ((Nat.sqrt N : ℕ) : ℚ) ^ 2 ≤ N := by exact_mod_cast (by rw [sq]; exact Nat.sqrt_le N)
  have g2 : (N : ℚ) + 1 ≤ ((Nat.sqrt N : ℕ) + 1 : ℚ) ^ 2 := by
    have : N + 1 ≤ (Nat.sqrt N + 1) ^ 2 := by rw [sq]; exact Nat.lt_succ_sqrt N
    exact_mod_cast this
  generalize hn : Nat.sqrt N = n at g1 g2 ⊢
  have b1 : (n : ℚ) ^ 2 * u ^ 2 ≤ q := by rw [← le_div_iff₀ hu2]; linarith
  have b2 : q ≤ ((n : ℚ) + 1) ^ 2 * u ^ 2 := by rw [← div_le_iff₀ hu2]; linarith
  have hn0 : (0 : ℚ) ≤ n := by positivity
  -- to the reals
  have low : ∀ {c : ℚ}, 0 ≤ c → c ^ 2 ≤ q → (c : ℝ) ≤ √(q : ℝ) := fun hc h' => Real.le_sqrt_of_sq_le (by exact_mod_cast h')
  have high : ∀ {c : ℚ}, 0 ≤ c → q ≤ c ^ 2 → √(q : ℝ) ≤ (c : ℝ) := fun hc h' => Real.sqrt_le_iff.2 ⟨by exact_mod_cast hc, by exact_mod_cast h'⟩
  have c1 : (u : ℝ) / 2 ≤ √(q : ℝ) / 2 ^ 53 := by
    have := low (by positivity) hbig
    push_cast at this
    linarith
  refine le_trans ?_ c1
  split
  · rename_i hle
    have d1 := low (c := n * u) (by positivity) (by rw [mul_pow]; exact b1)
    have d2 := high (c := ((n : ℚ) + 1 / 2) * u) (by positivity) (by rw [mul_pow]; exact hle)
    push_cast at d1 d2 ⊢
    rw [abs_le]
    constructor <;> linarith
  · rename_i hgt
    have d1 := low (c := ((n : ℚ) + 1 / 2) * u) (by positivity) (by rw [mul_pow]; exact (not_le.1 hgt).le)
    have d2 := high (c := ((n : ℚ) + 1) * u) (by positivity) (by rw [mul_pow]; exact b2)
    push_cast at d1 d2 ⊢
    rw [abs_le]
    constructor <;> linarith

theorem sqrt_ratio {A B d : ℝ} (hB : 0 ≤ B) (hA : 0 ≤ A) (h : |A - B| ≤ d * B) : |√A - √B| ≤ d * √B := by
  rcases hB.eq_or_lt with rfl | hB
  · have : A = 0 := by
      have : |A - 0| ≤ 0 := by simpa using h
      simpa using this
    simp [this]
  · have hb := Real.sqrt_pos.2 hB
    have ha := Real.sqrt_nonneg A
    have e : |√A - √B| * (√A + √B) = |A - B| := by
      rw [← abs_of_nonneg (by positivity : 0 ≤ √A + √B), ← abs_mul]
      congr 1
      have h1 := Real.mul_self_sqrt hA
      have h2 := Real.mul_self_sqrt hB.le
      linear_combination h1 - h2
    have h2 := Real.mul_self_sqrt hB.le
    have : |√A - √B| * √B ≤ (d * √B) * √B := by
      calc |√A - √B| * √B ≤ |√A - √B| * (√A + √B) := mul_le_mul_of_nonneg_left (by linarith) (abs_nonneg _)
        _ = |A - B| := e
        _ ≤ d * B := h
        _ = (d * √B) * √B := by rw [mul_assoc, h2]
    exact le_of_mul_le_mul_right this hb

theorem cast_near {r s d : ℚ} (h : |r - s| ≤ d * s) : |(r : ℝ) - s| ≤ (d : ℝ) * s := by
  have : ((|r - s| : ℚ) : ℝ) ≤ ((d * s : ℚ) : ℝ) := Rat.cast_le.2 h
  rw [Rat.cast_abs, Rat.cast_sub, Rat.cast_mul] at this
  exact this

theorem square_near {sq : ℚ → ℚ} (hsq : Squares sq) {x : ℚ} (h : Sizable x) : |sq x - x ^ 2| ≤ x ^ 2 / 2 ^ 52 := by
  rcases h with rfl | h
  · rw [hsq.tiny 0 (by rw [zero_pow (by norm_num)]; exact (two_zpow_pos _).le)]; simp
  · apply hsq.near
    rw [← sq_abs]
    calc (2 : ℚ) ^ (-1022 : ℤ) = (2 ^ (-511 : ℤ)) ^ 2 := by rw [← zpow_natCast, ← zpow_mul]; norm_num
      _ ≤ |x| ^ 2 := by
        have := two_zpow_pos (-511)
        gcongr

/-- The sum of the squares as the code adds it up. -/
theorem squares_near {sq : ℚ → ℚ} (hsq : Squares sq) {x y z : ℚ} (dx : IsDouble x) (dy : IsDouble y) (dz : IsDouble z) (hx : Sizable x) (hy : Sizable y) (hz : Sizable z) :
    |rnd (rnd (sq x + sq y) + sq z) - (x ^ 2 + y ^ 2 + z ^ 2)| ≤ (9 / 2 ^ 54) * (x ^ 2 + y ^ 2 + z ^ 2) ∧ 0 ≤ rnd (rnd (sq x + sq y) + sq z) := by
  have n1 := square_near hsq hx
  have n2 := square_near hsq hy
  have n3 := square_near hsq hz
  have s1 := sum_near (hsq.double x dx) (hsq.double y dy)
  have s2 := sum_near (rnd_isDouble (sq x + sq y)) (hsq.double z dz)
  have p0 := rnd_nonneg (add_nonneg (hsq.nonneg x) (hsq.nonneg y))
  have p1 := add_nonneg p0 (hsq.nonneg z)
  rw [abs_of_nonneg p1] at s2
  rw [abs_of_nonneg (add_nonneg (hsq.nonneg x) (hsq.nonneg y))] at s1
  refine ⟨?_, rnd_nonneg p1⟩
  have q1 := sq_nonneg x
  have q2 := sq_nonneg y
  have q3 := sq_nonneg z
  rw [abs_le] at *
  generalize rnd (rnd (sq x + sq y) + sq z) = R at *
  generalize rnd (sq x + sq y) = S at *
  generalize sq x = X at *
  generalize sq y = Y at *
  generalize sq z = Z at *
  generalize x ^ 2 = x' at *
  generalize y ^ 2 = y' at *
  generalize z ^ 2 = z' at *
  norm_num at *
  constructor <;> linarith

theorem sum_zero {x y z : ℚ} (h : x ^ 2 + y ^ 2 + z ^ 2 = 0) : x = 0 ∧ y = 0 ∧ z = 0 := by
  have q1 := sq_nonneg x
  have q2 := sq_nonneg y
  have q3 := sq_nonneg z
  refine ⟨?_, ?_, ?_⟩ <;> apply pow_eq_zero_iff (n := 2) (by norm_num) |>.1 <;> linarith

theorem sqrtRnd_zero : sqrtRnd 0 = 0 := by simp [sqrtRnd]

theorem length_near {sq : ℚ → ℚ} (hsq : Squares sq) {x y z : ℚ} (dx : IsDouble x) (dy : IsDouble y) (dz : IsDouble z) (hx : Sizable x) (hy : Sizable y) (hz : Sizable z) :
    |((sqrtRnd (rnd (rnd (sq x + sq y) + sq z)) : ℚ) : ℝ) - exactLength x y z| ≤ exactLength x y z / 2 ^ 50 := by
  obtain ⟨h, h0⟩ := squares_near hsq dx dy dz hx hy hz
  have e : exactLength x y z = √(((x ^ 2 + y ^ 2 + z ^ 2 : ℚ)) : ℝ) := by unfold exactLength; push_cast; rfl
  rw [e]
  have hs : 0 ≤ x ^ 2 + y ^ 2 + z ^ 2 := by positivity
  generalize rnd (rnd (sq x + sq y) + sq z) = R at *
  generalize x ^ 2 + y ^ 2 + z ^ 2 = s at *
  have h1 := sqrt_ratio (A := (R : ℝ)) (B := (s : ℝ)) (d := 9 / 2 ^ 54) (by exact_mod_cast hs) (by exact_mod_cast h0) (by have := cast_near h; push_cast at this; exact this)
  rcases h0.eq_or_lt with rfl | hR
  · rw [sqrtRnd_zero]
    simp only [Rat.cast_zero, Real.sqrt_zero] at h1 ⊢
    have := Real.sqrt_nonneg (s : ℝ)
    linarith
  · have h2 := sqrt_near hR
    have p := Real.sqrt_nonneg (s : ℝ)
    rw [abs_le] at *
    generalize √(R : ℝ) = r at *
    generalize √(s : ℝ) = t at *
    generalize ((sqrtRnd R : ℚ) : ℝ) = v at *
    norm_num at *
    constructor <;> linarith

/-- **C195**. The length of a vector whose components are not very small is right to one part in 2^50, and is zero for the zero vector alone. -/
theorem C195_length_partial (sq : ℚ → ℚ) (hsq : Squares sq) (a : D3) (ha : DoubleVector a) (hx : Sizable a.x) (hy : Sizable a.y) (hz : Sizable a.z) :
    |((a.mag sq : ℚ) : ℝ) - exactLength a.x a.y a.z| ≤ exactLength a.x a.y a.z / 2 ^ 50 ∧ (a.mag sq = 0 ↔ a = ⟨0, 0, 0⟩) := by
  have h := length_near hsq ha.1 ha.2.1 ha.2.2 hx hy hz
  refine ⟨h, ?_, ?_⟩
  · intro h0
    unfold D3.mag at h0
    rw [h0, Rat.cast_zero, zero_sub, abs_neg] at h
    have p : 0 ≤ exactLength a.x a.y a.z := Real.sqrt_nonneg _
    rw [abs_of_nonneg p] at h
    have z : exactLength a.x a.y a.z = 0 := by linarith
    unfold exactLength at z
    rw [Real.sqrt_eq_zero (by positivity)] at z
    obtain ⟨x, y, z⟩ := sum_zero (x := a.x) (y := a.y) (z := a.z) (by exact_mod_cast z)
    cases a; simp_all
  · rintro rfl
    have z : sq 0 = 0 := hsq.tiny 0 (by rw [zero_pow (by norm_num)]; exact (two_zpow_pos _).le)
    simp [D3.mag, z, rnd_zero, sqrtRnd_zero]

theorem part_near {x m : ℚ} {l : ℝ} (hl : 0 < l) (hm : |(m : ℝ) - l| ≤ l / 2 ^ 50) (hx : |(x : ℝ)| ≤ l) : |((rnd (x / m) : ℚ) : ℝ) - x / l| ≤ 1 / 2 ^ 49 := by
  have h1 := rnd_near (x / m)
  have h1' : |((rnd (x / m) : ℚ) : ℝ) - (x : ℝ) / m| ≤ |(x : ℝ) / m| / 2 ^ 53 + 2 ^ (-1075 : ℤ) := by
    have : ((|rnd (x / m) - x / m| : ℚ) : ℝ) ≤ ((|x / m| / 2 ^ 53 + 2 ^ (-1075 : ℤ) : ℚ) : ℝ) := Rat.cast_le.2 h1
    rw [Rat.cast_abs, Rat.cast_sub, Rat.cast_div, Rat.cast_add, Rat.cast_div, Rat.cast_abs, Rat.cast_div, Rat.cast_pow, Rat.cast_zpow, Rat.cast_ofNat] at this
    exact this
  have hη : (2 : ℝ) ^ (-1075 : ℤ) ≤ 1 / 2 ^ 60 := by
    rw [one_div, ← zpow_natCast, ← zpow_neg]
    exact zpow_le_zpow_right₀ (by norm_num) (by norm_num)
  rw [abs_le] at hm
  have hm0 : 0 < (m : ℝ) := by norm_num at hm; linarith
  have hr : |(x : ℝ) / m| ≤ 1 + 1 / 2 ^ 49 := by
    rw [abs_div, abs_of_pos hm0, div_le_iff₀ hm0]
    refine hx.trans ?_
    norm_num at *
    linarith
  have hd : |(x : ℝ) / m - x / l| ≤ (1 + 1 / 2 ^ 49) / 2 ^ 50 := by
    have e : (x : ℝ) / m - x / l = (x / m) * ((l - m) / l) := by field_simp
    rw [e, abs_mul]
    have : |(l - m) / l| ≤ 1 / 2 ^ 50 := by
      rw [abs_div, abs_of_pos hl, div_le_iff₀ hl, abs_le]
      constructor <;> linarith
    calc |(x : ℝ) / m| * |(l - m) / l| ≤ (1 + 1 / 2 ^ 49) * (1 / 2 ^ 50) := mul_le_mul hr this (abs_nonneg _) (by positivity)
      _ = _ := by ring
  have t : |((rnd (x / m) : ℚ) : ℝ) - x / l| ≤ |((rnd (x / m) : ℚ) : ℝ) - (x : ℝ) / m| + |(x : ℝ) / m - x / l| := abs_sub_le _ _ _
  generalize (2 : ℝ) ^ (-1075 : ℤ) = η at *
  norm_num at *
  linarith

/-- **C195**. The unit vector of a vector that is not zero and whose components are not very small: each component is right to 2^-49. -/
theorem C195_unit_partial (sq : ℚ → ℚ) (hsq : Squares sq) (a : D3) (ha : DoubleVector a) (hx : Sizable a.x) (hy : Sizable a.y) (hz : Sizable a.z) (h0 : a ≠ ⟨0, 0, 0⟩) :
    ∃ n : D3, a.norm sq = some n ∧ |(n.x : ℝ) - a.x / exactLength a.x a.y a.z| ≤ 1 / 2 ^ 49 ∧
      |(n.y : ℝ) - a.y / exactLength a.x a.y a.z| ≤ 1 / 2 ^ 49 ∧ |(n.z : ℝ) - a.z / exactLength a.x a.y a.z| ≤ 1 / 2 ^ 49 := by
  obtain ⟨h, hz⟩ := C195_length_partial sq hsq a ha hx hy hz
  have hm : a.mag sq ≠ 0 := fun c => h0 (hz.1 c)
  have hl : 0 < exactLength a.x a.y a.z := by
    have hp : 0 ≤ exactLength a.x a.y a.z := Real.sqrt_nonneg _
    rcases hp.eq_or_lt with c | c
    · rw [← c, sub_zero, zero_div] at h
      have := abs_nonpos_iff.1 h
      exact absurd (by exact_mod_cast this) hm
    · exact c
  have px : |((a.x : ℚ) : ℝ)| ≤ exactLength a.x a.y a.z := Real.abs_le_sqrt (by have := sq_nonneg (a.y : ℝ); have := sq_nonneg (a.z : ℝ); linarith)
  have py : |((a.y : ℚ) : ℝ)| ≤ exactLength a.x a.y a.z := Real.abs_le_sqrt (by have := sq_nonneg (a.x : ℝ); have := sq_nonneg (a.z : ℝ); linarith)
  have pz : |((a.z : ℚ) : ℝ)| ≤ exactLength a.x a.y a.z := Real.abs_le_sqrt (by have := sq_nonneg (a.x : ℝ); have := sq_nonneg (a.y : ℝ); linarith)
  refine ⟨_, by rw [D3.norm, if_neg hm], part_near hl h px, part_near hl h py, part_near hl h pz⟩

theorem sizable_rnd {x : ℚ} (h : Sizable x) : Sizable (rnd x) := by
  rcases h with rfl | h
  · exact .inl rnd_zero
  · right
    have hd : IsDouble (2 ^ (-511 : ℤ)) := ⟨1, -511, by norm_num, by norm_num, by simp⟩
    rcases le_total 0 x with hx | hx
    · rw [abs_of_nonneg hx] at h
      rw [abs_of_nonneg (rnd_nonneg hx), ← rnd_double hd]
      exact rnd_mono h
    · rw [abs_of_nonpos hx] at h
      have : |rnd x| = |rnd (-x)| := by rw [rnd_neg, abs_neg]
      rw [this, abs_of_nonneg (rnd_nonneg (by linarith)), ← rnd_double hd]
      exact rnd_mono h

/-- **C195**. The distance of two points whose coordinates are equal or differ by no very small number is right to one part in 2^49, is zero for equal points alone,
and does not depend on the order of the points. -/
theorem C195_distance_partial (sq : ℚ → ℚ) (hsq : Squares sq) (a b : D3) (ha : DoubleVector a) (hb : DoubleVector b) (hx : Sizable (a.x - b.x)) (hy : Sizable (a.y - b.y))
    (hz : Sizable (a.z - b.z)) :
    |((a.distance sq b : ℚ) : ℝ) - exactLength (a.x - b.x) (a.y - b.y) (a.z - b.z)| ≤ exactLength (a.x - b.x) (a.y - b.y) (a.z - b.z) / 2 ^ 49 ∧
    (a.distance sq b = 0 ↔ a = b) := by
  have key : |((a.distance sq b : ℚ) : ℝ) - exactLength (a.x - b.x) (a.y - b.y) (a.z - b.z)| ≤ exactLength (a.x - b.x) (a.y - b.y) (a.z - b.z) / 2 ^ 49 := by
    have h := length_near hsq (rnd_isDouble (a.x - b.x)) (rnd_isDouble (a.y - b.y)) (rnd_isDouble (a.z - b.z)) (sizable_rnd hx) (sizable_rnd hy) (sizable_rnd hz)
    have sqn : ∀ {p q : ℚ}, IsDouble p → IsDouble q → |rnd (p - q) ^ 2 - (p - q) ^ 2| ≤ (3 / 2 ^ 53) * (p - q) ^ 2 := by
      intro p q hp hq
      have := sum_near hp (neg_double hq)
      rw [← sub_eq_add_neg] at this
      generalize rnd (p - q) = r at *
      generalize p - q = d at *
      have e : r ^ 2 - d ^ 2 = (r - d) * (r - d + 2 * d) := by ring
      rw [e, abs_mul, ← sq_abs d]
      have t : |r - d + 2 * d| ≤ |r - d| + 2 * |d| := by
        have := abs_add_le (r - d) (2 * d)
        rw [abs_mul] at this; norm_num at this ⊢; exact this
      have p1 := abs_nonneg d
      calc |r - d| * |r - d + 2 * d| ≤ (|d| / 2 ^ 53) * (3 * |d|) := by
            apply mul_le_mul this _ (abs_nonneg _) (by positivity)
            refine t.trans ?_
            have : |d| / 2 ^ 53 ≤ |d| := div_le_self p1 (by norm_num)
            linarith
        _ = _ := by ring
    have s1 := sqn ha.1 hb.1
    have s2 := sqn ha.2.1 hb.2.1
    have s3 := sqn ha.2.2 hb.2.2
    have hr : |(rnd (a.x - b.x) ^ 2 + rnd (a.y - b.y) ^ 2 + rnd (a.z - b.z) ^ 2) - ((a.x - b.x) ^ 2 + (a.y - b.y) ^ 2 + (a.z - b.z) ^ 2)| ≤
        (3 / 2 ^ 53) * ((a.x - b.x) ^ 2 + (a.y - b.y) ^ 2 + (a.z - b.z) ^ 2) := by
      rw [abs_le] at *
      constructor <;> linarith
    have e : ∀ x y z : ℚ, exactLength x y z = √(((x ^ 2 + y ^ 2 + z ^ 2 : ℚ)) : ℝ) := by intro x y z; unfold exactLength; push_cast; rfl
    rw [e] at h ⊢
    unfold D3.distance
    have z1 : 0 ≤ rnd (a.x - b.x) ^ 2 + rnd (a.y - b.y) ^ 2 + rnd (a.z - b.z) ^ 2 := by positivity
    have z2 : 0 ≤ (a.x - b.x) ^ 2 + (a.y - b.y) ^ 2 + (a.z - b.z) ^ 2 := by positivity
    generalize rnd (a.x - b.x) ^ 2 + rnd (a.y - b.y) ^ 2 + rnd (a.z - b.z) ^ 2 = A at *
    generalize (a.x - b.x) ^ 2 + (a.y - b.y) ^ 2 + (a.z - b.z) ^ 2 = B at *
    have h1 := sqrt_ratio (A := (A : ℝ)) (B := (B : ℝ)) (d := 3 / 2 ^ 53) (by exact_mod_cast z2) (by exact_mod_cast z1) (by have := cast_near hr; push_cast at this; exact this)
    have p := Real.sqrt_nonneg (B : ℝ)
    rw [abs_le] at *
    generalize √(A : ℝ) = r at *
    generalize √(B : ℝ) = t at *
    norm_num at *
    constructor <;> linarith
  refine ⟨key, ?_, ?_⟩
  · intro h0
    rw [h0, Rat.cast_zero, zero_sub, abs_neg] at key
    have p : 0 ≤ exactLength (a.x - b.x) (a.y - b.y) (a.z - b.z) := Real.sqrt_nonneg _
    rw [abs_of_nonneg p] at key
    have z : exactLength (a.x - b.x) (a.y - b.y) (a.z - b.z) = 0 := by linarith
    unfold exactLength at z
    rw [Real.sqrt_eq_zero (by positivity)] at z
    obtain ⟨x, y, z⟩ := sum_zero (x := a.x - b.x) (y := a.y - b.y) (z := a.z - b.z) (by exact_mod_cast z)
    cases a; cases b
    simp only [D3.mk.injEq] at *
    exact ⟨by linarith, by linarith, by linarith⟩
  · rintro rfl
    have z : sq 0 = 0 := hsq.tiny 0 (by rw [zero_pow (by norm_num)]; exact (two_zpow_pos _).le)
    simp [D3.distance, z, rnd_zero, sqrtRnd_zero]

/-- **C195**. For every two points, the distance does not depend on the order, and it is the length of their difference. -/
theorem C195_distance_order (sq : ℚ → ℚ) (hsq : Squares sq) (a b : D3) : a.distance sq b = b.distance sq a ∧ a.distance sq b = (a.sub b).mag sq := by
  have : ∀ p q : ℚ, sq (rnd (p - q)) = sq (rnd (q - p)) := by
    intro p q
    rw [← neg_sub, rnd_neg, hsq.even]
  exact ⟨by simp only [D3.distance, this a.x, this a.y, this a.z], rfl⟩

/-- **C195 fails for very small vectors**: if no component is more than 2^-538 then the length is zero, and there is no unit vector, although the vector is not zero;
and different points that are so close have distance zero. -/
theorem C195_tiny_violated (sq : ℚ → ℚ) (hsq : Squares sq) (a : D3) (hx : |a.x| ≤ 2 ^ (-538 : ℤ)) (hy : |a.y| ≤ 2 ^ (-538 : ℤ)) (hz : |a.z| ≤ 2 ^ (-538 : ℤ)) :
    a.mag sq = 0 ∧ a.norm sq = none ∧ (DoubleVector a → a.distance sq ⟨0, 0, 0⟩ = 0) := by
  have t : ∀ {x : ℚ}, |x| ≤ 2 ^ (-538 : ℤ) → sq x = 0 := by
    intro x h
    apply hsq.tiny
    rw [← sq_abs]
    calc |x| ^ 2 ≤ (2 ^ (-538 : ℤ)) ^ 2 := by gcongr
      _ = 2 ^ (-1076 : ℤ) := by rw [← zpow_natCast, ← zpow_mul]; norm_num
  have m : a.mag sq = 0 := by simp [D3.mag, t hx, t hy, t hz, rnd_zero, sqrtRnd_zero]
  refine ⟨m, by rw [D3.norm, if_pos m], fun hd => ?_⟩
  simp [D3.distance, rnd_double hd.1, rnd_double hd.2.1, rnd_double hd.2.2, t hx, t hy, t hz, rnd_zero, sqrtRnd_zero]

/-- The nearest double of the square is such a square. -/
theorem nearest_square : Squares fun x => rnd (x ^ 2) where
  double x _ := rnd_isDouble _
  nonneg x := rnd_nonneg (sq_nonneg x)
  even x := by simp
  near x h := by
    have := rnd_rel (q := x ^ 2) (by rwa [abs_of_nonneg (sq_nonneg x)])
    rw [abs_of_nonneg (sq_nonneg x)] at this
    have p := sq_nonneg x
    norm_num at *
    linarith
  tiny x h := by
    by_cases h0 : x ^ 2 = 0
    · simp only [h0, rnd_zero]
    · have p : 0 < x ^ 2 := lt_of_le_of_ne (sq_nonneg x) (Ne.symm h0)
      have e := expo_small h0 (by rw [abs_of_pos p]; exact h.trans_lt (zpow_lt_zpow_right₀ (by norm_num) (by norm_num)))
      have er := rnd_error (x ^ 2)
      unfold rnd ulp at er ⊢
      rw [e] at er ⊢
      generalize Py.round (x ^ 2 / 2 ^ ((-1022 : ℤ) - 52)) = n at er ⊢
      have e1 : (2 : ℚ) ^ ((-1022 : ℤ) - 52) = 4 * 2 ^ (-1076 : ℤ) := by
        rw [show (4 : ℚ) = 2 ^ (2 : ℤ) by norm_num, ← zpow_add₀ (by norm_num)]; norm_num
      rw [e1] at er ⊢
      have hη := two_zpow_pos (-1076)
      generalize (2 : ℚ) ^ (-1076 : ℤ) = η at er h hη ⊢
      rw [abs_le] at er
      have n1 : (n : ℚ) < 1 := by nlinarith
      have n2 : (-1 : ℚ) < n := by nlinarith
      have : n = 0 := by
        have a1 : n < 1 := by exact_mod_cast n1
        have a2 : -1 < n := by exact_mod_cast n2
        omega
      rw [this]; simp

/-- **C195 fails for the laws with two roundings**: sums are not associative, a factor does not distribute, parallel vectors have a cross product that is not zero, a
cross product is not perpendicular to its factor however the dot product is added up, and a unit vector has a length that is not one. -/
theorem C195_laws_violated :
    (∃ a b c : D3, DoubleVector a ∧ DoubleVector b ∧ DoubleVector c ∧ (a.add b).add c ≠ a.add (b.add c)) ∧
    (∃ (a b : D3) (k : ℚ), DoubleVector a ∧ DoubleVector b ∧ IsDouble k ∧ (a.add b).mul k ≠ (a.mul k).add (b.mul k)) ∧
    (∃ (a : D3) (k : ℚ), DoubleVector a ∧ IsDouble k ∧ a.cross (a.mul k) ≠ ⟨0, 0, 0⟩) ∧
    (∃ a b : D3, DoubleVector a ∧ DoubleVector b ∧ ∀ r ∈ a.dots (a.cross b), r ≠ 0) ∧
    (∃ a n : D3, DoubleVector a ∧ a.norm (fun x => rnd (x ^ 2)) = some n ∧ n.mag (fun x => rnd (x ^ 2)) ≠ 1) := by
  have d : ∀ p q r : ℚ, DoubleVector ⟨rnd p, rnd q, rnd r⟩ := fun p q r => ⟨rnd_isDouble p, rnd_isDouble q, rnd_isDouble r⟩
  refine ⟨⟨⟨rnd (1 / 10), rnd 0, rnd 0⟩, ⟨rnd (2 / 10), rnd 0, rnd 0⟩, ⟨rnd (3 / 10), rnd 0, rnd 0⟩, d _ _ _, d _ _ _, d _ _ _, by decide +kernel⟩,
    ⟨⟨rnd (1 / 10), rnd 0, rnd 0⟩, ⟨rnd (2 / 10), rnd 0, rnd 0⟩, rnd 10, d _ _ _, d _ _ _, rnd_isDouble _, by decide +kernel⟩,
    ⟨⟨rnd (1 / 10), rnd (1 / 10), rnd (3 / 10)⟩, rnd (1 / 10), d _ _ _, rnd_isDouble _, by decide +kernel⟩,
    ⟨⟨rnd (1 / 10), rnd (1 / 10), rnd (2 / 10)⟩, ⟨rnd (1 / 10), rnd (4 / 10), rnd (1 / 10)⟩, d _ _ _, d _ _ _, by decide +kernel⟩,
    ⟨⟨rnd (1 / 10), rnd (1 / 10), rnd (5 / 10)⟩, (D3.norm (fun x => rnd (x ^ 2)) ⟨rnd (1 / 10), rnd (1 / 10), rnd (5 / 10)⟩).get (by decide +kernel), d _ _ _,
      by simp, by decide +kernel⟩⟩

/-! ### Examples -/

/-- The hypotheses of `C195_whole`, and its values. -/
example : WholeVector (2 ^ 25) ⟨3, 4, 12⟩ ∧ (⟨3, 4, 12⟩ : D3).dots ⟨1, 0, 2⟩ = List.replicate 24 27 :=
  ⟨⟨3, 4, 12, by norm_num, by norm_num, by norm_num, by norm_num⟩, by decide +kernel⟩

/-- The hypotheses of the theorems on lengths. -/
example : let a : D3 := ⟨3, 4, 12⟩
    DoubleVector a ∧ Sizable a.x ∧ Sizable a.y ∧ Sizable a.z ∧ a ≠ ⟨0, 0, 0⟩ ∧ a.mag (fun x => rnd (x ^ 2)) = 13 := by
  have h : ∀ x : ℚ, 1 ≤ |x| → Sizable x := fun x h => .inr (le_trans (zpow_le_one_of_nonpos₀ (by norm_num) (by norm_num)) h)
  have d : ∀ n : ℤ, |n| ≤ 2 ^ 53 → IsDouble (n : ℚ) := fun n h => int_double h
  exact ⟨⟨d 3 (by norm_num), d 4 (by norm_num), d 12 (by norm_num)⟩, h 3 (by norm_num), h 4 (by norm_num), h 12 (by norm_num), by decide, by decide +kernel⟩

/-- The hypotheses of `C195_tiny_violated`: a vector that is not zero. -/
example : let a : D3 := ⟨2 ^ (-538 : ℤ), 0, 0⟩
    DoubleVector a ∧ a ≠ ⟨0, 0, 0⟩ ∧ |a.x| ≤ 2 ^ (-538 : ℤ) ∧ |a.y| ≤ 2 ^ (-538 : ℤ) ∧ |a.z| ≤ 2 ^ (-538 : ℤ) := by
  have p := two_zpow_pos (-538)
  refine ⟨⟨⟨1, -538, by norm_num, by norm_num, by simp⟩, zero_double, zero_double⟩, ?_, (abs_of_pos p).le, by rw [abs_zero]; exact p.le, by rw [abs_zero]; exact p.le⟩
  intro c
  exact p.ne' (congrArg D3.x c)

end Verif.Props
