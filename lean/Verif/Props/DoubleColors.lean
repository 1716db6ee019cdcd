import Verif.Model.DoubleColors
import Verif.Props.ColorMap
import Verif.Props.DoubleMoney
import Verif.Props.DoublePlaces
import Verif.Lemmas.Double

/-!
# C191: the colour of a data value in binary arithmetic
-/

namespace Verif.Props
open Verif.Spec Verif.Dbl

theorem rnd_bound {q B : ℚ} (h : |q| ≤ B) (hB : 2 ^ (-1022 : ℤ) ≤ B) : |rnd q - q| ≤ B / 2 ^ 53 := by
  by_cases h0 : q = 0
  · subst h0
    rw [rnd_double zero_double, sub_zero, abs_zero]
    exact div_nonneg (le_trans (two_zpow_pos _).le hB) (by positivity)
  by_cases hq : (2 : ℚ) ^ (-1022 : ℤ) ≤ |q|
  · exact (rnd_rel hq).trans (by gcongr)
  · have hu : ulp q = 2 ^ (-1074 : ℤ) := by
      unfold ulp expo
      rw [max_eq_right]
      · norm_num
      · by_contra hc
        push Not at hc
        have h1 := Int.zpow_log_le_self (b := 2) (by norm_num) (abs_pos.2 h0)
        have h2 : (2 : ℚ) ^ (-1022 : ℤ) ≤ 2 ^ (Int.log 2 |q|) := zpow_le_zpow_right₀ (by norm_num) hc.le
        push_cast at h1
        exact hq (h2.trans h1)
    refine (rnd_error q).trans ?_
    rw [hu]
    have : (2 : ℚ) ^ (-1074 : ℤ) / 2 ≤ 2 ^ (-1022 : ℤ) / 2 ^ 53 := by
      rw [show (-1022 : ℤ) = -1074 + 52 by norm_num, zpow_add₀ (by norm_num)]
      generalize (2 : ℚ) ^ (-1074 : ℤ) = t
      norm_num
      linarith
    exact this.trans (by gcongr)

theorem rnd_one {q B : ℚ} (h : |q| ≤ B) (hB : 1 ≤ B) : |rnd q - q| ≤ B / 2 ^ 53 :=
  rnd_bound h (le_trans (zpow_le_one_of_nonpos₀ (by norm_num) (by norm_num)) hB)

theorem rnd_mono {q r : ℚ} (h : q ≤ r) : rnd q ≤ rnd r := by
  by_contra hc
  push Not at hc
  have h1 : rnd r < q := by
    by_contra h1
    exact absurd (rnd_at_most (rnd_isDouble r) (not_lt.1 h1)) (not_le.2 hc)
  have h2 : r < rnd q := by
    by_contra h2
    exact absurd (rnd_at_least (rnd_isDouble q) (not_lt.1 h2)) (not_le.2 hc)
  have n1 := (rnd_nearest q).2 _ (rnd_isDouble r)
  have n2 := (rnd_nearest r).2 _ (rnd_isDouble q)
  rw [abs_of_nonneg (by linarith), abs_of_nonpos (by linarith)] at n1
  rw [abs_of_nonpos (by linarith), abs_of_nonneg (by linarith)] at n2
  have : q = r := by linarith
  subst this
  exact lt_irrefl _ hc

theorem multiple_1074 {q : ℚ} (h : IsDouble q) : ∃ n : ℤ, q = n * 2 ^ (-1074 : ℤ) := by
  obtain ⟨m, e, _, he, rfl⟩ := h
  exact multiple_of_le he m

/-- The difference of two doubles is rounded by one part in `2 ^ 53` at most, however small it is. -/
theorem sub_rel {a b : ℚ} (ha : IsDouble a) (hb : IsDouble b) : |rnd (b - a) - (b - a)| ≤ |b - a| / 2 ^ 53 := by
  by_cases hq : (2 : ℚ) ^ (-1022 : ℤ) ≤ |b - a|
  · exact rnd_rel hq
  · obtain ⟨n, hn⟩ := multiple_1074 ha
    obtain ⟨m, hm⟩ := multiple_1074 hb
    have hd : b - a = ((m - n : ℤ) : ℚ) * 2 ^ (-1074 : ℤ) := by
      rw [hn, hm]
      generalize (2 : ℚ) ^ (-1074 : ℤ) = t
      push_cast
      ring
    have : IsDouble (b - a) := by
      refine ⟨m - n, -1074, ?_, le_rfl, hd⟩
      by_contra hc
      push Not at hc
      apply hq
      rw [hd, abs_mul, abs_of_pos (two_zpow_pos (-1074)), show (-1022 : ℤ) = 52 + -1074 by norm_num, zpow_add₀ (by norm_num)]
      have h1 : ((2 : ℚ) ^ (53 : ℕ)) ≤ |((m - n : ℤ) : ℚ)| := by exact_mod_cast hc
      have h2 := two_zpow_pos (-1074)
      gcongr
      refine le_trans ?_ h1
      norm_num
    rw [rnd_double this, sub_self, abs_zero]
    positivity

theorem sub_pos_rnd {a b : ℚ} (ha : IsDouble a) (hb : IsDouble b) (h : a < b) : 0 < rnd (b - a) := by
  have h1 := sub_rel ha hb
  rw [abs_of_pos (sub_pos.2 h)] at h1
  have := (abs_le.1 h1).1
  nlinarith [sub_pos.2 h]

theorem rnd_zero : rnd 0 = 0 := rnd_double zero_double

theorem rnd_nonneg {q : ℚ} (h : 0 ≤ q) : 0 ≤ rnd q := rnd_at_least zero_double h

theorem rnd_le_one {q : ℚ} (h : q ≤ 1) : rnd q ≤ 1 := rnd_at_most one_double h

theorem position_mono {lo hi z z' : ℚ} (hlo : IsDouble lo) (hhi : IsDouble hi) (h : lo < hi) (hz : z ≤ z') : position lo hi z ≤ position lo hi z' := by
  have := sub_pos_rnd hlo hhi h
  unfold position
  apply rnd_mono
  have h1 : rnd (z - lo) ≤ rnd (z' - lo) := rnd_mono (by linarith)
  gcongr

theorem position_low {lo hi : ℚ} : position lo hi lo = 0 := by
  unfold position
  rw [sub_self, rnd_zero, zero_div, rnd_zero]

theorem position_high {lo hi : ℚ} (hlo : IsDouble lo) (hhi : IsDouble hi) (h : lo < hi) : position lo hi hi = 1 := by
  unfold position
  rw [div_self (sub_pos_rnd hlo hhi h).ne', rnd_double one_double]

theorem position_near {lo hi z : ℚ} (hlo : IsDouble lo) (hhi : IsDouble hi) (hd : IsDouble z) (h1 : lo ≤ z) (h2 : z ≤ hi) (h : lo < hi) :
    |position lo hi z - (z - lo) / (hi - lo)| ≤ 4 / 2 ^ 53 := by
  have e1 := sub_rel hlo hd
  have e2 := sub_rel hlo hhi
  have hD : 0 < hi - lo := by linarith
  have hD' := sub_pos_rnd hlo hhi h
  have hle : rnd (z - lo) ≤ rnd (hi - lo) := rnd_mono (by linarith)
  have h0 : 0 ≤ rnd (z - lo) := rnd_nonneg (by linarith)
  unfold position
  rw [abs_of_nonneg (show 0 ≤ z - lo by linarith)] at e1
  rw [abs_of_pos hD] at e2
  have q1 : rnd (z - lo) / rnd (hi - lo) ≤ 1 := by rw [div_le_one hD']; exact hle
  have q0 : 0 ≤ rnd (z - lo) / rnd (hi - lo) := div_nonneg h0 hD'.le
  have e3 := rnd_one (q := rnd (z - lo) / rnd (hi - lo)) (B := 1) (by rw [abs_of_nonneg q0]; exact q1) le_rfl
  have hA : z - lo ≤ hi - lo := by linarith
  have hA0 : 0 ≤ z - lo := by linarith
  generalize rnd (rnd (z - lo) / rnd (hi - lo)) = y at e3 ⊢
  generalize rnd (z - lo) = A' at *
  generalize rnd (hi - lo) = D' at *
  generalize z - lo = A at *
  generalize hi - lo = D at *
  have key : |A' / D' - A / D| ≤ 3 / 2 ^ 53 := by
    rw [div_sub_div _ _ hD'.ne' hD.ne', abs_div, abs_of_pos (mul_pos hD' hD), div_le_iff₀ (mul_pos hD' hD)]
    rw [abs_le] at e1 e2
    have hDD : D * (1 - 1 / 2 ^ 53) ≤ D' := by linarith
    rw [abs_le]
    constructor <;> nlinarith [mul_nonneg hD.le hD.le, mul_nonneg hA0 hD.le, mul_nonneg (sub_nonneg.2 hA) hD.le]
  have e := abs_add_le (y - A' / D') (A' / D' - A / D)
  rw [show y - A' / D' + (A' / D' - A / D) = y - A / D by ring] at e
  linarith

/-! ### The index -/

theorem index_cell {n : ℕ} (hn : 0 < n) (t : ℚ) : tableIndex n t = Colors.cell n (rnd (t * n) / n) := by
  have : (n : ℚ) ≠ 0 := by exact_mod_cast hn.ne'
  unfold tableIndex Colors.cell
  rw [div_mul_cancel₀ _ this]

theorem index_le (n : ℕ) (hn : 0 < n) (t : ℚ) : tableIndex n t ≤ n - 1 := by
  rw [index_cell hn]
  exact cell_le n _

theorem index_mono {n : ℕ} (hn : 0 < n) {t t' : ℚ} (h : t ≤ t') : tableIndex n t ≤ tableIndex n t' := by
  rw [index_cell hn, index_cell hn]
  apply cell_mono hn
  have : rnd (t * n) ≤ rnd (t' * n) := rnd_mono (by gcongr)
  gcongr

theorem nat_double {n : ℕ} (h : n ≤ 2 ^ 53) : IsDouble (n : ℚ) := by
  have := int_double (n := (n : ℤ)) (by rw [abs_of_nonneg (by omega)]; exact_mod_cast h)
  exact_mod_cast this

theorem index_low {n : ℕ} (hn : 0 < n) {t : ℚ} (h : t ≤ 0) : tableIndex n t = 0 := by
  rw [index_cell hn]
  apply cell_low _ hn
  have : rnd (t * n) ≤ 0 := rnd_at_most zero_double (mul_nonpos_of_nonpos_of_nonneg h (Nat.cast_nonneg n))
  exact div_nonpos_of_nonpos_of_nonneg this (Nat.cast_nonneg n)

theorem index_high {n : ℕ} (hn : 0 < n) (hb : n ≤ 2 ^ 53) {t : ℚ} (h : 1 ≤ t) : tableIndex n t = n - 1 := by
  rw [index_cell hn]
  apply cell_high _ hn
  have h0 : (0 : ℚ) < n := by exact_mod_cast hn
  rw [le_div_iff₀ h0, one_mul]
  apply rnd_at_least (nat_double hb)
  nlinarith

theorem index_near {n : ℕ} (hn : 2 ≤ n) {t : ℚ} (h0 : 0 ≤ t) (h1 : t ≤ 1) : |(tableIndex n t : ℚ) / ((n : ℚ) - 1) - t| ≤ 1 / n + 1 / 2 ^ 53 := by
  have hn' : (2 : ℚ) ≤ n := by exact_mod_cast hn
  have hnp : (0 : ℚ) < n := by linarith
  have htn : t * n ≤ n := by nlinarith
  have e1 := rnd_one (q := t * n) (B := n) (by rw [abs_of_nonneg (by positivity)]; exact htn) (by linarith)
  rw [index_cell (by omega)]
  have e2 : |rnd (t * n) / n - t| ≤ 1 / 2 ^ 53 := by
    rw [show rnd (t * n) / n - t = (rnd (t * n) - t * n) / n by field_simp, abs_div, abs_of_pos hnp, div_le_iff₀ hnp]
    calc _ ≤ _ := e1
      _ = _ := by ring
  by_cases hy : rnd (t * n) ≤ n
  · have e3 := cell_near hn (t := rnd (t * n) / n) (div_nonneg (rnd_nonneg (by positivity)) hnp.le) (by rw [div_le_one hnp]; exact hy)
    have e := abs_add_le ((Colors.cell n (rnd (t * n) / n) : ℚ) / ((n : ℚ) - 1) - rnd (t * n) / n) (rnd (t * n) / n - t)
    rw [sub_add_sub_cancel] at e
    linarith
  · rw [cell_high (by rw [le_div_iff₀ hnp]; linarith) (by omega), Nat.cast_sub (by omega), Nat.cast_one, div_self (by linarith)]
    have : 1 < rnd (t * n) / n := by rw [lt_div_iff₀ hnp]; linarith
    rw [abs_of_nonneg (by linarith)]
    have h2 := (abs_le.1 e2).2
    have : 0 < 1 / (n : ℚ) := by positivity
    linarith

/-! ### The table -/

theorem place_mono (n : ℕ) (hn : 2 ≤ n) {i j : ℕ} (h : i ≤ j) : place n i ≤ place n j := by
  have hm : (0 : ℚ) < (n : ℚ) - 1 := by
    have : (2 : ℚ) ≤ n := by exact_mod_cast hn
    linarith
  have hs : 0 ≤ rnd (1 / ((n : ℚ) - 1)) := rnd_nonneg (by positivity)
  have hij : (i : ℚ) ≤ j := by exact_mod_cast h
  unfold place
  apply rnd_mono
  have : rnd (i * rnd (1 / ((n : ℚ) - 1))) ≤ rnd (j * rnd (1 / ((n : ℚ) - 1))) := rnd_mono (by gcongr)
  gcongr

theorem place_near {n i : ℕ} (hn : 2 ≤ n) (hb : n ≤ 2 ^ 40) (hi : i ≤ n - 1) :
    |place n i - i| ≤ 5 * ((n : ℚ) - 1) / 2 ^ 53 ∧ (i ≤ n - 2 → place n i ≤ (n : ℚ) - 1) ∧ IsDouble (place n i) := by
  have hn' : (2 : ℚ) ≤ n := by exact_mod_cast hn
  have hb' : (n : ℚ) ≤ 2 ^ 40 := by exact_mod_cast hb
  have hmd : IsDouble ((n : ℚ) - 1) := by
    have := nat_double (n := n - 1) (by omega)
    rwa [Nat.cast_sub (by omega), Nat.cast_one] at this
  have hi' : (i : ℚ) ≤ (n : ℚ) - 1 := by
    have h : ((i : ℕ) : ℚ) ≤ ((n - 1 : ℕ) : ℚ) := by exact_mod_cast hi
    rwa [Nat.cast_sub (by omega), Nat.cast_one] at h
  have hi0 : (0 : ℚ) ≤ i := Nat.cast_nonneg i
  have hlast : i ≤ n - 2 → (i : ℚ) ≤ (n : ℚ) - 1 - 1 := by
    intro h
    have : ((i + 1 : ℕ) : ℚ) ≤ ((n - 1 : ℕ) : ℚ) := by exact_mod_cast (by omega : i + 1 ≤ n - 1)
    rw [Nat.cast_sub (by omega), Nat.cast_one] at this
    push_cast at this
    linarith
  unfold place
  set m : ℚ := (n : ℚ) - 1 with hm
  have hm1 : 1 ≤ m := by rw [hm]; linarith
  have hmb : m ≤ 2 ^ 40 := by rw [hm]; linarith
  have hinv : 0 < 1 / m := by positivity
  have htiny : (2 : ℚ) ^ (-1022 : ℤ) ≤ 1 / m := by
    rw [le_div_iff₀ (by linarith)]
    calc (2 : ℚ) ^ (-1022 : ℤ) * m ≤ 2 ^ (-1022 : ℤ) * 2 ^ (40 : ℤ) := by
          have := two_zpow_pos (-1022)
          gcongr
          exact_mod_cast hmb
      _ = 2 ^ (-982 : ℤ) := by rw [← zpow_add₀ (by norm_num)]; norm_num
      _ ≤ 1 := zpow_le_one_of_nonpos₀ (by norm_num) (by norm_num)
  have e1 := rnd_bound (q := 1 / m) (by rw [abs_of_pos hinv]) htiny
  have hs0 : 0 ≤ rnd (1 / m) := rnd_nonneg hinv.le
  have e1' : |(i : ℚ) * rnd (1 / m) - i / m| ≤ 1 / 2 ^ 53 := by
    rw [show (i : ℚ) * rnd (1 / m) - i / m = i * (rnd (1 / m) - 1 / m) by ring, abs_mul, abs_of_nonneg hi0]
    calc (i : ℚ) * |rnd (1 / m) - 1 / m| ≤ m * (1 / m / 2 ^ 53) := by gcongr
      _ = 1 / 2 ^ 53 := by field_simp
  have him : (i : ℚ) / m ≤ 1 := by rw [div_le_one (by linarith)]; exact hi'
  have him0 : 0 ≤ (i : ℚ) / m := by positivity
  have g1 := abs_le.1 e1'
  have e2 := rnd_one (q := (i : ℚ) * rnd (1 / m)) (B := 2) (by
    rw [abs_of_nonneg (by positivity)]
    linarith [g1.2, show (1 : ℚ) / 2 ^ 53 ≤ 1 by norm_num]) (by norm_num)
  have e2' : |rnd ((i : ℚ) * rnd (1 / m)) - i / m| ≤ 3 / 2 ^ 53 := by
    have e := abs_add_le (rnd ((i : ℚ) * rnd (1 / m)) - i * rnd (1 / m)) (i * rnd (1 / m) - i / m)
    rw [sub_add_sub_cancel] at e
    linarith
  have hr0 : 0 ≤ rnd ((i : ℚ) * rnd (1 / m)) := rnd_nonneg (by positivity)
  have hsmall : i ≤ n - 2 → rnd ((i : ℚ) * rnd (1 / m)) ≤ 1 := by
    intro h
    apply rnd_le_one
    have h1 := (abs_le.1 e1).2
    have h2 := hlast h
    calc (i : ℚ) * rnd (1 / m) ≤ (m - 1) * (1 / m + 1 / m / 2 ^ 53) := by
          gcongr
          linarith
      _ ≤ 1 := by
          rw [show (m - 1) * (1 / m + 1 / m / 2 ^ 53) = (m - 1) * (1 + 1 / 2 ^ 53) / m by ring, div_le_one (by linarith)]
          nlinarith
  refine ⟨?_, fun h => ?_, rnd_isDouble _⟩
  · generalize rnd ((i : ℚ) * rnd (1 / m)) = y at *
    have g2 := abs_le.1 e2'
    have hy : m * y ≤ 2 * m := by nlinarith [show (3 : ℚ) / 2 ^ 53 ≤ 1 by norm_num]
    have e3 := rnd_one (q := m * y) (B := 2 * m) (by rw [abs_of_nonneg (by positivity)]; exact hy) (by linarith)
    have e4 : |m * y - i| ≤ 3 * m / 2 ^ 53 := by
      rw [show m * y - i = m * (y - i / m) by field_simp, abs_mul, abs_of_pos (by linarith)]
      calc m * |y - i / m| ≤ m * (3 / 2 ^ 53) := by gcongr
        _ = _ := by ring
    have e := abs_add_le (rnd (m * y) - m * y) (m * y - i)
    rw [sub_add_sub_cancel] at e
    linarith [show 2 * m / 2 ^ 53 + 3 * m / 2 ^ 53 = 5 * m / 2 ^ 53 by ring]
  · apply rnd_at_most hmd
    have := hsmall h
    nlinarith

theorem blend_spec (n : ℕ) (knots : List Colors.Knot) (x : ℚ) (k0 kl : Colors.Knot) (h0 : knots.head? = some k0)
    (hl : knots.getLast? = some kl) (hx0 : rnd (k0.x * ((n : ℚ) - 1)) < x) (hxl : x ≤ rnd (kl.x * ((n : ℚ) - 1))) :
    ∃ (i : ℕ) (k k' : Colors.Knot), knots[i]? = some k ∧ knots[i + 1]? = some k' ∧ rnd (k.x * ((n : ℚ) - 1)) < x ∧
      x ≤ rnd (k'.x * ((n : ℚ) - 1)) ∧ ∀ ch, blend ch n knots x =
        rnd (rnd (position (rnd (k.x * ((n : ℚ) - 1))) (rnd (k'.x * ((n : ℚ) - 1))) x * rnd (ch k'.before - ch k.after)) + ch k.after) := by
  induction knots generalizing k0 with
  | nil => simp at h0
  | cons a ks ih =>
    cases h0
    cases ks with
    | nil =>
      simp only [List.getLast?_singleton, Option.some.injEq] at hl
      subst hl
      linarith
    | cons b ks =>
      by_cases hb : x ≤ rnd (b.x * ((n : ℚ) - 1))
      · refine ⟨0, a, b, rfl, rfl, hx0, hb, fun ch => ?_⟩
        unfold blend position
        rw [if_pos hb]
      · obtain ⟨i, k, k', e1, e2, e3, e4, e5⟩ := ih b rfl (by simpa using hl) (not_le.1 hb)
        refine ⟨i + 1, k, k', e1, e2, e3, e4, fun ch => ?_⟩
        rw [← e5 ch, blend, if_neg hb]

/-- A palette of contiguous coloured ranges whose limits are doubles, with colours of 0..255 and at most `2 ^ 40` entries. -/
structure PaintedBinary (s : Colors.Segments) (resolution : Option ℚ) (p : Colors.Palette) : Prop where
  ranges : Contiguous s.z0 s.z1
  starts : s.rgb0.length = s.z0.length
  ends : s.rgb1.length = s.z0.length
  colors : ∀ c ∈ s.rgb0 ++ s.rgb1, Within255 c
  doubles : ∀ z ∈ s.z0 ++ s.z1, IsDouble z
  built : palette s resolution false = .ok p
  size : p.numcolors ≤ 2 ^ 40

open Verif.Colors (Knot RGB scale255 dummyB dummyE Segments Palette acceptable clip)

theorem palette_contiguous (s : Segments) (resolution : Option ℚ) (isLog : Bool) (hc : Contiguous s.z0 s.z1)
    (h0 : s.rgb0.length = s.z0.length) (h1 : s.rgb1.length = s.z0.length) :
    ∃ zf zl p, s.z0.head? = some zf ∧ s.z1.getLast? = some zl ∧ zf < zl ∧
      (s.z0 ++ [zl]).Pairwise (· < ·) ∧ s.z1 = (s.z0 ++ [zl]).tail ∧
      palette s resolution isLog = .ok p ∧ p.isLog = isLog ∧ p.vmin = zf ∧ p.vmax = zl ∧
      p.numcolors = numColors zf zl resolution ∧
      p.knots = ((s.z0 ++ [zl]).zip ((dummyB :: s.rgb1).zip (s.rgb0 ++ [dummyE]))).map
        (fun t => roundKnot ⟨position zf zl t.1, scale255 t.2.1, scale255 t.2.2⟩) := by
  obtain ⟨zf, zl, e1, e2, e3, e4, e5, e6, e7⟩ := contiguous_minmax hc
  have hrej : Colors.lengthsRejected s = false := by simp [Colors.lengthsRejected, hc.2.1]
  refine ⟨zf, zl, ⟨isLog, zf, zl, _, numColors zf zl resolution⟩, e1, e4, e5, e6, e7, ?_, rfl, rfl, rfl, rfl, rfl⟩
  unfold palette
  rw [hrej]
  simp only [Bool.false_eq_true, if_false, e2, e3, e4]
  rw [buildKnots_ok]
  · simp only [Except.ok.injEq, Colors.Palette.mk.injEq, true_and, and_true]
    rw [show s.z0.map (position zf zl) ++ [position zf zl zl] = (s.z0 ++ [zl]).map (position zf zl) by simp, List.zip_map_left, List.map_map,
      List.map_map]
    rfl
  · simp; omega
  · simp; omega

/-- The facts about the knots of a palette that its table rests on. -/
theorem knots_binary {s : Segments} {resolution : Option ℚ} {p : Palette} (hp : PaintedBinary s resolution p) :
    p.isLog = false ∧ p.vmin < p.vmax ∧ IsDouble p.vmin ∧ IsDouble p.vmax ∧ s.z0.head? = some p.vmin ∧ s.z1.getLast? = some p.vmax ∧
    256 ≤ p.numcolors ∧ p.knots.length = s.z0.length + 1 ∧
    (∀ z ∈ s.z0 ++ [p.vmax], p.vmin ≤ z ∧ z ≤ p.vmax ∧ IsDouble z) ∧ s.z1 = (s.z0 ++ [p.vmax]).tail ∧
    (s.z0 ++ [p.vmax]).Pairwise (· < ·) ∧
    ∀ (j : ℕ) (k : Knot), p.knots[j]? = some k → ∃ z b a, (s.z0 ++ [p.vmax])[j]? = some z ∧ (dummyB :: s.rgb1)[j]? = some b ∧
      (s.rgb0 ++ [dummyE])[j]? = some a ∧ k = roundKnot ⟨position p.vmin p.vmax z, scale255 b, scale255 a⟩ := by
  obtain ⟨zf, zl, q, e1, e2, e3, e4, e5, e6, e7, e8, e9, e10, e11⟩ := palette_contiguous s resolution false hp.ranges hp.starts hp.ends
  have hb := hp.built
  rw [e6] at hb
  cases hb
  subst e8 e9
  have hmem : ∀ z ∈ s.z0 ++ [p.vmax], IsDouble z := by
    intro z hz
    rcases List.mem_append.1 hz with h | h
    · exact hp.doubles z (List.mem_append_left _ h)
    · rw [List.mem_singleton.1 h]
      exact hp.doubles _ (List.mem_append_right _ (List.mem_of_getLast? e2))
  have hfirst : p.vmin ∈ s.z0 := List.mem_of_head? e1
  refine ⟨e7, e3, hmem _ (List.mem_append_left _ hfirst), hmem _ (by simp), e1, e2, ?_, ?_, fun z hz => ⟨?_, ?_, hmem z hz⟩, e5, e4, ?_⟩
  · rw [e10]
    unfold numColors
    cases resolution
    · exact le_rfl
    · exact le_max_left _ _
  · rw [e11]
    have := hp.starts
    have := hp.ends
    simp
    omega
  · cases hz0 : s.z0 with
    | nil => rw [hz0] at e1; cases e1
    | cons a as =>
      rw [hz0] at e1 e4 hz
      cases e1
      rw [List.cons_append, List.pairwise_cons] at e4
      rcases List.mem_cons.1 hz with rfl | h
      · exact le_rfl
      · exact (e4.1 z h).le
  · rcases List.mem_append.1 hz with h | h
    · exact ((List.pairwise_append.1 e4).2.2 z h _ (by simp)).le
    · rw [List.mem_singleton.1 h]
  · intro j k hk
    rw [e11, List.getElem?_map, Option.map_eq_some_iff] at hk
    obtain ⟨⟨z, b, a⟩, ht, rfl⟩ := hk
    rw [List.getElem?_zip_eq_some, List.getElem?_zip_eq_some] at ht
    exact ⟨z, b, a, ht.1, ht.2.1, ht.2.2, rfl⟩

/-- Where a limit of a range lies in the table. -/
def scaledLimit (p : Palette) (z : ℚ) : ℚ := rnd (position p.vmin p.vmax z * ((p.numcolors.toNat : ℚ) - 1))

/-- Entry `i` of the table is read from range `j`, from `a` with colour `ca` to `b` with colour `cb`, at the part `d` of the way. -/
structure Reading (s : Segments) (p : Palette) (i j : ℕ) (a b : ℚ) (ca cb : RGB) (d : ℚ) : Prop where
  lower : s.z0[j]? = some a
  upper : s.z1[j]? = some b
  start : s.rgb0[j]? = some ca
  stop : s.rgb1[j]? = some cb
  d0 : 0 ≤ d
  d1 : d ≤ 1
  near : |(a + d * (b - a) - p.vmin) / (p.vmax - p.vmin) - i / ((p.numcolors.toNat : ℚ) - 1)| ≤ 14 / 2 ^ 53
  color : ∀ ch, IsChannel ch → |tableEntry ch p.knots p.numcolors.toNat i - (ch ca + d * (ch cb - ch ca)) / 255| ≤ 5 / 2 ^ 53
  flat : ∀ ch, IsChannel ch → ch ca = ch cb → tableEntry ch p.knots p.numcolors.toNat i = rnd (ch ca / 255)
  first : i = 0 → j = 0 ∧ d = 0
  last : i = p.numcolors.toNat - 1 → j + 1 = s.z0.length
  inner : i ≠ 0 → i ≠ p.numcolors.toNat - 1 → scaledLimit p a < place p.numcolors.toNat i ∧ place p.numcolors.toNat i ≤ scaledLimit p b ∧
    d = position (scaledLimit p a) (scaledLimit p b) (place p.numcolors.toNat i)
  final : i = p.numcolors.toNat - 1 → d = 1

theorem rnd_unit {q : ℚ} (h0 : 0 ≤ q) (h1 : q ≤ 1) : 0 ≤ rnd q ∧ rnd q ≤ 1 ∧ |rnd q - q| ≤ 1 / 2 ^ 53 :=
  ⟨rnd_nonneg h0, rnd_le_one h1, rnd_one (by rw [abs_of_nonneg h0]; exact h1) le_rfl⟩

theorem clip_near {v t e : ℚ} (h0 : 0 ≤ t) (h1 : t ≤ 1) (h : |v - t| ≤ e) : |clip v - t| ≤ e := by
  unfold clip
  rw [abs_le] at h ⊢
  rcases le_total v 1 with hv | hv <;> rcases le_total 0 v with hv0 | hv0 <;>
    simp only [min_eq_left hv, min_eq_right hv, max_eq_right hv0, max_eq_left hv0, max_eq_right (zero_le_one (α := ℚ))] <;> constructor <;> linarith

theorem channel_unit {ch : RGB → ℚ} (hch : IsChannel ch) {c : RGB} (h : Within255 c) :
    0 ≤ ch c / 255 ∧ ch c / 255 ≤ 1 ∧ ∀ x o, ch (roundKnot ⟨x, scale255 c, o⟩).before = rnd (ch c / 255) ∧
      ch (roundKnot ⟨x, o, scale255 c⟩).after = rnd (ch c / 255) := by
  have w := within1_scale h
  rcases hch with rfl | rfl | rfl
  · exact ⟨w.1.1, w.1.2, fun x o => ⟨rfl, rfl⟩⟩
  · exact ⟨w.2.1.1, w.2.1.2, fun x o => ⟨rfl, rfl⟩⟩
  · exact ⟨w.2.2.1, w.2.2.2, fun x o => ⟨rfl, rfl⟩⟩

/-- The blend of two colours is rounded a little. -/
theorem blend_near {u v d : ℚ} (hu0 : 0 ≤ u) (hu1 : u ≤ 1) (hv0 : 0 ≤ v) (hv1 : v ≤ 1) (hd0 : 0 ≤ d) (hd1 : d ≤ 1) :
    |rnd (rnd (d * rnd (rnd v - rnd u)) + rnd u) - (u + d * (v - u))| ≤ 5 / 2 ^ 53 := by
  obtain ⟨a0, a1, a2⟩ := rnd_unit hu0 hu1
  obtain ⟨b0, b1, b2⟩ := rnd_unit hv0 hv1
  have e1 := rnd_one (q := rnd v - rnd u) (B := 1) (by rw [abs_le]; constructor <;> linarith) le_rfl
  have r1 : rnd (rnd v - rnd u) ≤ 1 := rnd_le_one (by linarith)
  have r0 : -1 ≤ rnd (rnd v - rnd u) := rnd_at_least (neg_double one_double) (by linarith)
  generalize rnd (rnd v - rnd u) = g at *
  have p1 : d * g ≤ 1 := by nlinarith
  have p0 : -1 ≤ d * g := by nlinarith
  have e2 := rnd_one (q := d * g) (B := 1) (by rw [abs_le]; constructor <;> linarith) le_rfl
  have s1 : rnd (d * g) ≤ 1 := rnd_le_one p1
  have s0 : -1 ≤ rnd (d * g) := rnd_at_least (neg_double one_double) p0
  generalize rnd (d * g) = h at *
  generalize rnd u = u' at *
  generalize rnd v = v' at *
  have e3 := rnd_one (q := h + u') (B := 2) (by rw [abs_le]; constructor <;> linarith) (by norm_num)
  generalize rnd (h + u') = y at *
  rw [abs_le] at *
  obtain ⟨x1, x2⟩ := a2
  obtain ⟨x3, x4⟩ := b2
  obtain ⟨x5, x6⟩ := e1
  obtain ⟨x7, x8⟩ := e2
  obtain ⟨x9, x10⟩ := e3
  have f1 : d * (g - (v - u)) ≤ d * (1 / 2 ^ 53 + (v' - v) - (u' - u)) := mul_le_mul_of_nonneg_left (by linarith) hd0
  have f2 : d * (-(1 / 2 ^ 53) + (v' - v) - (u' - u)) ≤ d * (g - (v - u)) := mul_le_mul_of_nonneg_left (by linarith) hd0
  have f3 : d * (v' - v) ≤ d * (1 / 2 ^ 53) := mul_le_mul_of_nonneg_left (by linarith) hd0
  have f4 : d * (-(1 / 2 ^ 53)) ≤ d * (v' - v) := mul_le_mul_of_nonneg_left (by linarith) hd0
  have f5 : (1 - d) * (u' - u) ≤ (1 - d) * (1 / 2 ^ 53) := mul_le_mul_of_nonneg_left (by linarith) (by linarith)
  have f6 : (1 - d) * (-(1 / 2 ^ 53)) ≤ (1 - d) * (u' - u) := mul_le_mul_of_nonneg_left (by linarith) (by linarith)
  have f7 : d * (1 / 2 ^ 53) ≤ 1 * (1 / 2 ^ 53) := mul_le_mul_of_nonneg_right hd1 (by positivity)
  constructor <;> linarith

theorem limit_near {s : Segments} {resolution : Option ℚ} {p : Palette} (hp : PaintedBinary s resolution p) {z : ℚ} (hz : z ∈ s.z0 ++ [p.vmax]) :
    |scaledLimit p z - ((p.numcolors.toNat : ℚ) - 1) * ((z - p.vmin) / (p.vmax - p.vmin))| ≤ 5 * ((p.numcolors.toNat : ℚ) - 1) / 2 ^ 53 := by
  obtain ⟨_, hlt, d1, d2, _, _, hn, _, hz', _⟩ := knots_binary hp
  obtain ⟨z1, z2, z3⟩ := hz' z hz
  have hn' : (2 : ℚ) ≤ (p.numcolors.toNat : ℚ) := by exact_mod_cast (by omega : 2 ≤ p.numcolors.toNat)
  have e1 := position_near d1 d2 z3 z1 z2 hlt
  have q1 : position p.vmin p.vmax z ≤ 1 := by
    rw [← position_high d1 d2 hlt]
    exact position_mono d1 d2 hlt z2
  have q0 : 0 ≤ position p.vmin p.vmax z := by
    rw [← position_low (lo := p.vmin) (hi := p.vmax)]
    exact position_mono d1 d2 hlt z1
  unfold scaledLimit
  generalize position p.vmin p.vmax z = y at *
  generalize (z - p.vmin) / (p.vmax - p.vmin) = t at *
  set m : ℚ := (p.numcolors.toNat : ℚ) - 1 with hm
  have hm1 : 1 ≤ m := by linarith
  have e2 := rnd_one (q := y * m) (B := m) (by rw [abs_of_nonneg (by positivity)]; nlinarith) hm1
  have e3 : |y * m - m * t| ≤ 4 * m / 2 ^ 53 := by
    rw [show y * m - m * t = m * (y - t) by ring, abs_mul, abs_of_pos (by linarith)]
    calc m * |y - t| ≤ m * (4 / 2 ^ 53) := by gcongr
      _ = _ := by ring
  have e := abs_add_le (rnd (y * m) - y * m) (y * m - m * t)
  rw [sub_add_sub_cancel] at e
  linarith [show m / 2 ^ 53 + 4 * m / 2 ^ 53 = 5 * m / 2 ^ 53 by ring]

theorem limit_mono {s : Segments} {resolution : Option ℚ} {p : Palette} (hp : PaintedBinary s resolution p) {z z' : ℚ} (h : z ≤ z') :
    scaledLimit p z ≤ scaledLimit p z' := by
  obtain ⟨_, hlt, d1, d2, _, _, hn, _⟩ := knots_binary hp
  have hn' : (2 : ℚ) ≤ (p.numcolors.toNat : ℚ) := by exact_mod_cast (by omega : 2 ≤ p.numcolors.toNat)
  unfold scaledLimit
  apply rnd_mono
  have := position_mono d1 d2 hlt h
  apply mul_le_mul_of_nonneg_right this
  linarith

theorem reading_exists {s : Segments} {resolution : Option ℚ} {p : Palette} (hp : PaintedBinary s resolution p) (i : ℕ)
    (hi : i ≤ p.numcolors.toNat - 1) : ∃ j a b ca cb d, Reading s p i j a b ca cb d := by
  obtain ⟨_, hlt, d1, d2, hhead, hlast, hn, hlen, hz, htail, hpw, hk⟩ := knots_binary hp
  have hn2 : 2 ≤ p.numcolors.toNat := by omega
  have hn40 : p.numcolors.toNat ≤ 2 ^ 40 := by
    have := hp.size
    omega
  have hn' : (2 : ℚ) ≤ (p.numcolors.toNat : ℚ) := by exact_mod_cast hn2
  have hD : 0 < p.vmax - p.vmin := by linarith
  have hz0 : s.z0.length ≠ 0 := fun h => hp.ranges.1 (List.length_eq_zero_iff.1 h)
  -- the data of a range and of its two knots
  have range : ∀ j (k k' : Knot), p.knots[j]? = some k → p.knots[j + 1]? = some k' → ∃ a b ca cb, s.z0[j]? = some a ∧ s.z1[j]? = some b ∧
      s.rgb0[j]? = some ca ∧ s.rgb1[j]? = some cb ∧ (s.z0 ++ [p.vmax])[j]? = some a ∧ (s.z0 ++ [p.vmax])[j + 1]? = some b ∧
      k.x = position p.vmin p.vmax a ∧ k'.x = position p.vmin p.vmax b ∧
      ∀ ch, IsChannel ch → ch k.after = rnd (ch ca / 255) ∧ ch k'.before = rnd (ch cb / 255) := by
    intro j k k' h1 h2
    have hj : j < s.z0.length := by
      have := (List.getElem?_eq_some_iff.1 h2).1
      omega
    obtain ⟨a, _, ca, ha, _, hca, rfl⟩ := hk j k h1
    obtain ⟨b, cb, _, hb, hcb, _, rfl⟩ := hk (j + 1) k' h2
    rw [List.getElem?_append_left (by rw [hp.starts]; exact hj)] at hca
    rw [List.getElem?_cons_succ] at hcb
    refine ⟨a, b, ca, cb, ?_, ?_, hca, hcb, ha, hb, rfl, rfl, fun ch hch => ⟨?_, ?_⟩⟩
    · rwa [List.getElem?_append_left hj] at ha
    · rw [htail, List.getElem?_tail, hb]
    · exact ((channel_unit hch (hp.colors ca (List.mem_append_left _ (List.mem_of_getElem? hca)))).2.2 _ _).2
    · exact ((channel_unit hch (hp.colors cb (List.mem_append_right _ (List.mem_of_getElem? hcb)))).2.2 _ _).1
  obtain ⟨k0, hk0⟩ : ∃ k0, p.knots[0]? = some k0 := ⟨_, List.getElem?_eq_getElem (by omega)⟩
  obtain ⟨k1, hk1⟩ : ∃ k1, p.knots[0 + 1]? = some k1 := ⟨_, List.getElem?_eq_getElem (by omega)⟩
  obtain ⟨e, he⟩ : ∃ e, s.z0.length = e + 1 := ⟨s.z0.length - 1, by omega⟩
  obtain ⟨kl, hkl⟩ : ∃ kl, p.knots[e + 1]? = some kl := ⟨_, List.getElem?_eq_getElem (by omega)⟩
  obtain ⟨km, hkm⟩ : ∃ km, p.knots[e]? = some km := ⟨_, List.getElem?_eq_getElem (by omega)⟩
  have hh : p.knots.head? = some k0 := by rw [List.head?_eq_getElem?, hk0]
  have hl : p.knots.getLast? = some kl := by rw [List.getLast?_eq_getElem?, hlen, he, Nat.add_sub_cancel, hkl]
  by_cases hi0 : i = 0
  · obtain ⟨a, b, ca, cb, r1, r2, r3, r4, r5, r6, r7, r8, r9⟩ := range 0 k0 k1 hk0 hk1
    have ha : a = p.vmin := by
      rw [← List.head?_eq_getElem?, hhead] at r1
      cases r1
      rfl
    have hcol : ∀ ch, IsChannel ch → tableEntry ch p.knots p.numcolors.toNat i = rnd (ch ca / 255) := by
      intro ch hch
      obtain ⟨c0, c1, _⟩ := channel_unit hch (hp.colors ca (List.mem_append_left _ (List.mem_of_getElem? r3)))
      obtain ⟨u0, u1, _⟩ := rnd_unit c0 c1
      unfold tableEntry
      rw [if_pos hi0, hh, Option.map_some, Option.getD_some, (r9 ch hch).1, clip_self u0 u1]
    refine ⟨0, a, b, ca, cb, 0, r1, r2, r3, r4, le_rfl, zero_le_one, ?_, fun ch hch => ?_, fun ch hch _ => hcol ch hch, fun _ => ⟨rfl, rfl⟩,
      fun h => by omega, fun h => absurd hi0 h, fun h => by omega⟩
    · rw [hi0, ha]
      norm_num
    · obtain ⟨c0, c1, _⟩ := channel_unit hch (hp.colors ca (List.mem_append_left _ (List.mem_of_getElem? r3)))
      obtain ⟨_, _, u2⟩ := rnd_unit c0 c1
      rw [hcol ch hch, zero_mul, add_zero]
      linarith
  by_cases hin : i = p.numcolors.toNat - 1
  · obtain ⟨a, b, ca, cb, r1, r2, r3, r4, r5, r6, r7, r8, r9⟩ := range e km kl hkm hkl
    have hb : b = p.vmax := by
      rw [List.getElem?_append_right (by omega), he, Nat.sub_self] at r6
      cases r6
      rfl
    have hcol : ∀ ch, IsChannel ch → tableEntry ch p.knots p.numcolors.toNat i = rnd (ch cb / 255) := by
      intro ch hch
      obtain ⟨c0, c1, _⟩ := channel_unit hch (hp.colors cb (List.mem_append_right _ (List.mem_of_getElem? r4)))
      obtain ⟨u0, u1, _⟩ := rnd_unit c0 c1
      unfold tableEntry
      rw [if_neg hi0, if_pos hin, hl, Option.map_some, Option.getD_some, (r9 ch hch).2, clip_self u0 u1]
    refine ⟨e, a, b, ca, cb, 1, r1, r2, r3, r4, zero_le_one, le_rfl, ?_, fun ch hch => ?_, fun ch hch hc => by rw [hc]; exact hcol ch hch,
      fun h => absurd h hi0, fun _ => he.symm, fun _ h => absurd hin h, fun _ => rfl⟩
    · rw [hb, hin, Nat.cast_sub (by omega), Nat.cast_one, one_mul, add_sub_cancel, div_self hD.ne', div_self (by linarith), sub_self, abs_zero]
      positivity
    · obtain ⟨c0, c1, _⟩ := channel_unit hch (hp.colors cb (List.mem_append_right _ (List.mem_of_getElem? r4)))
      obtain ⟨_, _, u2⟩ := rnd_unit c0 c1
      rw [hcol ch hch, one_mul, add_sub_cancel]
      linarith
  · obtain ⟨n1, n2, n3⟩ := place_near hn2 hn40 hi
    have n2 := n2 (by omega)
    have k0x : k0.x = 0 := by
      obtain ⟨a, b, ca, cb, r1, _, _, _, _, _, r7, _⟩ := range 0 k0 k1 hk0 hk1
      rw [← List.head?_eq_getElem?, hhead] at r1
      cases r1
      rw [r7, position_low]
    have klx : kl.x = 1 := by
      obtain ⟨a, b, ca, cb, _, _, _, _, _, r6, _, r8, _⟩ := range e km kl hkm hkl
      rw [List.getElem?_append_right (by omega), he, Nat.sub_self] at r6
      cases r6
      rw [r8, position_high d1 d2 hlt]
    have hmd : IsDouble ((p.numcolors.toNat : ℚ) - 1) := by
      have := nat_double (n := p.numcolors.toNat - 1) (by omega)
      rwa [Nat.cast_sub (by omega), Nat.cast_one] at this
    have hnb : (p.numcolors.toNat : ℚ) ≤ 2 ^ 40 := by exact_mod_cast hn40
    have hpos : 0 < place p.numcolors.toNat i := by
      have h1 := (abs_le.1 n1).1
      have h2 : (1 : ℚ) ≤ i := by exact_mod_cast Nat.one_le_iff_ne_zero.2 hi0
      have h3 : 5 * ((p.numcolors.toNat : ℚ) - 1) / 2 ^ 53 ≤ 5 * 2 ^ 40 / 2 ^ 53 := by gcongr; linarith
      norm_num at h3
      linarith
    obtain ⟨j, k, k', g1, g2, g3, g4, g5⟩ := blend_spec p.numcolors.toNat p.knots (place p.numcolors.toNat i) k0 kl hh hl
      (by rw [k0x, zero_mul, rnd_zero]; exact hpos) (by rw [klx, one_mul, rnd_double hmd]; exact n2)
    obtain ⟨a, b, ca, cb, r1, r2, r3, r4, r5, r6, r7, r8, r9⟩ := range j k k' g1 g2
    rw [r7] at g3
    rw [r8] at g4
    have x1 : scaledLimit p a < place p.numcolors.toNat i := g3
    have x2 : place p.numcolors.toNat i ≤ scaledLimit p b := g4
    have da : IsDouble (scaledLimit p a) := rnd_isDouble _
    have db : IsDouble (scaledLimit p b) := rnd_isDouble _
    have hab : scaledLimit p a < scaledLimit p b := lt_of_lt_of_le x1 x2
    have hd0 : 0 ≤ position (scaledLimit p a) (scaledLimit p b) (place p.numcolors.toNat i) := by
      rw [← position_low (lo := scaledLimit p a) (hi := scaledLimit p b)]
      exact position_mono da db hab x1.le
    have hd1 : position (scaledLimit p a) (scaledLimit p b) (place p.numcolors.toNat i) ≤ 1 := by
      rw [← position_high da db hab]
      exact position_mono da db hab x2
    have hdn := position_near da db n3 x1.le x2 hab
    have la := limit_near hp (List.mem_of_getElem? r5)
    have lb := limit_near hp (List.mem_of_getElem? r6)
    have hcol : ∀ ch, IsChannel ch → tableEntry ch p.knots p.numcolors.toNat i =
        clip (rnd (rnd (position (scaledLimit p a) (scaledLimit p b) (place p.numcolors.toNat i) * rnd (rnd (ch cb / 255) - rnd (ch ca / 255))) +
          rnd (ch ca / 255))) := by
      intro ch hch
      unfold tableEntry
      rw [if_neg hi0, if_neg hin, g5, (r9 ch hch).1, (r9 ch hch).2, r7, r8]
      rfl
    refine ⟨j, a, b, ca, cb, _, r1, r2, r3, r4, hd0, hd1, ?_, fun ch hch => ?_, fun ch hch hc => ?_, fun h => absurd h hi0,
      fun h => absurd h hin, fun _ _ => ⟨x1, x2, rfl⟩, fun h => absurd h hin⟩
    · have hsa : 0 < scaledLimit p b - scaledLimit p a := by linarith
      have hla0 : 0 ≤ scaledLimit p a := by
        rw [show (0 : ℚ) = scaledLimit p p.vmin by unfold scaledLimit; rw [position_low, zero_mul, rnd_zero]]
        exact limit_mono hp (hz a (List.mem_of_getElem? r5)).1
      have hlb1 : scaledLimit p b ≤ (p.numcolors.toNat : ℚ) - 1 := by
        rw [show (p.numcolors.toNat : ℚ) - 1 = scaledLimit p p.vmax by
          unfold scaledLimit; rw [position_high d1 d2 hlt, one_mul, rnd_double hmd]]
        exact limit_mono hp (hz b (List.mem_of_getElem? r6)).2.1
      generalize position (scaledLimit p a) (scaledLimit p b) (place p.numcolors.toNat i) = d at *
      generalize scaledLimit p a = A at *
      generalize scaledLimit p b = B at *
      generalize place p.numcolors.toNat i = x at *
      set m : ℚ := (p.numcolors.toNat : ℚ) - 1 with hm
      have hm1 : 0 < m := by linarith
      have hx : |A + d * (B - A) - x| ≤ 4 * m / 2 ^ 53 := by
        have hBA : B - A ≠ 0 := hsa.ne'
        rw [show A + d * (B - A) - x = (d - (x - A) / (B - A)) * (B - A) by field_simp; ring, abs_mul, abs_of_pos hsa]
        calc |d - (x - A) / (B - A)| * (B - A) ≤ 4 / 2 ^ 53 * m := by
              gcongr
              linarith
          _ = _ := by ring
      have hw : (a + d * (b - a) - p.vmin) / (p.vmax - p.vmin) =
          (1 - d) * ((a - p.vmin) / (p.vmax - p.vmin)) + d * ((b - p.vmin) / (p.vmax - p.vmin)) := by
        field_simp
        ring
      rw [hw]
      generalize (a - p.vmin) / (p.vmax - p.vmin) = P at *
      generalize (b - p.vmin) / (p.vmax - p.vmin) = Q at *
      have hgoal : |m * ((1 - d) * P + d * Q) - i| ≤ 14 * m / 2 ^ 53 := by
        rw [abs_le] at la lb hx n1 ⊢
        obtain ⟨y1, y2⟩ := la
        obtain ⟨y3, y4⟩ := lb
        obtain ⟨y5, y6⟩ := hx
        obtain ⟨y7, y8⟩ := n1
        have f1 : (1 - d) * (A - m * P) ≤ (1 - d) * (5 * m / 2 ^ 53) := mul_le_mul_of_nonneg_left y2 (by linarith)
        have f2 : (1 - d) * (-(5 * m / 2 ^ 53)) ≤ (1 - d) * (A - m * P) := mul_le_mul_of_nonneg_left y1 (by linarith)
        have f3 : d * (B - m * Q) ≤ d * (5 * m / 2 ^ 53) := mul_le_mul_of_nonneg_left y4 hd0
        have f4 : d * (-(5 * m / 2 ^ 53)) ≤ d * (B - m * Q) := mul_le_mul_of_nonneg_left y3 hd0
        constructor <;> nlinarith
      rw [show (1 - d) * P + d * Q - (i : ℚ) / m = (m * ((1 - d) * P + d * Q) - i) / m by field_simp, abs_div, abs_of_pos hm1, div_le_iff₀ hm1]
      calc _ ≤ _ := hgoal
        _ = _ := by ring
    · obtain ⟨c0, c1, _⟩ := channel_unit hch (hp.colors ca (List.mem_append_left _ (List.mem_of_getElem? r3)))
      obtain ⟨c2, c3, _⟩ := channel_unit hch (hp.colors cb (List.mem_append_right _ (List.mem_of_getElem? r4)))
      rw [hcol ch hch]
      generalize position (scaledLimit p a) (scaledLimit p b) (place p.numcolors.toNat i) = d at *
      have := blend_near c0 c1 c2 c3 hd0 hd1
      rw [show (ch ca + d * (ch cb - ch ca)) / 255 = ch ca / 255 + d * (ch cb / 255 - ch ca / 255) by ring]
      exact clip_near (by nlinarith) (by nlinarith) this
    · obtain ⟨c0, c1, _⟩ := channel_unit hch (hp.colors ca (List.mem_append_left _ (List.mem_of_getElem? r3)))
      obtain ⟨u0, u1, _⟩ := rnd_unit c0 c1
      rw [hcol ch hch, hc, sub_self, rnd_zero, mul_zero, rnd_zero, zero_add, rnd_double (rnd_isDouble _), ← hc, clip_self u0 u1]

theorem acceptable_binary {s : Segments} {resolution : Option ℚ} {p : Palette} (hp : PaintedBinary s resolution p) : acceptable p.knots = true := by
  obtain ⟨_, hlt, d1, d2, hhead, hlast, hn, hlen, hz, htail, hpw, hk⟩ := knots_binary hp
  have hz0 : s.z0.length ≠ 0 := fun h => hp.ranges.1 (List.length_eq_zero_iff.1 h)
  unfold acceptable
  rw [Bool.and_eq_true, Bool.and_eq_true, decide_eq_true_eq, decide_eq_true_eq, decide_eq_true_eq]
  refine ⟨⟨?_, ?_⟩, ?_⟩
  · obtain ⟨k0, hk0⟩ : ∃ k0, p.knots[0]? = some k0 := ⟨_, List.getElem?_eq_getElem (by omega)⟩
    obtain ⟨z, b, a, h1, _, _, rfl⟩ := hk 0 k0 hk0
    rw [List.head?_eq_getElem?, hk0, Option.map_some]
    rw [List.getElem?_append_left (by omega), ← List.head?_eq_getElem?, hhead] at h1
    cases h1
    exact congrArg some position_low
  · obtain ⟨kl, hkl⟩ : ∃ kl, p.knots[p.knots.length - 1]? = some kl := ⟨_, List.getElem?_eq_getElem (by omega)⟩
    obtain ⟨z, b, a, h1, _, _, rfl⟩ := hk _ kl hkl
    rw [List.getLast?_eq_getElem?, hkl, Option.map_some]
    rw [hlen, Nat.add_sub_cancel, List.getElem?_append_right le_rfl, Nat.sub_self] at h1
    cases h1
    exact congrArg some (position_high d1 d2 hlt)
  · rw [List.pairwise_iff_getElem]
    intro i j h1 h2 hij
    obtain ⟨z, b, a, e1, _, _, e2⟩ := hk i _ (List.getElem?_eq_getElem h1)
    obtain ⟨z', b', a', f1, _, _, f2⟩ := hk j _ (List.getElem?_eq_getElem h2)
    rw [e2, f2]
    apply position_mono d1 d2 hlt
    obtain ⟨g1, rfl⟩ := List.getElem?_eq_some_iff.1 e1
    obtain ⟨g2, rfl⟩ := List.getElem?_eq_some_iff.1 f1
    exact (List.pairwise_iff_getElem.1 hpw i j g1 g2 hij).le

theorem dataColor_binary {s : Segments} {resolution : Option ℚ} {p : Palette} (hp : PaintedBinary s resolution p) (z : ℚ) (format : String) :
    Dbl.dataColor p z format = formatted (tableColor p (tableIndex p.numcolors.toNat (position p.vmin p.vmax z))) format := by
  unfold Dbl.dataColor
  rw [if_pos (acceptable_binary hp)]

theorem mlab_binary {s : Segments} {resolution : Option ℚ} {p : Palette} (hp : PaintedBinary s resolution p) (z : ℚ) {i : ℕ}
    (h : tableIndex p.numcolors.toNat (position p.vmin p.vmax z) = i) : Dbl.dataColor p z "mlab" =
      .ok (.floats [tableEntry (fun c => c.1) p.knots p.numcolors.toNat i, tableEntry (fun c => c.2.1) p.knots p.numcolors.toNat i,
        tableEntry (fun c => c.2.2) p.knots p.numcolors.toNat i, 1]) := by
  rw [dataColor_binary hp, h]
  rfl

theorem near_sum {w lo hi z x t e : ℚ} (hD : 0 < hi - lo) (e1 : |x - t| ≤ e + 1 / 2 ^ 53) (e2 : |t - (z - lo) / (hi - lo)| ≤ 4 / 2 ^ 53)
    (e3 : |(w - lo) / (hi - lo) - x| ≤ 14 / 2 ^ 53) : |w - z| ≤ (hi - lo) * (e + 1 / 2 ^ 48) := by
  have e4 : |(w - lo) / (hi - lo) - (z - lo) / (hi - lo)| ≤ e + 1 / 2 ^ 48 := by
    rw [abs_le] at *
    have : (1 : ℚ) / 2 ^ 53 + 4 / 2 ^ 53 + 14 / 2 ^ 53 ≤ 1 / 2 ^ 48 := by norm_num
    constructor <;> linarith
  rw [← sub_div, abs_div, abs_of_pos hD, div_le_iff₀ hD] at e4
  rw [show w - z = w - lo - (z - lo) by ring, mul_comm]
  exact e4

theorem reading_drawn {s : Segments} {resolution : Option ℚ} {p : Palette} (hp : PaintedBinary s resolution p) {i j : ℕ} {a b : ℚ} {ca cb : RGB}
    {d : ℚ} (h : Reading s p i j a b ca cb d) : ∃ c, DrawnAt s.z0 s.z1 s.rgb0 s.rgb1 (a + d * (b - a)) c ∧
      ∀ ch, IsChannel ch → ch c = ch ca + d * (ch cb - ch ca) := by
  have hab := hp.ranges.2.2.1 j a b h.lower h.upper
  have h0 := h.d0
  have h1 := h.d1
  refine ⟨_, ⟨j, a, b, ca, cb, h.lower, h.upper, h.start, h.stop, by nlinarith, by nlinarith, rfl⟩, fun ch hch => ?_⟩
  have hd : (a + d * (b - a) - a) / (b - a) = d := by
    have : b - a ≠ 0 := by linarith
    field_simp
    ring
  rcases hch with rfl | rfl | rfl <;> unfold lerp <;> simp only [hd] <;> ring

/-- **C191** (partial): in binary arithmetic, the colour of a value within the range of the palette is, in all three channels and opaque, within
`1 / 2 ^ 50` of the colour that the ranges prescribe for some value near it: no further away than one part in `N` of the range of the palette, `N`
being the number of colours, and one part in `2 ^ 48`. Missing: that it is the colour of the value itself, as in C183. -/
theorem C191_color_partial (s : Segments) (resolution : Option ℚ) (p : Palette) (hp : PaintedBinary s resolution p) (z : ℚ) (hz : IsDouble z)
    (h1 : p.vmin ≤ z) (h2 : z ≤ p.vmax) :
    ∃ w c r g b, DrawnAt s.z0 s.z1 s.rgb0 s.rgb1 w c ∧ Dbl.dataColor p z "mlab" = .ok (.floats [r, g, b, 1]) ∧
      |r - c.1 / 255| ≤ 1 / 2 ^ 50 ∧ |g - c.2.1 / 255| ≤ 1 / 2 ^ 50 ∧ |b - c.2.2 / 255| ≤ 1 / 2 ^ 50 ∧
      |w - z| ≤ (p.vmax - p.vmin) * (1 / p.numcolors + 1 / 2 ^ 48) := by
  obtain ⟨_, hlt, d1, d2, hhead, hlast, hn, hlen, _⟩ := knots_binary hp
  have hn2 : 2 ≤ p.numcolors.toNat := by omega
  have hD : 0 < p.vmax - p.vmin := by linarith
  have hN : ((p.numcolors.toNat : ℕ) : ℚ) = p.numcolors := by
    have : ((p.numcolors.toNat : ℕ) : ℤ) = p.numcolors := Int.toNat_of_nonneg (by omega)
    exact_mod_cast this
  have t1 : position p.vmin p.vmax z ≤ 1 := by
    rw [← position_high d1 d2 hlt]
    exact position_mono d1 d2 hlt h2
  have t0 : 0 ≤ position p.vmin p.vmax z := by
    rw [← position_low (lo := p.vmin) (hi := p.vmax)]
    exact position_mono d1 d2 hlt h1
  have e1 := index_near hn2 t0 t1
  have e2 := position_near d1 d2 hz h1 h2 hlt
  have hle := index_le p.numcolors.toNat (by omega) (position p.vmin p.vmax z)
  generalize hi : tableIndex p.numcolors.toNat (position p.vmin p.vmax z) = i at *
  obtain ⟨j, a, b, ca, cb, d, hr⟩ := reading_exists hp i hle
  obtain ⟨c, hc1, hc2⟩ := reading_drawn hp hr
  have near : ∀ ch, IsChannel ch → |tableEntry ch p.knots p.numcolors.toNat i - ch c / 255| ≤ 1 / 2 ^ 50 := by
    intro ch hch
    rw [hc2 ch hch]
    exact (hr.color ch hch).trans (by norm_num)
  refine ⟨a + d * (b - a), c, _, _, _, hc1, mlab_binary hp z hi, near _ (.inl rfl), near _ (.inr (.inl rfl)), near _ (.inr (.inr rfl)), ?_⟩
  have e3 := hr.near
  rw [← hN]
  exact near_sum hD e1 e2 e3

theorem reading_order {s : Segments} {resolution : Option ℚ} {p : Palette} (hp : PaintedBinary s resolution p) {i i' j j' : ℕ} {a b a' b' : ℚ}
    {ca cb ca' cb' : RGB} {d d' : ℚ} (h : Reading s p i j a b ca cb d) (h' : Reading s p i' j' a' b' ca' cb' d') (hii : i ≤ i')
    (hi : i' ≤ p.numcolors.toNat - 1) : j < j' ∨ j = j' ∧ d ≤ d' := by
  obtain ⟨_, hlt, d1, d2, hhead, hlast, hn, hlen, _⟩ := knots_binary hp
  have hj := (List.getElem?_eq_some_iff.1 h.lower).1
  by_cases h0 : i = 0
  · obtain ⟨rfl, rfl⟩ := h.first h0
    rcases Nat.eq_zero_or_pos j' with rfl | hj'
    · exact .inr ⟨rfl, h'.d0⟩
    · exact .inl hj'
  by_cases hl : i' = p.numcolors.toNat - 1
  · have e1 := h'.last hl
    rcases Nat.lt_or_ge j j' with hj' | hj'
    · exact .inl hj'
    · refine .inr ⟨by omega, ?_⟩
      rw [h'.final hl]
      exact h.d1
  · obtain ⟨x1, x2, x3⟩ := h.inner h0 (by omega)
    obtain ⟨y1, y2, y3⟩ := h'.inner (by omega) hl
    have hpl := place_mono p.numcolors.toNat (by omega) hii
    rcases lt_trichotomy j j' with hj' | rfl | hj'
    · exact .inl hj'
    · refine .inr ⟨rfl, ?_⟩
      have ea := h.lower
      rw [h'.lower] at ea
      cases ea
      have eb := h.upper
      rw [h'.upper] at eb
      cases eb
      rw [x3, y3]
      exact position_mono (rnd_isDouble _) (rnd_isDouble _) (lt_of_lt_of_le x1 x2) hpl
    · exfalso
      have := limit_mono hp (contiguous_order hp.ranges j' j hj' a b' h'.upper h.lower)
      linarith

/-- **C191** (partial): where a channel never falls along the ranges, it does not fall with the data value by more than `1 / 2 ^ 49`, for all values, also outside
of the ranges. Missing: that it does not fall at all, see `C191_order_violated`. -/
theorem C191_order_partial (s : Segments) (resolution : Option ℚ) (p : Palette) (hp : PaintedBinary s resolution p) (f : RGB → ℚ) (hf : IsChannel f)
    (hr : Rising f s.rgb0 s.rgb1) (z z' : ℚ) (h : z ≤ z') :
    ∃ r g b r' g' b', Dbl.dataColor p z "mlab" = .ok (.floats [r, g, b, 1]) ∧ Dbl.dataColor p z' "mlab" = .ok (.floats [r', g', b', 1]) ∧
      f (r, g, b) ≤ f (r', g', b') + 1 / 2 ^ 49 := by
  obtain ⟨_, hlt, d1, d2, hhead, hlast, hn, hlen, _⟩ := knots_binary hp
  have hidx := index_mono (n := p.numcolors.toNat) (by omega) (position_mono d1 d2 hlt h)
  have hle := index_le p.numcolors.toNat (by omega) (position p.vmin p.vmax z')
  obtain ⟨j, a, b, ca, cb, d, g1⟩ := reading_exists hp _ (index_le p.numcolors.toNat (by omega) (position p.vmin p.vmax z))
  obtain ⟨j', a', b', ca', cb', d', g2⟩ := reading_exists hp _ hle
  have ho := reading_order hp g1 g2 hidx hle
  generalize hi : tableIndex p.numcolors.toNat (position p.vmin p.vmax z) = i at *
  generalize hi' : tableIndex p.numcolors.toNat (position p.vmin p.vmax z') = i' at *
  refine ⟨_, _, _, _, _, _, mlab_binary hp z hi, mlab_binary hp z' hi', ?_⟩
  have c1 := g1.color f hf
  have c2 := g2.color f hf
  have key : f ca + d * (f cb - f ca) ≤ f ca' + d' * (f cb' - f ca') := by
    have r1 := hr.1 j ca cb g1.start g1.stop
    have r2 := hr.1 j' ca' cb' g2.start g2.stop
    have hd0 := g1.d0
    have hd1 := g1.d1
    have hd0' := g2.d0
    rcases ho with hj | ⟨rfl, hd⟩
    · have := rising_starts hr (by rw [hp.starts, hp.ends]) j j' hj cb ca' g1.stop g2.start
      nlinarith
    · have e1 := g1.start
      rw [g2.start] at e1
      cases e1
      have e2 := g1.stop
      rw [g2.stop] at e2
      cases e2
      nlinarith
  have key' : (f ca + d * (f cb - f ca)) / 255 ≤ (f ca' + d' * (f cb' - f ca')) / 255 := by gcongr
  have t : (5 : ℚ) / 2 ^ 53 + 5 / 2 ^ 53 ≤ 1 / 2 ^ 49 := by norm_num
  rw [abs_le] at c1 c2
  have hf' : f (tableEntry (fun c => c.1) p.knots p.numcolors.toNat i, tableEntry (fun c => c.2.1) p.knots p.numcolors.toNat i,
        tableEntry (fun c => c.2.2) p.knots p.numcolors.toNat i) = tableEntry f p.knots p.numcolors.toNat i ∧
      f (tableEntry (fun c => c.1) p.knots p.numcolors.toNat i', tableEntry (fun c => c.2.1) p.knots p.numcolors.toNat i',
        tableEntry (fun c => c.2.2) p.knots p.numcolors.toNat i') = tableEntry f p.knots p.numcolors.toNat i' := by
    rcases hf with rfl | rfl | rfl <;> exact ⟨rfl, rfl⟩
  rw [hf'.1, hf'.2]
  linarith

theorem first_entry {s : Segments} {resolution : Option ℚ} {p : Palette} (hp : PaintedBinary s resolution p) {first : RGB}
    (hf : s.rgb0.head? = some first) (ch : RGB → ℚ) (hch : IsChannel ch) : tableEntry ch p.knots p.numcolors.toNat 0 = rnd (ch first / 255) := by
  obtain ⟨_, _, _, _, _, _, _, hlen, _, _, _, hk⟩ := knots_binary hp
  have hz0 : s.z0.length ≠ 0 := fun h => hp.ranges.1 (List.length_eq_zero_iff.1 h)
  obtain ⟨k0, hk0⟩ : ∃ k0, p.knots[0]? = some k0 := ⟨_, List.getElem?_eq_getElem (by omega)⟩
  obtain ⟨_, _, a, _, _, h3, rfl⟩ := hk 0 k0 hk0
  rw [List.getElem?_append_left (by rw [hp.starts]; omega), ← List.head?_eq_getElem?, hf] at h3
  cases h3
  obtain ⟨c0, c1, c2⟩ := channel_unit hch (hp.colors first (List.mem_append_left _ (List.mem_of_head? hf)))
  obtain ⟨u0, u1, _⟩ := rnd_unit c0 c1
  unfold tableEntry
  rw [if_pos rfl, List.head?_eq_getElem?, hk0, Option.map_some, Option.getD_some, (c2 _ _).2, clip_self u0 u1]

theorem last_entry {s : Segments} {resolution : Option ℚ} {p : Palette} (hp : PaintedBinary s resolution p) {last : RGB}
    (hl : s.rgb1.getLast? = some last) (ch : RGB → ℚ) (hch : IsChannel ch) :
    tableEntry ch p.knots p.numcolors.toNat (p.numcolors.toNat - 1) = rnd (ch last / 255) := by
  obtain ⟨_, _, _, _, _, _, hn, hlen, _, _, _, hk⟩ := knots_binary hp
  have hz0 : s.z0.length ≠ 0 := fun h => hp.ranges.1 (List.length_eq_zero_iff.1 h)
  obtain ⟨kl, hkl⟩ : ∃ kl, p.knots[p.knots.length - 1]? = some kl := ⟨_, List.getElem?_eq_getElem (by omega)⟩
  obtain ⟨_, b, _, _, h2, _, rfl⟩ := hk _ kl hkl
  rw [hlen, Nat.add_sub_cancel] at h2
  rw [List.getLast?_eq_getElem?, hp.ends] at hl
  obtain ⟨e, he⟩ : ∃ e, s.z0.length = e + 1 := ⟨s.z0.length - 1, by omega⟩
  rw [he, List.getElem?_cons_succ] at h2
  rw [he, Nat.add_sub_cancel, h2] at hl
  cases hl
  obtain ⟨c0, c1, c2⟩ := channel_unit hch (hp.colors last (List.mem_append_right _ (List.mem_of_getElem? h2)))
  obtain ⟨u0, u1, _⟩ := rnd_unit c0 c1
  unfold tableEntry
  rw [if_neg (by omega), if_pos rfl, List.getLast?_eq_getElem?, hkl, Option.map_some, Option.getD_some, (c2 _ _).1, clip_self u0 u1]

/-- The channels of a colour of 0..255, divided by 255 in binary arithmetic, opaque. -/
def opaqueBinary (c : ℚ × ℚ × ℚ) : List ℚ := [rnd (c.1 / 255), rnd (c.2.1 / 255), rnd (c.2.2 / 255), 1]

/-- **C191**: at and below the start of the first range the colour is exactly the first start colour, at and above the end of the last range it is the last
end colour. -/
theorem C191_ends (s : Segments) (resolution : Option ℚ) (p : Palette) (hp : PaintedBinary s resolution p) (lo hi : ℚ) (first last : RGB)
    (hlo : s.z0.head? = some lo) (hhi : s.z1.getLast? = some hi) (hf : s.rgb0.head? = some first) (hl : s.rgb1.getLast? = some last) (z : ℚ) :
    (z ≤ lo → Dbl.dataColor p z "mlab" = .ok (.floats (opaqueBinary first))) ∧
    (hi ≤ z → Dbl.dataColor p z "mlab" = .ok (.floats (opaqueBinary last))) := by
  obtain ⟨_, hlt, d1, d2, hhead, hlast, hn, hlen, _⟩ := knots_binary hp
  rw [hhead] at hlo
  cases hlo
  rw [hlast] at hhi
  cases hhi
  have hsize := hp.size
  constructor
  · intro h
    have ht : position p.vmin p.vmax z ≤ 0 := by
      rw [← position_low (lo := p.vmin) (hi := p.vmax)]
      exact position_mono d1 d2 hlt h
    have hi := index_low (n := p.numcolors.toNat) (by omega) ht
    rw [mlab_binary hp z hi]
    have hc : ∀ ch, IsChannel ch → tableEntry ch p.knots p.numcolors.toNat 0 = rnd (ch first / 255) := fun ch hch => first_entry hp hf ch hch
    rw [hc _ (.inl rfl), hc _ (.inr (.inl rfl)), hc _ (.inr (.inr rfl))]
    rfl
  · intro h
    have ht : 1 ≤ position p.vmin p.vmax z := by
      rw [← position_high d1 d2 hlt]
      exact position_mono d1 d2 hlt h
    have hi := index_high (n := p.numcolors.toNat) (by omega) (by omega) ht
    rw [mlab_binary hp z hi]
    have hc : ∀ ch, IsChannel ch → tableEntry ch p.knots p.numcolors.toNat (p.numcolors.toNat - 1) = rnd (ch last / 255) :=
      fun ch hch => last_entry hp hl ch hch
    rw [hc _ (.inl rfl), hc _ (.inr (.inl rfl)), hc _ (.inr (.inr rfl))]
    rfl

/-- **C191**: one part in `N` of the range of the palette is no more than the resolution it was made with, up to one part in `2 ^ 50`. -/
theorem C191_resolution (s : Segments) (r : ℚ) (p : Palette) (hp : PaintedBinary s (some r) p) (hr : 0 < r) :
    (p.vmax - p.vmin) / p.numcolors ≤ r * (1 + 1 / 2 ^ 50) := by
  obtain ⟨_, hlt, d1, d2, hhead, hlast, hn, hlen, _⟩ := knots_binary hp
  obtain ⟨zf, zl, q, _, _, _, _, _, e6, _, e8, e9, e10, _⟩ := palette_contiguous s (some r) false hp.ranges hp.starts hp.ends
  have hb := hp.built
  rw [e6] at hb
  cases hb
  have hD : 0 < p.vmax - p.vmin := by linarith
  have e1 := sub_rel d1 d2
  rw [abs_of_pos hD] at e1
  have hN : (⌈rnd (rnd (p.vmax - p.vmin) / r)⌉ : ℤ) ≤ p.numcolors := by
    rw [e10, ← e8, ← e9]
    exact le_max_right _ _
  have hN' : rnd (rnd (p.vmax - p.vmin) / r) ≤ p.numcolors := (Int.le_ceil _).trans (by exact_mod_cast hN)
  have h256 : (256 : ℚ) ≤ p.numcolors := by exact_mod_cast hn
  generalize (p.numcolors : ℚ) = N at *
  generalize rnd (p.vmax - p.vmin) = D' at *
  generalize p.vmax - p.vmin = D at *
  have h1 := (abs_le.1 e1).1
  rw [div_le_iff₀ (by linarith)]
  by_cases hx : D' / r ≤ 1
  · rw [div_le_one hr] at hx
    nlinarith
  · push Not at hx
    have hx' : |rnd (D' / r) - D' / r| ≤ |D' / r| / 2 ^ 53 :=
      rnd_rel (by rw [abs_of_pos (by linarith)]; exact le_trans (zpow_le_one_of_nonpos₀ (by norm_num) (by norm_num)) hx.le)
    rw [abs_of_pos (show 0 < D' / r by linarith)] at hx'
    have h2 := (abs_le.1 hx').1
    have h3 : D' / r * (1 - 1 / 2 ^ 53) ≤ N := by linarith
    have h4 : D' = D' / r * r := by field_simp
    have h5 : D' / r * (1 - 1 / 2 ^ 53) * r ≤ N * r := mul_le_mul_of_nonneg_right h3 hr.le
    have h6 : D' * (1 - 1 / 2 ^ 53) ≤ N * r := by
      calc D' * (1 - 1 / 2 ^ 53) = D' / r * (1 - 1 / 2 ^ 53) * r := by rw [mul_right_comm, ← h4]
        _ ≤ _ := h5
    have h7 : D * (1 - 1 / 2 ^ 53) * (1 - 1 / 2 ^ 53) ≤ N * r := by nlinarith
    have h8 : 0 < N * r := by positivity
    nlinarith

theorem formatted_exact {c : RGB} (h : ∃ r g b : ℕ, c = ((r : ℚ), (g : ℚ), (b : ℚ)) ∧ r ≤ 255 ∧ g ≤ 255 ∧ b ≤ 255) :
    ∃ r g b : ℕ, c = ((r : ℚ), (g : ℚ), (b : ℚ)) ∧ formatted (opaqueBinary c) "255" = .ok (.ints [(r : ℤ), g, b, 255]) := by
  obtain ⟨r, g, b, rfl, h1, h2, h3⟩ := h
  refine ⟨r, g, b, rfl, ?_⟩
  have e : formatted (opaqueBinary ((r : ℚ), (g : ℚ), (b : ℚ))) "255" =
      .ok (.ints [Py.trunc (rnd (rnd ((r : ℚ) / 255) * 255)), Py.trunc (rnd (rnd ((g : ℚ) / 255) * 255)), Py.trunc (rnd (rnd ((b : ℚ) / 255) * 255)),
        Py.trunc (rnd (1 * 255))]) := rfl
  rw [e, C183_bytes r h1, C183_bytes g h2, C183_bytes b h3]
  have : Py.trunc (rnd (1 * 255)) = 255 := by decide +kernel
  rw [this]

/-- **C191**: where every range has one colour, of integers, the colour in the format of integers is exactly the colour of a range that contains a value near
the data value, as near as in `C191_color_partial`. -/
theorem C191_steps (s : Segments) (resolution : Option ℚ) (p : Palette) (hp : PaintedBinary s resolution p) (hs : s.rgb0 = s.rgb1)
    (hint : ∀ c ∈ s.rgb0, ∃ r g b : ℕ, c = ((r : ℚ), (g : ℚ), (b : ℚ)) ∧ r ≤ 255 ∧ g ≤ 255 ∧ b ≤ 255) (z : ℚ) (hz : IsDouble z)
    (h1 : p.vmin ≤ z) (h2 : z ≤ p.vmax) :
    ∃ (j : ℕ) (lo hi w : ℚ) (r g b : ℕ), s.z0[j]? = some lo ∧ s.z1[j]? = some hi ∧ s.rgb0[j]? = some ((r : ℚ), (g : ℚ), (b : ℚ)) ∧ lo ≤ w ∧ w ≤ hi ∧
      |w - z| ≤ (p.vmax - p.vmin) * (1 / p.numcolors + 1 / 2 ^ 48) ∧ Dbl.dataColor p z "255" = .ok (.ints [(r : ℤ), g, b, 255]) := by
  obtain ⟨_, hlt, d1, d2, hhead, hlast, hn, hlen, _⟩ := knots_binary hp
  have hn2 : 2 ≤ p.numcolors.toNat := by omega
  have hD : 0 < p.vmax - p.vmin := by linarith
  have hN : ((p.numcolors.toNat : ℕ) : ℚ) = p.numcolors := by
    have : ((p.numcolors.toNat : ℕ) : ℤ) = p.numcolors := Int.toNat_of_nonneg (by omega)
    exact_mod_cast this
  have t1 : position p.vmin p.vmax z ≤ 1 := by
    rw [← position_high d1 d2 hlt]
    exact position_mono d1 d2 hlt h2
  have t0 : 0 ≤ position p.vmin p.vmax z := by
    rw [← position_low (lo := p.vmin) (hi := p.vmax)]
    exact position_mono d1 d2 hlt h1
  have e1 := index_near hn2 t0 t1
  have e2 := position_near d1 d2 hz h1 h2 hlt
  have hle := index_le p.numcolors.toNat (by omega) (position p.vmin p.vmax z)
  generalize hi : tableIndex p.numcolors.toNat (position p.vmin p.vmax z) = i at *
  obtain ⟨j, a, b, ca, cb, d, hr⟩ := reading_exists hp i hle
  have hcc : ca = cb := by
    have e := hr.start
    rw [hs, hr.stop] at e
    cases e
    rfl
  subst hcc
  have hab := hp.ranges.2.2.1 j a b hr.lower hr.upper
  have hd0 := hr.d0
  have hd1 := hr.d1
  obtain ⟨r, g, c, e3, e4⟩ := formatted_exact (hint ca (List.mem_of_getElem? hr.start))
  refine ⟨j, a, b, a + d * (b - a), r, g, c, hr.lower, hr.upper, e3 ▸ hr.start, by nlinarith, by nlinarith, ?_, ?_⟩
  · rw [← hN]
    exact near_sum hD e1 e2 hr.near
  · rw [dataColor_binary hp, hi, ← e4, tableColor, hr.flat _ (.inl rfl) rfl, hr.flat _ (.inr (.inl rfl)) rfl, hr.flat _ (.inr (.inr rfl)) rfl]
    rfl

theorem int_of_mem {l : List ℚ} (h : l.all (fun q => q.den == 1) = true) {j : ℕ} {a : ℚ} (ha : l[j]? = some a) : ∃ n : ℤ, a = n := by
  have := List.all_eq_true.1 h a (List.mem_of_getElem? ha)
  exact ⟨a.num, ((Rat.den_eq_one_iff a).1 (by simpa using this)).symm⟩

theorem painted_population {p : Palette} (hp : presetPalette "pop" = .ok p) :
    PaintedBinary Colors.presetPOP (some 1) p ∧ p.numcolors = 50000 ∧ p.vmin = 0 ∧ p.vmax = 50000 := by
  have h1 : (presetPalette "pop").toOption.map (fun p => (p.numcolors, p.vmin, p.vmax)) = some (50000, 0, 50000) := by decide +kernel
  rw [hp] at h1
  simp only [Except.toOption, Option.map_some, Option.some.injEq, Prod.mk.injEq] at h1
  obtain ⟨e1, e2, e3⟩ := h1
  have hr : rnd 1 = 1 := rnd_double one_double
  refine ⟨⟨⟨by simp [Colors.presetPOP], rfl, ?_, ?_⟩, rfl, rfl, ?_, ?_, ?_, by rw [e1]; norm_num⟩, e1, e2, e3⟩
  · intro i a b ha hb
    have hi : i < 8 := (List.getElem?_eq_some_iff.1 ha).1
    interval_cases i <;> simp [Colors.presetPOP] at ha hb <;> linarith
  · intro i a b ha hb
    have hi : i < 8 := (List.getElem?_eq_some_iff.1 ha).1
    interval_cases i <;> simp [Colors.presetPOP] at ha hb <;> linarith
  · have : (Colors.presetPOP.rgb0 ++ Colors.presetPOP.rgb1).all (fun c => decide (Within255 c)) = true := by decide +kernel
    exact fun c hc => of_decide_eq_true (List.all_eq_true.1 this c hc)
  · intro z hz
    obtain ⟨j, hj⟩ := List.getElem?_of_mem hz
    obtain ⟨n, rfl⟩ := int_of_mem (by decide +kernel) hj
    have : (Colors.presetPOP.z0 ++ Colors.presetPOP.z1).all (fun q => decide (|q| ≤ 50000)) = true := by decide +kernel
    have := of_decide_eq_true (List.all_eq_true.1 this _ hz)
    apply int_double
    have : |n| ≤ 50000 := by exact_mod_cast this
    linarith
  · have : presetPalette "pop" = palette Colors.presetPOP (some (rnd 1)) false := rfl
    rw [hr] at this
    rw [← this, hp]

/-- **C191**: for the population preset the colour is exact, in binary arithmetic too, for every number of people up to the highest: it is a colour that the
ranges prescribe for that number. -/
theorem C191_population (p : Palette) (hp : presetPalette "pop" = .ok p) (z : ℕ) (hz : z < 50000) :
    ∃ r g b : ℕ, DrawnAt Colors.presetPOP.z0 Colors.presetPOP.z1 Colors.presetPOP.rgb0 Colors.presetPOP.rgb1 z ((r : ℚ), (g : ℚ), (b : ℚ)) ∧
      Dbl.dataColor p z "255" = .ok (.ints [(r : ℤ), g, b, 255]) := by
  obtain ⟨hpaint, hN, hmin, hmax⟩ := painted_population hp
  have hn : p.numcolors.toNat = 50000 := by rw [hN]; rfl
  have hzq : (z : ℚ) ≤ 49999 := by exact_mod_cast (by omega : z ≤ 49999)
  have hz0 : (0 : ℚ) ≤ z := Nat.cast_nonneg z
  have dz : IsDouble (z : ℚ) := nat_double (by omega)
  obtain ⟨_, hlt, d1, d2, _⟩ := knots_binary hpaint
  have e2 := position_near d1 d2 dz (by rw [hmin]; exact hz0) (by rw [hmax]; linarith) hlt
  have t0 : 0 ≤ position p.vmin p.vmax z := by
    rw [← position_low (lo := p.vmin) (hi := p.vmax)]
    exact position_mono d1 d2 hlt (by rw [hmin]; exact hz0)
  have t1 : position p.vmin p.vmax z ≤ 1 := by
    rw [← position_high d1 d2 hlt]
    exact position_mono d1 d2 hlt (by rw [hmax]; linarith)
  -- the index is the number or one below it
  have hidx : tableIndex p.numcolors.toNat (position p.vmin p.vmax z) = z ∨
      tableIndex p.numcolors.toNat (position p.vmin p.vmax z) + 1 = z := by
    rw [hn]
    rw [hmin, hmax] at e2 t0 t1 ⊢
    unfold tableIndex
    generalize position 0 50000 (z : ℚ) = t at *
    have e3 := rnd_one (q := t * (50000 : ℕ)) (B := 50000) (by
      push_cast
      rw [abs_of_nonneg (by positivity)]
      linarith) (by norm_num)
    have y0 : 0 ≤ rnd (t * (50000 : ℕ)) := rnd_nonneg (by positivity)
    generalize rnd (t * (50000 : ℕ)) = y at *
    have e4 : |y - z| ≤ 1 / 1000 := by
      push_cast at e3
      rw [abs_le] at *
      constructor <;> linarith
    have e4 := abs_le.1 e4
    rw [if_neg (not_lt.2 y0), if_neg (by push_cast; linarith)]
    unfold Py.trunc
    rw [if_pos y0]
    by_cases hy : (z : ℚ) ≤ y
    · left
      have : ⌊y⌋ = (z : ℤ) := by
        rw [Int.floor_eq_iff]
        push_cast
        exact ⟨hy, by linarith⟩
      rw [this]
      rfl
    · right
      have hz1 : 1 ≤ z := by
        by_contra h
        have : z = 0 := by omega
        subst this
        exact hy (by simpa using y0)
      have : ⌊y⌋ = (z : ℤ) - 1 := by
        rw [Int.floor_eq_iff]
        push_cast
        constructor <;> linarith
      rw [this]
      omega
  have hle := index_le p.numcolors.toNat (by omega) (position p.vmin p.vmax z)
  generalize hi : tableIndex p.numcolors.toNat (position p.vmin p.vmax z) = i at *
  obtain ⟨j, a, b, ca, cb, d, hr⟩ := reading_exists hpaint i hle
  have hcc : ca = cb := by
    have e := hr.start
    rw [show Colors.presetPOP.rgb0 = Colors.presetPOP.rgb1 from rfl, hr.stop] at e
    cases e
    rfl
  subst hcc
  have hab := hpaint.ranges.2.2.1 j a b hr.lower hr.upper
  have hd0 := hr.d0
  have hd1 := hr.d1
  obtain ⟨na, hna⟩ := int_of_mem (by decide +kernel) hr.lower
  obtain ⟨nb, hnb⟩ := int_of_mem (by decide +kernel) hr.upper
  have hint : ∃ r g b : ℕ, ca = ((r : ℚ), (g : ℚ), (b : ℚ)) ∧ r ≤ 255 ∧ g ≤ 255 ∧ b ≤ 255 := by
    have hj : j < 8 := (List.getElem?_eq_some_iff.1 hr.start).1
    have := hr.start
    interval_cases j <;> simp only [Colors.presetPOP, List.getElem?_cons_succ, List.getElem?_cons_zero, Option.some.injEq] at this <;> subst this
    · exact ⟨255, 255, 255, by norm_num⟩
    · exact ⟨191, 191, 191, by norm_num⟩
    · exact ⟨159, 159, 159, by norm_num⟩
    · exact ⟨127, 127, 127, by norm_num⟩
    · exact ⟨95, 95, 95, by norm_num⟩
    · exact ⟨63, 63, 63, by norm_num⟩
    · exact ⟨31, 31, 31, by norm_num⟩
    · exact ⟨0, 0, 0, by norm_num⟩
  obtain ⟨r, g, c, e3, e4⟩ := formatted_exact hint
  have hcontains : a ≤ z ∧ (z : ℚ) ≤ b := by
    have hnear := hr.near
    rw [hn, hmin, hmax] at hnear
    push_cast at hnear
    have hw1 : a ≤ a + d * (b - a) := by nlinarith
    have hw2 : a + d * (b - a) ≤ b := by nlinarith
    generalize a + d * (b - a) = w at hnear hw1 hw2
    rw [abs_le] at hnear
    obtain ⟨n1, n2⟩ := hnear
    have hiq : (i : ℚ) = z ∨ (i : ℚ) + 1 = z := by
      rcases hidx with h | h
      · exact .inl (by exact_mod_cast h)
      · exact .inr (by exact_mod_cast h)
    have hi0 : (0 : ℚ) ≤ i := Nat.cast_nonneg i
    constructor
    · by_cases hlast : i = p.numcolors.toNat - 1
      · have hj := hr.last hlast
        have hj' : j = 7 := by
          have : j + 1 = 8 := hj
          omega
        subst hj'
        have ea := hr.lower
        simp only [Colors.presetPOP, List.getElem?_cons_succ, List.getElem?_cons_zero, Option.some.injEq] at ea
        have : i = 49999 := by rw [hlast, hn]
        have h2 : (49999 : ℚ) ≤ z := by
          rcases hiq with h | h <;> rw [← h, this] <;> norm_num
        linarith
      · have hi' : (i : ℚ) ≤ 49998 := by
          exact_mod_cast (by omega : i ≤ 49998)
        have : a < z + 1 := by
          rcases hiq with h | h <;> linarith
        rw [hna] at this ⊢
        have : na < (z : ℤ) + 1 := by exact_mod_cast this
        exact_mod_cast (by omega : na ≤ (z : ℤ))
    · by_cases h0 : i = 0
      · obtain ⟨rfl, _⟩ := hr.first h0
        have eb := hr.upper
        simp only [Colors.presetPOP, List.getElem?_cons_zero, Option.some.injEq] at eb
        rw [← eb]
        have : z ≤ 1 := by omega
        have : (z : ℚ) ≤ 1 := by exact_mod_cast this
        linarith
      · have hi1 : (1 : ℚ) ≤ i := by exact_mod_cast Nat.one_le_iff_ne_zero.2 h0
        have : (z : ℚ) - 1 < b := by
          rcases hiq with h | h <;> linarith
        rw [hnb] at this ⊢
        have : (z : ℤ) - 1 < nb := by exact_mod_cast this
        exact_mod_cast (by omega : (z : ℤ) ≤ nb)
  refine ⟨r, g, c, ⟨j, a, b, ca, ca, hr.lower, hr.upper, hr.start, hr.stop, hcontains.1, hcontains.2, ?_⟩, ?_⟩
  · rw [← e3]
    unfold lerp
    simp
  · rw [dataColor_binary hpaint, hi, ← e4, tableColor, hr.flat _ (.inl rfl) rfl, hr.flat _ (.inr (.inl rfl)) rfl, hr.flat _ (.inr (.inr rfl)) rfl]
    rfl

/-- A palette of one range from black to grey, from 0 to 50000, made to tell single people apart. -/
def graded : Segments := ⟨[0], [50000], [(0, 0, 0)], [(250, 250, 250)]⟩

/-- Two ranges, the first from red 3 to red 37, the second all red 37. -/
def reddish : Segments := ⟨[0, 51], [51, 255], [(3, 0, 0), (37, 0, 0)], [(37, 0, 0), (37, 0, 0)]⟩

/-- Two ranges, the first from red 1 to red 33, the second all red 33. -/
def reddish' : Segments := ⟨[0, 51], [51, 255], [(1, 0, 0), (33, 0, 0)], [(33, 0, 0), (33, 0, 0)]⟩

/-- The result of `getDataColor` for a palette that is made from ranges. -/
def colorOf (s : Segments) (resolution : Option ℚ) (z : ℚ) (format : String) : Option Colors.Color :=
  (palette s resolution false).toOption.bind fun p => (Dbl.dataColor p z format).toOption

/-- **C191** violated: values that are one resolution apart can have the same colour although the colours grow along the range: 6 and 7 in a palette of
0..50000 with resolution 1. -/
theorem C191_resolution_violated : (palette graded (some 1) false).toOption.map (·.numcolors) = some 50000 ∧
    (colorOf graded (some 1) 6 "mlab").isSome = true ∧ colorOf graded (some 1) 7 "mlab" = colorOf graded (some 1) 6 "mlab" ∧
    colorOf graded (some 1) 8 "mlab" ≠ colorOf graded (some 1) 7 "mlab" := by decide +kernel

/-- The red of a colour. -/
def redOf : Option Colors.Color → ℚ
  | some (.floats (r :: _)) => r
  | _ => -1

/-- **C191** violated: a channel that never falls along the ranges can fall with the value, by the last bit: from 51 to 52 here. -/
theorem C191_order_violated : Rising (fun c => c.1) reddish.rgb0 reddish.rgb1 ∧ 0 ≤ redOf (colorOf reddish none 52 "mlab") ∧
    redOf (colorOf reddish none 52 "mlab") < redOf (colorOf reddish none 51 "mlab") := by
  refine ⟨⟨?_, ?_⟩, by decide +kernel, by decide +kernel⟩
  · intro i p q hp hq
    have hi : i < 2 := (List.getElem?_eq_some_iff.1 hp).1
    interval_cases i <;> simp [reddish] at hp hq <;> subst hp hq <;> norm_num
  · intro i p q hp hq
    have hi : i + 1 < 2 := (List.getElem?_eq_some_iff.1 hq).1
    obtain rfl : i = 0 := by omega
    simp [reddish] at hp hq
    subst hp hq
    norm_num

/-- **C191** violated: in the formats of integers a channel can be one too small: the end of the first range here is red 32 instead of 33, which exact arithmetic
would return. -/
theorem C191_bytes_violated : colorOf reddish' none 51 "255" = some (.ints [32, 0, 0, 255]) ∧ colorOf reddish' none 52 "255" = some (.ints [33, 0, 0, 255]) ∧
    ((Colors.construct reddish' none false).toOption.bind fun p => (Colors.dataColor id p [] (.num 51) "255").toOption) = some (.ints [33, 0, 0, 255]) := by
  decide +kernel

/-! The hypotheses hold for the population preset, and for its values. -/

example : ∃ p, PaintedBinary Colors.presetPOP (some 1) p ∧ presetPalette "pop" = .ok p ∧ IsDouble (7 : ℚ) ∧ p.vmin ≤ 7 ∧ 7 ≤ p.vmax := by
  obtain ⟨p, hp⟩ := exists_ok (presetPalette "pop") (by decide +kernel)
  obtain ⟨h1, _, h2, h3⟩ := painted_population hp
  exact ⟨p, h1, hp, by simpa using nat_double (n := 7) (by norm_num), by rw [h2]; norm_num, by rw [h3]; norm_num⟩

example : ∃ p, PaintedBinary reddish none p ∧ Rising (fun c => c.1) reddish.rgb0 reddish.rgb1 ∧ IsChannel (fun c => c.1) := by
  obtain ⟨p, hp⟩ := exists_ok (palette reddish none false) (by decide +kernel)
  have h1 : (palette reddish none false).toOption.map (·.numcolors) = some 256 := by decide +kernel
  rw [hp] at h1
  simp only [Except.toOption, Option.map_some, Option.some.injEq] at h1
  refine ⟨p, ⟨⟨by simp [reddish], rfl, ?_, ?_⟩, rfl, rfl, ?_, ?_, hp, by rw [h1]; norm_num⟩, C191_order_violated.1, .inl rfl⟩
  · intro i a b ha hb
    have hi : i < 2 := (List.getElem?_eq_some_iff.1 ha).1
    interval_cases i <;> simp [reddish] at ha hb <;> linarith
  · intro i a b ha hb
    have hi : i < 2 := (List.getElem?_eq_some_iff.1 ha).1
    interval_cases i <;> simp [reddish] at ha hb <;> linarith
  · have : (reddish.rgb0 ++ reddish.rgb1).all (fun c => decide (Within255 c)) = true := by decide +kernel
    exact fun c hc => of_decide_eq_true (List.all_eq_true.1 this c hc)
  · intro z hz
    obtain ⟨j, hj⟩ := List.getElem?_of_mem hz
    obtain ⟨n, rfl⟩ := int_of_mem (by decide +kernel) hj
    have : (reddish.z0 ++ reddish.z1).all (fun q => decide (|q| ≤ 50000)) = true := by decide +kernel
    have := of_decide_eq_true (List.all_eq_true.1 this _ hz)
    apply int_double
    have : |n| ≤ 50000 := by exact_mod_cast this
    linarith

example : colorOf Colors.presetPOP (some 1) 3 "255" = some (.ints [255, 255, 255, 255]) ∧
    colorOf Colors.presetPOP (some 1) 4 "255" = some (.ints [191, 191, 191, 255]) := by decide +kernel

/-- The values of the project's tests: 0.5 in the documented example. -/
example : colorOf documented none (1 / 2) "255" = some (.ints [42, 42, 42, 255]) := by decide +kernel

end Verif.Props
