import Verif.Model.PyBase
import Mathlib.Tactic.Linarith
import Mathlib.Tactic.Ring
import Mathlib.Tactic.FieldSimp
import Mathlib.Tactic.NormNum

/-!
# Facts about Python's `round` and `int`
-/

namespace Verif.Py

theorem trunc_intCast (n : ℤ) : trunc (n : ℚ) = n := by
  unfold trunc; split <;> simp

theorem round_abs_sub_le (q : ℚ) : |q - round q| ≤ 1 / 2 := by
  have h1 := Int.floor_le q
  have h2 := Int.lt_floor_add_one q
  unfold round
  simp only
  rw [abs_le]
  split_ifs <;> push_cast <;> constructor <;> linarith

theorem round_nearest (q : ℚ) (j : ℤ) : |q - round q| ≤ |q - j| := by
  by_cases hj : j = round q
  · rw [hj]
  · have h := round_abs_sub_le q
    have h1 : (1 : ℚ) ≤ |(round q : ℚ) - j| := by
      have : (1 : ℤ) ≤ |round q - j| := Int.one_le_abs (sub_ne_zero.2 (Ne.symm hj))
      exact_mod_cast this
    have h2 := abs_sub_abs_le_abs_sub ((round q : ℚ) - j) (round q - q)
    have h3 : ((round q : ℚ) - j) - (round q - q) = q - j := by ring
    rw [h3, abs_sub_comm (round q : ℚ) q] at h2
    linarith

theorem round_tie (q : ℚ) (j : ℤ) (hj : j ≠ round q) (h : |q - j| = |q - round q|) :
    round q % 2 = 0 := by
  have hle := round_abs_sub_le q
  have h1 : (1 : ℚ) ≤ |(round q : ℚ) - j| := by
    have : (1 : ℤ) ≤ |round q - j| := Int.one_le_abs (sub_ne_zero.2 (Ne.symm hj))
    exact_mod_cast this
  have h2 := abs_sub_abs_le_abs_sub ((round q : ℚ) - j) (round q - q)
  have h3 : ((round q : ℚ) - j) - (round q - q) = q - j := by ring
  rw [h3, abs_sub_comm (round q : ℚ) q] at h2
  have heq : |q - round q| = 1 / 2 := by linarith
  have hf1 := Int.floor_le q
  have hf2 := Int.lt_floor_add_one q
  revert heq
  unfold round
  simp only
  split_ifs with a b c
  · intro heq
    rw [abs_of_nonneg (by linarith)] at heq
    linarith
  · intro heq
    push_cast at heq
    rw [abs_of_nonpos (by linarith)] at heq
    linarith
  · intro _; exact c
  · intro _; omega

theorem round_intCast (n : ℤ) : round (n : ℚ) = n := by
  unfold round; simp

theorem round_mono {a b : ℚ} (h : a ≤ b) : round a ≤ round b := by
  by_contra hc
  push Not at hc
  have ha := round_abs_sub_le a
  have hb := round_abs_sub_le b
  rw [abs_le] at ha hb
  have h1 : (round b : ℚ) + 1 ≤ round a := by exact_mod_cast hc
  have hab : a = b := by linarith
  rw [hab] at hc
  exact lt_irrefl _ hc

theorem floor_le_round (q : ℚ) : ⌊q⌋ ≤ round q := by
  unfold round; simp only; split_ifs <;> omega

theorem round_le_ceil (q : ℚ) : round q ≤ ⌈q⌉ := by
  have h := round_mono (Int.le_ceil q)
  rwa [round_intCast] at h

end Verif.Py
