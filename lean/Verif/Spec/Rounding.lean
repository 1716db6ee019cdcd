import Mathlib.Data.Rat.Floor

/-!
# Rounding to multiples and to significant digits, independently of the program
-/

namespace Verif.Spec

/-- `r` is the multiple of `step` nearest to `value`, the even multiple on a tie. -/
def NearestMultiple (value step r : ℚ) : Prop :=
  ∃ k : ℤ, r = k * step ∧ (∀ j : ℤ, |value - k * step| ≤ |value - j * step|) ∧
    ∀ j : ℤ, j ≠ k → |value - j * step| = |value - k * step| → k % 2 = 0

/-- `r` is the greatest multiple of `step` that is at most `value`. -/
def FloorMultiple (value step r : ℚ) : Prop :=
  (∃ k : ℤ, r = k * step) ∧ r ≤ value ∧ ∀ j : ℤ, j * step ≤ value → j * step ≤ r

/-- `r` is the least multiple of `step` that is at least `value`. -/
def CeilMultiple (value step r : ℚ) : Prop :=
  (∃ k : ℤ, r = k * step) ∧ value ≤ r ∧ ∀ j : ℤ, value ≤ j * step → r ≤ j * step

/-- `r` can be written with at most `p` significant decimal digits. -/
def HasDigits (p : ℕ) (r : ℚ) : Prop :=
  ∃ (m : ℤ) (k : ℤ), |m| < 10 ^ p ∧ r = m * (10 : ℚ) ^ k

end Verif.Spec
