import Mathlib.Analysis.SpecialFunctions.Trigonometric.Inverse
import Mathlib.Analysis.SpecialFunctions.Complex.Arg
import Verif.Model.OqDouble
import Verif.Spec.Double

/-!
# What is asked of the C library
-/

namespace Verif.Spec
open Verif.Dbl (MathLib)

/-- The functions of the library are right up to a part `u` of the result; squares may also be wrong by the smallest double there is. -/
structure RightTo (u : ℝ) (L : MathLib) : Prop where
  sin : ∀ x : ℚ, |x| ≤ 10 → |(L.sin x : ℝ) - Real.sin x| ≤ u * |Real.sin x|
  cos : ∀ x : ℚ, |x| ≤ 10 → |(L.cos x : ℝ) - Real.cos x| ≤ u * |Real.cos x|
  sq : ∀ x : ℚ, |(L.sq x : ℝ) - (x : ℝ) ^ 2| ≤ u * (x : ℝ) ^ 2 + 2 ^ (-1074 : ℤ)
  sq_nonneg : ∀ x : ℚ, 0 ≤ L.sq x
  sq_zero : L.sq 0 = 0
  asin : ∀ x : ℚ, 0 ≤ x → x ≤ 1 → |(L.asin x : ℝ) - Real.arcsin x| ≤ u * Real.arcsin x

/-- Libraries whose error is at least that of rounding and less than 2^-40: the sine of numpy, for instance, is right to a few units of the last place of 53 bits. -/
def Precise (u : ℝ) : Prop := 2 ^ (-53 : ℤ) ≤ u ∧ u ≤ 2 ^ (-40 : ℤ)

/-- An arc tangent of two numbers that is right to `u` times 4, with results from -π to π as doubles. -/
structure ArcTan (u : ℝ) (atan2 : ℚ → ℚ → ℚ) : Prop where
  near : ∀ y x : ℚ, |(atan2 y x : ℝ) - Complex.arg ⟨x, y⟩| ≤ 4 * u
  range : ∀ y x : ℚ, |atan2 y x| ≤ Verif.Dbl.npyPi

end Verif.Spec
