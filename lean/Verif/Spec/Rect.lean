import Mathlib.Algebra.Order.Ring.Rat
import Mathlib.Tactic.Linarith

/-!
# Closed rectangles

These specifications mention no model definition.
-/

namespace Verif.Spec

/-- The point `(x, y)` lies in the closed rectangle `[l, r] × [b, t]`. -/
def InRect (l r b t x y : ℚ) : Prop := l ≤ x ∧ x ≤ r ∧ b ≤ y ∧ y ≤ t

/-- Two closed rectangles share no point. -/
def RectsDisjoint (l r b t l' r' b' t' : ℚ) : Prop :=
  ∀ x y, ¬ (InRect l r b t x y ∧ InRect l' r' b' t' x y)

end Verif.Spec
