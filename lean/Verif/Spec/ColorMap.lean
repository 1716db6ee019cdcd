import Verif.Spec.Palette

/-!
# The colours that coloured ranges prescribe

These specifications mention no model definition. Range `i` goes from `z0[i]` to `z1[i]`, and its colour goes from `c0[i]` to `c1[i]` in a straight
line, in each channel.
-/

namespace Verif.Spec

/-- `c` is a colour that the ranges prescribe for the value `w`. -/
def DrawnAt (z0 z1 : List ℚ) (c0 c1 : List (ℚ × ℚ × ℚ)) (w : ℚ) (c : ℚ × ℚ × ℚ) : Prop :=
  ∃ (i : ℕ) (a b : ℚ) (p q : ℚ × ℚ × ℚ), z0[i]? = some a ∧ z1[i]? = some b ∧ c0[i]? = some p ∧ c1[i]? = some q ∧ a ≤ w ∧ w ≤ b ∧
    c = (lerp a b p.1 q.1 w, lerp a b p.2.1 q.2.1 w, lerp a b p.2.2 q.2.2 w)

/-- The number `f` of a colour never falls along the ranges. -/
def Rising (f : ℚ × ℚ × ℚ → ℚ) (c0 c1 : List (ℚ × ℚ × ℚ)) : Prop :=
  (∀ (i : ℕ) p q, c0[i]? = some p → c1[i]? = some q → f p ≤ f q) ∧ ∀ (i : ℕ) p q, c1[i]? = some p → c0[i + 1]? = some q → f p ≤ f q

/-- The number `f` of a colour grows along each range and does not fall from one range to the next. -/
def StrictlyRising (f : ℚ × ℚ × ℚ → ℚ) (c0 c1 : List (ℚ × ℚ × ℚ)) : Prop :=
  (∀ (i : ℕ) p q, c0[i]? = some p → c1[i]? = some q → f p < f q) ∧ ∀ (i : ℕ) p q, c1[i]? = some p → c0[i + 1]? = some q → f p ≤ f q

end Verif.Spec
