import Mathlib.Algebra.Order.Ring.Rat
import Mathlib.Algebra.Order.Field.Basic

/-!
# Colour specifications

These specifications mention no model definition.
-/

namespace Verif.Spec

/-- Ranges given by lower bounds `z0` and upper bounds `z1`: equally many, each ascending, each
starting where the one before ends, at least one. -/
def Contiguous (z0 z1 : List ℚ) : Prop :=
  z0 ≠ [] ∧ z0.length = z1.length ∧
  (∀ (i : ℕ) (a b : ℚ), z0[i]? = some a → z1[i]? = some b → a < b) ∧
  ∀ (i : ℕ) (a b : ℚ), z1[i]? = some a → z0[i + 1]? = some b → a = b

/-- Hexadecimal digit value. -/
def hexValue (c : Char) : Option ℕ :=
  if '0'.toNat ≤ c.toNat ∧ c.toNat ≤ '9'.toNat then some (c.toNat - '0'.toNat)
  else if 'A'.toNat ≤ c.toNat ∧ c.toNat ≤ 'F'.toNat then some (c.toNat - 'A'.toNat + 10)
  else none

/-- Reading an HTML colour `#RRGGBB` with upper-case digits. -/
def readHtmlColor : List Char → Option (ℕ × ℕ × ℕ)
  | ['#', a, b, c, d, e, f] =>
    match hexValue a, hexValue b, hexValue c, hexValue d, hexValue e, hexValue f with
    | some a, some b, some c, some d, some e, some f => some (16 * a + b, 16 * c + d, 16 * e + f)
    | _, _, _, _, _, _ => none
  | _ => none

/-- Straight-line interpolation between `p` at `a` and `q` at `b`. -/
def lerp (a b p q z : ℚ) : ℚ := p + (q - p) * ((z - a) / (b - a))

end Verif.Spec
