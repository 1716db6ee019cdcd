import Verif.Model.PyBase

/-!
# Thousands grouping, independently of the program
-/

namespace Verif.Spec

/-- `result` is the text `digits` cut from the right into groups of three (the leftmost group has
one to three characters) with `sep` in front of every group but the first. -/
def Grouped (sep digits result : List Char) : Prop :=
  ∃ (first : List Char) (groups : List (List Char)),
    1 ≤ first.length ∧ first.length ≤ 3 ∧ (∀ g ∈ groups, g.length = 3) ∧
    digits = first ++ groups.flatten ∧
    result = first ++ (groups.map (fun g => sep ++ g)).flatten

/-- Value of a text of decimal digits. -/
def decimalValue (s : List Char) : ℕ := s.foldl (fun acc c => 10 * acc + (c.toNat - 48)) 0

/-- `s` is the usual decimal text of `n`: digits only, the right value, no leading zero. -/
def IsDecimalText (n : ℕ) (s : List Char) : Prop :=
  (∀ c ∈ s, '0' ≤ c ∧ c ≤ '9') ∧ decimalValue s = n ∧ s ≠ [] ∧ (s.head? = some '0' → s = ['0'])

/-- `s` is the usual text of the integer `n`. -/
def IsIntText (n : ℤ) (s : List Char) : Prop :=
  (0 ≤ n ∧ IsDecimalText n.toNat s) ∨ (n < 0 ∧ ∃ t, s = '-' :: t ∧ IsDecimalText (-n).toNat t)

end Verif.Spec
