import Mathlib.Data.List.Basic

/-!
# Rows that were cut off
-/

namespace Verif.Spec

/-- What is left of a row when its text is cut off: some of its fields, the last one with its beginning only (or complete). -/
def CutOf (row last : List (List Char)) : Prop :=
  ∃ fs g f, last = fs ++ [g] ∧ fs ++ [f] <+: row ∧ g <+: f

end Verif.Spec
