import Mathlib.Algebra.Order.Ring.Int

/-!
# The proleptic Gregorian calendar and strftime directives, independently of the program
-/

namespace Verif.Spec

/-- Gregorian leap years. -/
def Leap (y : ℤ) : Prop := (y % 4 = 0 ∧ y % 100 ≠ 0) ∨ y % 400 = 0

instance (y : ℤ) : Decidable (Leap y) := by unfold Leap; infer_instance

/-- Length of a month. -/
def monthLength (y : ℤ) (m : ℕ) : ℕ :=
  if m = 2 then (if Leap y then 29 else 28)
  else if m = 4 ∨ m = 6 ∨ m = 9 ∨ m = 11 then 30 else 31

/-- Days of the year before month `m` (months count from 1). -/
def daysBeforeMonth (y : ℤ) : ℕ → ℕ
  | 0 => 0
  | 1 => 0
  | m + 2 => daysBeforeMonth y (m + 1) + monthLength y (m + 1)

/-- Day number since 1 January of year 1 (which is day 1). -/
def ordinal (y : ℤ) (m d : ℕ) : ℤ :=
  365 * (y - 1) + (y - 1) / 4 - (y - 1) / 100 + (y - 1) / 400 + daysBeforeMonth y m + d

/-- Weekday, Monday = 0. -/
def weekday (y : ℤ) (m d : ℕ) : ℤ := (ordinal y m d + 6) % 7

/-- Replace the directive `%x` in a format string, reading the string the way strftime does: a
percent sign and the character after it form one directive. -/
def replaceDirective (x : Char) (by_ : List Char) : List Char → List Char
  | [] => []
  | ['%'] => ['%']
  | '%' :: d :: t =>
    if d = x then by_ ++ replaceDirective x by_ t else '%' :: d :: replaceDirective x by_ t
  | c :: t => c :: replaceDirective x by_ t

/-- The directive `%x` occurs in a format string. -/
def HasDirective (x : Char) : List Char → Prop
  | [] => False
  | ['%'] => False
  | '%' :: d :: t => d = x ∨ HasDirective x t
  | _ :: t => HasDirective x t

/-- `2000-01-01` was a Saturday and `1970-01-01` a Thursday: the weekday formula is anchored. -/
example : weekday 2000 1 1 = 5 ∧ weekday 1970 1 1 = 3 := by decide

end Verif.Spec
