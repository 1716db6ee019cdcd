import Verif.Model.TimeText
import Verif.Spec.Grouping

/-!
# Times and their texts, for C194
-/

namespace Verif.Spec
open Verif.Time

/-- A time of the calendar of `datetime`. -/
def ValidTime (t : Moment) : Prop :=
  1 ≤ t.year ∧ t.year ≤ 9999 ∧ 1 ≤ t.month ∧ t.month ≤ 12 ∧ 1 ≤ t.day ∧
    t.day ≤ (if t.month = 2 then (if 4 ∣ t.year ∧ (¬ 100 ∣ t.year ∨ 400 ∣ t.year) then 29 else 28) else if t.month ∈ [4, 6, 9, 11] then 30 else 31) ∧
    t.hour ≤ 23 ∧ t.minute ≤ 59 ∧ t.second ≤ 59 ∧ t.micro ≤ 999999

/-- Digits, from `a` to `b` of them, that stand for a number. -/
def Number (s : List Char) (a b n : ℕ) : Prop := a ≤ s.length ∧ s.length ≤ b ∧ (∀ c ∈ s, c.isDigit = true) ∧ decimalValue s = n

/-- A day of the month: one or two digits, or a blank and one. -/
def DayText (s : List Char) (n : ℕ) : Prop := Number s 1 2 n ∨ ∃ d, s = ' ' :: d ∧ Number d 1 1 n

/-- The end of a text: a point and up to six digits, or nothing. -/
def Fraction (fraction : Bool) (s : List Char) (micro : ℕ) : Prop :=
  if fraction then ∃ g n, s = '.' :: g ∧ Number g 1 6 n ∧ micro = n * 10 ^ (6 - g.length) else s = [] ∧ micro = 0

/-- A text as it is read: year of four digits, month, day, hour, minute and second of one or two, and a fraction of a second of up to six digits or none. -/
def TimeAs (fraction : Bool) (s : List Char) (t : Moment) : Prop :=
  ∃ (y mo d h mi sec f : List Char) (T Z : Char),
    s = y ++ '-' :: (mo ++ '-' :: (d ++ T :: (h ++ ':' :: (mi ++ ':' :: (sec ++ (f ++ [Z])))))) ∧ T ∈ ['T', 't'] ∧ Z ∈ ['Z', 'z'] ∧
    Number y 4 4 t.year ∧ Number mo 1 2 t.month ∧ DayText d t.day ∧ Number h 1 2 t.hour ∧ Number mi 1 2 t.minute ∧ Number sec 1 2 t.second ∧
    Fraction fraction f t.micro

/-- A text in full: the number of digits of a year from 1000 on, two digits each, and six digits of the second. -/
def FullText (s : List Char) (t : Moment) : Prop :=
  ∃ (y mo d h mi sec f : List Char), s = y ++ '-' :: (mo ++ '-' :: (d ++ 'T' :: (h ++ ':' :: (mi ++ ':' :: (sec ++ (f ++ ['Z'])))))) ∧
    IsDecimalText t.year y ∧ Number mo 2 2 t.month ∧ Number d 2 2 t.day ∧ Number h 2 2 t.hour ∧ Number mi 2 2 t.minute ∧ Number sec 2 2 t.second ∧
    ∃ g, f = '.' :: g ∧ Number g 6 6 t.micro

/-- The same in whole seconds. -/
def ShortText (s : List Char) (t : Moment) : Prop :=
  ∃ (y mo d h mi sec : List Char), s = y ++ '-' :: (mo ++ '-' :: (d ++ 'T' :: (h ++ ':' :: (mi ++ ':' :: (sec ++ ['Z']))))) ∧
    IsDecimalText t.year y ∧ Number mo 2 2 t.month ∧ Number d 2 2 t.day ∧ Number h 2 2 t.hour ∧ Number mi 2 2 t.minute ∧ Number sec 2 2 t.second

/-- The years before 1900 that cannot be written, and all others. -/
def WritableYear (y : ℕ) : Prop := 1900 ≤ y ∨ y % 400 ≠ 300

end Verif.Spec
