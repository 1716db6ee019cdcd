import Verif.Model.Time
import Verif.Model.DoubleMoney

/-!
# Times as texts

`HistoricTime.strftime` (impactutils/time/ancient_time.py) is in `Verif.Time`, with the directives of the C library as a parameter. Here the directives of
the formats in the code are filled in, and `strptime`, which `HistoricTime` has from `datetime`, is modelled: a format becomes a regular expression, the first
way in which it matches a beginning of the text counts, and nothing may remain (CPython, `_strptime.py`).

Simplifications: only ASCII digits are digits; formats have no white space and none of the other directives.
-/

namespace Verif.Time

/-- The fields of a `HistoricTime` without time zone. -/
structure Moment where
  year : ℕ
  month : ℕ
  day : ℕ
  hour : ℕ
  minute : ℕ
  second : ℕ
  micro : ℕ
deriving DecidableEq, Repr

/-- One directive of `strftime`. -/
def directive (t : Moment) (d : Date) (c : Char) : List Char :=
  if c = 'Y' then Py.intStr d.year
  else if c = 'm' then Dbl.padded 2 d.month
  else if c = 'd' then Dbl.padded 2 d.day
  else if c = 'H' then Dbl.padded 2 t.hour
  else if c = 'M' then Dbl.padded 2 t.minute
  else if c = 'S' then Dbl.padded 2 t.second
  else if c = 'f' then Dbl.padded 6 t.micro
  else [c]

/-- `t.strftime(format)` (impactutils/time/ancient_time.py:33-52). -/
def timeText (format : List Char) (t : Moment) : Strftime := strftime (directive t) ⟨t.year, t.month, t.day⟩ format

/-- `TIMEFMT` and `ALT_TIMEFMT` (impactutils/rupture/constants.py:25-26). -/
def timeFormat : List Char := "%Y-%m-%dT%H:%M:%S.%fZ".toList
def altTimeFormat : List Char := "%Y-%m-%dT%H:%M:%SZ".toList

/-- The time of an event as PDL gets it (impactutils/transfer/pdlsender.py:152): `strftime(DATE_TIME_FMT)[0:23]` and `Z`. -/
def pdlTime (t : Moment) : Strftime :=
  match timeText "%Y-%m-%dT%H:%M:%S.%f".toList t with
  | .ok s => .ok (s.take 23 ++ ['Z'])
  | e => e

/-! ### Reading -/

/-- The value of digits. -/
def valueOfDigits (s : List Char) : ℕ := s.foldl (fun a c => 10 * a + (c.toNat - 48)) 0

/-- `\d` `n` times. -/
def exactly (n : ℕ) (s : List Char) : Option (List Char × List Char) :=
  if n ≤ s.length ∧ (s.take n).all Char.isDigit then some (s.take n, s.drop n) else none

/-- Two digits with a condition. -/
def two (p : ℕ → ℕ → Bool) : List Char → Option (ℕ × List Char)
  | a :: b :: s => if a.isDigit && b.isDigit && p (a.toNat - 48) (b.toNat - 48) then some (10 * (a.toNat - 48) + (b.toNat - 48), s) else none
  | _ => none

/-- One digit with a condition. -/
def one (p : ℕ → Bool) : List Char → Option (ℕ × List Char)
  | a :: s => if a.isDigit && p (a.toNat - 48) then some (a.toNat - 48, s) else none
  | _ => none

/-- A blank and one digit from 1 on. -/
def blankOne : List Char → Option (ℕ × List Char)
  | ' ' :: s => one (fun a => 1 ≤ a) s
  | _ => none

/-- The ways to read a directive, in the order in which they are tried. -/
def readings (c : Char) (s : List Char) : List (ℕ × List Char) :=
  if c = 'Y' then ((exactly 4 s).map fun x => (valueOfDigits x.1, x.2)).toList
  else if c = 'm' then [two (fun a b => a = 1 && b ≤ 2) s, two (fun a b => a = 0 && 1 ≤ b) s, one (fun a => 1 ≤ a) s].filterMap id
  else if c = 'd' then
    [two (fun a b => a = 3 && b ≤ 1) s, two (fun a _ => a = 1 || a = 2) s, two (fun a b => a = 0 && 1 ≤ b) s, one (fun a => 1 ≤ a) s, blankOne s].filterMap id
  else if c = 'H' then [two (fun a b => a = 2 && b ≤ 3) s, two (fun a _ => a ≤ 1) s, one (fun _ => true) s].filterMap id
  else if c = 'M' then [two (fun a _ => a ≤ 5) s, one (fun _ => true) s].filterMap id
  else if c = 'S' then [two (fun a b => a = 6 && b ≤ 1) s, two (fun a _ => a ≤ 5) s, one (fun _ => true) s].filterMap id
  else if c = 'f' then
    [6, 5, 4, 3, 2, 1].filterMap fun n => (exactly n s).map fun x => (valueOfDigits x.1 * 10 ^ (6 - n), x.2)
  else []

/-- The ways in which a format matches a beginning of a text, and what remains. Letters match in either case. -/
def parses : List Char → List Char → List (List (Char × ℕ) × List Char)
  | [], s => [([], s)]
  | '%' :: c :: f, s => (readings c s).flatMap fun x => (parses f x.2).map fun y => ((c, x.1) :: y.1, y.2)
  | c :: f, d :: s => if c.toLower = d.toLower then parses f s else []
  | _ :: _, [] => []

/-- Days of a month. -/
def monthDays (year month : ℕ) : ℕ :=
  if month = 2 then (if year % 4 = 0 ∧ (year % 100 ≠ 0 ∨ year % 400 = 0) then 29 else 28)
  else if month = 4 ∨ month = 6 ∨ month = 9 ∨ month = 11 then 30 else 31

/-- The constructor of `datetime`; `none` is ValueError. -/
def moment (year month day hour minute second micro : ℕ) : Option Moment :=
  if 1 ≤ year ∧ year ≤ 9999 ∧ 1 ≤ month ∧ month ≤ 12 ∧ 1 ≤ day ∧ day ≤ monthDays year month ∧ hour < 24 ∧ minute < 60 ∧ second < 60 ∧ micro < 1000000 then
    some ⟨year, month, day, hour, minute, second, micro⟩
  else none

/-- `HistoricTime.strptime(s, format)` (impactutils/rupture/factory.py:163-167, impactutils/rupture/origin.py:368-375); `none` is ValueError. -/
def strptime (format s : List Char) : Option Moment :=
  match (parses format s).head? with
  | some (vs, []) =>
    moment ((vs.lookup 'Y').getD 1900) ((vs.lookup 'm').getD 1) ((vs.lookup 'd').getD 1) ((vs.lookup 'H').getD 0) ((vs.lookup 'M').getD 0)
      ((vs.lookup 'S').getD 0) ((vs.lookup 'f').getD 0)
  | _ => none

/-- Both formats, one after the other (impactutils/rupture/factory.py:162-167). -/
def readTime (s : List Char) : Option Moment := (strptime timeFormat s).or (strptime altTimeFormat s)

end Verif.Time
