import Verif.Model.TimeText
import Verif.Model.EventFile

/-!
# The formats of Python, in place of the parameters of other models
-/

namespace Verif.Time

/-- `'{:.kf}'.format(x)`: the nearest decimal with `k` places, ties to even (impactutils/rupture/origin.py:232-235). -/
def fixedText (k : ℕ) (x : ℚ) : List Char :=
  let n := (Py.round (|x| * 10 ^ k)).natAbs
  (if x < 0 then ['-'] else []) ++ Nat.toDigits 10 (n / 10 ^ k) ++ '.' :: Dbl.padded k (n % 10 ^ k)

/-- The texts of `write_event_file` (impactutils/rupture/origin.py:232-236). -/
def eventFormats : EventFile.Formats Moment where
  f4 x := String.ofList (fixedText 4 x)
  f1 x := String.ofList (fixedText 1 x)
  strf t := match timeText altTimeFormat t with
    | .ok s => some (String.ofList s)
    | _ => none

/-- The parsers of `read_event_file` (impactutils/rupture/origin.py:366-400); `num` is `float`. -/
def eventParsers (num : String → Option ℚ) : EventFile.Parsers Moment where
  num := num
  full s := strptime timeFormat s.toList
  alt s := strptime altTimeFormat s.toList

/-- A number for every time, as in `Verif.RupDict`, where times are numbers. -/
def timeCode (t : Moment) : ℕ :=
  (((((t.year * 100 + t.month) * 100 + t.day) * 100 + t.hour) * 100 + t.minute) * 100 + t.second) * 1000000 + t.micro

/-- The time for a number. -/
def timeOf (n : ℕ) : Moment where
  micro := n % 1000000
  second := n / 1000000 % 100
  minute := n / 1000000 / 100 % 100
  hour := n / 1000000 / 100 / 100 % 100
  day := n / 1000000 / 100 / 100 / 100 % 100
  month := n / 1000000 / 100 / 100 / 100 / 100 % 100
  year := n / 1000000 / 100 / 100 / 100 / 100 / 100

/-- `strftime(constants.TIMEFMT)` of the time for a number (impactutils/rupture/quad_rupture.py:69, impactutils/rupture/edge_rupture.py:87,
impactutils/rupture/point_rupture.py:62). An AssertionError is not modelled here: see `C194_written` for the years in which it is raised. -/
def rupFormat (n : ℕ) : String :=
  match timeText timeFormat (timeOf n) with
  | .ok s => String.ofList s
  | _ => ""

/-- `HistoricTime.strptime(…, format)` (impactutils/rupture/factory.py:163-167). -/
def rupParse (format : List Char) (s : String) : Option ℕ := (strptime format s.toList).map timeCode

end Verif.Time
