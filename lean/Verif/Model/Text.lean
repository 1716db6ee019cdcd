import Mathlib.Data.Int.Log
import Verif.Model.PyBase

/-!
# Model of impactutils/textformat/text.py
-/

namespace Verif.Text
open Verif

/-- The exceptions raised by the functions of this file. -/
inductive Err where
  | valueError
  | recursionError
  deriving DecidableEq, Repr

/-- `decimalDens`, impactutils/textformat/text.py:10. -/
def decimalDens : List ℕ := [1000, 900, 500, 400, 100, 90, 50, 40, 10, 9, 5, 4, 1]

/-- `romanDens`, impactutils/textformat/text.py:11-12. -/
def romanDens : List (List Char) :=
  [['M'], ['C', 'M'], ['D'], ['C', 'D'], ['C'], ['X', 'C'], ['L'], ['X', 'L'], ['X'],
   ['I', 'X'], ['V'], ['I', 'V'], ['I']]

/-- `_dec_to_roman`, impactutils/textformat/text.py:40-62.  `fuel` bounds the recursion depth (CPython's
recursion limit is 1000); running out is the `recursionError` value.  `romans[0]` on an empty list
cannot happen when both lists have the same length; it is read as the empty string. -/
def decToRomanAux : ℕ → ℕ → List Char → List ℕ → List (List Char) → Except Err (List Char)
  | 0, _, _, _, _ => .error .recursionError
  | fuel + 1, num, s, decs, romans =>
    match decs with
    | d :: ds =>
      if num < d then decToRomanAux fuel num s ds romans.tail
      else decToRomanAux fuel (num - d) (s ++ romans.headD []) decs romans
    | [] => .ok s

/-- `dec_to_roman`, impactutils/textformat/text.py:15-37 (integer inputs). -/
def decToRoman (dec : ℤ) : Except Err (List Char) :=
  if dec ≤ 0 then .error .valueError
  else if dec ≥ 4000 then .error .valueError
  else decToRomanAux 1000 dec.toNat [] decimalDens romanDens

/-- The optional sign matched by `-?` in the pattern of `commify`, impactutils/textformat/text.py:247, and the
text after it. -/
def splitSign : List Char → List Char × List Char
  | '-' :: t => (['-'], t)
  | s => ([], s)

/-- One `regex.subn` of `commify`, impactutils/textformat/text.py:247-252, with pattern
`^(-?\d+)(\d{3})`: the optional sign and the whole leading digit run are taken, the run gives back
its last three digits, and at least one digit must remain in group 1.  `none` means "no match"
(`more_to_do = 0`).  The replacement template `\1{separator}\2` is read literally, i.e. for
separators without backslashes that do not start with a digit. -/
def commifyStep (sep : List Char) (s : List Char) : Option (List Char) :=
  let sign := (splitSign s).1
  let body := (splitSign s).2
  let run := body.takeWhile Py.isDigit
  let rest := body.dropWhile Py.isDigit
  if 4 ≤ run.length then
    some (sign ++ run.take (run.length - 3) ++ sep ++ run.drop (run.length - 3) ++ rest)
  else none

/-- The `while more_to_do` loop of `commify`, impactutils/textformat/text.py:249-253, run for at most `fuel`
passes; `none` means the loop has not stopped yet. -/
def commifyRun (sep : List Char) : ℕ → List Char → Option (List Char)
  | 0, _ => none
  | fuel + 1, s =>
    match commifyStep sep s with
    | none => some s
    | some s' => commifyRun sep fuel s'

/-- `commify(num, separator)` on an `int`, impactutils/textformat/text.py:233-253, as the set of texts the loop
can stop with (at most one, see `commifyRun`). -/
def CommifyReturns (sep : List Char) (text result : List Char) : Prop :=
  ∃ fuel, commifyRun sep fuel text = some result

/-- `round_to_nearest` for `round_value >= 1`, impactutils/textformat/text.py:183-184. -/
def roundToNearestGe1 (value roundValue : ℚ) : ℤ :=
  Py.trunc (Py.round (value / roundValue) * roundValue)

/-- `ds.find('.')`, i.e. index of the first point or `-1`. -/
def findPoint (ds : List Char) : ℤ :=
  match ds.findIdx? (· == '.') with
  | some i => i
  | none => -1

/-- `nd = len(ds) - (ds.find('.') + 1)`, impactutils/textformat/text.py:178 (also 201, 223). -/
def numDecimals (ds : List Char) : ℤ := ds.length - (findPoint ds + 1)

/-- `round_to_nearest`, impactutils/textformat/text.py:166-186.  `ds` is the text `str(round_value)`; the float
formatter itself is not modelled, so the text is an argument. -/
def roundToNearest (value roundValue : ℚ) (ds : List Char) : ℚ :=
  if roundValue < 1 then
    let nd := numDecimals ds
    let value := value * 10 ^ nd
    let roundValue := roundValue * 10 ^ nd
    ((Py.trunc (Py.round (value / roundValue) * roundValue) : ℤ) : ℚ) / 10 ^ nd
  else ((roundToNearestGe1 value roundValue : ℤ) : ℚ)

/-- `floor_to_nearest` for `floor_value >= 1`, impactutils/textformat/text.py:206-207. -/
def floorToNearestGe1 (value floorValue : ℚ) : ℤ :=
  Py.trunc ((⌊value / floorValue⌋ : ℤ) * floorValue)

/-- `floor_to_nearest`, impactutils/textformat/text.py:189-208. -/
def floorToNearest (value floorValue : ℚ) (ds : List Char) : ℚ :=
  if floorValue < 1 then
    let nd := numDecimals ds
    let value := value * 10 ^ nd
    let floorValue := floorValue * 10 ^ nd
    ((Py.trunc ((⌊value / floorValue⌋ : ℤ) * floorValue) : ℤ) : ℚ) / 10 ^ nd
  else ((floorToNearestGe1 value floorValue : ℤ) : ℚ)

/-- `ceil_to_nearest` for `ceil_value >= 1`, impactutils/textformat/text.py:228-229. -/
def ceilToNearestGe1 (value ceilValue : ℚ) : ℤ :=
  Py.trunc ((⌈value / ceilValue⌉ : ℤ) * ceilValue)

/-- `ceil_to_nearest`, impactutils/textformat/text.py:211-230. -/
def ceilToNearest (value ceilValue : ℚ) (ds : List Char) : ℚ :=
  if ceilValue < 1 then
    let nd := numDecimals ds
    let value := value * 10 ^ nd
    let ceilValue := ceilValue * 10 ^ nd
    ((Py.trunc ((⌈value / ceilValue⌉ : ℤ) * ceilValue) : ℤ) : ℚ) / 10 ^ nd
  else ((ceilToNearestGe1 value ceilValue : ℤ) : ℚ)

/-- `commify` of an `int` with the default separator; the loop needs fewer passes than the text has
characters (proved in `Verif.Lemmas.Text`), so the fuel never runs out. -/
def commifyInt (n : ℤ) : List Char :=
  (commifyRun [','] ((Py.intStr n).length + 1) (Py.intStr n)).getD []

/-- `pop_round`, impactutils/textformat/text.py:84-98. -/
def popRound (value : ℚ) : List Char := commifyInt (roundToNearestGe1 value 1000)

/-- `pop_round_short`, impactutils/textformat/text.py:137-163. -/
def popRoundShort (value : ℚ) (usemillion : Bool) : List Char :=
  if value < 1000 then Py.intStr (Py.trunc value)
  else
    let m := decide (1000000 ≤ value) && usemillion
    let suffix := if m then 'm' else 'k'
    let roundValue : ℤ := if m then 1000000 else 1000
    let roundnum := roundToNearestGe1 value 1000 / roundValue
    if roundnum = 0 then Py.intStr roundnum else commifyInt roundnum ++ [suffix]

/-- `float('{:.Ne}'.format(number))` with `N = precision - 1`, impactutils/textformat/text.py:76-77: scientific
notation with `precision` significant digits, correctly rounded (half to even); zero prints as
zero.  The result is the exact decimal value (the final conversion to the nearest double is not
modelled).  `Int.log 10 |x|` is the decimal exponent of `x`. -/
def sciRound (number : ℚ) (precision : ℕ) : ℚ :=
  if number = 0 then 0
  else
    let k : ℤ := Int.log 10 |number| - (precision - 1 : ℤ)
    let m := Py.round (|number| / 10 ^ k)
    (if number < 0 then -1 else 1) * (m * 10 ^ k)

/-- `set_num_precision(..., mode='float')`, impactutils/textformat/text.py:65-81.  A precision below one makes
the format string invalid (ValueError). -/
def setNumPrecisionFloat (number : ℚ) (precision : ℤ) : Except Err ℚ :=
  if precision < 1 then .error .valueError else .ok (sciRound number precision.toNat)

/-- `set_num_precision(..., mode='int')`, impactutils/textformat/text.py:65-81. -/
def setNumPrecisionInt (number : ℚ) (precision : ℤ) : Except Err ℤ :=
  (setNumPrecisionFloat number precision).map Py.trunc

/-- Result text of `dollar_round`: either `'$' + text` (below one thousand), or `'$'`, a float and a
unit text.  The printed form of the float (`repr`) is not modelled. -/
inductive Dollar where
  | plain (text : List Char)
  | scaled (amount : ℚ) (unit : String)
  deriving DecidableEq, Repr

/-- `dollar_round`, impactutils/textformat/text.py:101-134; `short` is `mode == 'short'`. -/
def dollarRound (value : ℚ) (digits : ℤ) (short : Bool) : Except Err Dollar := do
  if value < 1000 then
    return .plain (commifyInt (← setNumPrecisionInt value digits))
  if short then
    if value ≥ 1000 ∧ value < 1000000 then
      return .scaled (← setNumPrecisionFloat (value / 1000) digits) "K"
    if value ≥ 1000000 ∧ value < 1000000000 then
      return .scaled (← setNumPrecisionFloat (value / 1000000) digits) "M"
    else
      return .scaled (← setNumPrecisionFloat (value / 1000000000) digits) "B"
  else
    if value ≥ 1000 ∧ value < 1000000 then
      return .scaled (← setNumPrecisionFloat (value / 1000) digits) " thousand"
    if value > 1000000 ∧ value < 1000000000 then
      return .scaled (← setNumPrecisionFloat (value / 1000000) digits) " million"
    else
      return .scaled (← setNumPrecisionFloat (value / 1000000000) digits) " billion"

end Verif.Text
