import Verif.Model.JsonFloat
import Verif.Model.Origin
import Verif.Model.TimeUse

/-!
# The numbers of text files

`float` and `int` of Python, applied to texts: the fields of GeoNames files, the words of rupture files, the attributes of event.xml, the values of source.txt, the settings
of colour palettes and the values of dictionaries. Other models have them as parameters. The texts are of Latin-1: with other characters, Python also takes the decimal digits and
the white space of other scripts. The limit of `int` of 4300 digits is not modelled.
-/

namespace Verif.Num
open Verif.Json

/-- The characters that `float` and `int` skip at both ends (impactutils/mapping/city.py:140-145). -/
def blank (c : Char) : Bool := c = ' ' || (9 ≤ c.toNat && c.toNat ≤ 13) || c.toNat = 133 || c.toNat = 160

/-- A text without the blanks at its ends. -/
def trim (s : Text) : Text := ((s.dropWhile blank).reverse.dropWhile blank).reverse

/-- A text without its underscores, each of which must follow a digit and precede one; `prev` is the character before
(impactutils/mapping/city.py:140-145). -/
def unders (prev : Char) : Text → Option Text
  | [] => if prev = '_' then none else some []
  | c :: s =>
    if c = '_' then
      if prev.isDigit then unders '_' s else none
    else if prev = '_' ∧ ¬ c.isDigit then none
    else (unders c s).map (c :: ·)

/-- The sign of a text, and what follows it. -/
def signOf : Text → Bool × Text
  | '-' :: s => (true, s)
  | '+' :: s => (false, s)
  | s => (false, s)

/-- The power of ten at the end of a numeral: nothing, or `e`, a sign or none, and digits. -/
def power : Text → Option ℤ
  | [] => some 0
  | e :: s =>
    let (neg, d) := signOf s
    if (e = 'e' ∨ e = 'E') ∧ d ≠ [] ∧ d.all Char.isDigit then some (if neg then -(digitsValue d : ℤ) else digitsValue d)
    else none

/-- The digits after the point, and what follows them. -/
def places : Text → Text × Text
  | '.' :: s => (s.takeWhile Char.isDigit, s.dropWhile Char.isDigit)
  | s => ([], s)

/-- The exact value of a numeral without sign: digits, a point and digits, a power of ten. -/
def decimal (s : Text) : Option ℚ :=
  let i := s.takeWhile Char.isDigit
  let (d, r) := places (s.dropWhile Char.isDigit)
  if i ++ d = [] then none
  else (power r).map fun (n : ℤ) => (digitsValue (i ++ d) : ℚ) * 10 ^ (n - (d.length : ℤ))

/-- `float(text)` (impactutils/mapping/city.py:140-141, impactutils/rupture/factory.py:342, impactutils/rupture/origin.py:392-395, 436,
impactutils/colors/cpalette.py:257). `none` is ValueError. -/
def pyFloat (s : Text) : Option PyFloat :=
  (unders ' ' (trim s)).bind fun t =>
    let (neg, u) := signOf t
    let l := u.map Char.toLower
    if l = "inf".toList ∨ l = "infinity".toList then some (.inf neg)
    else if l = "nan".toList then some .nan
    else (decimal u).map (nearestFloat neg)

/-- `int(text)` (impactutils/mapping/city.py:145, impactutils/colors/cpalette.py:250, impactutils/rupture/origin.py:433). `none` is ValueError. -/
def pyInt (s : Text) : Option ℤ :=
  (unders ' ' (trim s)).bind fun t =>
    let (neg, u) := signOf t
    if u ≠ [] ∧ u.all Char.isDigit then some (if neg then -(digitsValue u : ℤ) else digitsValue u) else none

/-- The number of a float. -/
def finite : PyFloat → Option ℚ
  | .fin neg x _ => some (if neg then -x else x)
  | _ => none

/-- `float(text)` for the models in which numbers are rational. Those have no infinities and no NaN, which are refused here and accepted by Python. -/
def number (s : Text) : Option ℚ := (pyFloat s).bind finite

/-- `float(text)` for the models of origins (impactutils/rupture/origin.py:80-84, 102). -/
def originFloat (s : String) : Option Origin.Fl :=
  (pyFloat s.toList).map fun
    | .fin neg x _ => .fin (if neg then -x else x)
    | .inf true => .ninf
    | .inf false => .inf
    | .nan => .nan

/-- A number as a rational one: 0 for those that are irrational or beyond 2^200. -/
noncomputable def asDouble (x : ℝ) : ℚ :=
  haveI := Classical.propDecidable
  if h : ∃ q : ℚ, (q : ℝ) = x ∧ |q| ≤ 2 ^ 200 then h.choose else 0

/-- `'{:.4f}'.format(x)` for the coordinates of a rupture (impactutils/rupture/quad_rupture.py:414-418); what is not a float of less than 2^200 has the text of 0 here. -/
noncomputable def coordinate (x : ℝ) : Text := Time.fixedText 4 (asDouble x)

end Verif.Num
