import Mathlib.Data.Int.Log
import Mathlib.Algebra.Order.Field.Rat
import Verif.Model.Text

/-!
# Rounding of impactutils/textformat/text.py in binary arithmetic

`Verif.Text` has exact numbers. Here every operation on floats is rounded to the nearest double, ties to even, as CPython does on all common machines.
Overflow and NaN are not modelled.
-/

namespace Verif.Dbl

/-- The exponent of a number: `2 ^ expo q` is the largest power of two that is at most `|q|`, but not below the smallest normal number. -/
def expo (q : ℚ) : ℤ := max (Int.log 2 |q|) (-1022)

/-- The distance of neighbouring doubles at `q`. -/
def ulp (q : ℚ) : ℚ := 2 ^ (expo q - 52)

/-- The double for a number: `float(n)` of an `int`, and what every operation on floats does with its exact result. -/
def rnd (q : ℚ) : ℚ := Py.round (q / ulp q) * ulp q

/-- `round_to_nearest` for an `int` step of at least one (impactutils/textformat/text.py:166-186, l.184): `float(value) / round_value` is a division of
doubles; the product is one of integers. -/
def roundToNearest (value : ℚ) (step : ℤ) : ℤ := Py.trunc (Py.round (rnd (rnd value / rnd step)) * step)

/-- `floor_to_nearest` for an `int` step of at least one (impactutils/textformat/text.py:189-208, l.207). -/
def floorToNearest (value : ℚ) (step : ℤ) : ℤ := Py.trunc ((⌊rnd (rnd value / rnd step)⌋ : ℤ) * step)

/-- `ceil_to_nearest` for an `int` step of at least one (impactutils/textformat/text.py:211-230, l.229). -/
def ceilToNearest (value : ℚ) (step : ℤ) : ℤ := Py.trunc ((⌈rnd (rnd value / rnd step)⌉ : ℤ) * step)

/-- The branch for steps below one of the three functions, for a `float` value (impactutils/textformat/text.py:176-182, 199-205, 221-227): `f` is `round`, `floor`
or `ceil`, `nd` the number of decimals, and `10**nd` an `int` that is made a float by each operation. -/
def smallStep (f : ℚ → ℤ) (value step : ℚ) (nd : ℕ) : ℚ :=
  let value := rnd (value * rnd (10 ^ nd))
  let step := rnd (step * rnd (10 ^ nd))
  let n : ℤ := Py.trunc (rnd (rnd (f (rnd (value / step))) * step))
  rnd (rnd n / rnd (10 ^ nd))

/-- `pop_round` (impactutils/textformat/text.py:84-98) of an `int`. -/
def popRound (value : ℤ) : List Char := Text.commifyInt (roundToNearest value 1000)

/-- `pop_round_short` (impactutils/textformat/text.py:137-163) of an `int`. -/
def popRoundShort (value : ℤ) (usemillion : Bool) : List Char :=
  if value < 1000 then Py.intStr value
  else
    let m := decide (1000000 ≤ value) && usemillion
    let suffix := if m then 'm' else 'k'
    let roundValue : ℤ := if m then 1000000 else 1000
    let roundnum := roundToNearest value 1000 / roundValue
    if roundnum = 0 then Py.intStr roundnum else Text.commifyInt roundnum ++ [suffix]

/-- `set_num_precision(..., mode='float')` (impactutils/textformat/text.py:65-81): the formatted decimal is exact for the double that is formatted, and
`float` of the text is the nearest double. -/
def setNumPrecisionFloat (number : ℚ) (precision : ℤ) : Except Text.Err ℚ := (Text.setNumPrecisionFloat (rnd number) precision).map rnd

/-- `set_num_precision(..., mode='int')` (impactutils/textformat/text.py:65-81). -/
def setNumPrecisionInt (number : ℚ) (precision : ℤ) : Except Text.Err ℤ := (setNumPrecisionFloat number precision).map Py.trunc

/-- `int(itime / 1000)` (impactutils/comcat/query.py:197): the quotient of two integers is the nearest double to the exact one. -/
def seconds (itime : ℤ) : ℤ := Py.trunc (rnd (itime / 1000))

end Verif.Dbl
