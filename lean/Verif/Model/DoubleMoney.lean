import Verif.Model.Double

/-!
# The text of `dollar_round` in binary arithmetic

`Verif.Text.dollarRound` has exact numbers and leaves the text of the float open. Here the operations are rounded to doubles, and the text is the one that
Python's `repr` gives.
-/

namespace Verif.Dbl

/-- The number of digits in which Python prints a positive float: the least number of digits for which the nearest decimal reads back as the float (David
Gay's algorithm, `float_repr_style` `'short'`; impactutils/textformat/text.py:120-134 by formatting with `{}`). Seventeen are always enough. -/
def shortest (x : ℚ) : ℕ := (((List.range 17).map (· + 1)).find? fun p => rnd (Text.sciRound x p) = x).getD 17

/-- The text of a natural number of at least `n` digits. -/
def padded (n m : ℕ) : List Char := List.replicate (n - (Nat.toDigits 10 m).length) '0' ++ Nat.toDigits 10 m

/-- `repr` of the positive float with the decimal `m * 10 ^ k`, where `10 ^ e` is its decimal exponent: fixed notation for exponents from -4 to 15, otherwise
with an exponent of at least two digits. -/
def numeral (m : ℕ) (k e : ℤ) : List Char :=
  if -4 ≤ e ∧ e < 16 then
    if 0 ≤ k then Nat.toDigits 10 (m * 10 ^ k.toNat) ++ ['.', '0']
    else
      let n := (-k).toNat
      Nat.toDigits 10 (m / 10 ^ n) ++ '.' :: padded n (m % 10 ^ n)
  else
    let ds := Nat.toDigits 10 m
    ds.take 1 ++ (if ds.length = 1 then [] else '.' :: ds.drop 1) ++ 'e' :: (if e < 0 then '-' else '+') :: padded 2 e.natAbs

/-- `repr` of a float (impactutils/textformat/text.py:120-134, through formatted string literals). Infinities and NaN are not modelled, nor is the sign of
zero. -/
def reprFloat (x : ℚ) : List Char :=
  if x = 0 then ['0', '.', '0']
  else
    let p := shortest |x|
    let d := Text.sciRound |x| p
    let e := Int.log 10 d
    let k := e - (p - 1 : ℤ)
    (if x < 0 then ['-'] else []) ++ numeral (d / 10 ^ k).floor.toNat k e

/-- The part of `dollar_round` that divides by a unit and formats (impactutils/textformat/text.py:119-134). -/
def scaledText (value : ℤ) (size : ℚ) (digits : ℤ) (unit : String) : Except Text.Err (List Char) :=
  (setNumPrecisionFloat (rnd (rnd value / size)) digits).map fun a => '$' :: reprFloat a ++ unit.toList

/-- `dollar_round` (impactutils/textformat/text.py:101-134) of an `int`; `short` is `mode == 'short'`. -/
def dollarRound (value digits : ℤ) (short : Bool) : Except Text.Err (List Char) :=
  if value < 1000 then (setNumPrecisionInt value digits).map fun n => '$' :: Text.commifyInt n
  else if short then
    if value ≥ 1000 ∧ value < 1000000 then scaledText value 1000 digits "K"
    else if value ≥ 1000000 ∧ value < 1000000000 then scaledText value 1000000 digits "M"
    else scaledText value 1000000000 digits "B"
  else
    if value ≥ 1000 ∧ value < 1000000 then scaledText value 1000 digits " thousand"
    else if value > 1000000 ∧ value < 1000000000 then scaledText value 1000000 digits " million"
    else scaledText value 1000000000 digits " billion"

end Verif.Dbl
