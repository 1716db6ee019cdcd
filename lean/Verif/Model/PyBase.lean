import Mathlib.Data.Rat.Floor

/-!
# Python built-ins used by the modelled code

These definitions model the *language* (CPython semantics), not a file of the repository.
Floats are exact rationals here (see DESIGN.md).
-/

namespace Verif.Py

/-- Python 3 `round(x)` with one argument: nearest integer, ties to the even one.
(Built-in; used e.g. at impactutils/textformat/text.py:181,184.) -/
def round (q : ℚ) : ℤ :=
  let f := ⌊q⌋
  if q - f < 1 / 2 then f
  else if 1 / 2 < q - f then f + 1
  else if f % 2 = 0 then f else f + 1

/-- Python `int(x)` on a float: truncation toward zero.
(Built-in; used e.g. at impactutils/textformat/text.py:79,184.) -/
def trunc (q : ℚ) : ℤ := if 0 ≤ q then ⌊q⌋ else ⌈q⌉

/-- Decimal digit character of a number below ten. -/
def digitChar (d : ℕ) : Char := Char.ofNat (48 + d)

/-- Digits of a natural number, most significant first; `0` prints as `"0"`. -/
def natStr (n : ℕ) : List Char :=
  if n < 10 then [digitChar n] else natStr (n / 10) ++ [digitChar (n % 10)]
termination_by n

/-- Python `str(n)` for an `int`. -/
def intStr (n : ℤ) : List Char :=
  if n < 0 then '-' :: natStr n.natAbs else natStr n.natAbs

/-- `\d` restricted to ASCII digits (Python's `\d` also matches other Unicode digits; the texts
modelled here come from `str` of numbers). -/
def isDigit (c : Char) : Bool := 48 ≤ c.toNat && c.toNat ≤ 57

/-- `numpy.argmin` of a non-empty list: index of the first minimum; `none` on an empty list
(numpy raises ValueError). -/
def argminAux {α : Type} [LT α] [DecidableRel (· < · : α → α → Prop)] :
    List α → ℕ → ℕ → α → ℕ
  | [], _, bi, _ => bi
  | x :: xs, i, bi, b => if x < b then argminAux xs (i + 1) i x else argminAux xs (i + 1) bi b

/-- See `argminAux`. -/
def argmin {α : Type} [LT α] [DecidableRel (· < · : α → α → Prop)] : List α → Option ℕ
  | [] => none
  | x :: xs => some (argminAux xs 1 0 x)

end Verif.Py
