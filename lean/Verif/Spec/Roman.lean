import Mathlib.Algebra.Order.Ring.Int

/-!
# Roman numerals, independently of the program

Place-value form (a block for thousands, hundreds, tens and units) and the usual subtractive reader.
-/

namespace Verif.Spec.Roman

/-- One decimal digit written with the symbols for one, five and ten of its place. -/
def block (i v x : Char) : ℕ → List Char
  | 0 => []
  | 1 => [i]
  | 2 => [i, i]
  | 3 => [i, i, i]
  | 4 => [i, v]
  | 5 => [v]
  | 6 => [v, i]
  | 7 => [v, i, i]
  | 8 => [v, i, i, i]
  | _ => [i, x]

/-- The canonical numeral of a number below 4000. -/
def canonical (n : ℕ) : List Char :=
  List.replicate (n / 1000) 'M' ++ block 'C' 'D' 'M' (n / 100 % 10) ++
    block 'X' 'L' 'C' (n / 10 % 10) ++ block 'I' 'V' 'X' (n % 10)

/-- Value of one symbol. -/
def symbolValue (c : Char) : ℤ :=
  if c = 'I' then 1 else if c = 'V' then 5 else if c = 'X' then 10 else if c = 'L' then 50
  else if c = 'C' then 100 else if c = 'D' then 500 else if c = 'M' then 1000 else 0

/-- The subtractive reader: a symbol counts negatively when a larger one follows it. -/
def read : List Char → ℤ
  | [] => 0
  | [c] => symbolValue c
  | c :: d :: t =>
    (if symbolValue c < symbolValue d then -symbolValue c else symbolValue c) + read (d :: t)

end Verif.Spec.Roman
