import Verif.Model.Json
import Verif.Model.DoubleMoney

/-!
# How containers write and read floating point numbers

`float.__repr__` and `float` of Python, as `json.dumps` and `json.loads` call them for the containers and for rupture files
(impactutils/io/container.py:140, 113-114, 198, 216-217, impactutils/rupture/base.py:40-49, impactutils/rupture/factory.py:60-66). `Verif.Json` has them as parameters; here
they are modelled for the numbers of IEEE 754 binary64, with signed zeros, infinities and NaN. The different bit patterns of NaN are one value here.
-/

namespace Verif.Json
open Verif.Dbl

/-- A float. The absolute value of a finite one is a number that rounding leaves alone, below the overflow. -/
inductive PyFloat where
  | nan
  | inf (neg : Bool)
  | fin (neg : Bool) (abs : ℚ) (ok : 0 ≤ abs ∧ rnd abs = abs ∧ abs < 2 ^ 1024)
deriving DecidableEq

/-- `float.__repr__`, with the words of `json.dumps` (impactutils/io/container.py:140, 198). -/
def floatText : PyFloat → Text
  | .nan => "NaN".toList
  | .inf true => "-Infinity".toList
  | .inf false => "Infinity".toList
  | .fin neg x _ => (if neg then ['-'] else []) ++ reprFloat x

/-- The value of an exponent, with its `e`. -/
def exponentValue : Text → ℤ
  | _ :: '-' :: d => -(digitsValue d : ℤ)
  | _ :: '+' :: d => digitsValue d
  | _ :: d => digitsValue d
  | [] => 0

/-- The exact value of the text of a number without sign. -/
def decimalOf (s : Text) : ℚ :=
  let i := s.takeWhile Char.isDigit
  let r := fraction (s.dropWhile Char.isDigit)
  (digitsValue (i ++ r.1.tail) : ℚ) * 10 ^ (exponentValue (exponent r.2).1 - r.1.tail.length)

/-- The float for an exact value that is not negative: the nearest double, or infinity. -/
def nearestFloat (neg : Bool) (q : ℚ) : PyFloat :=
  if h : 0 ≤ rnd q ∧ rnd (rnd q) = rnd q ∧ rnd q < 2 ^ 1024 then .fin neg (rnd q) h else .inf neg

/-- `float` of what `json.loads` takes for a number (impactutils/io/container.py:113-114, 216-217). -/
def readFloat (t : Text) : PyFloat :=
  if t = "NaN".toList then .nan
  else if t = "Infinity".toList then .inf false
  else if t = "-Infinity".toList then .inf true
  else match t with
    | '-' :: s => nearestFloat true (decimalOf s)
    | s => nearestFloat false (decimalOf s)

/-- Python's floats. -/
def pyFloats : Floats PyFloat := ⟨floatText, readFloat⟩

end Verif.Json
