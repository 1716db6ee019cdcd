import Verif.Spec.JsonFloat
import Verif.Model.JsonFloat
import Verif.Model.Origin

/-!
# Numerals

Which texts stand for numbers, and for which. Only the type of floats is taken from the model.
-/

namespace Verif.Spec
open Verif.Json (Text PyFloat)

/-- Blanks only: space, tab, line feed, vertical tab, form feed, carriage return, next line, no-break space. -/
def Blanks (w : Text) : Prop := ∀ c ∈ w, c.toNat ∈ [32, 9, 10, 11, 12, 13, 133, 160]

/-- `m` is `t` with underscores, each of them between two digits. -/
def Underscored (m t : Text) : Prop :=
  m.filter (· ≠ '_') = t ∧ ∀ a b, m = a ++ '_' :: b → (∃ c, a.getLast? = some c ∧ c.isDigit = true) ∧ ∃ c, b.head? = some c ∧ c.isDigit = true

/-- `t` is `u` after a sign or none. -/
def Signed (t : Text) (neg : Bool) (u : Text) : Prop := (t = u ∧ neg = false) ∨ (t = '+' :: u ∧ neg = false) ∨ (t = '-' :: u ∧ neg = true)

/-- The exponent of a numeral: nothing, or `e` or `E`, a sign or none, and digits. -/
def ExponentText (x : Text) (n : ℤ) : Prop :=
  (x = [] ∧ n = 0) ∨ ∃ e g neg d, x = e :: g ∧ (e = 'e' ∨ e = 'E') ∧ Signed g neg d ∧ Digits d ∧ n = if neg then -(decimalValue d : ℤ) else decimalValue d

/-- A numeral without sign, and its exact value: digits before the point and after it, at least one of them, and an exponent. -/
def Numeral (u : Text) (q : ℚ) : Prop :=
  ∃ (i p d x : Text) (n : ℤ), u = i ++ p ++ x ∧ (∀ c ∈ i ++ d, c.isDigit = true) ∧ i ++ d ≠ [] ∧ (p = [] ∧ d = [] ∨ p = '.' :: d) ∧
    ExponentText x n ∧ q = decimalValue (i ++ d) * 10 ^ (n - d.length)

/-- `f` is the nearest double to a number that is not negative, with a sign; or infinity, when the nearest double would be 2^1024 or more. -/
def NearestFloat (neg : Bool) (q : ℚ) (f : PyFloat) : Prop :=
  (∃ x ok, f = .fin neg x ok ∧ NearestDouble q x) ∨ f = .inf neg ∧ ∃ x, NearestDouble q x ∧ 2 ^ 1024 ≤ x

/-- A text that stands for a float: blanks, a numeral with a sign or none and perhaps underscores, blanks; or one of the words `inf`, `infinity` and `nan` in place of the
numeral, in small letters or capital ones. -/
def StandsForFloat (s : Text) (f : PyFloat) : Prop :=
  ∃ w m w' t neg u, s = w ++ m ++ w' ∧ Blanks w ∧ Blanks w' ∧ Underscored m t ∧ Signed t neg u ∧
    ((∃ q, Numeral u q ∧ NearestFloat neg q f) ∨ (u.map Char.toLower ∈ ["inf".toList, "infinity".toList] ∧ f = .inf neg) ∨
      (u.map Char.toLower = "nan".toList ∧ f = .nan))

/-- A text that stands for a whole number. -/
def StandsForInt (s : Text) (n : ℤ) : Prop :=
  ∃ w m w' t neg u, s = w ++ m ++ w' ∧ Blanks w ∧ Blanks w' ∧ Underscored m t ∧ Signed t neg u ∧ Digits u ∧
    n = if neg then -(decimalValue u : ℤ) else decimalValue u

/-- A float in the model of texts and one in the model of origins, which has no signed zeros, are the same. -/
inductive SameFloat : PyFloat → Origin.Fl → Prop where
  | plus (x ok) : SameFloat (.fin false x ok) (.fin x)
  | minus (x ok) : SameFloat (.fin true x ok) (.fin (-x))
  | inf : SameFloat (.inf false) .inf
  | ninf : SameFloat (.inf true) .ninf
  | nan : SameFloat .nan .nan

end Verif.Spec
