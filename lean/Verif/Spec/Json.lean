import Verif.Model.Json

/-!
# Values that can be stored as they are
-/

namespace Verif.Spec
open Verif.Json

variable {F : Type}

/-- Values that the file can hold: no arrays, bytes, times and so on, at any depth, neither as values nor as keys. -/
inductive Storable : Val F → Prop where
  | none : Storable .none
  | bool (b : Bool) : Storable (.bool b)
  | int (i : ℤ) : Storable (.int i)
  | float (f : F) : Storable (.float f)
  | str (s : Text) : Storable (.str s)
  | list {xs : List (Val F)} (h : ∀ x ∈ xs, Storable x) : Storable (.list xs)
  | tuple {xs : List (Val F)} (h : ∀ x ∈ xs, Storable x) : Storable (.tuple xs)
  | dict {ps : List (Key F × Val F)} (hk : ∀ p ∈ ps, p.1 ≠ .other) (h : ∀ p ∈ ps, Storable p.2) : Storable (.dict ps)

/-- Values of texts, numbers, truth values, None, lists, and dictionaries whose keys are (different) texts, at any depth. -/
inductive PlainVal : Val F → Prop where
  | none : PlainVal .none
  | bool (b : Bool) : PlainVal (.bool b)
  | int (i : ℤ) : PlainVal (.int i)
  | float (f : F) : PlainVal (.float f)
  | str (s : Text) : PlainVal (.str s)
  | list {xs : List (Val F)} (h : ∀ x ∈ xs, PlainVal x) : PlainVal (.list xs)
  | dict {ps : List (Text × Val F)} (hk : (ps.map Prod.fst).Nodup) (h : ∀ p ∈ ps, PlainVal p.2) :
      PlainVal (.dict (ps.map fun p => (.str p.1, p.2)))

/-- Digits, at least one. -/
def Digits (s : Text) : Prop := s ≠ [] ∧ ∀ c ∈ s, c.isDigit = true

/-- The text of a finite floating point number: sign, digits before the point without leading zeros, and a fraction, an
exponent, or both. -/
def FloatText (t : Text) : Prop :=
  ∃ sign i f e : Text, t = sign ++ i ++ f ++ e ∧ (sign = [] ∨ sign = ['-']) ∧
    Digits i ∧ (i = ['0'] ∨ i.head? ≠ some '0') ∧
    (f = [] ∨ ∃ d, f = '.' :: d ∧ Digits d) ∧
    (e = [] ∨ ∃ s d, e = 'e' :: s ++ d ∧ (s = [] ∨ s = ['-'] ∨ s = ['+']) ∧ Digits d) ∧
    (f ≠ [] ∨ e ≠ [])

/-- Floating point numbers are written so that they can be read again. -/
def FloatsOk (fl : Floats F) : Prop :=
  ∀ f, fl.read (fl.text f) = f ∧
    (fl.text f ∈ ["NaN".toList, "Infinity".toList, "-Infinity".toList] ∨ FloatText (fl.text f))

/-- Keys without their repetitions, in the order of their first places. -/
def firsts : List Text → List Text
  | [] => []
  | k :: ks => k :: (firsts ks).filter (· ≠ k)

/-- Of items with the same key the last one, at the first place. -/
def merged (ps : List (Text × Val F)) : List (Text × Val F) :=
  (firsts (ps.map Prod.fst)).filterMap fun k => ps.reverse.find? fun p => p.1 = k

/-- The text that becomes of a key. -/
def keyName (fl : Floats F) : Key F → Text
  | .str s => s
  | .int i => (toString i).toList
  | .float f => fl.text f
  | .bool b => (toString b).toList
  | .none => "null".toList
  | .other => []

mutual
/-- What comes back: tuples as lists, keys as texts, and of keys with the same text the last value. -/
def returned (fl : Floats F) : Val F → Val F
  | .list xs => .list (returnedItems fl xs)
  | .tuple xs => .list (returnedItems fl xs)
  | .dict ps => .dict ((merged (returnedMembers fl ps)).map fun p => (.str p.1, p.2))
  | v => v
/-- The items of a list. -/
def returnedItems (fl : Floats F) : List (Val F) → List (Val F)
  | [] => []
  | x :: xs => returned fl x :: returnedItems fl xs
/-- The items of a dictionary. -/
def returnedMembers (fl : Floats F) : List (Key F × Val F) → List (Text × Val F)
  | [] => []
  | (k, x) :: ps => (keyName fl k, returned fl x) :: returnedMembers fl ps
end

end Verif.Spec
