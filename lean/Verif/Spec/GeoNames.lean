import Verif.Model.CityFile
import Verif.Spec.RuptureText

/-!
# GeoNames files

A line has fields separated by tabs. Of the model only the type of the rows is used here.
-/

namespace Verif.Spec
open Verif.Cities (Place)

/-- `t` is `s` without the white space around it. -/
def TrimsTo (s t : List Char) : Prop :=
  ∃ w w', Gap w ∧ Gap w' ∧ s = w ++ t ++ w' ∧ (∀ c, t.head? = some c → ¬ White c) ∧ ∀ c, t.getLast? = some c → ¬ White c

/-- The text of a file with these records. -/
def geoText (records : List (List (List Char))) : List Char :=
  (records.map fun r => List.intercalate ['\t'] r ++ ['\n']).flatten

/-- Fields can be written. -/
def Writable (r : List (List Char)) : Prop := r ≠ [] ∧ ∀ f ∈ r, '\t' ∉ f ∧ '\n' ∉ f

/-- What a record stands for: nothing if its third field is empty or has characters outside ASCII, else a city with this name, whose
latitude, longitude, kind, country and population are in the fields with numbers 5, 6, 8, 9 and 15. -/
inductive GeoMeans (num : List Char → Option ℚ) (int : List Char → Option ℤ) (r : List (List Char)) : Option Place → Prop where
  | blank (f : List Char) : r[2]? = some f → TrimsTo f [] → GeoMeans num int r none
  | foreign (f name : List Char) : r[2]? = some f → TrimsTo f name → (∃ c ∈ name, 127 < c.toNat) → GeoMeans num int r none
  | city (f2 f4 f5 f7 f8 f14 name lat lon kind country pop : List Char) (x y : ℚ) (n : ℤ) (cap : Bool) :
      r[2]? = some f2 → r[4]? = some f4 → r[5]? = some f5 → r[7]? = some f7 → r[8]? = some f8 → r[14]? = some f14 →
      TrimsTo f2 name → TrimsTo f4 lat → TrimsTo f5 lon → TrimsTo f7 kind → TrimsTo f8 country → TrimsTo f14 pop →
      name ≠ [] → (∀ c ∈ name, c.toNat ≤ 127) → num lat = some x → num lon = some y → int pop = some n →
      (cap = true ↔ kind = "PPLC".toList ∨ kind = "PPLA".toList) →
      GeoMeans num int r (some ⟨name, country, x, y, cap, n⟩)

end Verif.Spec
