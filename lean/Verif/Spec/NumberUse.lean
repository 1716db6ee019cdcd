import Verif.Spec.PyNumber
import Verif.Spec.GeoNames

/-!
# Coordinates in files
-/

namespace Verif.Spec
open Verif.Cities (Place)

/-- A coordinate as it is written: a sign or none, and a numeral below 2^1000; `q` is its exact value. -/
def Coordinate (t : List Char) (q : ℚ) : Prop := ∃ neg u x, Signed t neg u ∧ Numeral u x ∧ x ≤ 2 ^ 1000 ∧ q = if neg then -x else x

/-- A record of a GeoNames file for a city with a plain name, and the city: latitude and longitude are the doubles nearest to those that are written. -/
def CityRecord (r : List (List Char)) (p : Place) : Prop :=
  ∃ f2 f4 f5 f7 f8 f14 lat lon kind pop q1 q2, r[2]? = some f2 ∧ r[4]? = some f4 ∧ r[5]? = some f5 ∧ r[7]? = some f7 ∧ r[8]? = some f8 ∧ r[14]? = some f14 ∧
    TrimsTo f2 p.name ∧ TrimsTo f4 lat ∧ TrimsTo f5 lon ∧ TrimsTo f7 kind ∧ TrimsTo f8 p.ccode ∧ TrimsTo f14 pop ∧
    p.name ≠ [] ∧ (∀ c ∈ p.name, c.toNat ≤ 127) ∧ Coordinate lat q1 ∧ NearestDouble q1 p.lat ∧ Coordinate lon q2 ∧ NearestDouble q2 p.lon ∧
    StandsForInt pop p.pop ∧ (p.iscap = true ↔ kind = "PPLC".toList ∨ kind = "PPLA".toList)

/-- A record that is written well: its name is plain, its coordinates are coordinates, and its population is a whole number. -/
def WrittenWell (r : List (List Char)) : Prop :=
  ∃ f2 f4 f5 f7 f8 f14 name lat lon kind country pop q1 q2 n, r[2]? = some f2 ∧ r[4]? = some f4 ∧ r[5]? = some f5 ∧ r[7]? = some f7 ∧ r[8]? = some f8 ∧
    r[14]? = some f14 ∧ TrimsTo f2 name ∧ TrimsTo f4 lat ∧ TrimsTo f5 lon ∧ TrimsTo f7 kind ∧ TrimsTo f8 country ∧ TrimsTo f14 pop ∧
    name ≠ [] ∧ (∀ c ∈ name, c.toNat ≤ 127) ∧ Coordinate lat q1 ∧ Coordinate lon q2 ∧ StandsForInt pop n

end Verif.Spec
