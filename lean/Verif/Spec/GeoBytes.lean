import Verif.Spec.GeoNames
import Verif.Spec.Utf8

/-!
# GeoNames files as bytes
-/

namespace Verif.Spec

/-- The records of GeoNames: the numbers, kinds and countries are in ASCII, and no field has a carriage return. The names, the other names and everything
else may have any characters; a name that is not in ASCII has, next to blanks, some other character that is not. -/
structure GeoRecord (r : List (List Char)) : Prop where
  writable : Writable r
  noReturn : ∀ f ∈ r, '\r' ∉ f
  plain : ∀ i ∈ [4, 5, 7, 8, 14], ∀ f, r[i]? = some f → ∀ c ∈ f, c.toNat ≤ 127
  name : ∀ f, r[2]? = some f → (∀ c ∈ f, c.toNat ≤ 127) ∨ ∃ c ∈ f, 127 < c.toNat ∧ ¬ White c

end Verif.Spec
