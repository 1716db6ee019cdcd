import Verif.Model.CityFile
import Verif.Model.EventXml

/-!
# The bytes of a GeoNames file (impactutils/mapping/city.py)
-/

namespace Verif.Cities

/-- `open(cityfile, 'rt', encoding='latin-1')` (impactutils/mapping/city.py:128): each byte is a character, and all line ends are made line feeds. -/
def openText (bytes : List ℕ) : List Char := EventXml.lineEnds (bytes.map Char.ofNat)

/-- `Cities.fromGeoNames` (impactutils/mapping/city.py:104-152) for the bytes of a file. -/
def fromGeoFile (num : List Char → Option ℚ) (int : List Char → Option ℤ) (bytes : List ℕ) : Except GeoErr (List Place) :=
  fromGeoNames num int (openText bytes)

end Verif.Cities
