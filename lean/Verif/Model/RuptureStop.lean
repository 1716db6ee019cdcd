import Verif.Model.RuptureOutput
import Verif.Model.RuptureFile
import Verif.Model.PyNumber

/-!
# `writeGeoJson` when the process stops
-/

namespace Verif.RupDict
open Verif.Origin Verif.Json Verif.Factory

/-- Where a process stops within `writeGeoJson`: before the file is opened, or when so many characters have reached it. -/
inductive StopAt where
  | unopened
  | after (n : ℕ)

/-- `writeGeoJson` (impactutils/rupture/base.py:41-49) up to a stop: what the file holds then, with `none` for no file. Opening a file with
`'w'` empties it; what `json.dump` writes reaches the file in the order in which it is written. -/
def stoppedAt (fl : Floats Fl) (old : Option Text) (r : Rup) : StopAt → Option Text
  | .unopened => old
  | .after n => some ((writeGeoJson fl old r).1.take n)

/-- `get_rupture` with an `Origin` (impactutils/rupture/factory.py:22-92) for the path of a file with this content. `json.load` is `loads`;
`dict` makes a dictionary of its value, and `number` is Python's `float`. -/
noncomputable def ruptureOf {R : Type} (fl : Floats Fl) (dict : Json.Val Fl → Option Factory.Json)
    (other : Factory.Json → Factory.Json → Option Bool) (build : RupKind → Except FErr R) (point : R) (newFormat : Bool)
    (content : Option Text) : Except GErr R :=
  getRupture other build point (fun t => (loads fl t).bind dict) Num.number true (some (.path content)) newFormat

end Verif.RupDict
