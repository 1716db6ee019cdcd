import Verif.Model.Fs

/-!
# Vocabulary for statements about files
-/

namespace Verif.Spec
open Verif.Fs

/-- The contents of the file at a path, if there is a file. -/
def contents (fs : FS) (p : Path) : Option Bytes :=
  match get fs p with
  | some (.file b) => some b
  | _ => none

/-- An ordinary file name: not empty, no slash, not `.`. -/
def PlainWord (w : Text) : Prop := w ≠ [] ∧ '/' ∉ w ∧ w ≠ ['.']

/-- A name of the form `x.tmp_<digits>`. -/
def TempWord (w : Text) : Prop :=
  ∃ a ds : Text, w = a ++ ".tmp_".toList ++ ds ∧ ∀ c ∈ ds, c.isDigit

/-- A path whose last name has the form `x.tmp_<digits>`. -/
def TempPath (p : Path) : Prop := ∃ w, p.getLast? = some w ∧ TempWord w

/-- A state in which a crash, or another process, can find the file system during a run: the states
after each of its primitive operations and the last one. -/
def Visits {α : Type} (r : Run α) (s : FS) : Prop := s ∈ r.trace ∨ s = r.fs

end Verif.Spec
