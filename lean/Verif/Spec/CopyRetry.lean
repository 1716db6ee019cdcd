import Verif.Spec.Delivery

/-!
# Sends that are interrupted and repeated, for C210
-/

namespace Verif.Spec
open Verif.Fs Verif.Sender

/-- `s` is a file system that calls of `send`, starting from `fs`, can leave behind when each of them is cut off at any
moment, raises an exception or returns. Time stamps, the order of directory listings and the pieces of copies may differ
from call to call. -/
inductive Tries (cwd : Path) (c : Config) (fs : FS) : FS → Prop where
  | start : Tries cwd c fs fs
  | again {s s' : FS} (env : Env) (henv : env.Ok) (h : Tries cwd c fs s) (hv : Visits (send env cwd c s) s') : Tries cwd c fs s'

/-- A directory that the files to be sent need: the remote directory, or the directory a file goes to. -/
def CopyFolder (cwd : Path) (c : Config) (fs : FS) (f : Path) : Prop :=
  f = resolve cwd c.remote ∨ ∃ p b, Sends cwd c fs p b ∧ f = p.dropLast

/-- There is something to send and room for it:
* the local and the remote directory are apart, and the listed files exist;
* no two files go to the same place, and no file goes where the directory of another one must be;
* no name on the way to a file has the form `x.tmp_<digits>`;
* in the remote directory, no directory is at the place of a file or has a name of that form;
* no file is at the place of a directory that is needed, or above it. -/
structure CopyRoom (cwd : Path) (c : Config) (fs : FS) : Prop where
  apart : ∀ d, c.localDir = some d → ¬ resolve cwd d <+: resolve cwd c.remote ∧ ¬ resolve cwd c.remote <+: resolve cwd d
  listed : ∀ f ∈ c.localFiles, (contents fs (resolve cwd f)).isSome
  names : (c.localFiles.map baseName).Nodup
  other : ∀ d rel, LocalFile cwd c fs d rel → ∀ f ∈ c.localFiles, rel ≠ [baseName f]
  files : ∀ p b q b', Sends cwd c fs p b → Sends cwd c fs q b' → p <+: q → p = q
  words : ∀ d rel, LocalFile cwd c fs d rel → ∀ w ∈ rel, ¬ TempWord w
  no_dir : ∀ p b, Sends cwd c fs p b → get fs p ≠ some .dir
  no_temp_dir : ∀ rel, rel ≠ [] → TempPath rel → get fs (resolve cwd c.remote ++ rel) ≠ some .dir
  no_file : ∀ f q, CopyFolder cwd c fs f → q <+: f → contents fs q = none

end Verif.Spec
