import Verif.Spec.Files
import Verif.Model.Ftp

/-!
# What an FTP sender is supposed to deliver
-/

namespace Verif.Spec
open Verif.Fs Verif.Sender Verif.Ftp

/-- The FTP sender is asked to put a file with contents `b` at the server path `p`: a file of the
local directory at the same relative path below the remote directory, a listed file in the remote
directory under its own name. A remote directory given by a relative path counts from the root. -/
def FtpSends (l : Local) (cfg : Config) (p : Path) (b : Bytes) : Prop :=
  (∃ d rel, cfg.localDir = some d ∧ rel ≠ [] ∧ contents l.fs (resolve l.cwd d ++ rel) = some b ∧
    p = resolve [] cfg.remote ++ rel) ∨
  (∃ f ∈ cfg.localFiles, contents l.fs (resolve l.cwd f) = some b ∧
    p = resolve [] cfg.remote ++ [baseName f])

/-- A path whose last name ends with `.tmp`. -/
def DotTmp (p : Path) : Prop := ∃ r w, p = r ++ [w ++ ".tmp".toList]

/-- A file of the local directory, by its relative path. -/
def FtpLocalFile (l : Local) (cfg : Config) (d : Text) (rel : List Text) : Prop :=
  cfg.localDir = some d ∧ rel ≠ [] ∧ (contents l.fs (resolve l.cwd d ++ rel)).isSome

/-- An ordinary configuration: ordinary file names, none of which ends with `.tmp`, and the text of
the local directory does not occur again later in the path of one of its files. -/
structure FtpOrdinary (l : Local) (cfg : Config) : Prop where
  dir_nonempty : ∀ d, cfg.localDir = some d → d ≠ []
  names : ∀ d rel, FtpLocalFile l cfg d rel → ∀ w ∈ rel, PlainWord w
  once : ∀ d rel, FtpLocalFile l cfg d rel → ¬ d <:+: (joins d rel).drop d.length
  no_tmp : ∀ d rel, FtpLocalFile l cfg d rel → ¬ DotTmp rel
  listed_plain : ∀ f ∈ cfg.localFiles, PlainWord (baseName f)
  listed_no_tmp : ∀ f ∈ cfg.localFiles, ¬ DotTmp [baseName f]

/-- A folder the FTP sender may have to make: the remote directory, or the folder of a file. -/
def FtpFolder (l : Local) (cfg : Config) (f : Path) : Prop :=
  f = resolve [] cfg.remote ∨ ∃ p b, FtpSends l cfg p b ∧ f = p.dropLast

/-- There is room for the files on the server:
* the files listed exist, have different names, and none has the place of a file of the directory;
* no file goes to a place that another one needs as a directory, and no folder of the local directory
  has a name that ends with `.tmp`;
* no directory is in the way at the place of a file, or at that place with `.tmp` added;
* no file is in the way at the place of a directory above a file to be sent. -/
structure FtpRoom (l : Local) (cfg : Config) (fs : FS) : Prop where
  listed : ∀ f ∈ cfg.localFiles, (contents l.fs (resolve l.cwd f)).isSome
  names : (cfg.localFiles.map baseName).Nodup
  other : ∀ d rel, FtpLocalFile l cfg d rel → ∀ f ∈ cfg.localFiles, rel ≠ [baseName f]
  apart : ∀ p b q b', FtpSends l cfg p b → FtpSends l cfg q b' → p <+: q → p = q
  no_tmp : ∀ d rel, FtpLocalFile l cfg d rel → ∀ w ∈ rel, ¬ DotTmp [w]
  no_dir : ∀ p b, FtpSends l cfg p b → get fs p ≠ some .dir
  no_tmp_dir : ∀ r w b, FtpSends l cfg (r ++ [w]) b → get fs (r ++ [w ++ ".tmp".toList]) ≠ some .dir
  no_file : ∀ f q, FtpFolder l cfg f → q <+: f → contents fs q = none

end Verif.Spec
