import Verif.Spec.Files
import Verif.Model.Sender

/-!
# What a copy sender is supposed to deliver
-/

namespace Verif.Spec
open Verif.Fs Verif.Sender

/-- The sender is asked to put a file with contents `b` at `p`: a file of the local directory goes to
the same relative path below the remote directory, a listed file goes to the remote directory under
its own name. `fs` is the file system before the transfer. -/
def Sends (cwd : Path) (c : Config) (fs : FS) (p : Path) (b : Bytes) : Prop :=
  (∃ d rel, c.localDir = some d ∧ rel ≠ [] ∧ contents fs (resolve cwd d ++ rel) = some b ∧
    p = resolve cwd c.remote ++ rel) ∨
  (∃ f ∈ c.localFiles, contents fs (resolve cwd f) = some b ∧
    p = resolve cwd c.remote ++ [baseName f])

/-- A file of the local directory, by its relative path. -/
def LocalFile (cwd : Path) (c : Config) (fs : FS) (d : Text) (rel : List Text) : Prop :=
  c.localDir = some d ∧ rel ≠ [] ∧ (contents fs (resolve cwd d ++ rel)).isSome

/-- An ordinary configuration:
* the remote directory is given by an absolute path;
* the cancel file, the listed files and the files of the local directory have ordinary names, not of
  the form `x.tmp_<digits>`, and no file to be sent has the name of the cancel file;
* the text of the local directory does not occur again later in the path of one of its files;
* no file to be sent lies below the remote directory. -/
structure Ordinary (cwd : Path) (c : Config) (fs : FS) : Prop where
  absolute : c.remote.head? = some '/'
  cancel_plain : PlainWord c.cancelFile
  cancel_temp : ¬ TempWord c.cancelFile
  dir_nonempty : ∀ d, c.localDir = some d → d ≠ []
  names : ∀ d rel, LocalFile cwd c fs d rel → ∀ w ∈ rel, PlainWord w
  once : ∀ d rel, LocalFile cwd c fs d rel → ¬ d <:+: (joins d rel).drop d.length
  no_temp : ∀ d rel, LocalFile cwd c fs d rel → ¬ TempPath rel
  not_cancel : ∀ d rel, LocalFile cwd c fs d rel → rel ≠ [c.cancelFile]
  outside : ∀ d rel, LocalFile cwd c fs d rel → ¬ resolve cwd c.remote <+: resolve cwd d ++ rel
  listed_plain : ∀ f ∈ c.localFiles, PlainWord (baseName f)
  listed_temp : ∀ f ∈ c.localFiles, ¬ TempWord (baseName f)
  listed_not_cancel : ∀ f ∈ c.localFiles, baseName f ≠ c.cancelFile
  listed_outside : ∀ f ∈ c.localFiles, ¬ resolve cwd c.remote <+: resolve cwd f

/-- What happened in a call of `send` or `cancel`, as its caller sees it. -/
inductive Event where
  | sent
  | sendFailed
  | cancelled (text : Option Bytes)
  | cancelFailed

/-- A history of calls of one sender, from a file system to a file system. Time stamps, the order of
directory listings and the pieces of copies may differ from call to call. -/
inductive History (cwd : Path) (c : Config) : FS → List Event → FS → Prop where
  | nil (fs : FS) : History cwd c fs [] fs
  | sent {fs es fs'} (env : Env) (henv : env.Ok) (n : ℕ) (h : History cwd c fs es fs')
      (hok : (send env cwd c fs').out = .ok n) :
      History cwd c fs (es ++ [.sent]) (send env cwd c fs').fs
  | sendFailed {fs es fs'} (env : Env) (henv : env.Ok) (e : Err) (h : History cwd c fs es fs')
      (herr : (send env cwd c fs').out = .error e) :
      History cwd c fs (es ++ [.sendFailed]) (send env cwd c fs').fs
  | cancelled {fs es fs'} (text : Option Bytes) (h : History cwd c fs es fs')
      (hok : (cancel cwd c text fs').out = .ok ()) :
      History cwd c fs (es ++ [.cancelled text]) (cancel cwd c text fs').fs
  | cancelFailed {fs es fs'} (text : Option Bytes) (e : Err) (h : History cwd c fs es fs')
      (herr : (cancel cwd c text fs').out = .error e) :
      History cwd c fs (es ++ [.cancelFailed]) (cancel cwd c text fs').fs

/-- The marker the caller expects after a call: a successful cancel leaves its text, a successful
send removes the marker, and calls that raise change nothing. -/
def expected (m : Option Bytes) : Event → Option Bytes
  | .sent => none
  | .sendFailed => m
  | .cancelled text => some (text.getD [])
  | .cancelFailed => m

end Verif.Spec
