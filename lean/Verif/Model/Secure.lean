import Verif.Model.Sender

/-!
# Model of impactutils/transfer/securesender.py

Two file systems: the local one, which does not change, and that of the remote machine, which is the
state of the runs. Connecting (lines 140-166) is not modelled: the model starts with a connection, a
failed one raises before anything is done.
-/

namespace Verif.Secure
open Verif.Fs Verif.Sender

/-- The remote machine. `run fs cmd` is the file system after the command line `cmd` and its exit
status. `put fs name b` is an upload of a file with contents `b` by `SCPClient.put` to the remote name
`name`. Nothing is assumed about either here. -/
structure Machine where
  run : FS → Text → FS × ℕ
  put : FS → Text → Bytes → Run Unit

/-- `ssh.exec_command(cmd)`. Simplification: the model runs a command at once, while `exec_command`
does not wait for its end; a command that has not ended when it matters is, for the model, a command
that does nothing. -/
def command (m : Machine) (fs : FS) (cmd : Text) : Run ℕ :=
  ⟨[(m.run fs cmd).1], (m.run fs cmd).1, .ok (m.run fs cmd).2⟩

/-- The test `[ -e path ]` or `[ -d path ]`; `echo $?` prints its exit status, `not int(…)` is whether
it is 0 (impactutils/transfer/securesender.py:127-129, 237-242, 257). -/
def testCmd (flag : Char) (path : Text) : Text :=
  "[ -".toList ++ flag :: ' ' :: path ++ " ]".toList

/-- Run a test (impactutils/transfer/securesender.py:237-242). -/
def test (m : Machine) (fs : FS) (flag : Char) (path : Text) : Run Bool :=
  andThen (command m fs (testCmd flag path)) fun fs s => done fs (s == 0)

/-- `_check_remote_folder` (impactutils/transfer/securesender.py:226-243). -/
def checkFolder (m : Machine) (fs : FS) (folder : Text) : Run (Bool × Bool) :=
  andThen (test m fs 'e' folder) fun fs exists_ =>
  andThen (test m fs 'd' folder) fun fs isdir => done fs (exists_, isdir)

/-- Remove what is at the place of the folder and ask whether a directory is there
(impactutils/transfer/securesender.py:259-263). -/
def clearFolder (m : Machine) (fs : FS) (folder : Text) : Run Bool :=
  andThen (command m fs ("rm ".toList ++ folder)) fun fs _ => test m fs 'd' folder

/-- `_make_remote_folder` (impactutils/transfer/securesender.py:245-270). -/
def makeFolder (m : Machine) (fs : FS) (folder : Text) : Run Bool :=
  andThen (checkFolder m fs folder) fun fs ei =>
    if ei.2 then done fs true
    else andThen (if ei.1 then clearFolder m fs folder else done fs false) fun fs exists_ =>
      if exists_ then done fs true
      else andThen (command m fs ("mkdir -p ".toList ++ folder)) fun fs _ =>
        andThen (checkFolder m fs folder) fun fs ei => done fs ei.2

/-- Upload under a temporary name and rename (impactutils/transfer/securesender.py:219-224). The
outcome of the `mv` command is not looked at. -/
def upload (env : Env) (m : Machine) (cwd : Path) (loc : FS) (i : ℕ) (fs : FS) (file remoteFile : Text) :
    Run Unit :=
  match get loc (resolve cwd file) with
  | some (.file b) =>
    andThen (m.put fs (tmpName env i remoteFile) b) fun fs _ =>
    andThen (command m fs ("mv ".toList ++ tmpName env i remoteFile ++ ' ' :: remoteFile)) fun fs _ =>
      done fs ()
  | _ => fail fs

/-- `_copy_file_with_path` without `local_folder` (impactutils/transfer/securesender.py:216-224). -/
def copyListed (env : Env) (m : Machine) (cwd : Path) (loc : FS) (remote : Text) (i : ℕ) (fs : FS)
    (file : Text) : Run Unit :=
  upload env m cwd loc i fs file (join remote (baseName file))

/-- Make the folder of a file if it is not there (impactutils/transfer/securesender.py:206-214). -/
def ensureFolder (m : Machine) (fs : FS) (root : Text) : Run Unit :=
  andThen (checkFolder m fs root) fun fs ei =>
    if ei.2 then done fs ()
    else andThen (makeFolder m fs root) fun fs res => if res then done fs () else fail fs

/-- `_copy_file_with_path` with `local_folder` (impactutils/transfer/securesender.py:199-214,
219-224). -/
def copyDirFile (env : Env) (m : Machine) (cwd : Path) (loc : FS) (remote folder : Text) (i : ℕ)
    (fs : FS) (file : Text) : Run Unit :=
  andThen (ensureFolder m fs (dirName (dirTarget remote folder file))) fun fs _ =>
    upload env m cwd loc i fs file (dirTarget remote folder file)

/-- A loop over files (impactutils/transfer/securesender.py:84-86, 90-93). -/
def loop (copy : ℕ → FS → Text → Run Unit) : ℕ → FS → List Text → Run Unit
  | _, fs, [] => done fs ()
  | i, fs, f :: files => andThen (copy i fs f) fun fs _ => loop copy (i + 1) fs files

/-- The loop over the files of the local directory (impactutils/transfer/securesender.py:88-93). -/
def sendDir (env : Env) (m : Machine) (cwd : Path) (loc : FS) (c : Config) (i : ℕ) (fs : FS) :
    Run Unit :=
  match c.localDir with
  | none => done fs ()
  | some d => loop (fun i fs f => copyDirFile env m cwd loc c.remote d i fs f) i fs
      (allLocalFiles env cwd loc (some d))

/-- The number of files reported (impactutils/transfer/securesender.py:100-103). -/
def count (env : Env) (cwd : Path) (loc : FS) (c : Config) : ℕ :=
  c.localFiles.length + match c.localDir with
    | none => 0
    | some d => (walk env cwd loc d).length

/-- `SecureSender.send` (impactutils/transfer/securesender.py:50-107): the returned count. -/
def send (env : Env) (m : Machine) (cwd : Path) (loc : FS) (c : Config) (fs : FS) : Run ℕ :=
  andThen (makeFolder m fs c.remote) fun fs res =>
    if res then
      andThen (loop (fun i fs f => copyListed env m cwd loc c.remote i fs f) 0 fs c.localFiles)
        fun fs _ =>
      andThen (sendDir env m cwd loc c c.localFiles.length fs) fun fs _ =>
        done fs (count env cwd loc c)
    else fail fs

/-- `SecureSender.cancel` (impactutils/transfer/securesender.py:109-138). `content` is the text of the
argument in the f-string, which for the default `None` is `None`. -/
def cancel (m : Machine) (c : Config) (content : Option Text) (fs : FS) : Run Unit :=
  andThen (command m fs ("echo ".toList ++ content.getD "None".toList ++ " > ".toList ++
    join c.remote c.cancelFile)) fun fs _ =>
  andThen (test m fs 'e' (join c.remote c.cancelFile)) fun fs ok =>
    if ok then done fs () else fail fs

end Verif.Secure
