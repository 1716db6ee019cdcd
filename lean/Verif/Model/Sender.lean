import Verif.Model.Fs

/-!
# Model of impactutils/transfer/sender.py, factory.py and copysender.py
-/

namespace Verif.Sender
open Verif.Fs

/-! ### Factory -/

/-- The sender classes. -/
inductive Class where
  | copySender
  | ftpSender
  | pdlSender
  | emailSender
  | secureSender
deriving DecidableEq, Repr

/-- The dictionary of classes (impactutils/transfer/factory.py:26-30). -/
def types : List (String × Class) :=
  [("copy", .copySender), ("ftp", .ftpSender), ("pdl", .pdlSender), ("email", .emailSender),
   ("ssh", .secureSender)]

/-- `get_sender_class` (impactutils/transfer/factory.py:8-34); `none` is the KeyError. -/
def getSenderClass (name : String) : Option Class := types.lookup name

/-! ### Constructor -/

/-- The `local_files` argument: absent, something that is not a list, or a list of names. -/
inductive FilesArg where
  | absent
  | notList
  | files (names : List Text)

/-- Exceptions of the constructor. -/
inductive CtorErr where
  | typeError
  | requiredArgument
  | fileNotFound
  | nameError
deriving DecidableEq, Repr

/-- `_required_properties` of each class (copysender.py:43, ftpsender.py:53, pdlsender.py:59-61,
emailsender.py:111-112, securesender.py:47, all in impactutils/transfer). -/
def required : Class → List String
  | .copySender => ["remote_directory"]
  | .ftpSender => ["remote_directory", "remote_host"]
  | .pdlSender => ["java", "jarfile", "privatekey", "configfile", "source", "type", "code",
      "eventsource", "eventsourcecode"]
  | .emailSender => ["smtp_servers", "sender", "subject", "recipients", "message"]
  | .secureSender => ["private_key", "remote_host", "remote_directory"]

/-- The check of the properties (impactutils/transfer/sender.py:49-53). `props` are the names of
the given properties; without any (`None`) the membership test raises TypeError. -/
def checkProps (c : Class) : Option (List String) → Except CtorErr Unit
  | none => .error .typeError
  | some ps => if (required c).all (fun p => decide (p ∈ ps)) then .ok ()
      else .error .requiredArgument

/-- The check of the files (impactutils/transfer/sender.py:55-61). -/
def checkFiles (cwd : Path) (fs : FS) : FilesArg → Except CtorErr Unit
  | .absent => .ok ()
  | .notList => .error .typeError
  | .files ns => if ns.all (fun n => isFile fs (resolve cwd n)) then .ok ()
      else .error .fileNotFound

/-- The check of the directory (impactutils/transfer/sender.py:63-66): the message uses the
undefined name `directory`. -/
def checkDir (cwd : Path) (fs : FS) : Option Text → Except CtorErr Unit
  | none => .ok ()
  | some d => if isDir fs (resolve cwd d) then .ok () else .error .nameError

/-- `Sender.__init__` (impactutils/transfer/sender.py:33-77). -/
def construct (c : Class) (cwd : Path) (fs : FS) (props : Option (List String)) (files : FilesArg)
    (dir : Option Text) : Except CtorErr Unit :=
  match checkProps c props with
  | .error e => .error e
  | .ok _ => match checkFiles cwd fs files with
    | .error e => .error e
    | .ok _ => checkDir cwd fs dir

/-! ### CopySender -/

/-- What a `CopySender` knows: the property `remote_directory`, the local directory and files, and
the name of the cancel file (impactutils/transfer/sender.py:48-77). -/
structure Config where
  remote : Text
  localDir : Option Text
  localFiles : List Text
  cancelFile : Text

/-- `getAllLocalFiles` (impactutils/transfer/sender.py:93-108). -/
def allLocalFiles (env : Env) (cwd : Path) (fs : FS) : Option Text → List Text
  | none => []
  | some d => if d = [] then [] else walk env cwd fs d

/-- Name of the temporary file (impactutils/transfer/copysender.py:150-151). -/
def tmpName (env : Env) (i : ℕ) (remoteFile : Text) : Text :=
  remoteFile ++ ".tmp_".toList ++ env.stamp i

/-- The remote name of a file of the local directory
(impactutils/transfer/copysender.py:138-142). -/
def dirTarget (remote folder file : Text) : Text :=
  joins ['/'] (split (strip remote) ++ split (strip (replaceAll folder [] file)))

/-- `_copy_file_with_path` with `local_folder` (impactutils/transfer/copysender.py:137-145,
150-153). -/
def copyDirFile (env : Env) (cwd : Path) (remote folder : Text) (i : ℕ) (fs : FS) (file : Text) :
    Run Unit :=
  let remoteFile := dirTarget remote folder file
  let root := resolve cwd (dirName remoteFile)
  andThen (if isDir fs root then done fs () else makedirs fs root) fun fs _ =>
    copyRename env fs (resolve cwd file) (resolve cwd (tmpName env i remoteFile))
      (resolve cwd remoteFile)

/-- `_copy_file_with_path` without `local_folder` (impactutils/transfer/copysender.py:146-153). -/
def copyListed (env : Env) (cwd : Path) (remote : Text) (i : ℕ) (fs : FS) (file : Text) :
    Run Unit :=
  let remoteFile := join remote (baseName file)
  copyRename env fs (resolve cwd file) (resolve cwd (tmpName env i remoteFile))
    (resolve cwd remoteFile)

/-- A loop that copies files and counts them (impactutils/transfer/copysender.py:74-77, 83-85);
`i` numbers the copies. -/
def copyLoop (copy : ℕ → FS → Text → Run Unit) : ℕ → FS → List Text → Run ℕ
  | _, fs, [] => done fs 0
  | i, fs, f :: files =>
    andThen (copy i fs f) fun fs _ =>
    andThen (copyLoop copy (i + 1) fs files) fun fs n => done fs (n + 1)

/-- The part of `send` about the local directory (impactutils/transfer/copysender.py:69-80): its
files are copied and counted, and then counted again with `os.walk`. -/
def sendDir (env : Env) (cwd : Path) (c : Config) (fs : FS) : Run ℕ :=
  match c.localDir with
  | none => done fs 0
  | some d =>
    if d = [] then done fs 0
    else andThen (copyLoop (fun i fs f => copyDirFile env cwd c.remote d i fs f) 0 fs
        (allLocalFiles env cwd fs c.localDir)) fun fs n =>
      done fs (n + (walk env cwd fs d).length)

/-- Path of the cancel file (impactutils/transfer/copysender.py:62, 104). -/
def cancelPath (cwd : Path) (c : Config) : Path := resolve cwd (join c.remote c.cancelFile)

/-- Remove a previous cancel file (impactutils/transfer/copysender.py:61-64). -/
def removeMarker (cwd : Path) (c : Config) (fs : FS) : Run Unit :=
  if isFile fs (cancelPath cwd c) then runAll [.remove (cancelPath cwd c)] fs else done fs ()

/-- Make the remote directory (impactutils/transfer/copysender.py:67-68). -/
def makeRemote (cwd : Path) (c : Config) (fs : FS) : Run Unit :=
  if isDir fs (resolve cwd c.remote) then done fs () else makedirs fs (resolve cwd c.remote)

/-- `CopySender.send` (impactutils/transfer/copysender.py:46-88): the returned count. -/
def send (env : Env) (cwd : Path) (c : Config) (fs : FS) : Run ℕ :=
  andThen (removeMarker cwd c fs) fun fs _ =>
  andThen (makeRemote cwd c fs) fun fs _ =>
  andThen (sendDir env cwd c fs) fun fs n =>
  andThen (copyLoop (fun i fs f => copyListed env cwd c.remote i fs f) n fs c.localFiles)
    fun fs m => done fs (n + m)

/-- `CopySender.cancel` (impactutils/transfer/copysender.py:90-109). -/
def cancel (cwd : Path) (c : Config) (content : Option Bytes) (fs : FS) : Run Unit :=
  runAll (.create (cancelPath cwd c) ::
    (match content with
     | none => []
     | some b => [.append (cancelPath cwd c) b])) fs

end Verif.Sender
