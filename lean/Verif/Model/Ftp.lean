import Verif.Model.Sender

/-!
# Model of impactutils/transfer/ftpsender.py

The server is a file system with a working directory. Every command may fail, according to a failure
pattern `fault` that gives the fate of the n-th command: a refusal (`ftplib.error_perm`), after which
nothing has changed, or a lost connection (any other exception) after some of the steps of the
command. The local files are in a file system of their own, which does not change.
-/

namespace Verif.Ftp
open Verif.Fs Verif.Sender

/-- Exceptions: `ftplib.error_perm` or any other. -/
inductive Err where
  | perm
  | other
deriving DecidableEq, Repr

/-- The fate of a command that fails. -/
inductive Fault where
  | refused
  | lost (steps : ℕ)
deriving DecidableEq, Repr

/-- A failure pattern. -/
abbrev Faults := ℕ → Option Fault

/-- The connection: the files of the server, the states they went through, the working directory and
the number of commands so far. -/
structure Conn where
  fs : FS
  trace : List FS
  cwd : Path
  count : ℕ

/-- Result of a program: the outcome and the connection afterwards. -/
structure Res (α : Type) where
  out : Except Err α
  conn : Conn

/-- Continue after success. -/
def andThen {α β : Type} (r : Res α) (f : Conn → α → Res β) : Res β :=
  match r.out with
  | .ok a => f r.conn a
  | .error e => ⟨.error e, r.conn⟩

/-- Continue after a refusal (`except error_perm`). -/
def onPerm {α : Type} (r : Res α) (f : Conn → Res α) : Res α :=
  match r.out with
  | .error .perm => f r.conn
  | _ => r

/-- Success without doing anything. -/
def ok {α : Type} (c : Conn) (a : α) : Res α := ⟨.ok a, c⟩

/-- Perform steps on the files of the server. -/
def perform (c : Conn) (ops : List Prim) : Conn :=
  { c with fs := (runAll ops c.fs).fs, trace := c.trace ++ (runAll ops c.fs).trace }

/-- A command that changes files: `ops` are its steps. -/
def command (fault : Faults) (c : Conn) (ops : List Prim) : Res Unit :=
  match fault c.count with
  | some .refused => ⟨.error .perm, { c with count := c.count + 1 }⟩
  | some (.lost k) => ⟨.error .other, { perform c (ops.take k) with count := c.count + 1 }⟩
  | none => match (runAll ops c.fs).out with
    | .ok _ => ⟨.ok (), { perform c ops with count := c.count + 1 }⟩
    | .error _ => ⟨.error .perm, { perform c ops with count := c.count + 1 }⟩

/-- `ftp.cwd(dir)`; an empty name means the current directory (`ftplib`). -/
def changeDir (fault : Faults) (c : Conn) (dir : Text) : Res Unit :=
  match fault c.count with
  | some .refused => ⟨.error .perm, { c with count := c.count + 1 }⟩
  | some (.lost k) => ⟨.error .other, { c with
      cwd := if 0 < k ∧ isDir c.fs (resolve c.cwd dir) then resolve c.cwd dir else c.cwd
      count := c.count + 1 }⟩
  | none => if isDir c.fs (resolve c.cwd dir)
      then ⟨.ok (), { c with cwd := resolve c.cwd dir, count := c.count + 1 }⟩
      else ⟨.error .perm, { c with count := c.count + 1 }⟩

/-- `ftp.mkd(dir)`. -/
def mkd (fault : Faults) (c : Conn) (dir : Text) : Res Unit :=
  command fault c [.mkdir (resolve c.cwd dir)]

/-- `FTP(host)`, `ftp.login(...)` and `ftp.quit()`: commands without an effect on files. -/
def idle (fault : Faults) (c : Conn) : Res Unit := command fault c []

/-- One step of the loop of `_create_remote_directory`
(impactutils/transfer/ftpsender.py:188-197). -/
def enter (fault : Faults) (c : Conn) (dir : Text) : Res Unit :=
  onPerm (changeDir fault c dir) fun c =>
    onPerm' (andThen (mkd fault c dir) fun c _ => changeDir fault c dir)
where
  /-- `except error_perm: raise Exception` (impactutils/transfer/ftpsender.py:195-197). -/
  onPerm' (r : Res Unit) : Res Unit :=
    match r.out with
    | .error .perm => ⟨.error .other, r.conn⟩
    | _ => r

/-- The loop of `_create_remote_directory` (impactutils/transfer/ftpsender.py:188-197). -/
def enterAll (fault : Faults) (c : Conn) : List Text → Res Unit
  | [] => ok c ()
  | d :: ds => andThen (enter fault c d) fun c _ => enterAll fault c ds

/-- `_create_remote_directory` (impactutils/transfer/ftpsender.py:171-197). -/
def createDir (fault : Faults) (c : Conn) (dir : Text) : Res Unit :=
  andThen (changeDir fault c ['/']) fun c _ =>
    onPerm (changeDir fault c dir) fun c => enterAll fault c (split (strip dir))

/-- `ftp.storbinary("STOR name", ...)`: the file grows piece by piece. -/
def stor (fault : Faults) (chunks : Bytes → List Bytes) (c : Conn) (name : Text) (b : Bytes) :
    Res Unit :=
  command fault c (.create (resolve c.cwd name) :: (chunks b).map (.append (resolve c.cwd name)))

/-- `ftp.rename(a, b)`; the two commands `RNFR` and `RNTO` are one command here. -/
def rename (fault : Faults) (c : Conn) (a b : Text) : Res Unit :=
  command fault c [.rename (resolve c.cwd a) (resolve c.cwd b)]

/-- What a sender knows of the local side: the local files, the working directory, and how files are
cut into pieces and listed. -/
structure Local where
  fs : FS
  cwd : Path
  chunks : Bytes → List Bytes
  order : List Path → List Path

/-- The assumptions on the local side. -/
structure Local.Ok (l : Local) : Prop where
  chunks : ∀ b, (l.chunks b).flatten = b
  order : ∀ ps, (l.order ps).Perm ps

/-- `open(filename, "rb")` and its contents. -/
def readLocal (l : Local) (f : Text) : Option Bytes :=
  match get l.fs (resolve l.cwd f) with
  | some (.file b) => some b
  | _ => none

/-- `__sendfile` (impactutils/transfer/ftpsender.py:246-264). -/
def sendFile (fault : Faults) (l : Local) (c : Conn) (f : Text) : Res Unit :=
  match readLocal l f with
  | none => ⟨.error .other, c⟩
  | some b =>
    andThen (stor fault l.chunks c (baseName f ++ ".tmp".toList) b) fun c _ =>
      rename fault c (baseName f ++ ".tmp".toList) (baseName f)

/-- `'/'.join(parts)`. -/
def slashJoin : List Text → Text
  | [] => []
  | [w] => w
  | w :: v :: ws => w ++ '/' :: slashJoin (v :: ws)

/-- `_path_split(path)[0]` (impactutils/transfer/ftpsender.py:272-276). -/
def pathFolder (path : Text) : Text := '/' :: slashJoin (split (strip path)).dropLast

/-- The remote name of a file of the local directory
(impactutils/transfer/ftpsender.py:231-235). -/
def remoteFile (remote folder file : Text) : Text :=
  '/' :: slashJoin (split (strip remote) ++ split (strip (replaceAll folder [] file)))

/-- `_copy_file_with_path` with a local folder (impactutils/transfer/ftpsender.py:230-244). -/
def copyWithPath (fault : Faults) (l : Local) (c : Conn) (remote folder file : Text) : Res Unit :=
  andThen (onPerm (changeDir fault c (pathFolder (remoteFile remote folder file))) fun c =>
      createDir fault c (pathFolder (remoteFile remote folder file))) fun c _ =>
  andThen (sendFile fault l c file) fun c _ =>
  changeDir fault c remote

/-- `_setup` (impactutils/transfer/ftpsender.py:131-169): log in, then navigate to the remote
directory; when that fails the connection is closed. -/
def setup (fault : Faults) (c : Conn) (remote : Text) : Res Unit :=
  andThen (idle fault c) fun c _ =>
    match (createDir fault c remote).out with
    | .ok _ => createDir fault c remote
    | .error _ => ⟨.error .other, (idle fault (createDir fault c remote).conn).conn⟩

/-- The loop over the listed files (impactutils/transfer/ftpsender.py:76-78). -/
def sendListed (fault : Faults) (l : Local) (c : Conn) : List Text → Res ℕ
  | [] => ok c 0
  | f :: fs => andThen (sendFile fault l c f) fun c _ =>
      andThen (sendListed fault l c fs) fun c n => ok c (n + 1)

/-- The loop over the files of the local directory (impactutils/transfer/ftpsender.py:84-91): every
exception is ignored. -/
def sendDir (fault : Faults) (l : Local) (c : Conn) (remote folder : Text) : List Text → ℕ × Conn
  | [] => (0, c)
  | f :: fs =>
    match (copyWithPath fault l c remote folder f).out with
    | .ok _ =>
      ((sendDir fault l (copyWithPath fault l c remote folder f).conn remote folder fs).1 + 1,
       (sendDir fault l (copyWithPath fault l c remote folder f).conn remote folder fs).2)
    | .error _ => sendDir fault l (copyWithPath fault l c remote folder f).conn remote folder fs

/-- The files of the local directory: `getAllLocalFiles` (impactutils/transfer/sender.py:93-108). -/
def localFiles (l : Local) : Option Text → List Text
  | none => []
  | some d => if d = [] then [] else (l.order (filesBelow l.fs (resolve l.cwd d))).map (joins d)

/-- `FTPSender.send` (impactutils/transfer/ftpsender.py:56-98): the returned count. -/
def send (fault : Faults) (l : Local) (cfg : Config) (c : Conn) : Res ℕ :=
  andThen (setup fault c cfg.remote) fun c _ =>
  andThen (sendListed fault l c cfg.localFiles) fun c n =>
  let r := sendDir fault l c cfg.remote (cfg.localDir.getD []) (localFiles l cfg.localDir)
  andThen (idle fault r.2) fun c _ => ok c (n + r.1)

/-- `except Exception: raise Exception(...)` (impactutils/transfer/ftpsender.py:124-126). -/
def asOther (r : Res Unit) : Res Unit :=
  match r.out with
  | .error _ => ⟨.error .other, r.conn⟩
  | .ok _ => r

/-- `FTPSender.cancel` (impactutils/transfer/ftpsender.py:100-129). `tempdir` is the name of the new local
directory (`tempfile.mkdtemp()`); it is removed at the end, so the local files are as before. The
connection is not closed. -/
def cancel (fault : Faults) (l : Local) (cfg : Config) (tempdir : Text) (c : Conn) : Res Unit :=
  andThen (setup fault c cfg.remote) fun c _ =>
  match exec l.fs (.create (resolve l.cwd (join tempdir cfg.cancelFile))) with
  | .error _ => ⟨.error .other, c⟩
  | .ok fs => asOther (andThen (changeDir fault c cfg.remote) fun c _ =>
      sendFile fault { l with fs := fs } c (join tempdir cfg.cancelFile))

end Verif.Ftp
