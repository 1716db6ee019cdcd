import Mathlib.Data.Rat.Floor
import Verif.Model.Scp

/-!
# The bytes of the protocol (impactutils/extern/scp/scp.py)

Byte strings are texts, one character for each byte. The machine is not a Windows machine, and there is no progress
callback, which is the default. Sending itself does not fail.
-/

namespace Verif.ScpWire
open Verif.Fs Verif.Scp

/-! ### Sending -/

/-- What `os.stat` says about a file. -/
structure Stat where
  mode : ℕ
  size : ℕ
  mtime : ℚ
  atime : ℚ
deriving DecidableEq

/-- A local file or directory: its attributes, and what reading it gives, unless it cannot be opened. -/
structure Local where
  stat : Stat
  content : Option Text
deriving DecidableEq

/-- `oct(st_mode)[-4:]` (impactutils/extern/scp/scp.py:223). -/
def modeText (m : ℕ) : Text :=
  let s := "0o".toList ++ Nat.toDigits 8 m
  s.drop (s.length - 4)

/-- `int(x)` for a float. -/
def pyInt (q : ℚ) : ℤ := if q < 0 then -⌊-q⌋ else ⌊q⌋

/-- `f"{n:d}"`. -/
def decimal (n : ℤ) : Text := (if n < 0 then ['-'] else []) ++ Nat.toDigits 10 n.natAbs

/-- What the client does: send bytes, wait for a confirmation, or fail because of the local file system. -/
inductive Act where
  | send (b : Text)
  | confirm
  | osError
deriving DecidableEq, Repr

/-- `_send_time` (impactutils/extern/scp/scp.py:311-316). -/
def sendTime (s : Stat) : List Act :=
  [.send (['T'] ++ decimal (pyInt s.mtime) ++ " 0 ".toList ++ decimal (pyInt s.atime) ++ " 0\n".toList), .confirm]

/-- The loop that sends the content (impactutils/extern/scp/scp.py:253-255); `none` if it has not ended after `fuel`
rounds. -/
def sendData (buff size : ℕ) (content : Text) : ℕ → ℕ → Option (List Act)
  | 0, pos => if pos < size then none else some []
  | fuel + 1, pos =>
    if pos < size then
      let chunk := (content.drop pos).take buff
      (sendData buff size content fuel (pos + chunk.length)).map (.send chunk :: ·)
    else some []

/-- One round of `_send_files` (impactutils/extern/scp/scp.py:229-260). -/
def sendFile (disk : Text → Option Local) (buff : ℕ) (preserve : Bool) (fuel : ℕ) (name : Text) : Option (List Act) :=
  match disk name with
  | none => some [.osError]
  | some f =>
    let time := if preserve then sendTime f.stat else []
    match f.content with
    | none => some (time ++ [.osError])
    | some content =>
      (sendData buff f.stat.size content fuel 0).map fun d =>
        time ++ [.send (['C'] ++ modeText f.stat.mode ++ [' '] ++ decimal f.stat.size ++ [' '] ++ wireName (baseName name) ++
          ['\n']), .confirm] ++ d ++ [.send ['\x00'], .confirm]

/-- One after the other; `none` if one does not end. -/
def inTurn {α : Type} (f : α → Option (List Act)) : List α → Option (List Act)
  | [] => some []
  | x :: xs =>
    match f x, inTurn f xs with
    | some a, some b => some (a ++ b)
    | _, _ => none

/-- `_send_files` (impactutils/extern/scp/scp.py:229-260). -/
def sendFiles (disk : Text → Option Local) (buff : ℕ) (preserve : Bool) (fuel : ℕ) (files : List Text) :
    Option (List Act) :=
  inTurn (sendFile disk buff preserve fuel) files

/-- `_send_pushd` (impactutils/extern/scp/scp.py:296-304). -/
def sendPushd (disk : Text → Option Local) (preserve : Bool) (directory : Text) : List Act :=
  match disk directory with
  | none => [.osError]
  | some f =>
    (if preserve then sendTime f.stat else []) ++
      [.send (['D'] ++ modeText f.stat.mode ++ " 0 ".toList ++ wireName (baseName directory) ++ ['\n']), .confirm]

/-- `_send_popd` (impactutils/extern/scp/scp.py:306-309). -/
def sendPopd : List Act := [.send "E\n".toList, .confirm]

/-- `n` times `_send_popd`. -/
def sendPopds (n : ℕ) : List Act := (List.replicate n sendPopd).flatten

/-- `_chdir` (impactutils/extern/scp/scp.py:262-279), with the number of times it pops. -/
def chdirActs (disk : Text → Option Local) (preserve : Bool) (fuel : ℕ) (fromDir toDir : Text) : Option (ℕ × List Act) :=
  (pops fuel (rstrip fromDir) (dirName (commonPrefix (fromDir ++ ['/']) (toDir ++ ['/'])))).map
    fun n => (n, sendPopds n ++ sendPushd disk preserve toDir)

/-- The loop over the walk in `_send_recursive` (impactutils/extern/scp/scp.py:288-291), with the change of `_pushed`. -/
def walkActs (disk : Text → Option Local) (buff : ℕ) (preserve : Bool) (fuel : ℕ) (last : Text) :
    List (Text × List Text) → Option (ℤ × List Act)
  | [] => some (0, [])
  | (root, names) :: rest =>
    match chdirActs disk preserve fuel last root, sendFiles disk buff preserve fuel (names.map (join root)),
        walkActs disk buff preserve fuel root rest with
    | some (n, a), some b, some (k, c) => some (1 - n + k, a ++ b ++ c)
    | _, _, _ => none

/-- `_send_recursive` for one directory (impactutils/extern/scp/scp.py:287-294); `walk` is what `os.walk` lists: each
directory with the names of its files. -/
def sendTree (disk : Text → Option Local) (buff : ℕ) (preserve : Bool) (fuel : ℕ) (base : Text)
    (walk : List (Text × List Text)) : Option (List Act) :=
  (walkActs disk buff preserve fuel base walk).map fun r => r.2 ++ sendPopds r.1.toNat

/-- `_send_recursive` (impactutils/extern/scp/scp.py:281-294): `walk` gives the walk of a directory, and `none` for what is
not a directory. -/
def sendRecursive (disk : Text → Option Local) (walk : Text → Option (List (Text × List Text))) (buff : ℕ)
    (preserve : Bool) (fuel : ℕ) (files : List Text) : Option (List Act) :=
  inTurn (fun base => match walk base with
    | none => sendFiles disk buff preserve fuel [base]
    | some w => sendTree disk buff preserve fuel base w) files

/-- What the other side gives to `recv(512)`: bytes, with the text on the error stream if that is ready, or nothing before
the timeout. The end of the stream is the empty text. -/
inductive Reply where
  | data (msg : Text) (stderr : Option Text)
  | timeout
deriving DecidableEq, Repr

/-- The reasons of an `SCPException` in `_recv_confirm`. -/
inductive Refusal where
  | timeout
  | message (msg : Text)
  | noResponse
  | invalid (msg : Text)
deriving DecidableEq, Repr

/-- `_recv_confirm` (impactutils/extern/scp/scp.py:318-336). If there are no replies left, none comes before the timeout. -/
def recvConfirm : List Reply → Except Refusal (List Reply)
  | [] => .error .timeout
  | .timeout :: _ => .error .timeout
  | .data msg stderr :: rs =>
    if msg.head? = some '\x00' then .ok rs
    else if msg.head? = some '\x01' then .error (.message msg.tail)
    else
      match stderr with
      | some e => .error (.message e)
      | none => if msg = [] then .error .noResponse else .error (.invalid msg)

/-- How `put` ends. -/
inductive Outcome where
  | done
  | scpException (e : Refusal)
  | osError
deriving DecidableEq, Repr

/-- The actions of the client with the replies of the other side: the outcome, the bytes sent and the replies left. -/
def exec : List Act → List Reply → Outcome × Text × List Reply
  | [], rs => (.done, [], rs)
  | .send b :: as, rs => let r := exec as rs; (r.1, b ++ r.2.1, r.2.2)
  | .osError :: _, rs => (.osError, [], rs)
  | .confirm :: as, rs =>
    match recvConfirm rs with
    | .error e => (.scpException e, [], rs.tail)
    | .ok rs' => exec as rs'

/-- `put` (impactutils/extern/scp/scp.py:126-157) after the command was sent; `none` if it does not end within `fuel`. -/
def put (disk : Text → Option Local) (walk : Text → Option (List (Text × List Text))) (buff : ℕ)
    (recursive preserve : Bool) (fuel : ℕ) (files : List Text) (replies : List Reply) :
    Option (Outcome × Text × List Reply) :=
  (if recursive then sendRecursive disk walk buff preserve fuel files
    else sendFiles disk buff preserve fuel files).map fun acts => exec (.confirm :: acts) replies

/-! ### The channel of a client -/

/-- The channel of a client object: the number of the open session, if any, and how many sessions were opened. -/
structure Session where
  channel : Option ℕ
  opened : ℕ
deriving DecidableEq, Repr

/-- `_open` (impactutils/extern/scp/scp.py:199-206): the session and its number. -/
def openSession (s : Session) : Session × ℕ :=
  match s.channel with
  | some k => (s, k)
  | none => (⟨some s.opened, s.opened + 1⟩, s.opened)

/-- `close` (impactutils/extern/scp/scp.py:208-214). -/
def closeSession (s : Session) : Session := ⟨none, s.opened⟩

/-- The sessions of `put` and `get` (impactutils/extern/scp/scp.py:140, 157, 187, 197): the number of the session the command
is sent on, and the state afterwards. -/
def useSession (s : Session) (ok : Bool) : ℕ × Session :=
  let (s', k) := openSession s
  (k, if ok then closeSession s' else s')

/-! ### Receiving -/

/-- What comes over the channel: bytes, in the portions of the network, a silence that is longer than the timeout, or the end
of the stream. -/
inductive Recv where
  | data (b : Text)
  | timeout
  | eof
deriving DecidableEq, Repr

/-- `channel.recv(n)`: `none` for a timeout; never more than `n` bytes. -/
def recv (n : ℕ) : List Recv → Option Text × List Recv
  | [] => (none, [])
  | .timeout :: rs => (none, rs)
  | .eof :: rs => (some [], .eof :: rs)
  | .data b :: rs => if b.length ≤ n then (some b, rs) else (some (b.take n), .data (b.drop n) :: rs)

/-- Modification and access times for `os.utime`: access time first, `none` for the present time. -/
abbrev Times := Option (ℤ × ℤ)

/-- The calls of the operating system. -/
inductive Op where
  | create (path : Text)
  | write (path : Text) (b : Text)
  | utime (path : Text) (t : Times)
  | chmod (path : Text) (mode : ℤ)
  | mkdir (path : Text) (mode : ℤ)
deriving DecidableEq, Repr

/-- The local machine: what a path is after the given calls, and whether calls work; and `int(text, 8)` and `int(text)`. -/
structure Host where
  present : List Op → Text → Bool
  isDir : List Op → Text → Bool
  opens : List Op → Text → Bool
  mkdirs : List Op → Text → Bool
  oct : Text → Option ℤ
  int : Text → Option ℤ

/-- A receiving client, with the calls it made and the bytes it sent. -/
structure Client where
  dir : Text
  rename : Bool
  utime : Times
  dirtimes : List (Text × Times)
  ops : List Op
  sent : Text

/-- Exceptions of `get`. -/
inductive GetErr where
  | scp
  | socketTimeout
  | assertion
  | osError
deriving DecidableEq, Repr

/-- The characters `bytes.strip` removes. -/
def blank (c : Char) : Bool := c = ' ' || c = '\t' || c = '\n' || c = '\r' || c = '\x0b' || c = '\x0c'

/-- `s.strip()`. -/
def stripBytes (s : Text) : Text := ((s.dropWhile blank).reverse.dropWhile blank).reverse

/-- `s.split(b' ', n)`. -/
def splitSpace (cur : Text) : ℕ → Text → List Text
  | _, [] => [cur.reverse]
  | 0, s => [cur.reverse ++ s]
  | n + 1, c :: s => if c = ' ' then cur.reverse :: splitSpace [] n s else splitSpace (c :: cur) (n + 1) s

/-- `s.split(b' ')`. -/
def splitSpaces (s : Text) : List Text := splitSpace [] s.length s

/-- A call of the operating system. -/
def Client.call (c : Client) (op : Op) : Client := { c with ops := c.ops ++ [op] }

/-- Bytes sent. -/
def Client.say (c : Client) (b : Text) : Client := { c with sent := c.sent ++ b }

/-- The loop that receives the content (impactutils/extern/scp/scp.py:409-417); `none` if it has not ended after `fuel`
rounds. A timeout is an `SCPException`. -/
def recvData (buff : ℕ) (size : ℤ) (path : Text) : ℕ → ℤ → Client → List Recv → Option (Except GetErr (Client × List Recv))
  | 0, pos, c, rs => if pos < size then none else some (.ok (c, rs))
  | fuel + 1, pos, c, rs =>
    if pos < size then
      let n := if size - pos ≤ buff then (size - pos).toNat else buff
      match recv n rs with
      | (none, _) => some (.error .scp)
      | (some b, rs') => recvData buff size path fuel (pos + b.length) (c.call (.write path b)) rs'
    else some (.ok (c, rs))

/-- The path of a file or directory (impactutils/extern/scp/scp.py:378-387, 439-448), with the state after it: `rest` is the
third part of the message, if there is one. -/
def place (c : Client) (rest : Option Text) : Option (Text × Client) :=
  if c.rename then some (c.dir, { c with rename := false })
  else rest.map fun name => (join c.dir name, c)

/-- `_recv_file` (impactutils/extern/scp/scp.py:371-432). -/
def recvFile (env : Host) (buff fuel : ℕ) (c : Client) (cmd : Text) (rs : List Recv) :
    Option (Except GetErr (Client × List Recv)) :=
  let parts := splitSpace [] 2 (stripBytes cmd)
  match parts[0]?.bind env.oct, parts[1]?.bind env.int, place c parts[2]? with
  | some mode, some size, some (path, c1) =>
    if env.opens c1.ops path = false then some (.error .osError)
    else
      match recvData buff size path fuel 0 ((c1.call (.create path)).say ['\x00']) rs with
      | none => none
      | some (.error e) => some (.error e)
      | some (.ok (c2, rs')) =>
        match recv 512 rs' with
        | (none, _) => some (.error .scp)
        | (some msg, rs'') =>
          if msg ≠ [] ∧ msg.head? ≠ some '\x00' then some (.error .scp)
          else some (.ok (({ c2.call (.utime path c2.utime) with utime := none }).call (.chmod path mode), rs''))
  | _, _, _ => some (.error .scp)

/-- `_set_time` (impactutils/extern/scp/scp.py:360-369). -/
def setTime (env : Host) (c : Client) (cmd : Text) : Except GetErr Client :=
  let times := splitSpaces cmd
  match times[0]?.bind env.int, times[2]?.bind env.int with
  | some mtime, some atime => .ok { c with utime := some (if atime = 0 then mtime else atime, mtime) }
  | _, _ => .error .scp

/-- `d[k] = v`. -/
def dictSet (k : Text) (v : Times) : List (Text × Times) → List (Text × Times)
  | [] => [(k, v)]
  | (k', v') :: l => if k' = k then (k, v) :: l else (k', v') :: dictSet k v l

/-- `_recv_pushd` (impactutils/extern/scp/scp.py:434-463). -/
def recvPushd (env : Host) (c : Client) (cmd : Text) : Except GetErr Client :=
  let parts := splitSpace [] 2 cmd
  match parts[0]?.bind env.oct, place c parts[2]? with
  | some mode, some (path, c1) =>
    let enter (op : Op) : Client :=
      { c1.call op with dirtimes := dictSet path c1.utime c1.dirtimes, utime := none, dir := path }
    if env.present c1.ops path = false then
      if env.mkdirs c1.ops path then .ok (enter (.mkdir path mode)) else .error .osError
    else if env.isDir c1.ops path then .ok (enter (.chmod path mode))
    else .error .scp
  | _, _ => .error .scp

/-- `_recv_popd` (impactutils/extern/scp/scp.py:465-466). -/
def recvPopd (c : Client) : Client := { c with dir := dirName c.dir }

/-- `_set_dirtimes` (impactutils/extern/scp/scp.py:468-473). -/
def setDirtimes (c : Client) : Client :=
  { c with ops := c.ops ++ c.dirtimes.map fun d => .utime d.1 d.2, dirtimes := [] }

/-- `_recv_all` (impactutils/extern/scp/scp.py:338-358); `none` if it has not ended after `fuel` rounds. A channel that the
other side closed is one on which the stream has ended. -/
def recvAll (env : Host) (buff : ℕ) : ℕ → Client → List Recv → Option (Except GetErr Client)
  | 0, _, _ => none
  | fuel + 1, c, rs =>
    let c := c.say ['\x00']
    match recv 1024 rs with
    | (none, _) => some (.error .socketTimeout)
    | (some msg, rs') =>
      if msg = [] then some (.ok (setDirtimes c))
      else if msg.getLast? ≠ some '\n' then some (.error .assertion)
      else
        match msg.dropLast with
        | 'C' :: cmd =>
          match recvFile env buff fuel c cmd rs' with
          | none => none
          | some (.error e) => some (.error e)
          | some (.ok (c', rs'')) => recvAll env buff fuel c' rs''
        | 'T' :: cmd =>
          match setTime env c cmd with
          | .error e => some (.error e)
          | .ok c' => recvAll env buff fuel c' rs'
        | 'D' :: cmd =>
          match recvPushd env c cmd with
          | .error e => some (.error e)
          | .ok c' => recvAll env buff fuel c' rs'
        | 'E' :: _ => recvAll env buff fuel (recvPopd c) rs'
        | _ => some (.error .scp)

/-- `get` (impactutils/extern/scp/scp.py:159-197) of `n` paths; `cwd` is `os.getcwd()`. The client was not used
before. -/
def get (env : Host) (buff fuel n : ℕ) (cwd localPath : Text) (rs : List Recv) : Option (Except GetErr Client) :=
  let dir := if localPath = [] then cwd else localPath
  if 1 < n ∧ (env.present [] dir = false ∨ env.isDir [] dir = false) then some (.error .scp)
  else
    recvAll env buff fuel ⟨dir, decide (n = 1) && !env.isDir [] dir, none, [], [], []⟩ rs

end Verif.ScpWire
