import Verif.Model.ScpWire

/-!
# A client that is used for several transfers (impactutils/extern/scp/scp.py)

`Verif.ScpWire` models single transfers of a new client. Here the attributes of the client that outlive a transfer are modelled: the channel, and the times
that were announced for files and directories. The receiving functions are those of `Verif.ScpWire` with the client also in the case of an exception;
`Verif.Props.ScpReuse` shows that they agree.
-/

namespace Verif.ScpReuse
open Verif.ScpWire
open Verif.Fs (Text)

/-- The loop that receives the content (impactutils/extern/scp/scp.py:409-417). -/
def recvDataS (buff : ℕ) (size : ℤ) (path : Text) : ℕ → ℤ → Client → List Recv → Option (Client × Except GetErr (List Recv))
  | 0, pos, c, rs => if pos < size then none else some (c, .ok rs)
  | fuel + 1, pos, c, rs =>
    if pos < size then
      let n := if size - pos ≤ buff then (size - pos).toNat else buff
      match recv n rs with
      | (none, _) => some (c, .error .scp)
      | (some b, rs') => recvDataS buff size path fuel (pos + b.length) (c.call (.write path b)) rs'
    else some (c, .ok rs)

/-- `_recv_file` (impactutils/extern/scp/scp.py:371-432): the time that was announced is forgotten only when it was used. -/
def recvFileS (env : Host) (buff fuel : ℕ) (c : Client) (cmd : Text) (rs : List Recv) : Option (Client × Except GetErr (List Recv)) :=
  let parts := splitSpace [] 2 (stripBytes cmd)
  match parts[0]?.bind env.oct, parts[1]?.bind env.int, place c parts[2]? with
  | some mode, some size, some (path, c1) =>
    if env.opens c1.ops path = false then some (c1, .error .osError)
    else
      match recvDataS buff size path fuel 0 ((c1.call (.create path)).say ['\x00']) rs with
      | none => none
      | some (c2, .error e) => some (c2, .error e)
      | some (c2, .ok rs') =>
        match recv 512 rs' with
        | (none, _) => some (c2, .error .scp)
        | (some msg, rs'') =>
          if msg ≠ [] ∧ msg.head? ≠ some '\x00' then some (c2, .error .scp)
          else some (({ c2.call (.utime path c2.utime) with utime := none }).call (.chmod path mode), .ok rs'')
  | _, _, _ => some (c, .error .scp)

/-- `_recv_all` (impactutils/extern/scp/scp.py:338-358). -/
def recvAllS (env : Host) (buff : ℕ) : ℕ → Client → List Recv → Option (Client × Except GetErr Unit)
  | 0, _, _ => none
  | fuel + 1, c, rs =>
    let c := c.say ['\x00']
    match recv 1024 rs with
    | (none, _) => some (c, .error .socketTimeout)
    | (some msg, rs') =>
      if msg = [] then some (setDirtimes c, .ok ())
      else if msg.getLast? ≠ some '\n' then some (c, .error .assertion)
      else
        match msg.dropLast with
        | 'C' :: cmd =>
          match recvFileS env buff fuel c cmd rs' with
          | none => none
          | some (c', .error e) => some (c', .error e)
          | some (c', .ok rs'') => recvAllS env buff fuel c' rs''
        | 'T' :: cmd =>
          match setTime env c cmd with
          | .error e => some (c, .error e)
          | .ok c' => recvAllS env buff fuel c' rs'
        | 'D' :: cmd =>
          match recvPushd env c cmd with
          | .error e => some (c, .error e)
          | .ok c' => recvAllS env buff fuel c' rs'
        | 'E' :: _ => recvAllS env buff fuel (recvPopd c) rs'
        | _ => some (c, .error .scp)

/-- The attributes of a client that outlive a transfer (impactutils/extern/scp/scp.py:107-117), and, for the record, how many sessions it opened on the
transport and which it closed. -/
structure State where
  channel : Option ℕ
  opened : ℕ
  closed : List ℕ
  utime : Times
  dirtimes : List (Text × Times)
deriving DecidableEq

/-- The constructor (impactutils/extern/scp/scp.py:92-117). -/
def new : State := ⟨none, 0, [], none, []⟩

/-- `_open` (impactutils/extern/scp/scp.py:199-206): the number of the session. -/
def openS (s : State) : State × ℕ :=
  match s.channel with
  | some k => (s, k)
  | none => ({ s with channel := some s.opened, opened := s.opened + 1 }, s.opened)

/-- `close` (impactutils/extern/scp/scp.py:208-214). -/
def closeS (s : State) : State :=
  match s.channel with
  | some k => { s with channel := none, closed := s.closed ++ [k] }
  | none => s

/-- `__enter__` (impactutils/extern/scp/scp.py:119-121). -/
def enter (s : State) : State := (openS s).1

/-- `__exit__` (impactutils/extern/scp/scp.py:123-124): also after an exception. -/
def exit (s : State) : State := closeS s

/-- What `put` (impactutils/extern/scp/scp.py:139-157) does to the client: the number of the session it runs on, and the state after it; `ok` tells whether
sending was without exception. -/
def putS (s : State) (ok : Bool) : ℕ × State :=
  let (s', k) := openS s
  (k, if ok then closeS s' else s')

/-- A `get`: the state after it, the session on which its command ran, if it came to that, and its result with the calls it made. -/
structure Got where
  state : State
  session : Option ℕ
  client : Client
  result : Except GetErr Unit

/-- `get` (impactutils/extern/scp/scp.py:159-197) of `n` paths by a client in any state. -/
def getS (env : Host) (buff fuel n : ℕ) (cwd localPath : Text) (s : State) (rs : List Recv) : Option Got :=
  let dir := if localPath = [] then cwd else localPath
  let c : Client := ⟨dir, decide (n = 1) && !env.isDir [] dir, s.utime, s.dirtimes, [], []⟩
  if 1 < n ∧ (env.present [] dir = false ∨ env.isDir [] dir = false) then some ⟨s, none, c, .error .scp⟩
  else
    let (s', k) := openS s
    match recvAllS env buff fuel c rs with
    | none => none
    | some (c', .ok _) => some ⟨closeS { s' with utime := c'.utime, dirtimes := c'.dirtimes }, some k, c', .ok ()⟩
    | some (c', .error e) => some ⟨{ s' with utime := c'.utime, dirtimes := c'.dirtimes }, some k, c', .error e⟩

/-- One use of a client: a transfer with its outcome. -/
inductive Use where
  | put (ok : Bool)
  | get (env : Host) (buff fuel n : ℕ) (cwd localPath : Text) (rs : List Recv)

/-- The state after a use. A `get` that never ends has no state after it. -/
def use (s : State) : Use → Option State
  | .put ok => some (putS s ok).2
  | .get env buff fuel n cwd localPath rs => (getS env buff fuel n cwd localPath s rs).map Got.state

/-- Uses in turn. -/
def uses : State → List Use → Option State
  | s, [] => some s
  | s, u :: us => (use s u).bind fun s' => uses s' us

/-- A `with` statement around uses of a new client. -/
def withStmt (us : List Use) : Option State := (uses (enter new) us).map exit

end Verif.ScpReuse
