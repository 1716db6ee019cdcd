import Verif.Model.Secure

/-!
# Senders that are changed after construction, and the connections of `SecureSender`

Properties are kept in dictionaries on a heap, since a sender keeps the dictionary that it is given and not a copy.
-/

namespace Verif.Sender
open Verif.Fs

/-- The properties of a sender, by name. -/
abbrev Props := List (String × String)

/-- `d[key] = value`. -/
def setProp : Props → String → String → Props
  | [], k, v => [(k, v)]
  | (k', v') :: d, k, v => if k' = k then (k, v) :: d else (k', v') :: setProp d k v

/-- The dictionaries of the program, by identity. -/
abbrev Heap := ℕ → Props

/-- A sender object (impactutils/transfer/sender.py:48-77). -/
structure Obj where
  props : ℕ
  files : List Text
  dir : Option Text

/-- The files of a sender: those of the argument, or none (impactutils/transfer/sender.py:58-69). -/
def filesOf : FilesArg → List Text
  | .files ns => ns
  | _ => []

/-- `Sender.__init__` (impactutils/transfer/sender.py:33-77) with a dictionary of properties: the object. The checks are those of `construct`. -/
def newObj (c : Class) (cwd : Path) (fs : FS) (h : Heap) (props : ℕ) (files : FilesArg) (dir : Option Text) : Except CtorErr Obj :=
  match construct c cwd fs (some ((h props).map Prod.fst)) files dir with
  | .error e => .error e
  | .ok _ => .ok ⟨props, filesOf files, dir⟩

/-- The methods that change a sender. -/
inductive Call where
  | addProperty (key value : String)
  | addFiles (names : List Text)
  | changeDirectory (d : Text)

/-- `addProperty`, `addFiles` and `changeDirectory` (impactutils/transfer/sender.py:81-96): the state afterwards and the exception. `addFiles` reads the
undefined name `files`, and `changeDirectory` the undefined name `directory` for its message. -/
def call (cwd : Path) (fs : FS) (h : Heap) (o : Obj) : Call → (Heap × Obj) × Except CtorErr Unit
  | .addProperty k v => ((Function.update h o.props (setProp (h o.props) k v), o), .ok ())
  | .addFiles _ => ((h, o), .error .nameError)
  | .changeDirectory d =>
    if isDir fs (resolve cwd d) then ((h, { o with dir := some d }), .ok ()) else ((h, o), .error .nameError)

/-- A history of calls, by a program that goes on after exceptions. -/
def calls (cwd : Path) (fs : FS) (h : Heap) (o : Obj) : List Call → Heap × Obj
  | [] => (h, o)
  | x :: xs =>
    let r := call cwd fs h o x
    calls cwd fs r.1.1 r.1.2 xs

end Verif.Sender

namespace Verif.Secure
open Verif.Fs Verif.Sender

/-- What happens to connections. -/
inductive ConnEvent where
  | opened
  | closed
  deriving DecidableEq

/-- The arguments of `ssh.connect` (impactutils/transfer/securesender.py:140-166): host, user and key file; `user` is that of the process. -/
def connectArgs (user : String) (props : Props) : Option (String × String × String) :=
  match props.lookup "remote_host", props.lookup "private_key" with
  | some host, some key => some (host, (props.lookup "remote_user").getD user, key)
  | _, _ => none

/-- `send` with the connection (impactutils/transfer/securesender.py:50-107): `connects` tells whether `_connect` succeeds. The connection is closed at the
end (l.104-105), which an exception does not reach. -/
def sendSession (env : Env) (m : Machine) (cwd : Path) (loc : FS) (c : Config) (connects : Bool) (fs : FS) : List ConnEvent × Run ℕ :=
  if !connects then ([], fail fs)
  else
    let r := send env m cwd loc c fs
    match r.out with
    | .ok _ => ([.opened, .closed], r)
    | .error _ => ([.opened], r)

/-- `cancel` with the connection (impactutils/transfer/securesender.py:109-138). -/
def cancelSession (m : Machine) (c : Config) (content : Option Text) (connects : Bool) (fs : FS) : List ConnEvent × Run Unit :=
  if !connects then ([], fail fs)
  else ([.opened], cancel m c content fs)

/-- A program that calls `cancel` `n` times. -/
def cancels (m : Machine) (c : Config) (content : Option Text) : ℕ → FS → List ConnEvent × FS
  | 0, fs => ([], fs)
  | n + 1, fs =>
    let r := cancelSession m c content true fs
    let s := cancels m c content n r.2.fs
    (r.1 ++ s.1, s.2)

end Verif.Secure
