import Verif.Model.Container

/-!
# Container files: impactutils/io/container.py and impactutils/io/smcontainers.py

A world of files and of container objects that are opened and closed. h5py is assumed to give all objects that are open on one file the same
contents, to refuse to truncate a file that is open, to refuse to open one that is missing, and to keep the contents of closed files. A process that
dies with open files, files that are not HDF5, and files that other processes have open are outside the model.
-/

namespace Verif.Container
open Verif.Hdf

variable {V B : Type}

/-- The files, and the container objects made so far: the file of each, and whether it is still open. -/
structure World (B : Type) where
  files : String → Option (Tree B)
  objs : List (String × Bool)

/-- Calls of a program: objects are numbered in the order in which they were made. -/
inductive WCall (V : Type) where
  | create (path : String)
  | load (path : String)
  | close (obj : ℕ)
  | fileName (obj : ℕ)
  | op (obj : ℕ) (o : Op V)

/-- What a call shows to its caller. -/
inductive WOut (V : Type) where
  | made (obj : ℕ)
  | osError
  | closed
  | done
  | name (path : String)
  | out (o : Out V)
  /-- There is no such object: the program cannot make this call. -/
  | noObject
deriving DecidableEq, Repr

/-- A file is open if some object is open on it. -/
def World.isOpen (w : World B) (path : String) : Bool := w.objs.any fun o => o.1 == path && o.2

/-- `create` (impactutils/io/container.py:51-63, impactutils/io/smcontainers.py:20-32): mode `w`. -/
def wcreate (w : World B) (path : String) : World B × WOut V :=
  if w.isOpen path then (w, .osError)
  else (⟨Function.update w.files path (some .nil), w.objs ++ [(path, true)]⟩, .made w.objs.length)

/-- `load` (impactutils/io/container.py:65-78, impactutils/io/smcontainers.py:34-46): mode `r+`. -/
def wload (w : World B) (path : String) : World B × WOut V :=
  match w.files path with
  | none => (w, .osError)
  | some _ => (⟨w.files, w.objs ++ [(path, true)]⟩, .made w.objs.length)

/-- `close` (impactutils/io/container.py:80-84, impactutils/io/smcontainers.py:48-52); closing twice is allowed. -/
def wclose (w : World B) (obj : ℕ) : World B × WOut V :=
  match w.objs[obj]? with
  | none => (w, .noObject)
  | some (path, _) => (⟨w.files, w.objs.set obj (path, false)⟩, .done)

/-- `getFileName` (impactutils/io/container.py:86-93, impactutils/io/smcontainers.py:54-61): a closed file has no name. -/
def wname (w : World B) (obj : ℕ) : WOut V :=
  match w.objs[obj]? with
  | none => .noObject
  | some (path, isOpen) => if isOpen then .name path else .closed

/-- A call on the contents. -/
def wop (c : Codec V B) (w : World B) (obj : ℕ) (o : Op V) : World B × WOut V :=
  match w.objs[obj]? with
  | none => (w, .noObject)
  | some (path, isOpen) =>
    if isOpen then
      match w.files path with
      | none => (w, .osError)
      | some t => (⟨Function.update w.files path (some (step c t o).1), w.objs⟩, .out (step c t o).2)
    else (w, .closed)

/-- One call. -/
def wstep (c : Codec V B) (w : World B) : WCall V → World B × WOut V
  | .create p => wcreate w p
  | .load p => wload w p
  | .close i => wclose w i
  | .fileName i => (w, wname w i)
  | .op i o => wop c w i o

/-- A history of calls: the results and the world afterwards. -/
def wrun (c : Codec V B) (w : World B) : List (WCall V) → List (WOut V) × World B
  | [] => ([], w)
  | x :: xs =>
    let r := wstep c w x
    let s := wrun c r.1 xs
    (r.2 :: s.1, s.2)

end Verif.Container
