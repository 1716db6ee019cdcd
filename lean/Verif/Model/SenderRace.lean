import Verif.Model.Sender

/-!
# Copy senders at work at the same time

`CopySender.send` (impactutils/transfer/copysender.py:46-88, 111-153) as a program that is carried out in steps, so
that several processes can take turns. A step is one question to the file system (`os.path.isfile`, `os.path.isdir`,
the listing of a directory, the reading of a local file) or one primitive operation of `Verif.Fs`. The number of files
that `send` returns is not part of this model, see `Verif.Sender.send`.

Simplifications: a listing of a directory, the questions of `os.makedirs`, and the reading of the source by
`shutil.copyfile` are one step each, the time stamp is taken in the step that reads the source, and writing goes to
the path that was opened, also if another process has renamed that file in the meantime.
-/

namespace Verif.Race
open Verif.Fs Verif.Sender

/-- Things a sender still has to do. -/
inductive Instr where
  /-- look for a cancel file -/
  | unmark
  /-- `if not os.path.isdir(p): os.makedirs(p)` -/
  | ensure (p : Path)
  /-- `os.mkdir(p)` where FileExistsError is passed over, as `os.makedirs` does above its last directory -/
  | tryMkdir (p : Path)
  /-- list the files of the local directory and copy them -/
  | folder (d : Text)
  /-- `_copy_file_with_path` with a local directory -/
  | copyDir (d file : Text)
  /-- `shutil.copyfile` to a temporary name, and the renaming -/
  | copy (file target : Text)
  /-- a primitive operation -/
  | prim (p : Prim)

/-- A call of `send` in a process: its working directory, its sender, what it still has to do, and whether it
raised an exception. -/
structure Proc where
  cwd : Path
  cfg : Config
  code : List Instr
  failed : Bool

/-- What `send` has to do (impactutils/transfer/copysender.py:58-88). -/
def sendCode (cwd : Path) (c : Config) : List Instr :=
  [.unmark, .ensure (resolve cwd c.remote)] ++
  (match c.localDir with
   | none => []
   | some d => if d = [] then [] else [.folder d]) ++
  c.localFiles.map (fun f => .copy f (join c.remote (baseName f)))

/-- A call of `send` that has not begun. -/
def start (cwd : Path) (c : Config) : Proc := ⟨cwd, c, sendCode cwd c, false⟩

/-- Name of the temporary file at the time `now` (impactutils/transfer/copysender.py:150-151). -/
def tempName (now target : Text) : Text := target ++ ".tmp_".toList ++ now

/-- The directories that `os.makedirs(p)` makes. -/
def missing (fs : FS) (p : Path) : List Path := (prefixes p.dropLast).filter (fun q => get fs q = none)

/-- What a question to the file system leads to; `none` is an exception. `now` is the time
(impactutils/transfer/copysender.py:61-64, 67-68, 69-75, 137-145, 150-153). -/
def expand (env : Env) (cwd : Path) (c : Config) (now : Text) (fs : FS) : Instr → Option (List Instr)
  | .unmark => some (if isFile fs (cancelPath cwd c) then [.prim (.remove (cancelPath cwd c))] else [])
  | .ensure p => some (if isDir fs p then [] else (missing fs p).map .tryMkdir ++ [.prim (.mkdir p)])
  | .tryMkdir p => some [.tryMkdir p]
  | .folder d => some ((walk env cwd fs d).map (.copyDir d))
  | .copyDir d file =>
    let target := dirTarget c.remote d file
    some [.ensure (resolve cwd (dirName target)), .copy file target]
  | .copy file target =>
    match get fs (resolve cwd file) with
    | some (.file b) =>
      let tmp := resolve cwd (tempName now target)
      if resolve cwd file = tmp then none
      else some ((Prim.create tmp :: (env.chunks b).map (Prim.append tmp) ++
        [Prim.rename tmp (resolve cwd target)]).map Instr.prim)
    | _ => none
  | .prim p => some [.prim p]

/-- One step of a sender. -/
def stepProc (env : Env) (now : Text) (fs : FS) (t : Proc) : FS × Proc :=
  match t.code with
  | [] => (fs, t)
  | .tryMkdir p :: rest =>
    if (get fs p).isSome then (fs, { t with code := rest })
    else match exec fs (.mkdir p) with
      | .ok fs' => (fs', { t with code := rest })
      | .error _ => (fs, { t with code := [], failed := true })
  | .prim p :: rest => match exec fs p with
    | .ok fs' => (fs', { t with code := rest })
    | .error _ => (fs, { t with code := [], failed := true })
  | x :: rest => match expand env t.cwd t.cfg now fs x with
    | some xs => (fs, { t with code := xs ++ rest })
    | none => (fs, { t with code := [], failed := true })

/-- Processes at work in one file system. -/
structure World where
  fs : FS
  procs : List Proc

/-- One step of process `x.1` at the time `x.2`. -/
def step (env : Env) (w : World) (x : ℕ × Text) : World :=
  match w.procs[x.1]? with
  | none => w
  | some t => ⟨(stepProc env x.2 w.fs t).1, w.procs.set x.1 (stepProc env x.2 w.fs t).2⟩

/-- The processes take turns as the schedule says; any prefix of a schedule is what a crash leaves. -/
def run (env : Env) (w : World) (schedule : List (ℕ × Text)) : World := schedule.foldl (step env) w

end Verif.Race
