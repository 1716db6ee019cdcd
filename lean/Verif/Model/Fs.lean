import Mathlib.Data.List.Infix
import Mathlib.Data.List.Lookmap
import Mathlib.Data.List.Dedup
import Verif.Model.Hdf

/-!
# A small model of a file system and of the path functions of the Python library

This models the libraries the senders rely on, not a file of the repository. Text is a list of
characters. A path of the file system is its list of names; `..` and symbolic links are not
modelled, empty and `.` parts of a path text are skipped. Every primitive operation of the file
system is atomic; the states between two primitive operations are what a crash, or another process,
can see.
-/

namespace Verif.Fs
open Verif

/-- Text. -/
abbrev Text := List Char

/-- A path: names from the root down. -/
abbrev Path := List Text

/-- Contents of a file. -/
abbrev Bytes := List UInt8

/-! ### `os.path` and `str` -/

/-- `os.path.join(a, b)` (POSIX). -/
def join (a b : Text) : Text :=
  if b.head? = some '/' then b
  else if a = [] ∨ a.getLast? = some '/' then a ++ b
  else a ++ '/' :: b

/-- `os.path.join(a, *bs)`. -/
def joins (a : Text) (bs : List Text) : Text := bs.foldl join a

/-- The part after the last slash, `os.path.split(s)[1]`. -/
def baseName (s : Text) : Text := (s.reverse.takeWhile (· ≠ '/')).reverse

/-- `os.path.split(s)[0]`: the part up to the last slash, without trailing slashes unless it
consists of slashes only. -/
def dirName (s : Text) : Text :=
  let head := (s.reverse.dropWhile (· ≠ '/')).reverse
  if head.all (· = '/') then head else (head.reverse.dropWhile (· = '/')).reverse

/-- `s.strip('/')`. -/
def strip (s : Text) : Text := ((s.dropWhile (· = '/')).reverse.dropWhile (· = '/')).reverse

/-- `s.split('/')`. -/
def split (s : Text) : List Text := Hdf.splitSlash s

/-- `s.replace(old, new)` for a non-empty `old`: from left to right, without overlaps. -/
def replaceAll (old new : Text) (s : Text) : Text :=
  match s with
  | [] => []
  | c :: t =>
    if _h : old ≠ [] ∧ old <+: c :: t then new ++ replaceAll old new ((c :: t).drop old.length)
    else c :: replaceAll old new t
termination_by s.length
decreasing_by
  · have : 0 < old.length := List.length_pos_iff.2 _h.1
    simp only [List.length_drop, List.length_cons]; omega
  · simp

/-- The names in a path text. -/
def parts (s : Text) : Path := (split s).filter (fun w => w ≠ [] ∧ w ≠ ['.'])

/-- The path meant by a text in the working directory `cwd`. -/
def resolve (cwd : Path) (s : Text) : Path :=
  if s.head? = some '/' then parts s else cwd ++ parts s

/-! ### The file system -/

/-- A node of the file system. -/
inductive Node where
  | dir
  | file (content : Bytes)
deriving DecidableEq, Repr

/-- The file system: nodes by path, the first entry of a path counts. The root is always there. -/
abbrev FS := List (Path × Node)

/-- The node at a path. -/
def get (fs : FS) (p : Path) : Option Node := fs.lookup p

/-- Put a node at a path. -/
def set (fs : FS) (p : Path) (n : Node) : FS := (p, n) :: fs

/-- Remove the node at a path. -/
def del (fs : FS) (p : Path) : FS := fs.filter (fun e => e.1 ≠ p)

/-- `os.path.isdir`. -/
def isDir (fs : FS) (p : Path) : Bool := p == [] || get fs p == some .dir

/-- `os.path.isfile`. -/
def isFile (fs : FS) (p : Path) : Bool :=
  match get fs p with
  | some (.file _) => true
  | _ => false

/-- Errors of the operating system. -/
inductive Err where
  | osError
deriving DecidableEq, Repr

/-- Primitive operations: create or truncate a file, append to a file, rename a file, remove a file,
make a directory. -/
inductive Prim where
  | create (p : Path)
  | append (p : Path) (b : Bytes)
  | rename (p q : Path)
  | remove (p : Path)
  | mkdir (p : Path)
deriving DecidableEq, Repr

/-- Effect of a primitive operation. -/
def exec (fs : FS) : Prim → Except Err FS
  | .create p => if isDir fs p || !isDir fs p.dropLast then .error .osError
      else .ok (set fs p (.file []))
  | .append p b => match get fs p with
    | some (.file c) => .ok (set fs p (.file (c ++ b)))
    | _ => .error .osError
  | .rename p q => match get fs p with
    | some (.file c) => if isDir fs q || !isDir fs q.dropLast then .error .osError
        else .ok (set (del fs p) q (.file c))
    | _ => .error .osError
  | .remove p => if isFile fs p then .ok (del fs p) else .error .osError
  | .mkdir p => if (get fs p).isSome || p == [] || !isDir fs p.dropLast then .error .osError
      else .ok (set fs p .dir)

/-- A run of a program: the states after each of its primitive operations, the last state, and the
outcome. -/
structure Run (α : Type) where
  trace : List FS
  fs : FS
  out : Except Err α

/-- A program that does nothing. -/
def done {α : Type} (fs : FS) (a : α) : Run α := ⟨[], fs, .ok a⟩

/-- A program that fails without doing anything. -/
def fail {α : Type} (fs : FS) : Run α := ⟨[], fs, .error .osError⟩

/-- Continue a successful run. -/
def andThen {α β : Type} (r : Run α) (f : FS → α → Run β) : Run β :=
  match r.out with
  | .ok a => ⟨r.trace ++ (f r.fs a).trace, (f r.fs a).fs, (f r.fs a).out⟩
  | .error e => ⟨r.trace, r.fs, .error e⟩

/-- Run primitive operations up to the first that fails. -/
def runAll : List Prim → FS → Run Unit
  | [], fs => done fs ()
  | p :: ps, fs => match exec fs p with
    | .error _ => fail fs
    | .ok fs' => ⟨fs' :: (runAll ps fs').trace, (runAll ps fs').fs, (runAll ps fs').out⟩

/-- The non-empty prefixes of a path, shortest first. -/
def prefixes (p : Path) : List Path := (List.range p.length).map (fun n => p.take (n + 1))

/-- `os.makedirs(p)`. -/
def makedirs (fs : FS) (p : Path) : Run Unit :=
  runAll (((prefixes p).filter (fun q => get fs q = none ∨ q = p)).map .mkdir) fs

/-- Files strictly below a directory, as the lists of names that lead to them. -/
def filesBelow (fs : FS) (d : Path) : List Path :=
  ((fs.map Prod.fst).dedup.filter (fun p => decide (d <+: p) && decide (p ≠ d) && isFile fs p)).map
    (fun p => p.drop d.length)

/-- What the model leaves open: how `shutil.copyfile` cuts a file into pieces, the order in which
`os.walk` lists files, and the time stamp of the n-th copy. -/
structure Env where
  chunks : Bytes → List Bytes
  order : List Path → List Path
  stamp : ℕ → Text

/-- The assumptions on what is left open: the pieces make up the file, every file is listed once, and
time stamps (`%Y%m%d%H%M%S`) are made of digits. -/
structure Env.Ok (env : Env) : Prop where
  chunks : ∀ b, (env.chunks b).flatten = b
  order : ∀ l, (env.order l).Perm l
  stamp : ∀ i, ∀ c ∈ env.stamp i, c.isDigit

/-- `os.walk(top)`: the file names as texts. -/
def walk (env : Env) (cwd : Path) (fs : FS) (top : Text) : List Text :=
  (env.order (filesBelow fs (resolve cwd top))).map (joins top)

/-- `shutil.copyfile(src, tmp)` followed by `os.rename(tmp, dst)`. -/
def copyRename (env : Env) (fs : FS) (src tmp dst : Path) : Run Unit :=
  match get fs src with
  | some (.file c) => if src = tmp then fail fs
      else runAll (.create tmp :: (env.chunks c).map (.append tmp) ++ [.rename tmp dst]) fs
  | _ => fail fs

end Verif.Fs
