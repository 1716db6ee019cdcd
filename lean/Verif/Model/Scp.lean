import Verif.Model.Fs

/-!
# Model of impactutils/extern/scp/scp.py

Byte strings are texts here, one character for each byte. The contents of files, modes, times and the
progress callback are left out of the messages where they play no role.
-/

namespace Verif.Scp
open Verif.Fs

/-! ### Quoting -/

/-- The bytes that need no quotes: the complement of `_find_unsafe`
(impactutils/extern/scp/scp.py:16-17). -/
def safe (c : Char) : Bool :=
  c.isAlphanum || c = '_' || "@%+=:,./~-".toList.contains c

/-- `_sh_quote` (impactutils/extern/scp/scp.py:20-31). -/
def shQuote (s : Text) : Text :=
  if s = [] then []
  else if s.all safe then s
  else '\'' :: replaceAll ['\''] "'\"'\"'".toList s ++ ['\'']

/-- The command of `put` (impactutils/extern/scp/scp.py:144-146). -/
def putCommand (recursive : Bool) (remotePath : Text) : Text :=
  (if recursive then "scp -r -t ".toList else "scp -t ".toList) ++ shQuote remotePath

/-- `b' '.join(words)`. -/
def spaceJoin : List Text → Text
  | [] => []
  | [w] => w
  | w :: v :: ws => w ++ ' ' :: spaceJoin (v :: ws)

/-- The command of `get` (impactutils/extern/scp/scp.py:174, 185-194). -/
def getCommand (recursive preserve : Bool) (remotePaths : List Text) : Text :=
  "scp".toList ++ (if recursive then " -r".toList else []) ++ (if preserve then " -p".toList else []) ++
    " -f ".toList ++ spaceJoin (remotePaths.map shQuote)

/-! ### Sending -/

/-- A local directory tree: directories with their files and sub-directories, in the order in which
`os.walk` lists them. -/
inductive Dirs where
  | nil
  | cons (name : Text) (files : List (Text × Bytes)) (subs rest : Dirs)
deriving DecidableEq, Repr

/-- `os.walk` (top down) over the directories in `parent`: the path of each directory and its files.
(The library, not a file of the repository.) -/
def walk (parent : Text) : Dirs → List (Text × List (Text × Bytes))
  | .nil => []
  | .cons name files subs rest =>
    (join parent name, files) :: walk (join parent name) subs ++ walk parent rest

/-- `os.walk(base)`. -/
def walkBase (base : Text) (files : List (Text × Bytes)) (subs : Dirs) :
    List (Text × List (Text × Bytes)) :=
  (base, files) :: walk base subs

/-- A message of the protocol: `C`, `D` or `E`. -/
inductive Event where
  | file (name : Text) (content : Bytes)
  | push (name : Text)
  | pop
deriving DecidableEq, Repr

/-- `name.replace(b'\n', b'\\^J')` (impactutils/extern/scp/scp.py:239, 316). -/
def wireName (name : Text) : Text := replaceAll ['\n'] "\\^J".toList name

/-- `os.path.commonprefix` of two strings. -/
def commonPrefix : Text → Text → Text
  | a :: s, b :: t => if a = b then a :: commonPrefix s t else []
  | _, _ => []

/-- `s.rstrip('/')`. -/
def rstrip (s : Text) : Text := (s.reverse.dropWhile (· = '/')).reverse

/-- The loop of `_chdir` (impactutils/extern/scp/scp.py:274-277): how often it pops, `none` if it has
not ended after `fuel` rounds. -/
def pops : ℕ → Text → Text → Option ℕ
  | 0, cur, common => if cur = common then some 0 else none
  | fuel + 1, cur, common =>
    if cur = common then some 0 else (pops fuel (dirName cur) common).map (· + 1)

/-- `_chdir` (impactutils/extern/scp/scp.py:262-279). -/
def chdir (fuel : ℕ) (fromDir toDir : Text) : Option (List Event) :=
  (pops fuel (rstrip fromDir) (dirName (commonPrefix (fromDir ++ ['/']) (toDir ++ ['/'])))).map
    fun n => List.replicate n .pop ++ [.push (wireName (baseName toDir))]

/-- `_send_files` (impactutils/extern/scp/scp.py:222-260). -/
def sendFiles (files : List (Text × Bytes)) : List Event :=
  files.map fun f => .file (wireName f.1) f.2

/-- The loop over the walk in `_send_recursive` (impactutils/extern/scp/scp.py:288-291). -/
def sendWalk (fuel : ℕ) (last : Text) : List (Text × List (Text × Bytes)) → Option (List Event)
  | [] => some []
  | (root, files) :: rest =>
    match chdir fuel last root, sendWalk fuel root rest with
    | some es, some fs => some (es ++ sendFiles files ++ fs)
    | _, _ => none

/-- The counter `_pushed` after some messages (impactutils/extern/scp/scp.py:318, 323). -/
def pushed : List Event → ℤ
  | [] => 0
  | .push _ :: es => pushed es + 1
  | .pop :: es => pushed es - 1
  | .file _ _ :: es => pushed es

/-- `_send_recursive` for one directory (impactutils/extern/scp/scp.py:281-294). -/
def sendRecursive (fuel : ℕ) (base : Text) (files : List (Text × Bytes)) (subs : Dirs) :
    Option (List Event) :=
  (sendWalk fuel base (walkBase base files subs)).map fun es =>
    es ++ List.replicate (pushed es).toNat .pop

/-! ### Receiving -/

/-- State of a receiving client: `_recv_dir` and `_rename`. -/
structure Receiver where
  dir : Text
  rename : Bool
deriving DecidableEq, Repr

/-- Where a file or directory of the given name goes (impactutils/extern/scp/scp.py:378-388,
439-449). -/
def target (r : Receiver) (name : Text) : Text := if r.rename then r.dir else join r.dir name

/-- A message from the server (impactutils/extern/scp/scp.py:371-466): the next state and the path
that is written or made, if any. -/
def receive (r : Receiver) : Event → Receiver × Option Text
  | .file name _ => (⟨r.dir, false⟩, some (target r name))
  | .push name => (⟨target r name, false⟩, some (target r name))
  | .pop => (⟨dirName r.dir, r.rename⟩, none)

/-- All paths written or made for a sequence of messages (impactutils/extern/scp/scp.py:338-359).
Errors end the sequence early; as the statements are about all sequences this is not modelled. -/
def written (r : Receiver) : List Event → List Text
  | [] => []
  | e :: es => (receive r e).2.toList ++ written (receive r e).1 es

end Verif.Scp
