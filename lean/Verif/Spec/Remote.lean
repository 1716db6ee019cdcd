import Verif.Model.Secure
import Verif.Spec.Delivery
import Verif.Spec.Shell

/-!
# What a remote Unix machine does, and what a secure sender is supposed to deliver

Only commands about absolute paths are specified, and only those whose words are understood by
`shellWords`. Whatever else the machine is told to do, it may do anything.
-/

namespace Verif.Spec
open Verif.Fs Verif.Sender Verif.Secure

/-- An absolute path. -/
def Absolute (s : Text) : Prop := s.head? = some '/'

/-- `fs'` differs from `fs` at most by new directories at `p` and above. -/
def NewDirs (fs fs' : FS) (p : Path) : Prop :=
  ∀ q, get fs' q = get fs q ∨ (q <+: p ∧ get fs q = none ∧ get fs' q = some .dir)

/-- A Unix machine. Tests tell the truth. `mv`, `mkdir -p` and `rm` either do what they are for, or
fail and leave the files alone (`mkdir -p` may have made some of the directories). An upload writes
only to the file it is told to write, and if it ends without an error the file has the contents. -/
structure Unix (home : Text) (m : Machine) : Prop where
  exists_ : ∀ fs p w, shellWords home p = some [w] → Absolute w →
    m.run fs ("[ -e ".toList ++ p ++ " ]".toList) =
      (fs, if (get fs (parts w)).isSome ∨ parts w = [] then 0 else 1)
  isDir_ : ∀ fs p w, shellWords home p = some [w] → Absolute w →
    m.run fs ("[ -d ".toList ++ p ++ " ]".toList) = (fs, if isDir fs (parts w) then 0 else 1)
  mv : ∀ fs cmd a b, shellWords home cmd = some ["mv".toList, a, b] → Absolute a → Absolute b →
    (m.run fs cmd).1 = fs ∨
    exec fs (.rename (parts a)
      (if isDir fs (parts b) then parts b ++ (parts a).getLast?.toList else parts b)) =
        .ok (m.run fs cmd).1
  mkdir : ∀ fs cmd p, shellWords home cmd = some ["mkdir".toList, "-p".toList, p] → Absolute p →
    NewDirs fs (m.run fs cmd).1 (parts p)
  rm : ∀ fs cmd p, shellWords home cmd = some ["rm".toList, p] → Absolute p →
    (m.run fs cmd).1 = fs ∨ exec fs (.remove (parts p)) = .ok (m.run fs cmd).1
  put : ∀ fs p b, Absolute p → isDir fs (parts p) = false →
    (∀ s, Visits (m.put fs p b) s → ∀ q, q ≠ parts p → get s q = get fs q) ∧
    (∀ s, Visits (m.put fs p b) s → get s (parts p) ≠ some .dir) ∧
    ((m.put fs p b).out = .ok () → contents (m.put fs p b).fs (parts p) = some b)

/-- A machine on which everything that can succeed does. -/
structure Reliable (home : Text) (m : Machine) : Prop where
  mv : ∀ fs cmd a b, shellWords home cmd = some ["mv".toList, a, b] → Absolute a → Absolute b →
    (contents fs (parts a)).isSome → isDir fs (parts b) = false → isDir fs (parts b).dropLast = true →
    exec fs (.rename (parts a) (parts b)) = .ok (m.run fs cmd).1
  mkdir : ∀ fs cmd p, shellWords home cmd = some ["mkdir".toList, "-p".toList, p] → Absolute p →
    (∀ q, q <+: parts p → contents fs q = none) → isDir (m.run fs cmd).1 (parts p) = true
  rm : ∀ fs cmd p, shellWords home cmd = some ["rm".toList, p] → Absolute p →
    (contents fs (parts p)).isSome → exec fs (.remove (parts p)) = .ok (m.run fs cmd).1
  put : ∀ fs p b, Absolute p → isDir fs (parts p) = false → isDir fs (parts p).dropLast = true →
    (m.put fs p b).out = .ok ()

/-- A text without characters that mean something to a shell. -/
def ShellSafe (s : Text) : Prop := ∀ c ∈ s, c.isAlphanum = true ∨ c ∈ ['/', '.', '_', '-', '+', '=', ',']

/-- Text as bytes. -/
def utf8 (s : Text) : Bytes := s.flatMap String.utf8EncodeChar

/-- Words with single blanks between them. -/
def blankJoin : List Text → Text
  | [] => []
  | [w] => w
  | w :: ws => w ++ ' ' :: blankJoin ws

/-- A machine on which `echo … > file` works whenever the folder is there: the words, with single blanks
between them, and a line end. -/
def Echoes (home : Text) (m : Machine) : Prop :=
  ∀ fs text ws file, shellWords home text = some ws → ShellSafe file → Absolute file →
    isDir fs (parts file) = false → isDir fs (parts file).dropLast = true →
    (m.run fs ("echo ".toList ++ text ++ " > ".toList ++ file)).1 =
      Fs.set fs (parts file) (.file (utf8 (blankJoin ws ++ ['\n'])))

/-- A configuration with plain names:
* the remote directory is given by an absolute path;
* its names, and those of the files to be sent, are safe for a shell and not of the form
  `x.tmp_<digits>`;
* the text of the local directory does not occur again later in the path of one of its files. -/
structure Plain (cwd : Path) (c : Config) (loc : FS) : Prop where
  absolute : Absolute c.remote
  remote_safe : ShellSafe c.remote
  remote_temp : ∀ w ∈ parts c.remote, ¬ TempWord w
  dir_nonempty : ∀ d, c.localDir = some d → d ≠ []
  names : ∀ d rel, LocalFile cwd c loc d rel → ∀ w ∈ rel, PlainWord w ∧ ShellSafe w ∧ ¬ TempWord w
  once : ∀ d rel, LocalFile cwd c loc d rel → ¬ d <:+: (joins d rel).drop d.length
  listed : ∀ f ∈ c.localFiles, PlainWord (baseName f) ∧ ShellSafe (baseName f) ∧ ¬ TempWord (baseName f)

/-- No directory in the remote directory has a name of the form `x.tmp_<digits>`. -/
def NoTempDirs (c : Config) (rem : FS) : Prop :=
  ∀ q, parts c.remote <+: q → TempPath q → get rem q ≠ some .dir

/-- A folder the sender may have to make: the remote directory, or the folder of a file to be sent. -/
def Folder (cwd : Path) (c : Config) (loc : FS) (q : Path) : Prop :=
  q = parts c.remote ∨ ∃ p b, Sends cwd c loc p b ∧ q = p.dropLast

/-- There is room for the files on the remote machine:
* the files listed exist;
* no two different files go to the same place, and none goes to a place that another one needs as a
  directory;
* no directory is in the way at the place of a file;
* no file is in the way at the place of a directory above the remote directory, or between it and the
  folder of a file to be sent, and the root is not a file. -/
structure Room (cwd : Path) (c : Config) (loc rem : FS) : Prop where
  listed : ∀ f ∈ c.localFiles, (contents loc (resolve cwd f)).isSome
  same : ∀ p b b', Sends cwd c loc p b → Sends cwd c loc p b' → b = b'
  apart : ∀ p b q b', Sends cwd c loc p b → Sends cwd c loc q b' → p <+: q → p = q
  no_dir : ∀ p b, Sends cwd c loc p b → get rem p ≠ some .dir
  no_file : ∀ p q, Folder cwd c loc p → q <+: p → q ≠ p → q ≠ parts c.remote → contents rem q = none
  root : contents rem [] = none

end Verif.Spec
