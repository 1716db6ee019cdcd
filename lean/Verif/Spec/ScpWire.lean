import Verif.Model.ScpWire

/-!
# The scp protocol

What `scp` programs exchange: lines that announce times, files and directories, and the content of files, which is followed
by a zero byte. This is written from the protocol, not from the code.
-/

namespace Verif.Spec
open Verif.Fs Verif.ScpWire

/-- A message of the protocol. -/
inductive Item where
  /-- Modification and access time of what comes next. -/
  | time (mtime atime : ℤ)
  /-- A file with its mode in octal digits. -/
  | file (mode name content : Text)
  /-- The start of a directory. -/
  | dir (mode name : Text)
  /-- The end of a directory. -/
  | up

/-- The decimal digits of a number. -/
def digits (n : ℤ) : Text := (toString n).toList

/-- The parts of a message; the other side confirms each of them. -/
def Item.parts : Item → List Text
  | .time m a => ["T".toList ++ digits m ++ " 0 ".toList ++ digits a ++ " 0\n".toList]
  | .file mode name content =>
    ["C".toList ++ mode ++ " ".toList ++ digits content.length ++ " ".toList ++ name ++ "\n".toList, content ++ ['\x00']]
  | .dir mode name => ["D".toList ++ mode ++ " 0 ".toList ++ name ++ "\n".toList]
  | .up => ["E\n".toList]

/-- The bytes of a message. -/
def Item.wire (i : Item) : Text := i.parts.flatten

/-- Modes without spaces, names without line feeds. -/
def Item.Proper : Item → Prop
  | .file mode name _ => ' ' ∉ mode ∧ '\n' ∉ name
  | .dir mode name => ' ' ∉ mode ∧ '\n' ∉ name
  | _ => True

/-- A confirmation: a message that begins with a zero byte. -/
def confirms : Reply → Bool
  | .data msg _ => msg.head? == some '\x00'
  | .timeout => false

/-- The number of confirmations before something else comes. -/
def confirmations (replies : List Reply) : ℕ := (replies.takeWhile confirms).length

/-- The last four octal digits. -/
def octal4 (m : ℕ) : Text :=
  [Nat.digitChar (m / 512 % 8), Nat.digitChar (m / 64 % 8), Nat.digitChar (m / 8 % 8), Nat.digitChar (m % 8)]

/-- `t` is the time `q` without the fraction. -/
def Whole (q : ℚ) (t : ℤ) : Prop := |(t : ℚ)| ≤ |q| ∧ |q| < |(t : ℚ)| + 1 ∧ 0 ≤ t * q

/-- The line of the times of a file. -/
def TimeLine (preserve : Bool) (s : Stat) (items : List Item) : Prop :=
  if preserve then ∃ m a, Whole s.mtime m ∧ Whole s.atime a ∧ items = [.time m a] else items = []

/-- The messages for a local file. -/
def Announces (disk : Text → Option Local) (preserve : Bool) (name : Text) (items : List Item) : Prop :=
  ∃ stat content times, disk name = some ⟨stat, some content⟩ ∧ TimeLine preserve stat times ∧
    items = times ++ [.file (octal4 stat.mode) (baseName name) content]

/-- A file that can be sent: it can be read and did not change its size, its mode tells its kind, and its name has no line
feed. -/
def Sendable (disk : Text → Option Local) (name : Text) : Prop :=
  ∃ stat content, disk name = some ⟨stat, some content⟩ ∧ stat.size = content.length ∧ 512 ≤ stat.mode ∧
    '\n' ∉ baseName name

/-- Bytes as characters. -/
def toText (b : Bytes) : Text := b.map fun x => Char.ofNat x.toNat

/-- The messages for an event of a recursive transfer: a file is announced with the mode, times and content of a local file
of that name, a directory with the mode and times of a local directory. -/
def Carries (disk : Text → Option Local) (preserve : Bool) : Scp.Event → List Item → Prop
  | .file name content, items => ∃ path, baseName path = name ∧ Announces disk preserve path items ∧
      (disk path).bind (·.content) = some (toText content)
  | .push name, items => ∃ path l times, baseName path = name ∧ disk path = some l ∧ TimeLine preserve l.stat times ∧
      items = times ++ [.dir (octal4 l.stat.mode) name]
  | .pop, items => items = [.up]

/-- The directories of a walk and their files are on the disk, and did not change their size. -/
def OnDisk (disk : Text → Option Local) (w : List (Text × List (Text × Bytes))) : Prop :=
  ∀ d ∈ w, (∃ l, disk d.1 = some l ∧ 512 ≤ l.stat.mode) ∧
    ∀ f ∈ d.2, ∃ stat, disk (join d.1 f.1) = some ⟨stat, some (toText f.2)⟩ ∧ stat.size = f.2.length ∧ 512 ≤ stat.mode

/-- A tree of files and directories with their modes and, perhaps, modification and access times. -/
inductive Tree where
  | nil
  | file (name mode : Text) (time : Option (ℤ × ℤ)) (content : Text) (rest : Tree)
  | dir (name mode : Text) (time : Option (ℤ × ℤ)) (inside rest : Tree)

/-- The line of the times, if they are sent. -/
def timeItems (t : Option (ℤ × ℤ)) : List Item := (t.map fun t => Item.time t.1 t.2).toList

/-- The messages for a tree. -/
def Tree.items : Tree → List Item
  | .nil => []
  | .file name mode t content rest => timeItems t ++ .file mode name content :: rest.items
  | .dir name mode t inside rest => timeItems t ++ .dir mode name :: inside.items ++ .up :: rest.items

/-- How the bytes of messages may arrive: a line at once - the other side sends the next one only after a confirmation -,
the content of a file in portions of any size up to the size of the buffer, and at last the end of the stream. -/
inductive Arrives (buff : ℕ) : List Item → List Recv → Prop
  | done {rs} : Arrives buff [] (.eof :: rs)
  | time {m a items rs} : Arrives buff items rs →
      Arrives buff (.time m a :: items) (.data ((Item.time m a).wire) :: rs)
  | dir {mode name items rs} : Arrives buff items rs →
      Arrives buff (.dir mode name :: items) (.data (Item.dir mode name).wire :: rs)
  | up {items rs} : Arrives buff items rs → Arrives buff (.up :: items) (.data Item.up.wire :: rs)
  | file {mode name content items rs} {portions : List Text} : Arrives buff items rs → portions.flatten = content →
      (∀ p ∈ portions, p ≠ [] ∧ p.length ≤ buff) →
      Arrives buff (.file mode name content :: items)
        (.data ("C".toList ++ mode ++ " ".toList ++ digits content.length ++ " ".toList ++ name ++ "\n".toList) ::
          portions.map .data ++ .data ['\x00'] :: rs)

/-- The calls that write a file: its content in some portions, then its times and its mode. -/
def Written (path : Text) (t : Times) (mode : ℤ) (content : Text) (ops : List Op) : Prop :=
  ∃ portions : List Text, portions.flatten = content ∧
    ops = .create path :: portions.map (.write path) ++ [.utime path t, .chmod path mode]

/-- The times for `os.utime`: access time first; an access time of zero is not used. -/
def utimeOf (t : Option (ℤ × ℤ)) : Times := t.map fun t => (if t.2 = 0 then t.1 else t.2, t.1)

/-- The calls that make a tree in a directory. A directory that is there already gets the mode. -/
inductive Makes (oct : Text → Option ℤ) : Text → Tree → List Op → Prop
  | nil {d} : Makes oct d .nil []
  | file {d name mode t content rest ops ops' m} : oct mode = some m →
      Written (d ++ '/' :: name) (utimeOf t) m content ops → Makes oct d rest ops' →
      Makes oct d (.file name mode t content rest) (ops ++ ops')
  | dir {d name mode t inside rest op ops ops' m} : oct mode = some m →
      (op = .mkdir (d ++ '/' :: name) m ∨ op = .chmod (d ++ '/' :: name) m) → Makes oct (d ++ '/' :: name) inside ops →
      Makes oct d rest ops' → Makes oct d (.dir name mode t inside rest) (op :: ops ++ ops')

/-- The directories of a tree with their times. -/
def Tree.dirs (d : Text) : Tree → List (Text × Times)
  | .nil => []
  | .file _ _ _ _ rest => rest.dirs d
  | .dir name _ t inside rest => (d ++ '/' :: name, utimeOf t) :: inside.dirs (d ++ '/' :: name) ++ rest.dirs d

/-- The files of a tree. -/
def Tree.files (d : Text) : Tree → List Text
  | .nil => []
  | .file name _ _ _ rest => (d ++ '/' :: name) :: rest.files d
  | .dir name _ _ inside rest => inside.files (d ++ '/' :: name) ++ rest.files d

/-- The directory the tree goes to, or one that was made. -/
def Entered (base : Text) (ops : List Op) (d : Text) : Prop := d = base ∨ ∃ m, .mkdir d m ∈ ops ∨ .chmod d m ∈ ops

/-- The local machine allows to write the files of a tree and to make its directories, as soon as the directory they are in
is there. -/
structure HostRoom (env : Host) (base : Text) (files dirs : List Text) : Prop where
  opens : ∀ ops d name, Entered base ops d → d ++ '/' :: name ∈ files → env.opens ops (d ++ '/' :: name) = true
  makes : ∀ ops d name, Entered base ops d → d ++ '/' :: name ∈ dirs →
    (env.present ops (d ++ '/' :: name) = false ∧ env.mkdirs ops (d ++ '/' :: name) = true) ∨
    (env.present ops (d ++ '/' :: name) = true ∧ env.isDir ops (d ++ '/' :: name) = true)

/-- A name that the protocol can carry: without slashes and line feeds, not empty, and without a blank at its end. The line
is no longer than 1024 bytes. -/
structure WireName (mode : Text) (size : ℤ) (name : Text) : Prop where
  ne : name ≠ []
  no_slash : '/' ∉ name
  no_line : '\n' ∉ name
  no_blank : ∀ c, name.getLast? = some c → blank c = false
  short : mode.length + (digits size).length + name.length + 4 ≤ 1024

/-- The line of the times is no longer than 1024 bytes. -/
def ShortTime (t : Option (ℤ × ℤ)) : Prop := ∀ p, t = some p → (digits p.1).length + (digits p.2).length + 7 ≤ 1024

/-- A mode: an octal number, without blanks. -/
structure OctalMode (oct : Text → Option ℤ) (mode : Text) : Prop where
  octal : (oct mode).isSome
  no_blank : ∀ c ∈ mode, blank c = false
  ne : mode ≠ []

/-- All modes of a tree are octal numbers, and all names and times can be carried. -/
def Tree.Proper (oct : Text → Option ℤ) : Tree → Prop
  | .nil => True
  | .file name mode t content rest => OctalMode oct mode ∧ ShortTime t ∧ WireName mode content.length name ∧ rest.Proper oct
  | .dir name mode t inside rest =>
    OctalMode oct mode ∧ ShortTime t ∧ WireName mode 0 name ∧ inside.Proper oct ∧ rest.Proper oct

/-- All bytes that come. -/
def bytesOf : List Recv → Text
  | [] => []
  | .data b :: rs => b ++ bytesOf rs
  | _ :: rs => bytesOf rs

/-- The second word of a line. -/
def SecondWord (line word : Text) : Prop :=
  ∃ first rest, line = first ++ ' ' :: (word ++ rest) ∧ ' ' ∉ first ∧ ' ' ∉ word ∧ (rest = [] ∨ rest.head? = some ' ')

/-- The calls that write a file which came completely: the line that announces it is followed by the content, and the
content has the announced size. -/
def FileBlock (int : Text → Option ℤ) (stream : Text) (ops : List Op) : Prop :=
  ∃ (path line word content : Text) (size mode : ℤ) (t : Times),
    (('C' :: line) ++ '\n' :: content) <:+: stream ∧ SecondWord (stripBytes line) word ∧ int word = some size ∧
    content.length = size.toNat ∧ Written path t mode content ops

/-- The call that makes a directory, or changes the mode of one that is there. -/
def DirBlock (ops : List Op) : Prop := ∃ path mode, ops = [.mkdir path mode] ∨ ops = [.chmod path mode]

end Verif.Spec
