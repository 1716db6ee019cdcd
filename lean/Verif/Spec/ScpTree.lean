import Verif.Model.Scp

/-!
# What a receiver makes of a stream of scp messages
-/

namespace Verif.Spec
open Verif.Fs Verif.Scp

/-- Directories one after the other. -/
def appendDirs : Dirs → Dirs → Dirs
  | .nil, e => e
  | .cons n f s r, e => .cons n f s (appendDirs r e)

/-- A directory that is being filled. -/
structure Frame where
  name : Text
  files : List (Text × Bytes)
  subs : Dirs
deriving DecidableEq, Repr

/-- Effect of a message on the open directories, innermost first. The outermost one cannot be
closed. -/
def build : List Frame → Event → Option (List Frame)
  | f :: fs, .file n b => some ({ f with files := f.files ++ [(n, b)] } :: fs)
  | fs, .push n => some (⟨n, [], .nil⟩ :: fs)
  | f :: g :: fs, .pop => some ({ g with subs := appendDirs g.subs (.cons f.name f.files f.subs .nil) } :: fs)
  | _, _ => none

/-- Effect of a stream of messages. -/
def buildAll (fs : List Frame) : List Event → Option (List Frame)
  | [] => some fs
  | e :: es => (build fs e).bind fun gs => buildAll gs es

/-- The stream can be received in an empty directory, leaves all directories closed, and the directory
then contains exactly these directories and no other files. -/
def Recreates (es : List Event) (d : Dirs) : Prop :=
  buildAll [⟨[], [], .nil⟩] es = some [⟨[], [], d⟩]

/-- Names of the directories at the top. -/
def topNames : Dirs → List Text
  | .nil => []
  | .cons n _ _ r => n :: topNames r

/-- A name as it occurs in a directory, without line feeds. -/
structure EntryName (n : Text) : Prop where
  nonempty : n ≠ []
  no_slash : '/' ∉ n
  no_newline : '\n' ∉ n

/-- A directory tree with plain names, different ones in the same directory. -/
def TreeOk : Dirs → Prop
  | .nil => True
  | .cons n f s r => EntryName n ∧ (∀ x ∈ f, EntryName x.1) ∧ n ∉ topNames r ∧ TreeOk s ∧ TreeOk r

end Verif.Spec
