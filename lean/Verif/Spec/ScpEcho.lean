import Verif.Spec.ScpTree
import Verif.Spec.ScpWire

/-!
# What one scp client sends, received by another one, for C214
-/

namespace Verif.Spec
open Verif.Fs Verif.ScpWire

/-- The times of a file as they are sent: whole seconds, or nothing. -/
def SentTime (preserve : Bool) (s : Stat) (t : Option (ℤ × ℤ)) : Prop :=
  if preserve then ∃ m a, Whole s.mtime m ∧ Whole s.atime a ∧ t = some (m, a) else t = none

/-- The tree has exactly these files at the top, and these directories with what is in them. Each has the mode and, if asked for,
the times of a file or directory of that name on the disk; files have the content of that file. -/
inductive Carried (disk : Text → Option Local) (preserve : Bool) : Tree → List (Text × Bytes) → Scp.Dirs → Prop
  | nil : Carried disk preserve .nil [] .nil
  | file {path name : Text} {stat : Stat} {content : Bytes} {t : Option (ℤ × ℤ)} {rest : Tree} {files : List (Text × Bytes)} {subs : Scp.Dirs} :
      baseName path = name → disk path = some ⟨stat, some (toText content)⟩ → SentTime preserve stat t → Carried disk preserve rest files subs →
      Carried disk preserve (.file name (octal4 stat.mode) t (toText content) rest) ((name, content) :: files) subs
  | dir {path name : Text} {l : Local} {t : Option (ℤ × ℤ)} {inside rest : Tree} {files files' : List (Text × Bytes)} {subs subs' : Scp.Dirs} :
      baseName path = name → disk path = some l → SentTime preserve l.stat t → Carried disk preserve inside files' subs' →
      Carried disk preserve rest files subs →
      Carried disk preserve (.dir name (octal4 l.stat.mode) t inside rest) files (.cons name files' subs' subs)

/-- The bytes `sent` arrive as they may: see `Arrives`. -/
def Delivered (buff : ℕ) (sent : Text) (rs : List Recv) : Prop :=
  ∃ items : List Item, (∀ i ∈ items, i.Proper) ∧ items.flatMap Item.wire = sent ∧ Arrives buff items rs

/-- A name of at most 255 bytes, without a blank at its end. -/
def ShortName (n : Text) : Prop := n.length ≤ 255 ∧ ∀ c, n.getLast? = some c → blank c = false

/-- All names are short, and no file has more than 10^100 bytes. -/
def TreeShort : Scp.Dirs → Prop
  | .nil => True
  | .cons n f s r => ShortName n ∧ (∀ x ∈ f, ShortName x.1 ∧ x.2.length < 10 ^ 100) ∧ TreeShort s ∧ TreeShort r

end Verif.Spec
