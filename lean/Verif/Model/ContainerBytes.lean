import Verif.Model.Json
import Verif.Model.Utf8

/-!
# The bytes of a container (impactutils/io/container.py)

Dictionaries, lists and strings are written as UTF-8 bytes, which the HDF5 library keeps as a text of variable length. Arrays and data frames are left out.
-/

namespace Verif.ContainerBytes
open Verif.Json Verif.Hdf

variable {F : Type}

/-- What is stored: a value for JSON, or a string. -/
inductive Obj (F : Type) where
  | val (v : Val F)
  | str (s : List ℕ)

/-- What the HDF5 library keeps of bytes; it refuses bytes with a zero in them. (`h5py`, not a file of the repository.) -/
def vlen (b : List ℕ) : Option (List ℕ) := if 0 ∈ b then none else some b

/-- The code points of a text. -/
def cps (t : Fs.Text) : List ℕ := t.map Char.toNat

/-- The text of code points. -/
def text (s : List ℕ) : Fs.Text := s.map Char.ofNat

/-- Writing (impactutils/io/container.py:140-141, 198-199, 363-364). -/
def enc (fl : Floats F) : Container.Kind → Obj F → Option (List ℕ)
  | .dict, .val v => ((dumps fl v).bind fun t => Utf8.encode (cps t)).bind vlen
  | .list, .val v => ((dumps fl v).bind fun t => Utf8.encode (cps t)).bind vlen
  | .string, .str s => (Utf8.encode s).bind vlen
  | _, _ => none

/-- Reading (impactutils/io/container.py:113-114, 217-218, 383); `none` is an exception. -/
def dec? (fl : Floats F) : Container.Kind → List ℕ → Option (Obj F)
  | .string, b => (Utf8.decode b).map .str
  | _, b => ((Utf8.decode b).bind fun s => loads fl (text s)).map .val

/-- The way of a container with dictionaries, lists and strings. -/
def byteCodec (fl : Floats F) : Container.Codec (Obj F) (List ℕ) where
  enc := enc fl
  dec k b := (dec? fl k b).getD (.str [])

/-- `setString` (impactutils/io/container.py:343-366) with a library that makes the data set before it looks at the bytes, as `h5py` does since version 3:
a data set that was made and not written is empty. -/
def setStringLinked (fl : Floats F) (t : Hdf.Tree (List ℕ)) (name : String) (s : List ℕ) : Hdf.Tree (List ℕ) × Except Container.Err Unit :=
  let t1 := Container.withGroup t (Container.groupName .string)
  match Utf8.encode s with
  | none => (t1, .error .typeError)
  | some b =>
    match vlen b with
    | some _ => Container.set (byteCodec fl) t .string name (.str s)
    | none =>
      if (lookup t1 (resolve [Container.groupName .string] name)).isSome then (t1, .error .exists)
      else match putAt t1 (resolve [Container.groupName .string] name) (.data []) with
        | none => (t1, .error .exists)
        | some t2 => (t2, .error .typeError)

end Verif.ContainerBytes
