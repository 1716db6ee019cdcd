import Mathlib.Order.Basic
import Mathlib.Data.String.Basic

/-!
# A small model of an HDF5 file, as h5py presents it

This models the library the containers rely on, not a file of the repository. A group is a sequence
of named entries kept in name order (h5py's default iteration order); an entry is a data set or a
group. Names given to h5py are paths: they are split at `/`, empty and `.` parts are skipped, and a
leading `/` starts at the root. `create_dataset` creates missing intermediate groups and fails,
changing nothing, when the name exists or a part of the path is a data set. Deleting a group deletes
everything below it. Attributes of a data set are part of its stored value.
-/

namespace Verif.Hdf

/-- The contents of a group: nothing, or a first entry and the remaining ones. -/
inductive Tree (α : Type) where
  | nil
  | data (name : String) (value : α) (rest : Tree α)
  | dir (name : String) (kids : Tree α) (rest : Tree α)

/-- One entry. -/
inductive Entry (α : Type) where
  | data (value : α)
  | dir (kids : Tree α)

variable {α : Type}

/-- An entry in front of others. -/
def cons (s : String) : Entry α → Tree α → Tree α
  | .data v, t => .data s v t
  | .dir k, t => .dir s k t

/-- The entry called `s`. -/
def find : Tree α → String → Option (Entry α)
  | .nil, _ => none
  | .data n v r, s => if s = n then some (.data v) else find r s
  | .dir n k r, s => if s = n then some (.dir k) else find r s

/-- Add or replace the entry called `s`, keeping name order. -/
def put (s : String) (e : Entry α) : Tree α → Tree α
  | .nil => cons s e .nil
  | .data n v r => if s = n then cons s e r else if s < n then cons s e (.data n v r)
      else .data n v (put s e r)
  | .dir n k r => if s = n then cons s e r else if s < n then cons s e (.dir n k r)
      else .dir n k (put s e r)

/-- Remove the entry called `s`. -/
def erase (s : String) : Tree α → Tree α
  | .nil => .nil
  | .data n v r => if s = n then erase s r else .data n v (erase s r)
  | .dir n k r => if s = n then erase s r else .dir n k (erase s r)

/-- Names of the entries, `Group.keys()`. -/
def keys : Tree α → List String
  | .nil => []
  | .data n _ r => n :: keys r
  | .dir n _ r => n :: keys r

/-- The entry at a path; the empty path is the group itself. -/
def lookup : Tree α → List String → Option (Entry α)
  | t, [] => some (.dir t)
  | t, s :: p => match find t s with
    | none => none
    | some (.data v) => if p = [] then some (.data v) else none
    | some (.dir k) => lookup k p

/-- Put an entry at a path, creating missing groups on the way; `none` when a part of the path is a
data set, or for the empty path. -/
def putAt : Tree α → List String → Entry α → Option (Tree α)
  | _, [], _ => none
  | t, s :: p, e =>
    if p = [] then some (put s e t)
    else match find t s with
      | none => (putAt .nil p e).map (fun k => put s (.dir k) t)
      | some (.data _) => none
      | some (.dir k) => (putAt k p e).map (fun k' => put s (.dir k') t)

/-- Remove the entry at a path (nothing happens when there is none). -/
def eraseAt : Tree α → List String → Tree α
  | t, [] => t
  | t, s :: p =>
    if p = [] then erase s t
    else match find t s with
      | some (.dir k) => put s (.dir (eraseAt k p)) t
      | _ => t

/-- The value of the data set at a path, if there is one. -/
def value (t : Tree α) (p : List String) : Option α :=
  match lookup t p with
  | some (.data v) => some v
  | _ => none

/-- Split a list of characters at slashes. -/
def splitSlash : List Char → List (List Char)
  | [] => [[]]
  | c :: cs => if c = '/' then [] :: splitSlash cs else
      match splitSlash cs with
      | [] => [[c]]
      | w :: ws => (c :: w) :: ws

/-- The parts of a path name, without empty and `.` parts. -/
def parts (name : String) : List String :=
  ((splitSlash name.toList).filter (fun w => w ≠ [] ∧ w ≠ ['.'])).map String.ofList

/-- The absolute path meant by `name` inside the group at `g`. -/
def resolve (g : List String) (name : String) : List String :=
  if name.toList.head? = some '/' then parts name else g ++ parts name

/-- `name in group`. -/
def contains (t : Tree α) (g : List String) (name : String) : Bool :=
  decide (name ≠ "") && (lookup t (resolve g name)).isSome

end Verif.Hdf
