import Verif.Model.Hdf

/-!
# Model of impactutils/io/container.py

Every method returns the new file together with its outcome, so that effects of failing calls are
visible. Serialising a value (`json.dumps`, `str.encode`, `DataFrame.to_json`, the array writer) is
the parameter `enc`, with `none` for a value it rejects; reading is `dec`.
-/

namespace Verif.Container
open Verif.Hdf

/-- The five kinds of object (impactutils/io/container.py:29-33). -/
inductive Kind where
  | dict
  | list
  | string
  | array
  | dataframe
deriving DecidableEq, Repr

/-- `GROUPS` (impactutils/io/container.py:29-33). -/
def groupName : Kind → String
  | .dict => "dictionaries"
  | .list => "lists"
  | .string => "strings"
  | .array => "arrays"
  | .dataframe => "dataframes"

/-- Outcomes. `keyError` is h5py's error for a missing group; `lookupError` is raised explicitly;
`exists` is h5py's error for a name that cannot be created; `typeError` comes from the serialiser;
`notDataset` is the error of reading a group as a data set. -/
inductive Err where
  | keyError
  | lookupError
  | exists
  | typeError
  | notDataset
deriving DecidableEq, Repr

/-- How values are written and read back. -/
structure Codec (V B : Type) where
  enc : Kind → V → Option B
  dec : Kind → B → V

variable {V B : Type}

/-- Make a top-level group if it is missing (for example impactutils/io/container.py:135-138). -/
def withGroup (t : Tree B) (g : String) : Tree B :=
  match lookup t [g] with
  | some _ => t
  | none => put g (.dir .nil) t

/-- `setDictionary`, `setList`, `setArray`, `setString`, `setDataFrame`
(impactutils/io/container.py:117-143, 175-201, 251-289, 343-366, 415-440): make the group if it is
missing, serialise, create the data set. (`setArray` writes the attributes after creating the data
set; a failure between the two is not modelled.) -/
def set (c : Codec V B) (t : Tree B) (k : Kind) (name : String) (v : V) :
    Tree B × Except Err Unit :=
  let t1 := withGroup t (groupName k)
  match c.enc k v with
  | none => (t1, .error .typeError)
  | some b =>
    if (lookup t1 (resolve [groupName k] name)).isSome then (t1, .error .exists)
    else match putAt t1 (resolve [groupName k] name) (.data b) with
      | none => (t1, .error .exists)
      | some t2 => (t2, .ok ())

/-- `getDictionary`, `getList`, `getArray`, `getString`, `getDataFrame`
(impactutils/io/container.py:98-115, 203-219, 291-311, 368-384, 442-466). -/
def get (c : Codec V B) (t : Tree B) (k : Kind) (name : String) : Except Err V :=
  match lookup t [groupName k] with
  | none => .error .keyError
  | some _ =>
    if contains t [groupName k] name = false then .error .lookupError
    else match lookup t (resolve [groupName k] name) with
      | some (.data b) => .ok (c.dec k b)
      | _ => .error .notDataset

/-- `dropDictionary`, `dropList`, `dropArray`, `dropString`, `dropDataFrame`
(impactutils/io/container.py:145-158, 233-245, 325-337, 398-410, 480-493). -/
def drop (t : Tree B) (k : Kind) (name : String) : Tree B × Except Err Unit :=
  match lookup t [groupName k] with
  | none => (t, .error .keyError)
  | some _ =>
    if contains t [groupName k] name = false then (t, .error .lookupError)
    else if resolve [groupName k] name = [] then (t, .error .keyError)
    else (eraseAt t (resolve [groupName k] name), .ok ())

/-- `getDictionaries`, `getLists`, `getArrays`, `getStrings`, `getDataFrames`
(impactutils/io/container.py:160-170, 221-231, 313-323, 386-396, 468-478). -/
def list (t : Tree B) (k : Kind) : List String :=
  match lookup t [groupName k] with
  | some (.dir kids) => keys kids
  | _ => []

/-- One call. -/
inductive Op (V : Type) where
  | set (k : Kind) (name : String) (v : V)
  | get (k : Kind) (name : String)
  | drop (k : Kind) (name : String)
  | list (k : Kind)

/-- What a call shows to its caller. -/
inductive Out (V : Type) where
  | done
  | value (v : V)
  | names (ns : List String)
  | error (e : Err)
deriving DecidableEq, Repr

/-- Result of a call that returns nothing. -/
def Out.ofUnit : Except Err Unit → Out V
  | .ok _ => .done
  | .error e => .error e

/-- Result of a call that returns a value. -/
def Out.ofValue : Except Err V → Out V
  | .ok v => .value v
  | .error e => .error e

/-- One call on the file. -/
def step (c : Codec V B) (t : Tree B) : Op V → Tree B × Out V
  | .set k name v => ((set c t k name v).1, .ofUnit (set c t k name v).2)
  | .get k name => (t, .ofValue (get c t k name))
  | .drop k name => ((drop t k name).1, .ofUnit (drop t k name).2)
  | .list k => (t, .names (list t k))

/-- A history of calls, starting from the file `t` (`create` starts from the empty file,
impactutils/io/container.py:52-64). -/
def run (c : Codec V B) (t : Tree B) : List (Op V) → List (Out V)
  | [] => []
  | op :: ops => (step c t op).2 :: run c (step c t op).1 ops

end Verif.Container
