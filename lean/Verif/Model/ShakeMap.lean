import Verif.Model.Hdf

/-!
# Model of impactutils/io/smcontainers.py

As in the model of `HDFContainer`, every method returns the new file and its outcome. What is stored
in a data set is one of three things: the small dictionary that records the data type, another
document (a dictionary or a string), or an array with its metadata.
-/

namespace Verif.ShakeMap
open Verif.Hdf

/-- The data types (impactutils/io/smcontainers.py:481). -/
inductive DType where
  | points
  | grid
deriving DecidableEq, Repr

/-- Contents of a data set: `{'type': d}`, any other JSON document or string, or an array together
with its metadata. -/
inductive Cell (J A : Type) where
  | dtype (d : DType)
  | json (j : J)
  | array (a : A)
deriving DecidableEq, Repr

/-- Errors. `exists` is h5py's error for a name in use, `notGroup` its errors for using a data set
as a group, `notDataset` for reading a group as a data set. -/
inductive Err where
  | lookupError
  | keyError
  | typeError
  | valueError
  | attributeError
  | exists
  | notGroup
  | notDataset
deriving DecidableEq, Repr

/-- The three kinds of object of `HDFContainerBase`. -/
inductive Kind where
  | dict
  | array
  | string
deriving DecidableEq, Repr

/-- The top-level groups (impactutils/io/smcontainers.py:116, 139, 202, 228, 281, 298). -/
def base : Kind → String
  | .dict => "dictionaries"
  | .array => "arrays"
  | .string => "strings"

variable {J A B : Type}

/-- One step down in `_makeGroup` (impactutils/io/smcontainers.py:69-72). -/
def makeStep (t : Tree B) (cur : List String) (gg : String) : Tree B × Except Err (List String) :=
  match lookup t cur with
  | some (.dir _) =>
    if contains t cur gg then (t, .ok (resolve cur gg))
    else if (lookup t (resolve cur gg)).isSome then (t, .error .exists)
    else match putAt t (resolve cur gg) (.dir .nil) with
      | none => (t, .error .exists)
      | some t' => (t', .ok (resolve cur gg))
  | _ => (t, .error .notGroup)

/-- The loop of `_makeGroup` (impactutils/io/smcontainers.py:68-73). -/
def makeSteps (t : Tree B) (cur : List String) : List String → Tree B × Except Err (List String)
  | [] => (t, .ok cur)
  | gg :: gs => match makeStep t cur gg with
    | (t', .ok cur') => makeSteps t' cur' gs
    | (t', .error e) => (t', .error e)

/-- `_makeGroup` (impactutils/io/smcontainers.py:63-73): returns the path of the group. -/
def makeGroup (t : Tree B) (b : String) (groups : List String) :
    Tree B × Except Err (List String) :=
  match makeStep t [] b with
  | (t', .ok cur) => makeSteps t' cur groups
  | (t', .error e) => (t', .error e)

/-- `_getGroup` (impactutils/io/smcontainers.py:75-83), the loop. -/
def getSteps (t : Tree B) (cur : List String) : List String → Except Err (List String)
  | [] => .ok cur
  | gg :: gs => match lookup t cur with
    | some (.dir _) => if contains t cur gg then getSteps t (resolve cur gg) gs
        else .error .lookupError
    | _ => .error .notGroup

/-- `_getGroup` (impactutils/io/smcontainers.py:75-83): returns the path of the group. -/
def getGroup (t : Tree B) (b : String) (groups : List String) : Except Err (List String) :=
  getSteps t [] (b :: groups)

/-- What one entry adds to the list (impactutils/io/smcontainers.py:92-98). -/
def entryPaths (n : String) : List String → List String
  | [] => [n]
  | ps => ps.map (fun p => n ++ "/" ++ p)

/-- `_getGroupPaths` (impactutils/io/smcontainers.py:85-99). A data set has no `keys`, so it yields
no paths and its name is listed; a group that yields no paths is listed the same way. -/
def groupPaths : Tree B → List String
  | .nil => []
  | .data n _ r => n :: groupPaths r
  | .dir n k r => entryPaths n (groupPaths k) ++ groupPaths r

/-- `setDictionary`, `setArray`, `setString` (impactutils/io/smcontainers.py:124-143, 179-213,
266-284). `v` is the serialised value, `none` when serialising fails. Only `setArray` looks for the
name itself, raising `LookupError`; the others leave it to h5py. Attributes are written together
with the array. -/
def setData (t : Tree B) (k : Kind) (groups : List String) (name : String) (v : Option B) :
    Tree B × Except Err Unit :=
  match makeGroup t (base k) groups with
  | (t1, .error e) => (t1, .error e)
  | (t1, .ok g) =>
    match lookup t1 g with
    | some (.dir _) =>
      if k = .array ∧ contains t1 g name then (t1, .error .lookupError)
      else match v with
        | none => (t1, .error .typeError)
        | some b =>
          if (lookup t1 (resolve g name)).isSome then (t1, .error .exists)
          else match putAt t1 (resolve g name) (.data b) with
            | none => (t1, .error .exists)
            | some t2 => (t2, .ok ())
    | _ => (t1, .error .notGroup)

/-- `getDictionary`, `getArray`, `getString` (impactutils/io/smcontainers.py:104-122, 215-236,
286-303). -/
def getData (t : Tree B) (k : Kind) (groups : List String) (name : String) : Except Err B :=
  match getGroup t (base k) groups with
  | .error e => .error e
  | .ok g =>
    match lookup t g with
    | some (.dir _) =>
      if contains t g name then
        match lookup t (resolve g name) with
        | some (.data b) => .ok b
        | _ => .error .notDataset
      else .error .lookupError
    | _ => .error .notGroup

/-- `dropDictionary`, `dropArray`, `dropString` (impactutils/io/smcontainers.py:145-162, 249-260,
316-331). `dropArray` has no membership test of its own and shows h5py's `KeyError`. -/
def dropData (t : Tree B) (k : Kind) (groups : List String) (name : String) :
    Tree B × Except Err Unit :=
  match getGroup t (base k) groups with
  | .error e => (t, .error e)
  | .ok g =>
    match lookup t g with
    | some (.dir _) =>
      if contains t g name = false then
        (t, .error (if k = .array then .keyError else .lookupError))
      else if resolve g name = [] then (t, .error .keyError)
      else (eraseAt t (resolve g name), .ok ())
    | _ => (t, .error .notGroup)

/-- `getDictionaries`, `getArrays`, `getStrings` (impactutils/io/smcontainers.py:164-173, 238-247,
305-314). -/
def listData (t : Tree B) (k : Kind) : List String :=
  match lookup t [base k] with
  | some (.dir kids) => groupPaths kids
  | _ => []

/-! ### ShakeMapContainerBase -/

/-- A Python value given to a setter: is it a `dict`, and what does `json.dumps` make of it. -/
structure PyVal (J : Type) where
  isDict : Bool
  json : Option J

/-- "Drop the old dictionary if it is listed" (impactutils/io/smcontainers.py:347-348, 375-376,
409-410, 434-435, 522-523). -/
def dropIfListed (t : Tree B) (name : String) : Tree B × Except Err Unit :=
  if name ∈ listData t .dict then dropData t .dict [] name else (t, .ok ())

/-- Run a second step only if the first succeeded. -/
def andThen {α : Type} (r : Tree B × Except Err Unit) (f : Tree B → Tree B × Except Err α) :
    Tree B × Except Err α :=
  match r with
  | (t, .ok _) => f t
  | (t, .error e) => (t, .error e)

/-- `setConfig`, `setVersionHistory`, `setMetadata` (impactutils/io/smcontainers.py:339-349,
427-437, 513-525), for the slot `name`. -/
def setSlot (t : Tree (Cell J A)) (name : String) (v : PyVal J) :
    Tree (Cell J A) × Except Err Unit :=
  andThen (dropIfListed t name) fun t1 => setData t1 .dict [] name (v.json.map .json)

/-- `setRuptureDict` (impactutils/io/smcontainers.py:365-380): the old value is dropped before the
type check. -/
def setRuptureDict (t : Tree (Cell J A)) (v : PyVal J) : Tree (Cell J A) × Except Err Unit :=
  andThen (dropIfListed t "rupture") fun t1 =>
    if v.isDict = false then (t1, .error .typeError)
    else setData t1 .dict [] "rupture" (v.json.map .json)

/-- `setStationDict` (impactutils/io/smcontainers.py:397-411). -/
def setStationDict (t : Tree (Cell J A)) (v : PyVal J) : Tree (Cell J A) × Except Err Unit :=
  if v.isDict = false then (t, .error .typeError)
  else setSlot t "stations_dict" v

/-- `getConfig`, `getRuptureDict`, `getStationDict` (impactutils/io/smcontainers.py:351-363,
382-395, 413-425). -/
def getSlot (t : Tree B) (name : String) : Except Err B :=
  if name ∈ listData t .dict then getData t .dict [] name else .error .attributeError

/-- `getVersionHistory` (impactutils/io/smcontainers.py:439-452); `none` is the empty dictionary. -/
def getVersionHistory (t : Tree B) : Except Err (Option B) :=
  if "version_history" ∈ listData t .dict then (getData t .dict [] "version_history").map some else .ok none

/-! ### ShakeMapOutputContainer -/

/-- The slot of the data type (impactutils/io/smcontainers.py:483). -/
def typeSlot : String := "file_data_type"

/-- `getDataType` (impactutils/io/smcontainers.py:498-511). A document without the key `type` is a
`KeyError`. -/
def getDataType (t : Tree (Cell J A)) : Except Err (Option DType) :=
  if typeSlot ∈ listData t .dict then
    match getData t .dict [] typeSlot with
    | .ok (.dtype d) => .ok (some d)
    | .ok _ => .error .keyError
    | .error e => .error e
  else .ok none

/-- `setDataType` for the two known types (impactutils/io/smcontainers.py:468-496). -/
def setDataType (t : Tree (Cell J A)) (d : DType) : Tree (Cell J A) × Except Err Unit :=
  match getDataType t with
  | .error e => (t, .error e)
  | .ok (some d') => if d' ≠ d then (t, .error .typeError) else (t, .ok ())
  | .ok none => setData t .dict [] typeSlot (some (.dtype d))

/-- `getMetadata` (impactutils/io/smcontainers.py:527-535). -/
def getMetadata (t : Tree B) : Except Err B :=
  if "info.json" ∈ listData t .dict then getData t .dict [] "info.json" else .error .lookupError

/-- An array argument: its shape, and what h5py stores for it and its metadata (`none` if it cannot
store it). -/
structure ArrayArg (A : Type) where
  shape : List ℕ
  stored : Option A

/-- The group of an IMT (impactutils/io/smcontainers.py:564, 651). -/
def imtGroup (component imt : String) : List String := ["imts", component, imt]

/-- `setArray` on the group of an IMT. -/
def setIMTArray (t : Tree (Cell J A)) (component imt name : String) (a : ArrayArg A) :
    Tree (Cell J A) × Except Err Unit :=
  setData t .array (imtGroup component imt) name (a.stored.map .array)

/-- `setIMTGrids` (impactutils/io/smcontainers.py:537-567). -/
def setIMTGrids (t : Tree (Cell J A)) (imt : String) (mean std : ArrayArg A) (component : String) :
    Tree (Cell J A) × Except Err Unit :=
  match getDataType t with
  | .error e => (t, .error e)
  | .ok (some .points) => (t, .error .typeError)
  | .ok _ =>
    andThen (setDataType t .grid) fun t =>
    andThen (setIMTArray t component imt "mean" mean) fun t =>
    setIMTArray t component imt "std" std

/-- `getIMTGrids` (impactutils/io/smcontainers.py:569-606): mean and standard deviation. -/
def getIMTGrids (t : Tree (Cell J A)) (imt component : String) :
    Except Err (Cell J A × Cell J A) :=
  match getDataType t with
  | .error e => .error e
  | .ok (some .grid) => do
    let m ← getData t .array (imtGroup component imt) "mean"
    let s ← getData t .array (imtGroup component imt) "std"
    return (m, s)
  | .ok _ => .error .typeError

/-- The arguments of `setIMTArrays` that are arrays. -/
structure Points (A : Type) where
  lons : ArrayArg A
  lats : ArrayArg A
  ids : ArrayArg A
  mean : ArrayArg A
  std : ArrayArg A

/-- `setIMTArrays` (impactutils/io/smcontainers.py:608-663). -/
def setIMTArrays (t : Tree (Cell J A)) (imt : String) (p : Points A) (component : String) :
    Tree (Cell J A) × Except Err Unit :=
  match getDataType t with
  | .error e => (t, .error e)
  | .ok (some .grid) => (t, .error .typeError)
  | .ok _ =>
    andThen (setDataType t .points) fun t =>
    if p.lons.shape ≠ p.lats.shape ∨ p.lons.shape ≠ p.ids.shape ∨ p.lons.shape ≠ p.mean.shape ∨
        p.lons.shape ≠ p.std.shape then (t, .error .valueError)
    else
      andThen (setIMTArray t component imt "lons" p.lons) fun t =>
      andThen (setIMTArray t component imt "lats" p.lats) fun t =>
      andThen (setIMTArray t component imt "ids" p.ids) fun t =>
      andThen (setIMTArray t component imt "mean" p.mean) fun t =>
      setIMTArray t component imt "std" p.std

/-- `getIMTArrays` (impactutils/io/smcontainers.py:665-711). -/
def getIMTArrays (t : Tree (Cell J A)) (imt component : String) :
    Except Err (List (Cell J A)) :=
  match getDataType t with
  | .error e => .error e
  | .ok (some .points) =>
    ["lons", "lats", "ids", "mean", "std"].mapM (getData t .array (imtGroup component imt))
  | .ok _ => .error .typeError

/-- The contents of the group of a component, as `keys()` sees them (`none`: not a group). -/
def componentKeys (t : Tree B) (component : String) : Option (List String) :=
  match lookup t ["arrays", "imts", component] with
  | some (.dir kids) => some (keys kids)
  | _ => none

/-- `getComponents()` (impactutils/io/smcontainers.py:755-758). -/
def getComponents (t : Tree B) : List String :=
  match lookup t ["arrays", "imts"] with
  | some (.dir kids) => keys kids
  | _ => []

/-- `getComponents(imt)` (impactutils/io/smcontainers.py:755-764). -/
def getComponentsOf (t : Tree B) (imt : String) : List String :=
  (getComponents t).filter fun c => contains t ["arrays", "imts", c] imt

/-- `getIMTs(component)` (impactutils/io/smcontainers.py:725-728, 737-741); an unknown component is
a `KeyError`. -/
def getIMTs (t : Tree B) (component : String) : Except Err (List String) :=
  match lookup t ["arrays", "imts"] with
  | none => .ok []
  | some _ => match componentKeys t component with
    | some ks => .ok ks
    | none => .error .keyError

/-- `getIMTs()` (impactutils/io/smcontainers.py:725-736). -/
def getAllIMTs (t : Tree B) : List String :=
  (getComponents t).flatMap fun c =>
    ((componentKeys t c).getD []).map fun i => c ++ "/" ++ i

/-- `dropIMT` (impactutils/io/smcontainers.py:766-780). -/
def dropIMT (t : Tree B) (imt : String) : Tree B × Except Err Unit :=
  match lookup t ["arrays", "imts"] with
  | none => (t, .error .lookupError)
  | some _ =>
    ((getComponentsOf t imt).foldl (fun t c => eraseAt t (resolve ["arrays", "imts", c] imt)) t,
      .ok ())

end Verif.ShakeMap
