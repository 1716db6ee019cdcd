import Verif.Model.Comcat
import Verif.Model.Double

/-!
# The documents behind ComCatInfo and GeoServe, as objects in memory (impactutils/comcat/query.py)

`Verif.Comcat` has the fields that the methods read. Here a document is what `json.loads` makes: lists and dictionaries in memory, each with an
address. Methods return references. A program that has a reference to a list or a dictionary can change it, and with it whatever is read from it
later. A tuple, which cannot be changed, is the references in it.

Simplifications: numbers with a fraction are exact rationals, infinities and NaN are left out; the range of `datetime.utcfromtimestamp` is that of the
years 1 to 9999, and any failure of it is a ValueError.
-/

namespace Verif.Docs

/-- A text. -/
abbrev Text := List Char

/-- Values that cannot be changed. `time` is a `datetime`, in seconds after 1970-01-01. -/
inductive Atom where
  | none
  | bool (b : Bool)
  | int (i : ℤ)
  | float (q : ℚ)
  | str (s : Text)
  | time (t : ℤ)
deriving DecidableEq

/-- A reference: a value that cannot be changed, or an address. -/
inductive Ref where
  | atom (a : Atom)
  | addr (n : ℕ)
deriving DecidableEq

/-- An object in memory. A dictionary is the list of its items. -/
inductive Node where
  | list (xs : List Ref)
  | dict (ps : List (Text × Ref))
deriving DecidableEq

/-- What an object refers to. -/
def Node.children : Node → List Ref
  | .list xs => xs
  | .dict ps => ps.map Prod.snd

/-- The memory. -/
abbrev Heap := List Node

/-- Values, as one sees them. -/
inductive Doc where
  | atom (a : Atom)
  | list (xs : List Doc)
  | dict (ps : List (Text × Doc))

mutual
/-- The objects that `json.loads` makes for a document (impactutils/comcat/query.py:120 and 132). -/
def load (h : Heap) : Doc → Heap × Ref
  | .atom a => (h, .atom a)
  | .list xs => ((loadItems h xs).1 ++ [.list (loadItems h xs).2], .addr (loadItems h xs).1.length)
  | .dict ps => ((loadMembers h ps).1 ++ [.dict (loadMembers h ps).2], .addr (loadMembers h ps).1.length)
/-- The items of a list. -/
def loadItems (h : Heap) : List Doc → Heap × List Ref
  | [] => (h, [])
  | d :: ds => ((loadItems (load h d).1 ds).1, (load h d).2 :: (loadItems (load h d).1 ds).2)
/-- The items of a dictionary. -/
def loadMembers (h : Heap) : List (Text × Doc) → Heap × List (Text × Ref)
  | [] => (h, [])
  | (k, d) :: ps => ((loadMembers (load h d).1 ps).1, (k, (load h d).2) :: (loadMembers (load h d).1 ps).2)
end

/-- The exceptions that occur. -/
inductive Err where
  | keyError
  | indexError
  | typeError
  | valueError
  | attributeError
deriving DecidableEq

/-- `x['key']`. -/
def index (h : Heap) (key : Text) : Ref → Except Err Ref
  | .atom _ => .error .typeError
  | .addr n =>
    match h[n]? with
    | some (.dict ps) =>
      match ps.lookup key with
      | some r => .ok r
      | none => .error .keyError
    | _ => .error .typeError

/-- `x[0]`. The keys of a document are texts. -/
def first (h : Heap) : Ref → Except Err Ref
  | .atom (.str (c :: _)) => .ok (.atom (.str [c]))
  | .atom (.str []) => .error .indexError
  | .atom _ => .error .typeError
  | .addr n =>
    match h[n]? with
    | some (.list (r :: _)) => .ok r
    | some (.list []) => .error .indexError
    | some (.dict _) => .error .keyError
    | none => .error .typeError

/-- `len(x)`. -/
def length (h : Heap) : Ref → Except Err ℕ
  | .atom (.str s) => .ok s.length
  | .atom _ => .error .typeError
  | .addr n =>
    match h[n]? with
    | some (.list xs) => .ok xs.length
    | some (.dict ps) => .ok ps.length
    | none => .error .typeError

/-- The items over which one iterates: of a dictionary its keys, of a text its characters. -/
def items (h : Heap) : Ref → Except Err (List Ref)
  | .atom (.str s) => .ok (s.map fun c => .atom (.str [c]))
  | .atom _ => .error .typeError
  | .addr n =>
    match h[n]? with
    | some (.list xs) => .ok xs
    | some (.dict ps) => .ok (ps.map fun p => .atom (.str p.1))
    | none => .error .typeError

/-- `x.strip(',').split(',')`: only texts have these methods. -/
def text : Ref → Except Err Text
  | .atom (.str s) => .ok s
  | _ => .error .attributeError

/-- `a, b, c = x`. -/
def unpack3 (h : Heap) (r : Ref) : Except Err (Ref × Ref × Ref) :=
  match items h r with
  | .error e => .error e
  | .ok [a, b, c] => .ok (a, b, c)
  | .ok _ => .error .valueError

/-- `datetime.utcfromtimestamp(int(itime / 1000))` (impactutils/comcat/query.py:196). -/
def seconds : Ref → Except Err ℤ
  | .atom (.int i) => .ok (Dbl.seconds i)
  | .atom (.float q) => .ok (Py.trunc (Dbl.rnd (q / 1000)))
  | .atom (.bool b) => .ok (Dbl.seconds (if b then 1 else 0))
  | _ => .error .typeError

/-- The times that a `datetime` can have. -/
def inRange (t : ℤ) : Bool := decide (-62135596800 ≤ t ∧ t ≤ 253402300799)

/-- The range check of `datetime.utcfromtimestamp` (impactutils/comcat/query.py:196). -/
def toTime (r : Ref) : Except Err ℤ := do
  let t ← seconds r
  if inRange t then .ok t else .error .valueError

/-! ### ComCatInfo -/

/-- The methods of `ComCatInfo`. `grid` is `getShakeGrid()` without a local file. -/
inductive Ask where
  | ids
  | sources
  | params
  | location
  | tsunami
  | grid
  | url
deriving DecidableEq

/-- An exception of `Verif.Comcat`. -/
def ofComcat {α : Type} : Except Comcat.Err α → Except Err α
  | .ok a => .ok a
  | .error _ => .error .valueError

/-- The two fields read by `getAssociatedIds` (impactutils/comcat/query.py:144-145). -/
def idFields (h : Heap) (root : Ref) : Except Err (Text × Ref) := do
  let ids ← index h "properties".toList root >>= index h "ids".toList >>= text
  let authid ← index h "id".toList root
  return (ids, authid)

/-- `ComCatInfo.getAssociatedIds` (impactutils/comcat/query.py:137-147): `remove` of something that is not a text fails. -/
def ids (h : Heap) (root : Ref) : Except Err (Text × List Text) := do
  let f ← idFields h root
  match f.2 with
  | .atom (.str authid) => ofComcat (Comcat.getAssociatedIds ⟨f.1, [], authid⟩)
  | _ => .error .valueError

/-- `ComCatInfo.getAssociatedSources` (impactutils/comcat/query.py:149-179). -/
def sources (h : Heap) (root : Ref) : Except Err (Text × List Text) := do
  let s ← index h "properties".toList root >>= index h "sources".toList >>= text
  let f ← idFields h root
  match f.2 with
  | .atom (.str authid) => ofComcat (Comcat.getAssociatedSources ⟨f.1, s, authid⟩)
  | _ => .error .valueError

/-- What `ComCatInfo.getEventParams` puts into its dictionary (impactutils/comcat/query.py:194-203). -/
def params (h : Heap) (root : Ref) : Except Err (List (Text × Ref)) := do
  let c ← index h "geometry".toList root >>= index h "coordinates".toList >>= unpack3 h
  let t ← index h "properties".toList root >>= index h "time".toList >>= toTime
  let mag ← index h "properties".toList root >>= index h "mag".toList
  return [("time".toList, .atom (.time t)), ("lat".toList, c.2.1), ("lon".toList, c.1), ("depth".toList, c.2.2), ("magnitude".toList, mag)]

/-- The address read by `ComCatInfo.getShakeGrid` (impactutils/comcat/query.py:238). -/
def gridUrl (h : Heap) (root : Ref) : Except Err Ref :=
  index h "properties".toList root >>= index h "products".toList >>= index h "shakemap".toList >>= first h >>=
    index h "contents".toList >>= index h "download/grid.xml".toList >>= index h "url".toList

/-- A tuple of a text and a new list of texts (the results of impactutils/comcat/query.py:147 and 179). -/
def returnPair (h : Heap) : Except Err (Text × List Text) → Heap × Except Err (List Ref)
  | .error e => (h, .error e)
  | .ok p => (h ++ [.list (p.2.map fun s => .atom (.str s))], .ok [.atom (.str p.1), .addr h.length])

/-- A single value is returned. -/
def one : Except Err Ref → Except Err (List Ref)
  | .ok r => .ok [r]
  | .error e => .error e

/-- A new dictionary (the result of impactutils/comcat/query.py:204). -/
def returnDict (h : Heap) : Except Err (List (Text × Ref)) → Heap × Except Err (List Ref)
  | .error e => (h, .error e)
  | .ok ps => (h ++ [.dict ps], .ok [.addr h.length])

/-- A call of a method of a `ComCatInfo` whose document is `root` (impactutils/comcat/query.py:137-256): the memory afterwards, and references or an
exception. `getLocation`, `getTsunami` and `getURL` are impactutils/comcat/query.py:206-223 and 249-256. -/
def comcat (root : Ref) (h : Heap) : Ask → Heap × Except Err (List Ref)
  | .ids => returnPair h (ids h root)
  | .sources => returnPair h (sources h root)
  | .params => returnDict h (params h root)
  | .location => (h, one (index h "properties".toList root >>= index h "place".toList))
  | .tsunami => (h, one (index h "properties".toList root >>= index h "tsunami".toList))
  | .grid => (h, match gridUrl h root with | .ok r => .ok [r] | .error _ => .ok [.atom .none])
  | .url => (h, one (index h "properties".toList root >>= index h "url".toList))

/-! ### GeoServe -/

/-- The methods of `GeoServe`. -/
inductive Geo where
  | places
  | regions
  | authoritative
deriving DecidableEq

/-- `x.get('metadata', None)` of a dictionary (impactutils/comcat/query.py:96); others have no such method. -/
def hasGet (h : Heap) : Ref → Except Err Unit
  | .atom _ => .error .attributeError
  | .addr n =>
    match h[n]? with
    | some (.dict _) => .ok ()
    | _ => .error .attributeError

/-- What `GeoServe.getAuthoritative` returns (impactutils/comcat/query.py:108-116). -/
def authoritative (h : Heap) (reg : Ref) : Except Err (Ref × Ref) := do
  let fs ← index h "authoritative".toList reg >>= index h "features".toList
  let n ← length h fs
  if n = 0 then return (.atom (.str "US".toList), .atom (.str "NA".toList))
  else
    let p ← first h fs >>= index h "properties".toList
    let network ← index h "network".toList p
    let type ← index h "type".toList p
    return (network, type)

/-- A call of a method of a `GeoServe` with these documents (impactutils/comcat/query.py:66-116). -/
def geoserve (places regions : Ref) (h : Heap) : Geo → Heap × Except Err (List Ref)
  | .places => (h, one (index h "geonames".toList places >>= index h "features".toList))
  | .regions => (h, match hasGet h regions with | .ok _ => .ok [regions] | .error e => .error e)
  | .authoritative => (h, match authoritative h regions with | .ok p => .ok [p.1, p.2] | .error e => .error e)

/-! ### Programs -/

/-- The memory, and the references that a program has. -/
structure World where
  heap : Heap
  held : List Ref

/-- The references that a program can get at: those it has, what their objects refer to, and so on. -/
inductive Reach (w : World) : Ref → Prop
  | atom (a : Atom) : Reach w (.atom a)
  | held {r : Ref} : r ∈ w.held → Reach w r
  | child {n : ℕ} {nd : Node} {r : Ref} : Reach w (.addr n) → w.heap[n]? = some nd → r ∈ nd.children → Reach w r

/-- One step of a program that has an object with these methods (impactutils/comcat/query.py:37-256) and calls those that are allowed: it calls a
method, makes a new list or dictionary of what it can get at, or changes a list or dictionary that it can get at in any way. -/
inductive Step {Q : Type} (object : Heap → Q → Heap × Except Err (List Ref)) (allowed : Q → Prop) : World → World → Prop
  | call (w : World) (q : Q) : allowed q →
      Step object allowed w
        ⟨(object w.heap q).1, match (object w.heap q).2 with | .ok rs => rs ++ w.held | .error _ => w.held⟩
  | make (w : World) (nd : Node) : (∀ r ∈ nd.children, Reach w r) →
      Step object allowed w ⟨w.heap ++ [nd], .addr w.heap.length :: w.held⟩
  | change (w : World) (n : ℕ) (nd : Node) : Reach w (.addr n) → (∀ r ∈ nd.children, Reach w r) →
      Step object allowed w ⟨w.heap.set n nd, w.held⟩

/-- `ComCatInfo(eventid)` has been made from a document (impactutils/comcat/query.py:125-135), and nothing else has happened. -/
def opened (d : Doc) : World := ⟨(load [] d).1, []⟩

/-- `GeoServe(lat, lon)` has been made from two documents, of places and of regions, in this order (impactutils/comcat/query.py:64-65). -/
def served (places regions : Doc) : World := ⟨(load (load [] places).1 regions).1, []⟩

/-- The methods of this `ComCatInfo`. -/
def comcatOf (d : Doc) : Heap → Ask → Heap × Except Err (List Ref) := comcat (load [] d).2

/-- The methods of this `GeoServe`. -/
def geoserveOf (places regions : Doc) : Heap → Geo → Heap × Except Err (List Ref) :=
  geoserve (load [] places).2 (load (load [] places).1 regions).2

/-- A program that has run for some time. -/
inductive Runs {Q : Type} (object : Heap → Q → Heap × Except Err (List Ref)) (allowed : Q → Prop) (w : World) : World → Prop
  | start : Runs object allowed w w
  | step {u v : World} : Runs object allowed w u → Step object allowed u v → Runs object allowed w v

end Verif.Docs
