import Mathlib.Data.Rat.Cast.Order
import Verif.Model.RuptureUtils

/-!
# Reading rupture files: `impactutils/rupture/factory.py`

Numbers of a file are rational; `float` itself is a parameter `num` that gives the number a text stands
for, or nothing when `float` raises `ValueError`.
-/

namespace Verif.Factory
open Verif.Rup

/-- A vertex `[lon, lat, depth]`. -/
structure Vert where
  lon : ℚ
  lat : ℚ
  depth : ℚ
deriving DecidableEq, Repr

/-- What is raised: `ValueError`, or another exception. -/
inductive FErr where
  | valueError | exception
deriving DecidableEq, Repr

/-- The vertex at an index that is in range. -/
def vertAt (p : List Vert) (i : ℕ) : Vert := p.getD i ⟨0, 0, 0⟩

/-- `n_pairs = int((n_points - 1) / 2)` (impactutils/rupture/factory.py:237). -/
def nPairs (p : List Vert) : ℕ := (p.length - 1) / 2

/-- The loop of `_check_polygon` (impactutils/rupture/factory.py:238-254). `p[-(j + 2)]` is the vertex at
`n_points - (j + 2)`; both indices are in range for `j < n_pairs`. -/
def pairsOrdered (p : List Vert) : Bool :=
  (List.range (nPairs p)).all fun j =>
    decide ((vertAt p j).depth < (vertAt p (p.length - (j + 2))).depth)

/-- `_check_polygon` (impactutils/rupture/factory.py:217-254). -/
def checkPolygon (p : List Vert) : Except FErr Unit :=
  if p.length % 2 = 0 then .error .valueError
  else if p.head? ≠ p.getLast? then .error .valueError
  else if pairsOrdered p then .ok () else .error .valueError

/-- `_rotate_polygon` (impactutils/rupture/factory.py:178-214). An empty polygon fails at `parray[-1, :]`,
one of a single point at `parray[0, :]`, after the last point was dropped, both with `IndexError`. -/
def rotatePolygon (p : List Vert) : Except FErr (List Vert) :=
  if p.head? ≠ p.getLast? then .error .exception
  else
    match p.dropLast with
    | [] => .error .exception
    | a :: rest => .ok ((rest ++ [a]) ++ [(rest ++ [a]).headD a])

/-- The inner loop of `text_to_json` (impactutils/rupture/factory.py:345-353): `some p` when a check
succeeded, for the polygon then at hand. Only `ValueError` is caught, and only around the check. -/
def tryRotations : ℕ → List Vert → Except FErr (Option (List Vert))
  | 0, _ => .ok none
  | n + 1, p =>
    match checkPolygon p with
    | .ok _ => .ok (some p)
    | .error .exception => .error .exception
    | .error .valueError =>
      match rotatePolygon p with
      | .error e => .error e
      | .ok p' => tryRotations n p'

/-- The loop over the polygons (impactutils/rupture/factory.py:342-357): the results in order. -/
def tryAll : List (List Vert) → Except FErr (List (Option (List Vert)))
  | [] => .ok []
  | p :: ps =>
    match tryRotations (p.length - 1) p with
    | .error e => .error e
    | .ok r =>
      match tryAll ps with
      | .error e => .error e
      | .ok rs => .ok (r :: rs)

/-- The loop of `validate_json` over the polygons (impactutils/rupture/factory.py:434-439). -/
def checkAll : List (List Vert) → Except FErr Unit
  | [] => .ok ()
  | p :: ps =>
    match checkPolygon p with
    | .error e => .error e
    | .ok _ => checkAll ps

/-- The repaired polygons, when all were repaired, and else the original ones
(impactutils/rupture/factory.py:340-360). -/
def repair (ps : List (List Vert)) : Except FErr (List (List Vert)) :=
  match tryAll ps with
  | .error e => .error e
  | .ok rs => if rs.all Option.isSome then .ok (rs.filterMap id) else .ok ps

/-- Repair and validation (impactutils/rupture/factory.py:340-383); the remaining checks of
`validate_json` concern the parts of the dictionary that `text_to_json` sets itself. -/
def repairAndValidate (ps : List (List Vert)) : Except FErr (List (List Vert)) :=
  match repair ps with
  | .error e => .error e
  | .ok qs =>
    match checkAll qs with
    | .error e => .error e
    | .ok _ => .ok qs

/-! ### The text format -/

/-- `str.isspace` for the characters of Latin-1, the encoding the files are read with. -/
def isSpace (c : Char) : Bool :=
  c = ' ' || (9 ≤ c.toNat && c.toNat ≤ 13) || (28 ≤ c.toNat && c.toNat ≤ 31) || c.toNat = 133 ||
    c.toNat = 160

/-- `str.lstrip()`. -/
def lstrip (s : List Char) : List Char := s.dropWhile isSpace

/-- `str.strip()`. -/
def strip (s : List Char) : List Char := (lstrip (lstrip s).reverse).reverse

/-- `str.split()`: `cur` is the word being read, backwards. -/
def splitWords (cur : List Char) : List Char → List (List Char)
  | [] => if cur.isEmpty then [] else [cur.reverse]
  | c :: cs =>
    if isSpace c then
      if cur.isEmpty then splitWords [] cs else cur.reverse :: splitWords [] cs
    else splitWords (c :: cur) cs

/-- `str.split(',')`. -/
def splitCommas (cur : List Char) : List Char → List (List Char)
  | [] => [cur.reverse]
  | c :: cs => if c = ',' then cur.reverse :: splitCommas [] cs else splitCommas (c :: cur) cs

/-- `[float(p) for p in parts]` and the exchange of latitude and longitude
(impactutils/rupture/factory.py:328-333), for three parts. -/
def readVert (num : List Char → Option ℚ) (newFormat : Bool) (parts : List (List Char)) :
    Except FErr Vert :=
  match parts with
  | [a, b, c] =>
    match num a, num b, num c with
    | some x, some y, some z => .ok (if newFormat then ⟨x, y, z⟩ else ⟨y, x, z⟩)
    | _, _, _ => .error .valueError
  | _ => .error .exception

/-- The parts of a line with coordinates (impactutils/rupture/factory.py:311-320). -/
def lineParts (newFormat : Bool) (line : List Char) : Except FErr (List (List Char)) :=
  let parts := splitWords [] line
  if parts.length = 1 then
    if newFormat then .error .exception
    else
      let parts' := splitCommas [] line
      if parts'.length = 1 then .error .exception else .ok parts'
  else .ok parts

/-- What has been read so far: `reference`, `polygons` and `polygon`. -/
structure RState where
  reference : List Char
  polygons : List (List Vert)
  polygon : List Vert
deriving DecidableEq

/-- A line with coordinates (impactutils/rupture/factory.py:311-334). -/
def readCoords (num : List Char → Option ℚ) (newFormat : Bool) (st : RState) (line : List Char) :
    Except FErr RState :=
  match lineParts newFormat line with
  | .error e => .error e
  | .ok parts =>
    match readVert num newFormat parts with
    | .error e => .error e
    | .ok v => .ok { st with polygon := st.polygon ++ [v] }

/-- One line (impactutils/rupture/factory.py:295-334). -/
def readLine (num : List Char → Option ℚ) (newFormat : Bool) (st : RState) (line : List Char) :
    Except FErr RState :=
  let s := strip line
  if s = [] then .ok st
  else if s.head? = some '#' then
    .ok { st with reference := st.reference ++ s.filter (· ≠ '#') }
  else if s.head? = some '>' then
    if st.polygon = [] then .ok st
    else .ok { st with polygons := st.polygons ++ [st.polygon], polygon := [] }
  else readCoords num newFormat st line

/-- The loop over the lines. -/
def readLines (num : List Char → Option ℚ) (newFormat : Bool) : RState → List (List Char) →
    Except FErr RState
  | st, [] => .ok st
  | st, l :: ls =>
    match readLine num newFormat st l with
    | .error e => .error e
    | .ok st' => readLines num newFormat st' ls

/-- Reading (impactutils/rupture/factory.py:291-337): the reference and the polygons. -/
def readText (num : List Char → Option ℚ) (newFormat : Bool) (lines : List (List Char)) :
    Except FErr (List Char × List (List Vert)) :=
  match readLines num newFormat ⟨[], [], []⟩ lines with
  | .error e => .error e
  | .ok st => .ok (st.reference, if st.polygon = [] then st.polygons else st.polygons ++ [st.polygon])

/-- `text_to_json` (impactutils/rupture/factory.py:257-385): the reference and the polygons of the
dictionary that is returned. -/
def textToJson (num : List Char → Option ℚ) (newFormat : Bool) (lines : List (List Char)) :
    Except FErr (List Char × List (List Vert)) :=
  match readText num newFormat lines with
  | .error e => .error e
  | .ok (ref, ps) =>
    match repairAndValidate ps with
    | .error e => .error e
    | .ok qs => .ok (ref, qs)

/-! ### The kind of rupture -/

/-- The point of the `openquake` library with the coordinates of a vertex. -/
def Vert.point (v : Vert) : Point := ⟨(v.lon : ℝ), (v.lat : ℝ), (v.depth : ℝ)⟩

/-- Quadrilateral `k` of a polygon (impactutils/rupture/factory.py:470-473). -/
def quadAt (p : List Vert) (k : ℕ) : Quad Vert :=
  ⟨vertAt p k, vertAt p (k + 1), vertAt p (p.length - (k + 3)), vertAt p (p.length - (k + 2))⟩

/-- `DEPTH_TOL` (impactutils/rupture/constants.py). -/
def depthTol : ℚ := 5 / 100

/-- The checks of the constructor of `Point` of the `openquake` library
(impactutils/extern/openquake/point.py:52-66 is a copy). -/
def pointOk (v : Vert) : Bool :=
  decide (v.depth < 6371) && decide (-(8848 / 1000) < v.depth) && decide (-180 ≤ v.lon) &&
    decide (v.lon ≤ 180) && decide (-90 ≤ v.lat) && decide (v.lat ≤ 90)

/-- The four points of a quadrilateral can be made. -/
def pointsOk (q : Quad Vert) : Bool := pointOk q.p0 && pointOk q.p1 && pointOk q.p2 && pointOk q.p3

/-- The three tests of one quadrilateral (impactutils/rupture/factory.py:474-488). The element of each
array compared with itself is close. -/
noncomputable def quadOk (q : Quad Vert) : Bool :=
  (isQuad ⟨q.p0.point, q.p1.point, q.p2.point, q.p3.point⟩).1 &&
    decide (|q.p0.depth - q.p1.depth| ≤ depthTol) && decide (|q.p2.depth - q.p3.depth| ≤ depthTol)

/-- The quadrilaterals of a polygon in the order of the loop (impactutils/rupture/factory.py:464-468). -/
def quadsOf (p : List Vert) : List (Quad Vert) := (List.range (nPairs p - 1)).map (quadAt p)

/-- The loop over the quadrilaterals (impactutils/rupture/factory.py:468-490). -/
noncomputable def classify : List (Quad Vert) → Except FErr Bool
  | [] => .ok true
  | q :: qs =>
    if pointsOk q then
      if quadOk q then classify qs else .ok false
    else .error .valueError

/-- `is_quadrupture_class` (impactutils/rupture/factory.py:442-490) for a multi-polygon. -/
noncomputable def isQuadRupture (ps : List (List Vert)) : Except FErr Bool := classify (ps.flatMap quadsOf)

/-- The geometry of a rupture dictionary. -/
inductive Geom where
  | multiPolygon (ps : List (List Vert))
  | point
deriving DecidableEq

/-- The class of the rupture object. -/
inductive RupKind where
  | quad (ps : List (List Vert))
  | edge (ps : List (List Vert))
  | point
deriving DecidableEq

/-- `rupture_from_dict_and_origin` (impactutils/rupture/factory.py:95-137) for a dictionary with the
required keys: the class of the object that is made. The constructors of the classes are not part of
this definition. -/
noncomputable def fromDictAndOrigin (g : Geom) : Except FErr RupKind :=
  match g with
  | .point => .ok .point
  | .multiPolygon ps =>
    match checkAll ps with
    | .error e => .error e
    | .ok _ =>
      match isQuadRupture ps with
      | .error e => .error e
      | .ok b => .ok (if b then .quad ps else .edge ps)

/-- `rupture_from_dict` (impactutils/rupture/factory.py:140-175): the class depends on whether the
metadata carry `mesh_dx`. -/
def fromDict (g : Geom) (hasMeshDx : Bool) : Except FErr RupKind :=
  match g with
  | .point => .ok .point
  | .multiPolygon ps =>
    match checkAll ps with
    | .error e => .error e
    | .ok _ => .ok (if hasMeshDx then .edge ps else .quad ps)

end Verif.Factory
