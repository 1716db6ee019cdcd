import Mathlib.Analysis.SpecialFunctions.Trigonometric.Arctan
import Verif.Model.EdgeRupture

/-!
# GC2 coordinates: `impactutils/rupture/gc2.py`

Coordinates are real numbers. Sites are treated one at a time. The projection and the distance between points on the
earth are those of the `openquake` library and are parameters. The quadrilaterals of a group follow one another, as they
do in both kinds of rupture; array positions are then replaced by lists of groups. The type of the arrays
(`lon.dtype`) is that of real numbers.
-/

namespace Verif.Gc2
open Verif.Vec Verif.Rup Verif.QuadR Verif.EdgeR Real

/-! ### Coordinates and weight for one quadrilateral -/

/-- `__calc_u_i` (impactutils/rupture/gc2.py:279-324) for a site in the projection. `np.fliplr` of a column does
nothing. -/
noncomputable def calcU (p0 p1 site : P2) : ℝ :=
  let h := (V3.mk (p1.x - p0.x) (p1.y - p0.y) 0).norm
  h.x * (site.x - p0.x) + h.y * (site.y - p0.y)

/-- `__calc_t_i` (impactutils/rupture/gc2.py:327-371). -/
noncomputable def calcT (p0 p1 site : P2) : ℝ :=
  let h := (V3.mk (p1.y - p0.y) (-(p1.x - p0.x)) 0).norm
  h.x * (site.x - p0.x) + h.y * (site.y - p0.y)

/-- Case 3 (impactutils/rupture/gc2.py:207-209). -/
def onTrace (t u l : ℝ) : Prop := t = 0 ∧ 0 ≤ u ∧ u ≤ l

/-- `w_i` (impactutils/rupture/gc2.py:204-218). -/
noncomputable def weight (t u l : ℝ) : ℝ :=
  open Classical in
  if t ≠ 0 then 1 / t * (arctan ((l - u) / t) - arctan (-u / t))
  else if u < 0 ∨ u > l then 1 / (u - l) - 1 / u
  else 0

/-! ### The sums -/

/-- `totweight`, `GC2T`, `GC2U`; `off` is `s_i` or `s_ij`, for the next quadrilateral. -/
structure Acc where
  tot : ℝ
  T : ℝ
  U : ℝ
  off : ℝ

/-- One turn of the loop over the quadrilaterals (impactutils/rupture/gc2.py:190-244). -/
noncomputable def addQuad (proj : Point → P2) (site : P2) (a : Acc) (q : Quad Point) : Acc :=
  open Classical in
  let t := calcT (proj q.p0) (proj q.p1) site
  let u := calcU (proj q.p0) (proj q.p1) site
  let l := quadLength q.ecef
  let w := weight t u l
  ⟨(if onTrace t u l then 1 else a.tot) + w, a.T + w * t, a.U + w * (u + a.off), a.off + l⟩

/-- The turns for one group, whose first quadrilateral has its start at coordinate `base`
(impactutils/rupture/gc2.py:223-244). -/
noncomputable def addGroup (proj : Point → P2) (site : P2) (a : Acc) (g : ℝ × List (Quad Point)) : Acc :=
  g.2.foldl (addQuad proj site) ⟨a.tot, a.T, a.U, g.1⟩

/-- The dictionary of distances. -/
structure Out where
  T : ℝ
  U : ℝ
  rx : ℝ
  ry : ℝ
  ry0 : ℝ

/-- `Ry0` (impactutils/rupture/gc2.py:265-272): the second assignment comes after the first. -/
noncomputable def ry0Of (U s : ℝ) : ℝ :=
  open Classical in
  if U > s then U - s else if U < 0 then |U| else 0

/-- The loop and the end of `_computeGC2` (impactutils/rupture/gc2.py:187-276). `s_i` for `ry` is the sum of all
lengths; for `ry0` it is the coordinate of the end of the last quadrilateral, which for one group is the same. -/
noncomputable def finish (proj : Point → P2) (site : P2) (groups : List (ℝ × List (Quad Point))) : Out :=
  let a := groups.foldl (addGroup proj site) ⟨0, 0, 0, 0⟩
  let total := ((groups.flatMap (·.2)).map fun q => quadLength q.ecef).sum
  ⟨a.T / a.tot, a.U / a.tot, a.T / a.tot, a.U / a.tot - total / 2, ry0Of (a.U / a.tot) a.off⟩

/-! ### Several groups -/

/-- `itertools.combinations(l, 2)`. -/
def combos {α : Type} : List α → List (α × α)
  | [] => []
  | a :: l => l.map (fun b => (a, b)) ++ combos l

/-- `iq0` and `iq1` (impactutils/rupture/gc2.py:77-84). -/
def endIndex (idx : List ℕ) : List (ℕ × ℕ) :=
  (uniqueNat idx).map fun g => (((members idx g).head?).getD 0, ((members idx g).getLast?).getD 0)

/-- Two corners that are found, or an `IndexError`. -/
def both (a b : Option Point) : Option (Point × Point) :=
  match a, b with
  | some x, some y => some (x, y)
  | _, _ => none

/-- The four pairs of points for two groups with given first and last quadrilaterals
(impactutils/rupture/gc2.py:99-110). -/
def pointPairs (quads : List (Quad Point)) (e : (ℕ × ℕ) × (ℕ × ℕ)) : List (Option (Point × Point)) :=
  let a0 := quads[e.1.1]?.map (·.p0)
  let a1 := quads[e.1.2]?.map (·.p1)
  let b0 := quads[e.2.2]?.map (·.p0)
  let b1 := quads[e.2.1]?.map (·.p1)
  [both a0 b0, both a0 b1, both a1 b0, both a1 b1]

/-- The exceptions: `IndexError`, and `UnboundLocalError` when no distance is positive. -/
inductive GErr where
  | index
  | unbound
deriving DecidableEq

/-- The loop over the pairs (impactutils/rupture/gc2.py:96-117). -/
noncomputable def farthest (dist : Point → Point → ℝ) (best : ℝ × Option (Point × Point)) :
    List (Option (Point × Point)) → Except GErr (Point × Point)
  | [] => match best.2 with
    | some p => .ok p
    | none => .error .unbound
  | none :: _ => .error .index
  | some p :: ps =>
    open Classical in
    if dist p.1 p.2 > best.1 then farthest dist (dist p.1 p.2, some p) ps else farthest dist best ps

/-- `p_origin`, `ahat`, `E` and `dc`. -/
structure Frame where
  origin : V3
  ahat : V3
  E : ℝ
  dc : List ℝ

/-- The body of the loop (impactutils/rupture/gc2.py:128-157) for the ends of the groups: the values and
`dummy`. Depths are set to 0. -/
noncomputable def frameOf (ends : List (Point × Point)) (A0 A1 : Point) : Frame × ℝ :=
  let a0 := fromPoint (surface A0)
  let ahat := ((fromPoint (surface A1)).sub a0).norm
  let bp := ends.map fun p => (fromPoint (surface p.2)).sub (fromPoint (surface p.1))
  let e := bp.map ahat.dot
  let E := e.sum
  let dc := e.map fun x => npSign x * npSign E
  let b := (bp.zip dc).foldl (fun (b : V3) p => b.add (p.1.mul p.2)) ⟨0, 0, 0⟩
  (⟨a0, ahat, E, dc⟩, b.norm.dot ahat)

/-- The loop (impactutils/rupture/gc2.py:126-161) with a bound on the number of turns. -/
noncomputable def turn (ends : List (Point × Point)) : ℕ → Point → Point → Option Frame
  | 0, _, _ => none
  | n + 1, A0, A1 =>
    open Classical in
    if (frameOf ends A0 A1).2 < 0 then turn ends n A1 A0 else some (frameOf ends A0 A1).1

/-- The quadrilaterals of a group after discordance is repaired (impactutils/rupture/gc2.py:168-183). -/
noncomputable def flipGroup (dc : ℝ) (g : List (Quad Point)) : List (Quad Point) :=
  open Classical in
  if dc < 0 then (g.map reverseQuad).reverse else g

/-- `s_ij_2` (impactutils/rupture/gc2.py:234-236): the first corner keeps its depth. -/
noncomputable def groupBase (f : Frame) (g : List (Quad Point)) : ℝ :=
  match g with
  | [] => 0
  | q :: _ => ((fromPoint q.p0).sub f.origin).dot (f.ahat.mul (npSign f.E)) / 1000

/-- The groups with their first coordinates. -/
noncomputable def based (f : Frame) (groups : List (List (Quad Point))) : List (ℝ × List (Quad Point)) :=
  (groups.zip f.dc).map fun p => (groupBase f (flipGroup p.2 p.1), flipGroup p.2 p.1)

/-- All values, if there are no errors. -/
def allSome {α : Type} : List (Option α) → Option (List α)
  | [] => some []
  | none :: _ => none
  | some a :: l => (allSome l).map (a :: ·)

/-- `_computeGC2` (impactutils/rupture/gc2.py:17-276): `idx` is the result of `_getGroupIndex`; `none` for a loop that
takes more than `fuel` turns. -/
noncomputable def computeGC2 (dist : Point → Point → ℝ) (proj : Point → P2) (quads : List (Quad Point)) (idx : List ℕ)
    (site : P2) (fuel : ℕ) : Option (Except GErr Out) :=
  let groups := (uniqueNat idx).map fun g => atIdx quads (members idx g)
  if (uniqueNat idx).length > 1 then
    match farthest dist (0, none) ((combos (endIndex idx)).flatMap (pointPairs quads)) with
    | .error e => some (.error e)
    | .ok (A0, A1) =>
      match allSome ((endIndex idx).map fun e => both (quads[e.1]?.map (·.p0)) (quads[e.2]?.map (·.p1))) with
      | none => some (.error .index)
      | some ends =>
        match turn ends fuel A0 A1 with
        | none => none
        | some f => some (.ok (finish proj site (based f groups)))
  else some (.ok (finish proj site [(0, quads)]))

end Verif.Gc2
