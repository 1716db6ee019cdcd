import Verif.Model.Factory

/-!
# Rupture polygons

Only the coordinates of vertices are used here, no function of the model.
-/

namespace Verif.Spec
open Verif.Factory

/-- The last point repeats the first. -/
def Closed (p : List Vert) : Prop := p.head? = p.getLast?

/-- A closed polygon that goes along the top edge and then back along the bottom edge, where each point of
the top is shallower than the point of the bottom below it. -/
def ValidPolygon (p : List Vert) : Prop :=
  p ≠ [] ∧ Closed p ∧
  ∃ top bottom : List Vert, p.dropLast = top ++ bottom.reverse ∧
    List.Forall₂ (fun t b => t.depth < b.depth) top bottom

/-- The same closed polygon from another starting point. -/
def SamePolygon (p q : List Vert) : Prop :=
  Closed q ∧ q.length = p.length ∧ ∃ k, q.dropLast = p.dropLast.rotate k

/-- The polygon along a top edge and back along a bottom edge. -/
def outline {α : Type} (top bottom : List α) : List α := top ++ bottom.reverse ++ top.head?.toList

/-- A position on the Earth. -/
def OnEarth (v : Vert) : Prop :=
  -180 ≤ v.lon ∧ v.lon ≤ 180 ∧ -90 ≤ v.lat ∧ v.lat ≤ 90 ∧ -(8848 / 1000) < v.depth ∧ v.depth < 6371

/-- Two depths that differ by no more than 50 m. -/
def Level (a b : Vert) : Prop := |a.depth - b.depth| ≤ 5 / 100

/-- The quadrilaterals between a top and a bottom edge, from neighbouring points. -/
def panels {α : Type} : List α → List α → List (Rup.Quad α)
  | t0 :: t1 :: ts, b0 :: b1 :: bs => ⟨t0, t1, b1, b0⟩ :: panels (t1 :: ts) (b1 :: bs)
  | _, _ => []

end Verif.Spec
