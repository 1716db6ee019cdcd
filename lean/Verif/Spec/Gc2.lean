import Mathlib.MeasureTheory.Integral.IntervalIntegral.Basic

/-!
# GC2 coordinates of Spudich and Chiou (USGS OFR 2015-1028)

A trace is a list of legs in the plane, one after the other. A leg starts at a point, runs in a direction and has a
length.
-/

namespace Verif.Spec

/-- A leg of a trace. -/
structure Leg where
  px : ℝ
  py : ℝ
  dx : ℝ
  dy : ℝ
  len : ℝ

/-- The direction has length 1 and the leg is not empty. -/
def Leg.Proper (g : Leg) : Prop := g.dx ^ 2 + g.dy ^ 2 = 1 ∧ 0 < g.len

/-- The distance of a site to the right of the leg, negative on its left. -/
def Leg.right (g : Leg) (x y : ℝ) : ℝ := (x - g.px) * g.dy - (y - g.py) * g.dx

/-- The distance of a site along the leg from its start. -/
def Leg.along (g : Leg) (x y : ℝ) : ℝ := (x - g.px) * g.dx + (y - g.py) * g.dy

/-- The site is a point of the leg. -/
def Leg.On (g : Leg) (x y : ℝ) : Prop := ∃ s, 0 ≤ s ∧ s ≤ g.len ∧ x = g.px + s * g.dx ∧ y = g.py + s * g.dy

/-- The weight of a leg: the integral of the inverse square of the distance over its points. -/
noncomputable def Leg.weight (g : Leg) (x y : ℝ) : ℝ :=
  ∫ s in (0 : ℝ)..g.len, 1 / ((x - (g.px + s * g.dx)) ^ 2 + (y - (g.py + s * g.dy)) ^ 2)

/-- The sum of the weights. -/
noncomputable def totalWeight (x y : ℝ) : List Leg → ℝ
  | [] => 0
  | g :: gs => g.weight x y + totalWeight x y gs

/-- The weighted sum of the distances to the right. -/
noncomputable def sumRight (x y : ℝ) : List Leg → ℝ
  | [] => 0
  | g :: gs => g.weight x y * g.right x y + sumRight x y gs

/-- The weighted sum of the distances along the trace, which is at `s` when it comes to the first leg. -/
noncomputable def sumAlong (x y s : ℝ) : List Leg → ℝ
  | [] => 0
  | g :: gs => g.weight x y * (g.along x y + s) + sumAlong x y (s + g.len) gs

/-- The length of a trace. -/
def traceLength (gs : List Leg) : ℝ := (gs.map Leg.len).sum

end Verif.Spec
